/-
C68: the command line of `vibecol` and the files it works on.
-/
import Verif.Spec.CommandLine
import Verif.Props.Cli
import Verif.Props.Float
namespace VibeCol.Cmd
open VibeCol.Cli

/-! ### Reading the command line -/

theorem cutEq_none {s n : Bytes} (h : cutEq s = (n, none)) : 61 ∉ s ∧ n = s := by
  induction s generalizing n with
  | nil => cases h; exact ⟨by simp, rfl⟩
  | cons c cs ih =>
    unfold cutEq at h
    split at h
    · cases h
    · rename_i hc
      rw [Prod.mk.injEq] at h
      obtain ⟨h1, h2⟩ := ih (n := (cutEq cs).1) (Prod.ext rfl h.2)
      refine ⟨?_, ?_⟩
      · simp only [List.mem_cons, not_or]
        exact ⟨fun e => hc e.symm, h1⟩
      · rw [← h.1, h2]

theorem cutEq_some {s n v : Bytes} (h : cutEq s = (n, some v)) : 61 ∉ n ∧ s = n ++ 61 :: v := by
  induction s generalizing n with
  | nil => cases h
  | cons c cs ih =>
    unfold cutEq at h
    split at h
    · rename_i hc
      cases h
      exact ⟨by simp, by rw [hc]; rfl⟩
    · rename_i hc
      rw [Prod.mk.injEq] at h
      obtain ⟨h1, h2⟩ := ih (n := (cutEq cs).1) (Prod.ext rfl h.2)
      refine ⟨?_, ?_⟩
      · rw [← h.1]
        simp only [List.mem_cons, not_or]
        exact ⟨fun e => hc e.symm, h1⟩
      · rw [← h.1, List.cons_append, ← h2]

theorem cutEq_plain {n : Bytes} (h : 61 ∉ n) : cutEq n = (n, none) := by
  induction n with
  | nil => rfl
  | cons c cs ih =>
    simp only [List.mem_cons, not_or] at h
    unfold cutEq
    rw [if_neg (fun e => h.1 e.symm), ih h.2]

theorem cutEq_append {n v : Bytes} (h : 61 ∉ n) : cutEq (n ++ 61 :: v) = (n, some v) := by
  induction n with
  | nil => rfl
  | cons c cs ih =>
    simp only [List.mem_cons, not_or] at h
    rw [List.cons_append]
    unfold cutEq
    rw [if_neg (fun e => h.1 e.symm), ih h.2]

/-- A flag name that can be given on the command line. -/
def Plain (name : Bytes) : Prop := name ≠ [] ∧ name.head? ≠ some 45 ∧ 61 ∉ name

instance (name : Bytes) : Decidable (Plain name) := by unfold Plain; infer_instance

theorem word_dashed {name d t : Bytes} (hp : Plain name) (hd : Dashed name d) :
    word (d ++ t) = .flag (cutEq (name ++ t)).1 (cutEq (name ++ t)).2 := by
  obtain ⟨h1, h2, h3⟩ := hp
  match name, h1 with
  | c :: cs, _ =>
    have hc45 : c ≠ 45 := fun e => h2 (by rw [e]; rfl)
    have hc61 : c ≠ 61 := fun e => h3 (by rw [e]; exact List.mem_cons_self ..)
    rcases hd with rfl | rfl
    · show word (45 :: c :: (cs ++ t)) = _
      unfold word
      simp [hc45, hc61]
    · show word (45 :: 45 :: c :: (cs ++ t)) = _
      unfold word
      simp [hc45, hc61]

theorem word_flag {s name : Bytes} {value : Option Bytes} (h : word s = .flag name value) :
    ∃ d, Dashed name d ∧ ((value = none ∧ s = d) ∨ ∃ v, value = some v ∧ s = d ++ 61 :: v) := by
  unfold word at h
  split at h
  · rename_i a b t
    split at h
    · cases h
    · rename_i ha
      have ha : a = 45 := by simpa using ha
      subst ha
      split at h
      · cases h
      · dsimp only at h
        have key : ∀ nm : Bytes, cutEq nm = (name, value) → ∀ pre : Bytes, (pre = [45] ∨ pre = [45, 45]) →
            ∃ d, Dashed name d ∧ ((value = none ∧ pre ++ nm = d) ∨ ∃ v, value = some v ∧ pre ++ nm = d ++ 61 :: v) := by
          intro nm hc pre hpre
          have hdd : Dashed name (pre ++ name) := by rcases hpre with rfl | rfl <;> [exact .inl rfl; exact .inr rfl]
          refine ⟨pre ++ name, hdd, ?_⟩
          cases value with
          | none => rw [(cutEq_none hc).2]; exact .inl ⟨rfl, rfl⟩
          | some v => refine .inr ⟨v, rfl, ?_⟩; rw [(cutEq_some hc).2, List.append_assoc]
        split at h
        · cases h
        · rename_i c rest hname
          split at h
          · cases h
          · rw [Word.flag.injEq] at h
            have hc : cutEq (if b = 45 then t else b :: t) = (name, value) := Prod.ext h.1 h.2
            by_cases hb : b = 45
            · rw [if_pos hb] at hc
              rw [hb]
              exact key t hc [45, 45] (.inr rfl)
            · rw [if_neg hb] at hc
              exact key (b :: t) hc [45] (.inl rfl)
  · cases h

theorem word_positional (s : Bytes) : word s = .positional ↔ s.length < 2 ∨ s.head? ≠ some 45 := by
  match s with
  | [] => simp [word]
  | [a] => simp [word]
  | a :: b :: t =>
    unfold word
    by_cases ha : a = 45
    · subst ha
      simp only [ne_eq, not_true, if_false, List.length_cons, List.head?_cons]
      constructor
      · intro h
        split at h
        · cases h
        · split at h
          · cases h
          · split at h <;> cases h
      · intro h
        rcases h with h | h
        · omega
        · exact h.elim
    · simp [ha]

theorem word_terminator (s : Bytes) : word s = .terminator ↔ s = [45, 45] := by
  constructor
  · intro h
    unfold word at h
    split at h
    · split at h
      · cases h
      · rename_i ha
        split at h
        · rename_i hb
          simp only [ne_eq, Decidable.not_not] at ha
          rw [ha, hb.1, hb.2]
        · dsimp only at h
          split at h
          · cases h
          · split at h <;> cases h
    · cases h
  · rintro rfl; rfl

theorem parseBool_iff (s : Bytes) (b : Bool) : parseBool s = some b ↔ s ∈ boolWords b := by
  unfold parseBool boolWords
  cases b
  · simp only [Bool.false_eq_true, if_false]
    constructor
    · intro h
      split at h
      · cases h
      · split at h
        · assumption
        · cases h
    · intro h
      rw [if_neg, if_pos h]
      intro h'
      revert h h'
      simp only [List.mem_cons, List.not_mem_nil, or_false]
      rintro (rfl | rfl | rfl | rfl | rfl | rfl) <;> decide
  · simp only [if_true]
    constructor
    · intro h
      split at h
      · assumption
      · split at h <;> cases h
    · intro h
      rw [if_pos h]

/-- Setting flags one after the other. -/
def setAll (os : List (Bytes × Value)) (v : Values) : Values := os.foldl (fun v o => v.set o.1 o.2) v

theorem setAll_apply (os : List (Bytes × Value)) (v : Values) (name : Bytes) :
    setAll os v name = lastOf os name (v name) := by
  unfold setAll lastOf
  induction os generalizing v with
  | nil => rfl
  | cons o os ih =>
    rw [List.foldl_cons, ih, List.reverse_cons, List.lookup_append]
    cases os.reverse.lookup name with
    | some x => rfl
    | none =>
      obtain ⟨k, x⟩ := o
      simp only [Option.getD_none, Option.none_or, Values.set, List.lookup_cons, List.lookup_nil]
      by_cases h : name = k
      · simp [h]
      · rw [if_neg h, show (name == k) = false by simpa using h]; rfl

/-- `kind` describes these flags. -/
structure Flags (kind : Bytes → Option Kind) (texts bools : List Bytes) : Prop where
  text : ∀ n, kind n = some .text ↔ n ∈ texts
  bool : ∀ n, kind n = some .bool ↔ n ∈ bools
  plain : ∀ n, n ∈ texts ∨ n ∈ bools → Plain n

theorem writeFlags : Flags writeKind [str "o", str "ids", str "values"] [] where
  text n := by
    unfold writeKind
    simp only [List.mem_cons, List.not_mem_nil, or_false]
    split <;> simp_all
  bool n := by
    unfold writeKind
    split <;> simp
  plain n h := by
    simp only [List.mem_cons, List.not_mem_nil, or_false] at h
    rcases h with rfl | rfl | rfl <;> decide

theorem readFlags : Flags readKind [str "f"] [str "dump", str "agg"] where
  text n := by
    unfold readKind
    simp only [List.mem_cons, List.not_mem_nil, or_false]
    split
    · simp_all
    · split <;> simp_all
  bool n := by
    unfold readKind
    simp only [List.mem_cons, List.not_mem_nil, or_false]
    split
    · rename_i h
      subst h
      simp only [reduceCtorEq, Option.some.injEq, false_iff]
      decide
    · split <;> simp_all
  plain n h := by
    simp only [List.mem_cons, List.not_mem_nil, or_false] at h
    rcases h with rfl | rfl | rfl <;> decide

theorem parse_rest {kind : Bytes → Option Kind} {rest : List Bytes} (h : Rest rest) (v : Values) :
    ∃ left, parse kind rest v = .ok (v, left) := by
  cases h with
  | nil => exact ⟨_, rfl⟩
  | dashes args => exact ⟨args, by unfold parse; rw [(word_terminator _).mpr rfl]⟩
  | word s args h => exact ⟨s :: args, by unfold parse; rw [(word_positional _).mpr h]⟩

theorem word_plain {name d : Bytes} (hp : Plain name) (hd : Dashed name d) : word d = .flag name none := by
  have := word_dashed (t := []) hp hd
  rw [List.append_nil, List.append_nil, cutEq_plain hp.2.2] at this
  exact this

theorem word_value {name d v : Bytes} (hp : Plain name) (hd : Dashed name d) : word (d ++ 61 :: v) = .flag name (some v) := by
  have := word_dashed (t := 61 :: v) hp hd
  rw [cutEq_append hp.2.2] at this
  exact this

theorem parse_prefix {kind : Bytes → Option Kind} {texts bools : List Bytes} (hf : Flags kind texts bools)
    {opts : List Bytes} {os : List (Bytes × Value)} (h : Options texts bools opts os) (rest : List Bytes)
    (v : Values) : parse kind (opts ++ rest) v = parse kind rest (setAll os v) := by
  induction h generalizing v with
  | nil => rfl
  | separate name d value hn hd _ ih =>
    refine Eq.trans ?_ (ih (v.set name (.text value)))
    generalize hz : parse kind (_ ++ rest) (v.set name (.text value)) = z
    rw [List.cons_append, List.cons_append]
    unfold parse
    rw [word_plain (hf.plain _ (.inl hn)) hd]
    simp only [(hf.text _).mpr hn]
    exact hz
  | joined name d value hn hd _ ih =>
    refine Eq.trans ?_ (ih (v.set name (.text value)))
    generalize hz : parse kind (_ ++ rest) (v.set name (.text value)) = z
    rw [List.cons_append]
    unfold parse
    rw [word_value (hf.plain _ (.inl hn)) hd]
    simp only [(hf.text _).mpr hn]
    exact hz
  | switch name d hn hd _ ih =>
    refine Eq.trans ?_ (ih (v.set name (.bool true)))
    generalize hz : parse kind (_ ++ rest) (v.set name (.bool true)) = z
    rw [List.cons_append]
    unfold parse
    rw [word_plain (hf.plain _ (.inr hn)) hd]
    simp only [(hf.bool _).mpr hn]
    exact hz
  | switchTo name d value b hn hd hb _ ih =>
    refine Eq.trans ?_ (ih (v.set name (.bool b)))
    generalize hz : parse kind (_ ++ rest) (v.set name (.bool b)) = z
    rw [List.cons_append]
    unfold parse
    rw [word_value (hf.plain _ (.inr hn)) hd]
    simp only [(hf.bool _).mpr hn, (parseBool_iff value b).mpr hb]
    exact hz

theorem parse_options {kind : Bytes → Option Kind} {texts bools : List Bytes} (hf : Flags kind texts bools)
    {opts : List Bytes} {os : List (Bytes × Value)} (h : Options texts bools opts os) {rest : List Bytes} (hr : Rest rest)
    (v : Values) : ∃ left, parse kind (opts ++ rest) v = .ok (setAll os v, left) := by
  rw [parse_prefix hf h]
  exact parse_rest hr _

/-- A word for help is read as the flag `h` or `help`. -/
theorem word_help {s : Bytes} : HelpWord s ↔ ∃ name value, word s = .flag name value ∧ (name = str "help" ∨ name = str "h") := by
  constructor
  · rintro ⟨d, hd | hd, rfl | ⟨x, rfl⟩⟩
    · exact ⟨_, _, word_plain (by decide) hd, .inr rfl⟩
    · exact ⟨_, _, word_value (by decide) hd, .inr rfl⟩
    · exact ⟨_, _, word_plain (by decide) hd, .inl rfl⟩
    · exact ⟨_, _, word_value (by decide) hd, .inl rfl⟩
  · rintro ⟨name, value, hw, hn⟩
    obtain ⟨d, hd, hs⟩ := word_flag hw
    refine ⟨d, ?_, ?_⟩
    · rcases hn with rfl | rfl
      · exact .inr hd
      · exact .inl hd
    · rcases hs with ⟨_, h⟩ | ⟨x, _, h⟩
      · exact .inl h
      · exact .inr ⟨x, h⟩

theorem parse_helped {kind : Bytes → Option Kind} {texts bools : List Bytes} (hf : Flags kind texts bools) (n : Nat)
    (args : List Bytes) (hlen : args.length ≤ n) (v : Values) (h : parse kind args v = .error .help) : Help texts bools args := by
  induction n generalizing args v with
  | zero =>
    match args, hlen with
    | [], _ => unfold parse at h; cases h
  | succ n ih =>
    match args with
    | [] => unfold parse at h; cases h
    | s :: args =>
      unfold parse at h
      split at h
      · cases h
      · cases h
      · cases h
      · rename_i name value hw
        obtain ⟨d, hd, hs⟩ := word_flag hw
        split at h
        · split at h
          · rename_i hn
            exact ⟨[], [], s, args, rfl, .nil, word_help.mpr ⟨name, value, hw, hn⟩⟩
          · cases h
        · rename_i hk
          have hn := (hf.bool _).mp hk
          split at h
          · obtain ⟨opts, os, t, rest, h1, h2, h3⟩ := ih args (by simp at hlen; omega) _ h
            rcases hs with ⟨_, rfl⟩ | ⟨x, hx, _⟩
            · subst h1
              exact ⟨_, _, t, rest, rfl, .switch name s hn hd h2, h3⟩
            · cases hx
          · split at h
            · cases h
            · rename_i x _ b hb
              obtain ⟨opts, os, t, rest, h1, h2, h3⟩ := ih args (by simp at hlen; omega) _ h
              rcases hs with ⟨hx, _⟩ | ⟨y, hy, rfl⟩
              · cases hx
              · cases hy
                subst h1
                exact ⟨_, _, t, rest, rfl, .switchTo name d x b hn hd ((parseBool_iff _ _).mp hb) h2, h3⟩
        · rename_i hk
          have hn := (hf.text _).mp hk
          split at h
          · rename_i x
            obtain ⟨opts, os, t, rest, h1, h2, h3⟩ := ih args (by simp at hlen; omega) _ h
            rcases hs with ⟨hx, _⟩ | ⟨y, hy, rfl⟩
            · cases hx
            · cases hy
              subst h1
              exact ⟨_, _, t, rest, rfl, .joined name d x hn hd h2, h3⟩
          · split at h
            · cases h
            · rename_i x args
              obtain ⟨opts, os, t, rest, h1, h2, h3⟩ := ih args (by simp at hlen; omega) _ h
              rcases hs with ⟨_, rfl⟩ | ⟨y, hy, _⟩
              · subst h1
                exact ⟨_, _, t, rest, rfl, .separate name s x hn hd h2, h3⟩
              · cases hy

/-- The parser reports a request for help exactly if there is one. -/
theorem parse_help {kind : Bytes → Option Kind} {texts bools : List Bytes} (hf : Flags kind texts bools)
    (hh : kind (str "h") = none ∧ kind (str "help") = none) (args : List Bytes) (v : Values) :
    parse kind args v = .error .help ↔ Help texts bools args := by
  constructor
  · exact parse_helped hf _ args (Nat.le_refl _) v
  · rintro ⟨opts, os, s, rest, rfl, h1, h2⟩
    obtain ⟨name, value, hw, hn⟩ := word_help.mp h2
    rw [parse_prefix hf h1]
    unfold parse
    rw [hw]
    have hk : kind name = none := by rcases hn with rfl | rfl <;> [exact hh.2; exact hh.1]
    simp only [hk, if_pos hn]

theorem parse_ok {kind : Bytes → Option Kind} {texts bools : List Bytes} (hf : Flags kind texts bools) (n : Nat)
    (args : List Bytes) (hlen : args.length ≤ n) (v v' : Values) (left : List Bytes) (h : parse kind args v = .ok (v', left)) :
    ∃ os, Sets texts bools args os ∧ v' = setAll os v := by
  induction n generalizing args v with
  | zero =>
    match args, hlen with
    | [], _ =>
      unfold parse at h
      cases h
      exact ⟨[], ⟨[], [], rfl, .nil, .nil⟩, rfl⟩
  | succ n ih =>
    match args with
    | [] =>
      unfold parse at h
      cases h
      exact ⟨[], ⟨[], [], rfl, .nil, .nil⟩, rfl⟩
    | s :: args =>
      unfold parse at h
      split at h
      · rename_i hw
        cases h
        exact ⟨[], ⟨[], _, rfl, .nil, .word s args ((word_positional s).mp hw)⟩, rfl⟩
      · rename_i hw
        cases h
        rw [word_terminator] at hw
        subst hw
        exact ⟨[], ⟨[], _, rfl, .nil, .dashes _⟩, rfl⟩
      · cases h
      · rename_i name value hw
        obtain ⟨d, hd, hs⟩ := word_flag hw
        split at h
        · cases h
        · rename_i hk
          have hn := (hf.bool _).mp hk
          split at h
          · obtain ⟨os, ⟨opts, rest, h1, h2, h3⟩, h4⟩ := ih args (by simp at hlen; omega) _ h
            rcases hs with ⟨_, rfl⟩ | ⟨x, hx, _⟩
            · subst h1
              exact ⟨_, ⟨_, rest, rfl, .switch name s hn hd h2, h3⟩, h4⟩
            · cases hx
          · split at h
            · cases h
            · rename_i x _ b hb
              obtain ⟨os, ⟨opts, rest, h1, h2, h3⟩, h4⟩ := ih args (by simp at hlen; omega) _ h
              rcases hs with ⟨hx, _⟩ | ⟨y, hy, rfl⟩
              · cases hx
              · cases hy
                subst h1
                exact ⟨_, ⟨_, rest, rfl, .switchTo name d x b hn hd ((parseBool_iff _ _).mp hb) h2, h3⟩, h4⟩
        · rename_i hk
          have hn := (hf.text _).mp hk
          split at h
          · rename_i x
            obtain ⟨os, ⟨opts, rest, h1, h2, h3⟩, h4⟩ := ih args (by simp at hlen; omega) _ h
            rcases hs with ⟨hx, _⟩ | ⟨y, hy, rfl⟩
            · cases hx
            · cases hy
              subst h1
              exact ⟨_, ⟨_, rest, rfl, .joined name d x hn hd h2, h3⟩, h4⟩
          · split at h
            · cases h
            · rename_i x args
              obtain ⟨os, ⟨opts, rest, h1, h2, h3⟩, h4⟩ := ih args (by simp at hlen; omega) _ h
              rcases hs with ⟨_, rfl⟩ | ⟨y, hy, _⟩
              · subst h1
                exact ⟨_, ⟨_, rest, rfl, .separate name s x hn hd h2, h3⟩, h4⟩
              · cases hy

theorem parse_iff {kind : Bytes → Option Kind} {texts bools : List Bytes} (hf : Flags kind texts bools)
    (args : List Bytes) (v v' : Values) :
    (∃ left, parse kind args v = .ok (v', left)) ↔ ∃ os, Sets texts bools args os ∧ v' = setAll os v := by
  constructor
  · rintro ⟨left, h⟩
    exact parse_ok hf _ args (Nat.le_refl _) v v' left h
  · rintro ⟨os, ⟨opts, rest, rfl, h1, h2⟩, rfl⟩
    exact parse_options hf h1 h2 v

/-! ### Commands -/

section
variable {B : Type} [Bitmap B]

theorem string_of {os : List (Bytes × Value)} {v : Values} {name s : Bytes} (h : lastOf os name (v name) = .text s) :
    (setAll os v).string name = s := by
  unfold Values.string
  rw [setAll_apply, h]

theorem bool_of {os : List (Bytes × Value)} {v : Values} {name : Bytes} {b : Bool} (h : lastOf os name (v name) = .bool b) :
    (setAll os v).bool name = b := by
  unfold Values.bool
  rw [setAll_apply, h]

theorem main_write {usage : Bytes} {w : World} {fs : Files} {args : List Bytes} {o a b : Bytes} (h : AsksWrite args o a b) :
    main B usage w fs args = if a = [] ∨ b = [] then ⟨[], .noLists, fs⟩ else write B w fs o a b := by
  obtain ⟨args', os, rfl, hs, ho, ha, hb⟩ := h
  obtain ⟨left, hp⟩ := (parse_iff writeFlags args' writeDefaults _).mpr ⟨os, hs, rfl⟩
  unfold main
  simp only [if_true, hp]
  rw [string_of (v := writeDefaults) (s := o) ho, string_of (v := writeDefaults) (s := a) ha, string_of (v := writeDefaults) (s := b) hb]

theorem main_read {usage : Bytes} {w : World} {fs : Files} {args : List Bytes} {f : Bytes} {dump agg : Bool}
    (h : AsksRead args f dump agg) : main B usage w fs args = read B usage w fs f dump agg := by
  obtain ⟨args', os, rfl, hs, hf, hd, ha⟩ := h
  obtain ⟨left, hp⟩ := (parse_iff readFlags args' readDefaults _).mpr ⟨os, hs, rfl⟩
  unfold main
  simp only [hp]
  rw [if_neg (by decide), if_pos trivial, string_of (v := readDefaults) (s := f) hf, bool_of (v := readDefaults) (b := dump) hd,
    bool_of (v := readDefaults) (b := agg) ha]

/-- Every text flag has a text as its last value. -/
theorem lastOf_text {texts bools opts : List Bytes} {os : List (Bytes × Value)} (h : Options texts bools opts os) {name : Bytes}
    (hn : name ∉ bools) (s : Bytes) : ∃ t, lastOf os name (.text s) = .text t := by
  have key : ∀ p ∈ os, p.1 = name → ∃ t, p.2 = .text t := by
    induction h with
    | nil => intro p hp; cases hp
    | separate _ _ value _ _ _ ih | joined _ _ value _ _ _ ih =>
      intro p hp
      rcases List.mem_cons.mp hp with rfl | hp
      · exact fun _ => ⟨value, rfl⟩
      · exact ih p hp
    | switch _ _ hm _ _ ih | switchTo _ _ _ _ hm _ _ _ ih =>
      intro p hp
      rcases List.mem_cons.mp hp with rfl | hp
      · intro e
        exact absurd (e ▸ hm) hn
      · exact ih p hp
  unfold lastOf
  cases hl : os.reverse.lookup name with
  | none => exact ⟨s, rfl⟩
  | some x =>
    obtain ⟨l1, l2, he, _⟩ := List.lookup_eq_some_iff.mp hl
    exact key (name, x) (by rw [← List.mem_reverse, he]; simp) rfl

/-- Every truth value flag has a truth value as its last value. -/
theorem lastOf_bool {texts bools opts : List Bytes} {os : List (Bytes × Value)} (h : Options texts bools opts os) {name : Bytes}
    (hn : name ∉ texts) (s : Bool) : ∃ t, lastOf os name (.bool s) = .bool t := by
  have key : ∀ p ∈ os, p.1 = name → ∃ t, p.2 = .bool t := by
    induction h with
    | nil => intro p hp; cases hp
    | separate _ _ _ hm _ _ ih | joined _ _ _ hm _ _ ih =>
      intro p hp
      rcases List.mem_cons.mp hp with rfl | hp
      · intro e
        exact absurd (e ▸ hm) hn
      · exact ih p hp
    | switch _ _ _ _ _ ih =>
      intro p hp
      rcases List.mem_cons.mp hp with rfl | hp
      · exact fun _ => ⟨true, rfl⟩
      · exact ih p hp
    | switchTo _ _ _ b _ _ _ _ ih =>
      intro p hp
      rcases List.mem_cons.mp hp with rfl | hp
      · exact fun _ => ⟨b, rfl⟩
      · exact ih p hp
  unfold lastOf
  cases hl : os.reverse.lookup name with
  | none => exact ⟨s, rfl⟩
  | some x =>
    obtain ⟨l1, l2, he, _⟩ := List.lookup_eq_some_iff.mp hl
    exact key (name, x) (by rw [← List.mem_reverse, he]; simp) rfl

/-- **C68.** Every command line is a `write` command, a `read` command, or is rejected: then it prints no result and touches no
file; its status is 0 if it asks for help, 1 if it does not begin with one of the two commands, otherwise 2. -/
theorem C68_commands (args : List Bytes) :
    (∃ o a b, AsksWrite args o a b) ∨ (∃ f dump agg, AsksRead args f dump agg) ∨
      ∀ (usage : Bytes) (w : World) (fs : Files), ∃ stop, main B usage w fs args = ⟨[], stop, fs⟩ ∧
        (stop.status = 0 ↔ AsksHelp args) ∧ (stop.status = 1 ↔ args.head? ≠ some (str "write") ∧ args.head? ≠ some (str "read")) ∧
        stop.status ≤ 2 := by
  have noHelp : ∀ {c : Bytes} {args : List Bytes}, c ≠ str "write" → c ≠ str "read" → ¬ AsksHelp (c :: args) := by
    rintro c args hw hr ⟨args', ⟨e, _⟩ | ⟨e, _⟩⟩
    · cases e; exact hw rfl
    · cases e; exact hr rfl
  match args with
  | [] =>
    refine .inr (.inr fun _ _ _ => ⟨_, rfl, ?_, by simp [End.status], by simp [End.status]⟩)
    refine ⟨fun h => (by simp [End.status] at h), ?_⟩
    rintro ⟨args', ⟨e, _⟩ | ⟨e, _⟩⟩ <;> cases e
  | command :: args =>
    by_cases hw : command = str "write"
    · subst hw
      cases hp : parse writeKind args writeDefaults with
      | error e =>
        have hh : e = .help ↔ AsksHelp (str "write" :: args) := by
          have h := parse_help writeFlags (by decide) args writeDefaults
          rw [hp] at h
          constructor
          · rintro rfl
            exact ⟨args, .inl ⟨rfl, h.mp rfl⟩⟩
          · rintro ⟨args', ⟨e', h'⟩ | ⟨e', _⟩⟩
            · cases e'
              have := h.mpr h'
              injection this
            · exact absurd (List.cons.inj e').1 (by decide)
        refine .inr (.inr fun usage w fs => ⟨.flags e, ?_, ?_, ?_, ?_⟩)
        · unfold main
          simp only [if_true, hp]
        · rw [← hh]
          cases e <;> simp [End.status]
        · cases e <;> simp [End.status]
        · cases e <;> simp [End.status]
      | ok x =>
        obtain ⟨v, left⟩ := x
        obtain ⟨os, hs, rfl⟩ := (parse_iff writeFlags args writeDefaults v).mp ⟨left, hp⟩
        obtain ⟨opts, rest, h1, h2, h3⟩ := hs
        obtain ⟨o, ho⟩ := lastOf_text h2 (name := str "o") (by simp) (str "example.col")
        obtain ⟨a, ha⟩ := lastOf_text h2 (name := str "ids") (by simp) []
        obtain ⟨b, hb⟩ := lastOf_text h2 (name := str "values") (by simp) []
        exact .inl ⟨o, a, b, args, os, rfl, ⟨opts, rest, h1, h2, h3⟩, ho, ha, hb⟩
    · by_cases hr : command = str "read"
      · subst hr
        cases hp : parse readKind args readDefaults with
        | error e =>
          have hh : e = .help ↔ AsksHelp (str "read" :: args) := by
            have h := parse_help readFlags (by decide) args readDefaults
            rw [hp] at h
            constructor
            · rintro rfl
              exact ⟨args, .inr ⟨rfl, h.mp rfl⟩⟩
            · rintro ⟨args', ⟨e', _⟩ | ⟨e', h'⟩⟩
              · exact absurd (List.cons.inj e').1 (by decide)
              · cases e'
                have := h.mpr h'
                injection this
          refine .inr (.inr fun usage w fs => ⟨.flags e, ?_, ?_, ?_, ?_⟩)
          · unfold main
            simp only [hw, if_false, if_true, hp]
          · rw [← hh]
            cases e <;> simp [End.status]
          · cases e <;> simp [End.status]
          · cases e <;> simp [End.status]
        | ok x =>
          obtain ⟨v, left⟩ := x
          obtain ⟨os, hs, rfl⟩ := (parse_iff readFlags args readDefaults v).mp ⟨left, hp⟩
          obtain ⟨opts, rest, h1, h2, h3⟩ := hs
          obtain ⟨f, hf⟩ := lastOf_text h2 (name := str "f") (by decide) (str "example.col")
          obtain ⟨d, hd⟩ := lastOf_bool h2 (name := str "dump") (by decide) false
          obtain ⟨a, ha⟩ := lastOf_bool h2 (name := str "agg") (by decide) false
          exact .inr (.inl ⟨f, d, a, args, os, rfl, ⟨opts, rest, h1, h2, h3⟩, hf, hd, ha⟩)
      · refine .inr (.inr fun usage w fs => ⟨.badCommand, ?_, ?_, by simp [End.status, hw, hr], by simp [End.status]⟩)
        · unfold main
          simp only [hw, hr, if_false]
        · exact ⟨fun h => (by simp [End.status] at h), fun h => absurd h (noHelp hw hr)⟩

/-- `vibecol write -o x --help` asks for help, `vibecol read --fiel x` and `vibecol help` do not. -/
example : AsksHelp [str "write", str "-o", str "x", str "--help"] ∧ ¬ AsksHelp [str "read", str "--fiel", str "x"] ∧
    ¬ AsksHelp [str "help"] := by
  refine ⟨⟨_, .inl ⟨rfl, [str "-o", str "x"], _, str "--help", [], rfl,
    .separate (str "o") (str "-o") (str "x") (by decide) (.inl rfl) .nil, str "--help", .inr (.inr rfl), .inl rfl⟩⟩, ?_, ?_⟩
  · rintro ⟨args', ⟨e, _⟩ | ⟨e, h⟩⟩
    · exact absurd (List.cons.inj e).1 (by decide)
    · cases e
      have := (parse_help readFlags (by decide) _ readDefaults).mpr h
      cases this
  · rintro ⟨args', ⟨e, _⟩ | ⟨e, _⟩⟩ <;> exact absurd (List.cons.inj e).1 (by decide)

/-- A command line asks for one thing only. -/
theorem asksWrite_unique {args : List Bytes} {o a b o' a' b' : Bytes} (h : AsksWrite args o a b) (h' : AsksWrite args o' a' b') :
    o = o' ∧ a = a' ∧ b = b' := by
  obtain ⟨args1, os, rfl, hs, ho, ha, hb⟩ := h
  obtain ⟨args2, os', he, hs', ho', ha', hb'⟩ := h'
  cases he
  obtain ⟨left, hp⟩ := (parse_iff writeFlags args1 writeDefaults _).mpr ⟨os, hs, rfl⟩
  obtain ⟨left', hp'⟩ := (parse_iff writeFlags args1 writeDefaults _).mpr ⟨os', hs', rfl⟩
  rw [hp] at hp'
  have e : setAll os writeDefaults = setAll os' writeDefaults := by injection hp' with e; injection e
  refine ⟨?_, ?_, ?_⟩
  · rw [← string_of (v := writeDefaults) (s := o) ho, e, string_of (v := writeDefaults) (s := o') ho']
  · rw [← string_of (v := writeDefaults) (s := a) ha, e, string_of (v := writeDefaults) (s := a') ha']
  · rw [← string_of (v := writeDefaults) (s := b) hb, e, string_of (v := writeDefaults) (s := b') hb']

/-- **C68.** A command changes no file except the output file of a `write` command whose two lists are equally many numbers,
and only if `os.Create` works. -/
theorem C68_untouched {usage : Bytes} {w : World} {fs : Files} {args : List Bytes} {name : Bytes}
    (h : (main B usage w fs args).files name ≠ fs name) :
    w.creatable name = true ∧ ∃ a b ids vals, AsksWrite args name a b ∧ Means a b ids vals := by
  rcases C68_commands (B := B) args with ⟨o, a, b, hw⟩ | ⟨f, dump, agg, hr⟩ | hx
  · rw [main_write hw] at h
    split at h
    · exact absurd rfl h
    · unfold write at h
      dsimp only at h
      split at h
      · exact absurd rfl h
      · rename_i wr hout
        split at h
        · exact absurd rfl h
        · rename_i hc
          have hn : name = o := by
            apply Classical.byContradiction
            intro hne
            split at h <;> exact h (if_neg hne)
          subst hn
          refine ⟨by simpa using hc, a, b, ?_⟩
          obtain ⟨ids, vals, hm⟩ := (C50_arguments (B := B) w.env name a b).1.mp (by rw [hout]; rfl)
          exact ⟨ids, vals, hw, hm⟩
  · rw [main_read hr] at h
    unfold read at h
    split at h
    · exact absurd rfl h
    · split at h
      · exact absurd rfl h
      · split at h <;> exact absurd rfl h
  · obtain ⟨stop, he, _⟩ := hx usage w fs
    rw [he] at h
    exact absurd rfl h

/-- The same for a series of commands. -/
theorem session_untouched {usage : Bytes} {name : Bytes} (cmds : List (World × List Bytes))
    (h : ∀ c ∈ cmds, ∀ a b, ¬ AsksWrite c.2 name a b) (fs : Files) : session B usage cmds fs name = fs name := by
  induction cmds generalizing fs with
  | nil => rfl
  | cons c cs ih =>
    obtain ⟨w, args⟩ := c
    unfold session
    rw [ih fun c hc => h c (List.mem_cons_of_mem _ hc)]
    apply Classical.byContradiction
    intro hne
    obtain ⟨_, a, b, _, _, hw, _⟩ := C68_untouched hne
    exact h _ (List.mem_cons_self ..) a b hw

variable [LawfulBitmap B]

/-- **C68.** If a `write` command, however its flags are written, ends successfully, then its lists are equally many numbers, it
reports how many, and after any further commands none of which writes the same file, every `read` command for that file ends
successfully and prints exactly what was written: with `--dump` the pairs in order, with `--agg` their aggregates (if they are representable). -/
theorem C68_session {usage : Bytes} {w : World} {fs : Files} {args : List Bytes} {o a b : Bytes} (h : AsksWrite args o a b)
    (hs : (main B usage w fs args).stop = .success) :
    ∃ ids vals n, Means a b ids vals ∧ Decimal n ids.length ∧
      (main B usage w fs args).out = str "Wrote file with " ++ n ++ str " entries to " ++ o ++ str "\n" ∧
      (ids.length ≤ 2 ^ 27 → (∀ bytes, (main B usage w fs args).files o = some bytes → bytes.length < 2 ^ 63) →
        ∀ cmds : List (World × List Bytes), (∀ c ∈ cmds, ∀ a b, ¬ AsksWrite c.2 o a b) →
        ∀ (w' : World) (rargs : List Bytes) (dump agg : Bool), AsksRead rargs o dump agg → w'.openable o = true →
          (agg = true → StatsRepresentable [(ids, vals)]) →
          ∃ text, main B usage w' (session B usage cmds (main B usage w fs args).files) rargs =
              ⟨text, .success, session B usage cmds (main B usage w fs args).files⟩ ∧
            ReadText printAvg usage o [(ids, vals)] dump agg text) := by
  have hm := main_write (B := B) (usage := usage) (w := w) (fs := fs) h
  rw [hm] at hs ⊢
  split at hs
  · cases hs
  · rename_i hne
    rw [if_neg hne]
    rcases hrun : (runWrite w.env o a b : WriteRun B) with ⟨ex, out⟩
    unfold write at hs ⊢
    rw [hrun] at hs ⊢
    dsimp only at hs ⊢
    cases out with
    | none =>
      dsimp only at hs
      cases ex with
      | ok text =>
        obtain ⟨_, _, _, w1, _, _, he, _⟩ := C50_success hrun
        cases he
      | error e => cases hs
    | some wr =>
      dsimp only at hs ⊢
      split at hs
      · cases hs
      · rename_i hc
        rw [if_neg hc]
        cases ex with
        | error e => cases hs
        | ok text =>
          dsimp only at hs ⊢
          obtain ⟨ids, vals, n, w1, h1, h2, h3, h4, h5⟩ := C50_success hrun
          cases h3
          refine ⟨ids, vals, n, h1, h2, h4, fun hid hsz cmds hcmds w' rargs dump agg hr hop hrep => ?_⟩
          have hfile : fs.put o wr.file.bytes o = some wr.file.bytes := if_pos rfl
          obtain ⟨_, h6⟩ := h5 hid (hsz _ hfile)
          obtain ⟨text', h7, h8⟩ := h6 printAvg usage o w'.sched dump agg hrep
          refine ⟨text', ?_, h8⟩
          rw [main_read hr]
          unfold read
          rw [session_untouched cmds hcmds, hfile]
          dsimp only
          rw [if_neg (by simp [hop]), h7]

/-- **C68.** Without file system errors a `write` command ends successfully if it denotes at most 1015 pairs. With more
pairs it ends with status 1, and whatever the output file held before, it is lost: no `read` command for it works (unless
the 1015th value happens to be the magic number). -/
theorem C68_capacity {usage : Bytes} {w : World} {fs : Files} {args : List Bytes} {o a b : Bytes} (h : AsksWrite args o a b)
    (hnf : w.env.NoFault) (hc : w.creatable o = true) {ids : List UInt64} {vals : List Int64} (hm : Means a b ids vals)
    (hid : ids.length ≤ 2 ^ 27)
    (hbm : ∀ L : List UInt64, L.length ≤ 1015 → (Bitmap.toBuffer (L.foldl Bitmap.set (Bitmap.empty : B))).length < 2 ^ 32) :
    (ids.length ≤ 1015 → a ≠ [] → b ≠ [] → (main B usage w fs args).stop = .success ∧
      ∀ bytes, (main B usage w fs args).files o = some bytes → bytes.length < 2 ^ 63) ∧
    (1015 < ids.length → vals[1014]? ≠ some magicNumber.toInt64 →
      (main B usage w fs args).stop.status = 1 ∧
      ∀ (w' : World) (rargs : List Bytes) (dump agg : Bool), AsksRead rargs o dump agg →
        (main B usage w' (main B usage w fs args).files rargs).stop ≠ .success) := by
  have hmw := main_write (B := B) (usage := usage) (w := w) (fs := fs) h
  obtain ⟨h1, h2⟩ := C50_capacity (B := B) hnf (name := o) hm hid hbm
  constructor
  · intro hle ha hb
    obtain ⟨text, wr, hrun, hsz⟩ := h1 hle
    rw [hmw, if_neg (by simp [ha, hb])]
    unfold write
    rw [hrun]
    dsimp only
    rw [if_neg (by simp [hc])]
    refine ⟨rfl, fun bytes hb => ?_⟩
    have : fs.put o wr.file.bytes o = some bytes := hb
    rw [show fs.put o wr.file.bytes o = some wr.file.bytes from if_pos rfl] at this
    cases this
    exact hsz
  · intro hlt hmag
    obtain ⟨wr, hrun, hopen⟩ := h2 hlt
    have hab : ¬ (a = [] ∨ b = []) := by
      have hl := hm.1
      obtain ⟨_, ⟨fs1, hf1, he1⟩, ⟨fs2, hf2, he2⟩⟩ := hm
      have key : ∀ {x : Bytes} {fs : List Bytes}, FieldsOf x fs → 1015 < fs.length → x ≠ [] := by
        rintro x gs ⟨_, _, rfl⟩ hlen
        match gs, hlen with
        | g1 :: g2 :: gs, _ => simp [List.intercalate, List.intersperse]
      rintro (rfl | rfl)
      · exact key hf1 (by rw [he1.length_eq]; exact hlt) rfl
      · exact key hf2 (by rw [he2.length_eq, ← hl]; exact hlt) rfl
    rw [hmw, if_neg hab]
    unfold write
    rw [hrun]
    dsimp only
    rw [if_neg (by simp [hc])]
    refine ⟨rfl, fun w' rargs dump agg hr => ?_⟩
    rw [main_read hr]
    unfold read
    dsimp only
    rw [show fs.put o wr.file.bytes o = some wr.file.bytes from if_pos rfl]
    dsimp only
    split
    · simp
    · unfold runRead
      cases hn : newReader (B := B) wr.file.bytes with
      | ok r => exact absurd hn (hopen hmag r)
      | err e => simp
      | panic => simp

end

/-! ### Examples -/

/-- The documented usage of `write` (main.go:32), and other ways of writing it. -/
theorem C68_usageWrite :
    AsksWrite [str "write", str "-o", str "output.col", str "-ids", str "1,2,3", str "-values", str "100,200,300"]
      (str "output.col") (str "1,2,3") (str "100,200,300") ∧
    AsksWrite [str "write", str "--values=-1", str "--ids", str "-o", str "--ids=7"] (str "example.col") (str "7") (str "-1") := by
  constructor
  · refine ⟨_, [(str "o", .text (str "output.col")), (str "ids", .text (str "1,2,3")), (str "values", .text (str "100,200,300"))], rfl,
      ⟨_, [], (List.append_nil _).symm, ?_, .nil⟩, by decide, by decide, by decide⟩
    exact .separate _ _ _ (by decide) (.inl rfl) (.separate _ _ _ (by decide) (.inl rfl) (.separate _ _ _ (by decide) (.inl rfl) .nil))
  · refine ⟨_, [(str "values", .text (str "-1")), (str "ids", .text (str "-o")), (str "ids", .text (str "7"))], rfl,
      ⟨_, [], (List.append_nil _).symm, ?_, .nil⟩, by decide, by decide, by decide⟩
    exact .joined (str "values") (str "--values") (str "-1") (by decide) (.inr rfl) (.separate (str "ids") _ _ (by decide) (.inr rfl)
      (.joined (str "ids") (str "--ids") (str "7") (by decide) (.inr rfl) .nil))

/-- The documented usage of `read` (main.go:33). A file name without `-f` is ignored, and so is everything after it: such a command reads
`example.col` and shows nothing of it. -/
theorem C68_usageRead :
    AsksRead [str "read", str "-f", str "input.col", str "--dump", str "--agg"] (str "input.col") true true ∧
    ∀ args, AsksRead (str "read" :: str "input.col" :: args) (str "example.col") false false := by
  constructor
  · refine ⟨_, [(str "f", .text (str "input.col")), (str "dump", .bool true), (str "agg", .bool true)], rfl,
      ⟨_, [], (List.append_nil _).symm, ?_, .nil⟩, by decide, by decide, by decide⟩
    exact .separate _ _ _ (by decide) (.inl rfl) (.switch (str "dump") _ (by decide) (.inr rfl) (.switch (str "agg") _ (by decide) (.inr rfl) .nil))
  · intro args
    exact ⟨_, [], rfl, ⟨[], _, rfl, .nil, .word _ _ (.inr (by decide))⟩, by decide, by decide, by decide⟩

/-- A world in which nothing fails. -/
def quietWorld : World := { env := quietEnv, sched := inOrder, creatable := fun _ => true, openable := fun _ => true }

/-- Non-vacuity of C68: write three pairs, write another file, read the first one. -/
theorem C68_example (usage : Bytes) (fs : Files) : ∃ fs1 fs2 text text',
    main IdSet usage quietWorld fs [str "write", str "-o", str "output.col", str "-ids", str "1,2,3", str "-values", str "100,200,300"] =
      ⟨text, .success, fs1⟩ ∧
    session IdSet usage [(quietWorld, [str "write", str "--values=-1", str "--ids", str "-o", str "--ids=7"])] fs1 = fs2 ∧
    main IdSet usage quietWorld fs2 [str "read", str "-f", str "output.col", str "--dump", str "--agg"] = ⟨text', .success, fs2⟩ ∧
    ReadText printAvg usage (str "output.col") [([1, 2, 3], [100, 200, 300])] true true text' := by
  have hm : Means (str "1,2,3") (str "100,200,300") [1, 2, 3] [100, 200, 300] := by
    rw [means_iff]
    decide +kernel
  obtain ⟨h1, h2⟩ := (C68_capacity (B := IdSet) (usage := usage) (w := quietWorld) (fs := fs) C68_usageWrite.1 quietEnv_noFault rfl hm
    (by decide) idSet_small).1 (by decide) (by decide) (by decide)
  obtain ⟨ids, vals, n, h3, _, _, h4⟩ := C68_session C68_usageWrite.1 h1
  obtain ⟨rfl, rfl⟩ := means_unique h3 hm
  have hrd : AsksRead [str "read", str "-f", str "output.col", str "--dump", str "--agg"] (str "output.col") true true := by
    refine ⟨_, [(str "f", .text (str "output.col")), (str "dump", .bool true), (str "agg", .bool true)], rfl,
      ⟨_, [], (List.append_nil _).symm, ?_, .nil⟩, by decide, by decide, by decide⟩
    exact .separate _ _ _ (by decide) (.inl rfl) (.switch (str "dump") _ (by decide) (.inr rfl) (.switch (str "agg") _ (by decide) (.inr rfl) .nil))
  obtain ⟨text', h5, h6⟩ := h4 (by decide) h2
    [(quietWorld, [str "write", str "--values=-1", str "--ids", str "-o", str "--ids=7"])]
    (by
      intro c hc a b hw
      rw [List.mem_singleton.mp hc] at hw
      exact absurd (asksWrite_unique hw C68_usageWrite.2).1 (by decide))
    quietWorld _ true true hrd rfl (fun _ => by unfold StatsRepresentable; decide)
  generalize hrun : main IdSet usage quietWorld fs _ = run at h1 h5
  obtain ⟨out, stop, fs1⟩ := run
  dsimp only at h1 h5
  subst h1
  exact ⟨fs1, _, out, text', rfl, rfl, h5, h6⟩

end VibeCol.Cmd
