/-
C86: the dump of a file determines its pairs, and `vibecol write` restores them from it.
-/
import Verif.Props.CommandLine
namespace VibeCol.Dump
open VibeCol VibeCol.Cli VibeCol.Cmd
variable {B : Type} [Bitmap B] [LawfulBitmap B]

/-! ### What is said -/

/-- A line of the dump with the given two columns. -/
def lineOf (f : Bytes × Bytes) : Bytes := f.1 ++ [9] ++ f.2 ++ [10]

/-- The output of `vibecol read --dump` without the line with the file name. -/
def dumpRest (count : Bytes) (fields : List (Bytes × Bytes)) : Bytes :=
  str "\nVersion: 1\nBlocks: " ++ count ++ str "\n\nID\tValue\n--\t-----\n" ++ (fields.map lineOf).flatten ++ str "\n"

/-- The columns show the pair: canonical decimal numbers. -/
def Shows (f : Bytes × Bytes) (p : Pair) : Prop := Decimal f.1 p.1.toNat ∧ SignedDecimal f.2 p.2.toInt

/-- The list of the given fields, separated by commas. -/
def commas (fs : List Bytes) : Bytes := [(44 : UInt8)].intercalate fs

/-- `vibecol read --dump` on this file. -/
structure DumpOf (B : Type) [Bitmap B] (usage : Bytes) (w : World) (fs : Files) (args : List Bytes) (name : Bytes)
    (blocks : List Block) : Prop where
  asks : AsksRead args name true false
  openable : w.openable name = true
  file : ∃ env opts log bytes, Finalized B env opts log bytes ∧ SymEnc (chosenEncoding opts) ∧ acked log = blocks ∧
    fs name = some bytes
  few : blocks.length ≤ maxBlocks

/-! ### Decimal numbers -/

theorem decimal_fmtNat (n : Nat) : ∀ s, Decimal s n → s = fmtNat n := by
  induction n using Nat.strongRecOn with
  | _ n ih =>
  intro s h
  have hne := h.digits.1
  obtain ⟨init, c, rfl⟩ : ∃ init c, s = init ++ [c] := ⟨s.dropLast, s.getLast hne, (List.dropLast_concat_getLast hne).symm⟩
  have hc := h.digits.2 c (by simp)
  have hv := h.value
  rw [digitsValue_append] at hv
  have hcc : c = UInt8.ofNat (48 + (c.toNat - 48)) := by
    rw [show 48 + (c.toNat - 48) = c.toNat by omega, UInt8.ofNat_toNat]
  by_cases hi : init = []
  · subst hi
    have : n = c.toNat - 48 := by simpa [digitsValue] using hv.symm
    unfold fmtNat
    rw [if_pos (by omega), this, ← hcc]
    rfl
  · have hd : Decimal init (digitsValue init) := by
      refine ⟨⟨hi, fun x hx => h.digits.2 x (by simp [hx])⟩, rfl, fun hh => ?_⟩
      have := h.short (by
        cases init with
        | nil => exact absurd rfl hi
        | cons x xs => simpa using hh)
      have hl := congrArg List.length this
      simp at hl
      exact absurd hl hi
    have hpos : 0 < digitsValue init := by
      apply Nat.pos_of_ne_zero
      intro h0
      cases init with
      | nil => exact hi rfl
      | cons x xs =>
        have hx := h.digits.2 x (by simp)
        have h1 := foldl_digits_ge xs (10 * 0 + (x.toNat - 48))
        have h2 : digitsValue (x :: xs) = xs.foldl (fun n c => 10 * n + (c.toNat - 48)) (10 * 0 + (x.toNat - 48)) := rfl
        have hx0 : x.toNat = 48 := by omega
        have hx1 : x = 48 := by rw [← UInt8.toNat_inj]; exact hx0
        have := h.short (by simp [hx1])
        have hl := congrArg List.length this
        simp at hl
    have hlt : digitsValue init < n := by omega
    have e := ih _ hlt init hd
    unfold fmtNat
    rw [if_neg (by omega), show n / 10 = digitsValue init by omega, show n % 10 = c.toNat - 48 by omega, ← hcc, ← e]

theorem decimal_unique {s t : Bytes} {n : Nat} (h : Decimal s n) (h' : Decimal t n) : s = t :=
  (decimal_fmtNat n s h).trans (decimal_fmtNat n t h').symm

theorem signed_unique {s t : Bytes} {v : Int} (h : SignedDecimal s v) (h' : SignedDecimal t v) : s = t := by
  generalize hv : v = v' at h'
  cases h with
  | pos _ n h =>
    cases h' with
    | pos _ m h' =>
      have : n = m := by omega
      subst this; exact decimal_unique h h'
    | neg t m h' hm => omega
  | neg s n h hn =>
    cases h' with
    | pos _ m h' => omega
    | neg t m h' hm =>
      have : n = m := by omega
      subst this; rw [decimal_unique h h']

theorem digits_no {s : Bytes} (h : Digits s) {c : UInt8} (hc : c.toNat < 48) : c ∉ s := by
  intro hm
  have := h.2 c hm
  omega

theorem signed_no {s : Bytes} {v : Int} (h : SignedDecimal s v) {c : UInt8} (hc : c.toNat < 45) : c ∉ s := by
  cases h with
  | pos _ n h => exact digits_no h.digits (by omega)
  | neg s n h _ =>
    intro hm
    rcases List.mem_cons.1 hm with rfl | hm
    · exact absurd hc (by decide)
    · exact digits_no h.digits (by omega) hm

theorem signed_value {s : Bytes} {v v' : Int} (h : SignedDecimal s v) (h' : SignedDecimal s v') : v = v' := by
  have hd : ∀ {s : Bytes} {n : Nat}, Decimal (45 :: s) n → False := by
    intro s n h
    have := h.digits.2 45 (by simp)
    revert this; decide
  cases h with
  | pos _ n h =>
    generalize hs : s = s' at h'
    cases h' with
    | pos _ m h' => rw [← h.value, ← h'.value, hs]
    | neg t m h' _ => subst hs; exact (hd h).elim
  | neg s n h _ =>
    generalize hs : (45 : UInt8) :: s = s' at h'
    cases h' with
    | pos _ m h' => subst hs; exact (hd h').elim
    | neg t m h' _ =>
      injection hs with _ hs
      rw [← h.value, ← h'.value, hs]

/-! ### Reading the text -/

theorem sep {c : UInt8} : ∀ {x y u v : Bytes}, c ∉ x → c ∉ y → x ++ c :: u = y ++ c :: v → x = y ∧ u = v
  | [], [], u, v, _, _, h => by
    rw [List.nil_append, List.nil_append] at h
    injection h with _ h
    exact ⟨rfl, h⟩
  | [], b :: y, u, v, _, hy, h => by
    injection h with h _
    exact absurd (by rw [h]; exact List.mem_cons_self ..) hy
  | a :: x, [], u, v, hx, _, h => by
    injection h with h _
    exact absurd (by rw [← h]; exact List.mem_cons_self ..) hx
  | a :: x, b :: y, u, v, hx, hy, h => by
    injection h with h1 h2
    obtain ⟨h3, h4⟩ := sep (fun hm => hx (List.mem_cons_of_mem _ hm)) (fun hm => hy (List.mem_cons_of_mem _ hm)) h2
    exact ⟨by rw [h1, h3], h4⟩

theorem Each2.values {fs : List (Bytes × Bytes)} {ps qs : List Pair} (h : Each2 Shows fs ps) (h' : Each2 Shows fs qs) : ps = qs := by
  induction h generalizing qs with
  | nil => cases h'; rfl
  | cons h _ ih =>
    cases h' with
    | cons h' t =>
      rw [ih t]
      congr 1
      apply Prod.ext
      · rw [← UInt64.toNat_inj, ← h.1.value, ← h'.1.value]
      · exact Int64.toInt_inj.1 (signed_value h.2 h'.2)

theorem Each2.texts {fs gs : List (Bytes × Bytes)} {ps : List Pair} (h : Each2 Shows fs ps) (h' : Each2 Shows gs ps) : fs = gs := by
  induction h generalizing gs with
  | nil => cases h'; rfl
  | cons h _ ih =>
    cases h' with
    | cons h' t =>
      rw [ih t]
      congr 1
      exact Prod.ext (decimal_unique h.1 h'.1) (signed_unique h.2 h'.2)

theorem lines_unique {fs gs : List (Bytes × Bytes)} {ps qs : List Pair} (h : Each2 Shows fs ps) (h' : Each2 Shows gs qs)
    (he : (fs.map lineOf).flatten ++ [10] = (gs.map lineOf).flatten ++ [10]) : fs = gs := by
  have first : ∀ {f : Bytes × Bytes} {p : Pair} {fs : List (Bytes × Bytes)}, Shows f p →
      ([10] : Bytes) ≠ ((f :: fs).map lineOf).flatten ++ [10] := by
    intro f p fs hf he
    have hne := hf.1.digits.1
    rcases hf1 : f.1 with _ | ⟨a, as⟩
    · exact hne hf1
    · have ha := hf.1.digits.2 a (by rw [hf1]; exact List.mem_cons_self ..)
      simp only [List.map_cons, List.flatten_cons, lineOf, hf1, List.cons_append] at he
      injection he with he _
      rw [← he] at ha
      revert ha; decide
  induction h generalizing gs qs with
  | nil =>
    cases h' with
    | nil => rfl
    | cons h' t => exact absurd he (first h')
  | cons h t ih =>
    cases h' with
    | nil => exact absurd he.symm (first h)
    | cons h' t' =>
      simp only [List.map_cons, List.flatten_cons, lineOf, List.append_assoc, List.cons_append, List.nil_append] at he
      obtain ⟨e1, he⟩ := sep (digits_no h.1.digits (by decide)) (digits_no h'.1.digits (by decide)) he
      obtain ⟨e2, he⟩ := sep (signed_no h.2 (by decide)) (signed_no h'.2 (by decide)) he
      rw [ih t' he]
      congr 1
      exact Prod.ext e1 e2

theorem rest_unique {c d : Bytes} {fs gs : List (Bytes × Bytes)} {n m : Nat} {ps qs : List Pair} (hc : Decimal c n) (hd : Decimal d m)
    (h : Each2 Shows fs ps) (h' : Each2 Shows gs qs) (he : dumpRest c fs = dumpRest d gs) : c = d ∧ fs = gs := by
  unfold dumpRest at he
  simp only [List.append_assoc] at he
  have he := List.append_cancel_left he
  have hs : str "\n\nID\tValue\n--\t-----\n" = 10 :: str "\nID\tValue\n--\t-----\n" := by decide +kernel
  rw [hs] at he
  simp only [List.cons_append] at he
  obtain ⟨e1, he⟩ := sep (digits_no hc.digits (by decide)) (digits_no hd.digits (by decide)) he
  have he := List.append_cancel_left he
  exact ⟨e1, lines_unique h h' he⟩

/-! ### The commands -/

theorem pairLine_shows {lines : List Bytes} {ps : List Pair} (h : Each2 PairLine lines ps) :
    ∃ fields, lines = fields.map lineOf ∧ Each2 Shows fields ps := by
  induction h with
  | nil => exact ⟨[], rfl, .nil⟩
  | cons h _ ih =>
    obtain ⟨fields, rfl, h2⟩ := ih
    obtain ⟨a, b, rfl, h3, h4⟩ := h
    exact ⟨(a, b) :: fields, rfl, .cons ⟨h3, h4⟩ h2⟩

theorem readText_dump {fmtAvg : Avg → Bytes} {usage name : Bytes} {blocks : List Block} {text : Bytes}
    (h : ReadText fmtAvg usage name blocks true false text) :
    ∃ count fields, text = str "File: " ++ name ++ dumpRest count fields ∧ Decimal count blocks.length ∧
      Each2 Shows fields (pairsOf blocks) := by
  obtain ⟨version, count, body, stats, lines, h1, h2, h3, h4, _, h5⟩ := h.parts
  obtain ⟨fields, h6, h7⟩ := pairLine_shows h3
  refine ⟨count, fields, ?_, h2, h7⟩
  have hv : version = str "1" := decimal_unique h1 ⟨⟨by decide, by decide⟩, by decide, by decide⟩
  rw [h5, if_pos rfl, if_neg (by decide), if_pos rfl, List.append_nil, h4, h6, hv]
  unfold dumpRest
  have e1 : str "\nVersion: 1\nBlocks: " = str "\nVersion: " ++ (str "1" ++ str "\nBlocks: ") := by decide +kernel
  have e2 : str "\n\nID\tValue\n--\t-----\n" = str "\n\n" ++ str "ID\tValue\n--\t-----\n" := by decide +kernel
  rw [e1, e2]
  simp only [List.append_assoc]

/-- What the command prints. -/
theorem C86_dump {usage : Bytes} {w : World} {fs : Files} {args : List Bytes} {name : Bytes} {blocks : List Block}
    (h : DumpOf B usage w fs args name blocks) :
    ∃ count fields, main B usage w fs args = ⟨str "File: " ++ name ++ dumpRest count fields, .success, fs⟩ ∧
      Decimal count blocks.length ∧ Each2 Shows fields (pairsOf blocks) := by
  obtain ⟨env, opts, log, bytes, hf, he, rfl, hfs⟩ := h.file
  obtain ⟨text, h1, h2⟩ := C51_read hf he h.few printAvg usage name w.sched true false (fun h => by cases h)
  obtain ⟨count, fields, rfl, h3, h4⟩ := readText_dump h2
  refine ⟨count, fields, ?_, h3, h4⟩
  rw [main_read h.asks]
  unfold Cmd.read
  rw [hfs]
  dsimp only
  rw [if_neg (by simp [h.openable]), h1]

/-- **C86.** Two dumps agree apart from the file names exactly if the files have the same number of blocks and the
same pairs in the same order. -/
theorem C86_injective {usage usage' : Bytes} {w w' : World} {fs fs' : Files} {args args' : List Bytes} {name name' : Bytes}
    {blocks blocks' : List Block} (h : DumpOf B usage w fs args name blocks) (h' : DumpOf B usage' w' fs' args' name' blocks') :
    (∃ rest, (main B usage w fs args).out = str "File: " ++ name ++ rest ∧
      (main B usage' w' fs' args').out = str "File: " ++ name' ++ rest) ↔
    blocks.length = blocks'.length ∧ pairsOf blocks = pairsOf blocks' := by
  obtain ⟨count, fields, h1, h2, h3⟩ := C86_dump h
  obtain ⟨count', fields', h1', h2', h3'⟩ := C86_dump h'
  rw [h1, h1']
  constructor
  · rintro ⟨rest, e1, e2⟩
    have e1 := List.append_cancel_left e1
    have e2 := List.append_cancel_left e2
    obtain ⟨e3, e4⟩ := rest_unique h2 h2' h3 h3' (e1.trans e2.symm)
    subst e3 e4
    exact ⟨h2.value.symm.trans h2'.value, Each2.values h3 h3'⟩
  · rintro ⟨e1, e2⟩
    rw [e1] at h2
    rw [e2] at h3
    rw [decimal_unique h2 h2', Each2.texts h3 h3']
    exact ⟨_, rfl, rfl⟩

/-! ### And back -/

theorem shows_means {fields : List (Bytes × Bytes)} {ps : List Pair} (h : Each2 Shows fields ps) (hne : ps ≠ []) :
    Means (commas (fields.map Prod.fst)) (commas (fields.map Prod.snd)) (ps.map Prod.fst) (ps.map Prod.snd) := by
  have hf : fields ≠ [] := by
    rintro rfl
    cases h
    exact hne rfl
  have all : ∀ f ∈ fields, ∃ p, Shows f p := by
    clear hf hne
    induction h with
    | nil => intro f hf; cases hf
    | cons h _ ih =>
      intro f hf
      rcases List.mem_cons.1 hf with rfl | hf
      · exact ⟨_, h⟩
      · exact ih f hf
  refine ⟨by simp, ⟨_, ⟨by simpa using hf, ?_, rfl⟩, ?_⟩, ⟨_, ⟨by simpa using hf, ?_, rfl⟩, ?_⟩⟩
  · intro f hm
    obtain ⟨x, hx, rfl⟩ := List.mem_map.1 hm
    obtain ⟨p, hp⟩ := all x hx
    exact digits_no hp.1.digits (by decide)
  · clear all hf hne
    induction h with
    | nil => exact .nil
    | cons h _ ih => exact .cons ⟨[], _, [], by simp, .nil, .nil, h.1.digits, h.1.value⟩ ih
  · intro f hm
    obtain ⟨x, hx, rfl⟩ := List.mem_map.1 hm
    obtain ⟨p, hp⟩ := all x hx
    exact signed_no hp.2 (by decide)
  · clear all hf hne
    induction h with
    | nil => exact .nil
    | @cons f p _ _ h _ ih =>
      refine .cons ?_ ih
      obtain ⟨f1, f2⟩ := f
      obtain ⟨_, h⟩ := h
      dsimp only at h
      generalize hv : p.2.toInt = v at h
      cases h with
      | pos _ n h => exact ⟨[], [], f2, [], by simp, .nil, .nil, h.digits, .inl ⟨.inl rfl, by rw [h.value, hv]⟩⟩
      | neg s n h _ => exact ⟨[], [45], s, [], by simp, .nil, .nil, h.digits, .inr ⟨rfl, by rw [h.value, hv]⟩⟩

theorem pairsOf_one (ps : List Pair) : pairsOf [(ps.map Prod.fst, ps.map Prod.snd)] = ps := by
  simp only [pairsOf, List.flatMap_cons, List.flatMap_nil, List.append_nil]
  induction ps with
  | nil => rfl
  | cons p ps ih => simp only [List.map_cons, List.zip_cons_cons, ih]

theorem commas_ne {fs : List Bytes} (hne : fs ≠ []) (h : ∀ f ∈ fs, f ≠ []) : commas fs ≠ [] := by
  unfold commas
  match fs, hne with
  | [f], _ => simpa [List.intercalate] using h f (by simp)
  | f :: g :: fs, _ => simp [List.intercalate, List.intersperse]

/-- **C86, restoring.** The dump of a file with 1 to 1015 pairs (whatever its encoding, block size and number of blocks)
splits into lines of two columns such that `vibecol write` given the first column as `-ids` and the second as `-values`, each
joined by commas, succeeds (without I/O errors), and a dump of the file it wrote shows the same lines. -/
theorem C86_restore {usage : Bytes} {w : World} {fs : Files} {args : List Bytes} {name : Bytes} {blocks : List Block}
    (h : DumpOf B usage w fs args name blocks) (hpos : pairsOf blocks ≠ []) (hcap : (pairsOf blocks).length ≤ 1015)
    (hbm : ∀ L : List UInt64, L.length ≤ 1015 → (Bitmap.toBuffer (L.foldl Bitmap.set (Bitmap.empty : B))).length < 2 ^ 32) :
    ∃ count fields, (main B usage w fs args).out = str "File: " ++ name ++ dumpRest count fields ∧
      Decimal count blocks.length ∧ Each2 Shows fields (pairsOf blocks) ∧
      (∀ f ∈ fields, (∀ c ∈ ([9, 10, 44] : Bytes), c ∉ f.1 ∧ c ∉ f.2)) ∧
      ∀ (w1 w2 : World) (fs1 : Files) (wargs rargs : List Bytes) (o : Bytes),
        AsksWrite wargs o (commas (fields.map Prod.fst)) (commas (fields.map Prod.snd)) → w1.env.NoFault → w1.creatable o = true →
        AsksRead rargs o true false → w2.openable o = true →
        (main B usage w1 fs1 wargs).stop = .success ∧
        (main B usage w2 (main B usage w1 fs1 wargs).files rargs).stop = .success ∧
        (main B usage w2 (main B usage w1 fs1 wargs).files rargs).out = str "File: " ++ o ++ dumpRest (str "1") fields := by
  obtain ⟨count, fields, h1, h2, h3⟩ := C86_dump h
  generalize pairsOf blocks = ps at hpos hcap h3
  have hm := shows_means h3 hpos
  have all : ∀ f ∈ fields, ∃ p, Shows f p := by
    clear h1 hm hpos hcap
    induction h3 with
    | nil => intro f hf; cases hf
    | cons h _ ih =>
      intro f hf
      rcases List.mem_cons.1 hf with rfl | hf
      · exact ⟨_, h⟩
      · exact ih f hf
  refine ⟨count, fields, by rw [h1], h2, h3, ?_, ?_⟩
  · intro f hf c hc
    obtain ⟨p, hp⟩ := all f hf
    have hlt : c.toNat < 45 := by
      revert c; decide
    exact ⟨digits_no hp.1.digits (by omega), signed_no hp.2 hlt⟩
  intro w1 w2 fs1 wargs rargs o hw hnf hc hr hop
  have hfne : fields ≠ [] := by
    rintro rfl
    cases h3
    exact hpos rfl
  have hl : (ps.map Prod.fst).length ≤ 1015 := by rw [List.length_map]; exact hcap
  have ha : commas (fields.map Prod.fst) ≠ [] := by
    apply commas_ne (by simpa using hfne)
    intro f hm
    obtain ⟨x, hx, rfl⟩ := List.mem_map.1 hm
    obtain ⟨p, hp⟩ := all x hx
    exact hp.1.digits.1
  have hb : commas (fields.map Prod.snd) ≠ [] := by
    apply commas_ne (by simpa using hfne)
    intro f hm
    obtain ⟨x, hx, rfl⟩ := List.mem_map.1 hm
    obtain ⟨p, hp⟩ := all x hx
    have := hp.2
    generalize x.2 = s at this
    generalize p.2.toInt = v at this
    cases this with
    | pos _ n h => exact h.digits.1
    | neg s n h _ => simp
  obtain ⟨hs, hsz⟩ := (C68_capacity (usage := usage) (fs := fs1) hw hnf hc hm (by omega) hbm).1 hl ha hb
  obtain ⟨ids, vals, n, hm', _, _, hback⟩ := C68_session (B := B) (usage := usage) (fs := fs1) hw hs
  obtain ⟨e1, e2⟩ := means_unique hm' hm
  subst e1 e2
  obtain ⟨text, ht1, ht2⟩ := hback (by omega) hsz [] (by intro c hc; cases hc) w2 rargs true false hr hop (fun h => by cases h)
  obtain ⟨count', fields', rfl, h4, h5⟩ := readText_dump ht2
  rw [pairsOf_one] at h5
  have hf := Each2.texts h5 h3
  have hcnt : count' = str "1" := decimal_unique (n := 1) h4 ⟨⟨by decide, by decide⟩, by decide, by decide⟩
  subst hf hcnt
  change main B usage w2 (main B usage w1 fs1 wargs).files rargs = _ at ht1
  rw [ht1]
  exact ⟨hs, rfl, rfl⟩

/-! ### A case -/

/-- The file of `fullLog`: five pairs in three delta-encoded blocks, a negative value. Its dump, its restoration by
`vibecol write -o new.col -ids 3,1,2,1,2 -values 30,-10,20,-10,20`, and the dump of that. -/
example (usage : Bytes) : ∃ (fs : Files) (rargs wargs rargs' : List Bytes) (fields : List (Bytes × Bytes)),
    DumpOf IdSet usage quietWorld fs rargs (str "old.col") (acked fullLog) ∧
    fields = [(str "3", str "30"), (str "1", str "-10"), (str "2", str "20"), (str "1", str "-10"), (str "2", str "20")] ∧
    (main IdSet usage quietWorld fs rargs).out = str "File: " ++ str "old.col" ++ dumpRest (str "3") fields ∧
    AsksWrite wargs (str "new.col") (str "3,1,2,1,2") (str "30,-10,20,-10,20") ∧
    (main IdSet usage quietWorld fs wargs).stop = .success ∧
    AsksRead rargs' (str "new.col") true false ∧
    (main IdSet usage quietWorld (main IdSet usage quietWorld fs wargs).files rargs').out =
      str "File: " ++ str "new.col" ++ dumpRest (str "1") fields := by
  obtain ⟨file, hf⟩ := full_finalized
  have hr : ∀ name, AsksRead [str "read", str "-f", name, str "--dump"] name true false := by
    intro name
    refine ⟨_, [(str "f", .text name), (str "dump", .bool true)], rfl, ⟨_, [], (List.append_nil _).symm, ?_, .nil⟩,
      by rfl, by rfl, by rfl⟩
    exact .separate _ _ _ (by decide) (.inl rfl) (.switch (str "dump") _ (by decide) (.inr rfl) .nil)
  have hw : AsksWrite [str "write", str "-o", str "new.col", str "-ids", str "3,1,2,1,2", str "-values", str "30,-10,20,-10,20"]
      (str "new.col") (str "3,1,2,1,2") (str "30,-10,20,-10,20") := by
    refine ⟨_, [(str "o", .text (str "new.col")), (str "ids", .text (str "3,1,2,1,2")), (str "values", .text (str "30,-10,20,-10,20"))],
      rfl, ⟨_, [], (List.append_nil _).symm, ?_, .nil⟩, by decide, by decide, by decide⟩
    exact .separate _ _ _ (by decide) (.inl rfl) (.separate _ _ _ (by decide) (.inl rfl) (.separate _ _ _ (by decide) (.inl rfl) .nil))
  have hd : DumpOf IdSet usage quietWorld (fun n => if n = str "old.col" then some file else none)
      [str "read", str "-f", str "old.col", str "--dump"] (str "old.col") (acked fullLog) :=
    ⟨hr _, rfl, ⟨_, _, _, file, hf, by unfold SymEnc; decide, rfl, if_pos rfl⟩, by decide⟩
  obtain ⟨count, fields, h1, h2, h3, _, h5⟩ := C86_restore hd (by decide) (by decide) idSet_small
  obtain ⟨e1, e2⟩ := (⟨decimal_unique (n := 3) h2 ⟨⟨by decide, by decide⟩, by decide, by decide⟩,
    Each2.texts h3 (gs := [(str "3", str "30"), (str "1", str "-10"), (str "2", str "20"), (str "1", str "-10"), (str "2", str "20")])
      (by
        have hn : ∀ (s : String) (p : Pair), Decimal (fmtNat p.1.toNat) p.1.toNat ∧ SignedDecimal (fmtInt p.2) p.2.toInt :=
          fun _ p => ⟨(fmtNat_decimal _).1, fmtInt_decimal _⟩
        have e : ∀ (x y : Bytes) (p : Pair), x = fmtNat p.1.toNat → y = fmtInt p.2 → Shows (x, y) p :=
          fun x y p hx hy => by subst hx hy; exact hn "" p
        exact .cons (e _ _ _ (by decide +kernel) (by decide +kernel)) (.cons (e _ _ _ (by decide +kernel) (by decide +kernel))
          (.cons (e _ _ _ (by decide +kernel) (by decide +kernel)) (.cons (e _ _ _ (by decide +kernel) (by decide +kernel))
          (.cons (e _ _ _ (by decide +kernel) (by decide +kernel)) .nil)))))⟩ : count = str "3" ∧ fields = _)
  subst e1 e2
  obtain ⟨g1, g2, g3⟩ := h5 quietWorld quietWorld _ _ _ (str "new.col") hw quietEnv_noFault rfl (hr _) rfl
  exact ⟨_, _, _, _, _, hd, rfl, h1, hw, g1, hr _, g3⟩

end VibeCol.Dump
