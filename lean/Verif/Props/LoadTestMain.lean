/-
C73: the command line of `loadtest` and the files it works on.
-/
import Verif.Spec.LoadTestMain
import Verif.Props.CommandLine
import Verif.Props.LoadTest
namespace VibeCol.LoadCmd
open VibeCol.Cli (str NumErr)
open VibeCol.Cmd (FlagErr Files word parseBool)
open VibeCol.LoadTest (Rng Exit Report Batches)

/-! ### Numerals -/

/-- The value of a digit, as a table. -/
def digitTable (n : Nat) : Option Nat :=
  if 48 ≤ n ∧ n ≤ 57 then some (n - 48) else if 97 ≤ n ∧ n ≤ 122 then some (n - 87) else if 65 ≤ n ∧ n ≤ 90 then some (n - 55) else none

theorem digitVal_table : ∀ n < 256, (digitVal (UInt8.ofNat n)).map UInt8.toNat = digitTable n := by decide +kernel

theorem digitVal_eq (c : UInt8) : (digitVal c).map UInt8.toNat = digitTable c.toNat := by
  have := digitVal_table c.toNat c.toNat_lt
  rwa [UInt8.ofNat_toNat] at this

theorem digit_iff {base : Nat} (hb : base ≤ 16) (c : UInt8) (d : Nat) :
    Digit base c d ↔ d < base ∧ digitTable c.toNat = some d := by
  unfold Digit digitTable
  constructor
  · rintro ⟨h1, h2⟩
    refine ⟨h1, ?_⟩
    rcases h2 with ⟨h2, h3⟩ | ⟨h2, h3 | h3⟩
    · rw [if_pos (by omega)]; congr 1; omega
    · rw [if_neg (by omega), if_pos (by omega)]; congr 1; omega
    · rw [if_neg (by omega), if_neg (by omega), if_pos (by omega)]; congr 1; omega
  · rintro ⟨h1, h2⟩
    refine ⟨h1, ?_⟩
    split at h2
    · cases h2; omega
    · split at h2
      · cases h2; omega
      · split at h2
        · cases h2; omega
        · cases h2

theorem digit_val {base : Nat} (hb : base ≤ 16) {c : UInt8} {d : Nat} (h : Digit base c d) : ∃ x, digitVal c = some x ∧ x.toNat = d := by
  have h1 := ((digit_iff hb c d).1 h).2
  rw [← digitVal_eq] at h1
  cases hv : digitVal c with
  | none => rw [hv] at h1; cases h1
  | some x => rw [hv] at h1; exact ⟨x, rfl, by simpa using h1⟩

theorem digit_of_val {base : Nat} (hb : base ≤ 16) {c x : UInt8} (h : digitVal c = some x) (hx : x.toNat < base) : Digit base c x.toNat := by
  refine (digit_iff hb c _).2 ⟨hx, ?_⟩
  rw [← digitVal_eq, h]; rfl

theorem digit_ne_under {base : Nat} {c : UInt8} {d : Nat} (h : Digit base c d) (hb : base ≤ 16) : c ≠ 95 := by
  rintro rfl
  have h1 := ((digit_iff hb 95 d).1 h).2
  have h2 : digitTable (95 : UInt8).toNat = none := by decide
  rw [h2] at h1; cases h1

/-- Digits and underscores in any order. -/
inductive Loose (base : Nat) : Bytes → List Nat → Prop where
  | nil : Loose base [] []
  | digit {c d s ds} (h : Digit base c d) (t : Loose base s ds) : Loose base (c :: s) (d :: ds)
  | under {s ds} (t : Loose base s ds) : Loose base (95 :: s) ds

theorem Digits.loose {base : Nat} {s : Bytes} {ds : List Nat} (h : Digits base s ds) : Loose base s ds := by
  induction h with
  | nil => exact .nil
  | digit h _ ih => exact .digit h ih
  | under h _ ih => exact .under (.digit h ih)

theorem Loose.digits {base : Nat} {s : Bytes} {ds : List Nat} (h : Loose base s ds) (hn : (95 : UInt8) ∉ s) : Digits base s ds := by
  induction h with
  | nil => exact .nil
  | digit h _ ih => exact .digit h (ih fun hc => hn (List.mem_cons_of_mem _ hc))
  | under _ ih => exact absurd List.mem_cons_self hn

/-- Numbers read so far only grow. -/
theorem foldl_ge (base : Nat) (hb : 1 ≤ base) (ds : List Nat) (n : Nat) : n ≤ ds.foldl (fun n d => base * n + d) n := by
  induction ds generalizing n with
  | nil => exact Nat.le_refl _
  | cons d ds ih =>
    refine Nat.le_trans ?_ (ih _)
    have := Nat.mul_le_mul_right n hb
    show n ≤ base * n + d
    omega

theorem cutoff (base : UInt64) (hb : base ∈ ([2, 8, 10, 16] : List UInt64)) (n : UInt64) (d : Nat) (hd : d < base.toNat) :
    (¬ n ≥ 18446744073709551615 / base + 1 → n.toNat * base.toNat < 2 ^ 64) ∧
    (base.toNat * n.toNat + d < 2 ^ 64 → ¬ n ≥ 18446744073709551615 / base + 1) := by
  simp only [List.mem_cons, List.not_mem_nil, or_false] at hb
  rcases hb with rfl | rfl | rfl | rfl
  all_goals rw [ge_iff_le, UInt64.le_iff_toNat_le]
  · rw [show ((18446744073709551615 : UInt64) / 2 + 1).toNat = 9223372036854775808 from by decide, show (2 : UInt64).toNat = 2 from rfl] at *
    omega
  · rw [show ((18446744073709551615 : UInt64) / 8 + 1).toNat = 2305843009213693952 from by decide, show (8 : UInt64).toNat = 8 from rfl] at *
    omega
  · rw [show ((18446744073709551615 : UInt64) / 10 + 1).toNat = 1844674407370955162 from by decide, show (10 : UInt64).toNat = 10 from rfl] at *
    omega
  · rw [show ((18446744073709551615 : UInt64) / 16 + 1).toNat = 1152921504606846976 from by decide, show (16 : UInt64).toNat = 16 from rfl] at *
    omega

theorem loop_ok (base : UInt64) (hb : base ∈ ([2, 8, 10, 16] : List UInt64)) (s : Bytes) (n : UInt64) (u : Bool) (m : UInt64) (u' : Bool) :
    parseUintLoop base s n u = .ok (m, u') ↔
      ∃ ds, Loose base.toNat s ds ∧ m.toNat = ds.foldl (fun n d => base.toNat * n + d) n.toNat ∧ u' = (u || decide ((95 : UInt8) ∈ s)) := by
  have hb16 : base.toNat ≤ 16 ∧ 1 ≤ base.toNat := by
    simp only [List.mem_cons, List.not_mem_nil, or_false] at hb
    rcases hb with rfl | rfl | rfl | rfl <;> decide
  induction s generalizing n u with
  | nil =>
    unfold parseUintLoop
    constructor
    · intro h
      cases h
      exact ⟨[], .nil, rfl, by simp⟩
    · rintro ⟨ds, h, hm, hu⟩
      cases h
      rw [UInt64.toNat_inj.1 hm, hu]; simp
  | cons c s ih =>
    unfold parseUintLoop
    by_cases hc : c = 95
    · subst hc
      rw [if_pos rfl]
      refine Iff.trans (ih _ _) ?_
      constructor
      · rintro ⟨ds, h, hm, hu⟩
        exact ⟨ds, .under h, hm, by rw [hu]; simp⟩
      · rintro ⟨ds, h, hm, hu⟩
        cases h with
        | digit hd _ => exact absurd rfl (digit_ne_under hd hb16.1)
        | under h => exact ⟨ds, h, hm, by rw [hu]; simp⟩
    · rw [if_neg hc]
      cases hv : digitVal c with
      | none =>
        dsimp only
        constructor
        · intro h; cases h
        · rintro ⟨ds, h, _, _⟩
          cases h with
          | digit hd _ =>
            obtain ⟨x, hx, _⟩ := digit_val hb16.1 hd
            rw [hv] at hx; cases hx
          | under _ => exact absurd rfl hc
      | some d =>
        dsimp only
        have h64 : d.toUInt64.toNat = d.toNat := by simp
        have hmem : (95 ∈ c :: s) ↔ 95 ∈ s := by
          rw [List.mem_cons]; exact or_iff_right fun e => hc e.symm
        by_cases h1 : d.toUInt64 ≥ base
        · rw [if_pos h1]
          constructor
          · intro h; cases h
          · rintro ⟨ds, h, _, _⟩
            cases h with
            | digit hd _ =>
              obtain ⟨x, hx, hx2⟩ := digit_val hb16.1 hd
              rw [hv] at hx; cases hx
              rw [ge_iff_le, UInt64.le_iff_toNat_le, h64] at h1
              have := hd.1
              omega
            | under _ => exact absurd rfl hc
        · rw [if_neg h1]
          have hd : d.toNat < base.toNat := by
            rw [ge_iff_le, UInt64.le_iff_toNat_le, h64] at h1; omega
          have hdig := digit_of_val hb16.1 hv hd
          obtain ⟨k1, k2⟩ := cutoff base hb n d.toNat hd
          have spec : (∃ ds, Loose base.toNat (c :: s) ds ∧ m.toNat = ds.foldl (fun n d => base.toNat * n + d) n.toNat ∧
              u' = (u || decide ((95 : UInt8) ∈ c :: s))) ↔
              ∃ ds, Loose base.toNat s ds ∧ m.toNat = ds.foldl (fun n d => base.toNat * n + d) (base.toNat * n.toNat + d.toNat) ∧
                u' = (u || decide ((95 : UInt8) ∈ s)) := by
            simp only [hmem]
            constructor
            · rintro ⟨ds, h, hm, hu⟩
              cases h with
              | digit hd' ht =>
                obtain ⟨x, hx, hx2⟩ := digit_val hb16.1 hd'
                rw [hv] at hx; cases hx
                subst hx2
                exact ⟨_, ht, hm, hu⟩
              | under _ => exact absurd rfl hc
            · rintro ⟨ds, h, hm, hu⟩
              exact ⟨d.toNat :: ds, .digit hdig h, hm, hu⟩
          rw [spec]
          by_cases h2 : n ≥ 18446744073709551615 / base + 1
          · rw [if_pos h2]
            constructor
            · intro h; cases h
            · rintro ⟨ds, h, hm, hu⟩
              have := foldl_ge base.toNat hb16.2 ds (base.toNat * n.toNat + d.toNat)
              exact absurd h2 (k2 (by have := m.toNat_lt; omega))
          · rw [if_neg h2]
            have k3 := k1 h2
            have e0 : (n * base).toNat = base.toNat * n.toNat := by
              rw [UInt64.toNat_mul, Nat.mod_eq_of_lt k3, Nat.mul_comm]
            by_cases h3 : n * base + d.toUInt64 < n * base
            · rw [if_pos h3]
              constructor
              · intro h; cases h
              · rintro ⟨ds, h, hm, hu⟩
                have := foldl_ge base.toNat hb16.2 ds (base.toNat * n.toNat + d.toNat)
                have hm2 := m.toNat_lt
                rw [UInt64.lt_iff_toNat_lt, UInt64.toNat_add, e0, h64] at h3
                omega
            · rw [if_neg h3]
              refine Iff.trans (ih _ _) ?_
              have e1 : (n * base + d.toUInt64).toNat = base.toNat * n.toNat + d.toNat := by
                rw [UInt64.lt_iff_toNat_lt, UInt64.toNat_add, e0, h64] at h3
                rw [UInt64.toNat_add, e0, h64]
                have := Nat.mul_comm base.toNat n.toNat
                have := d.toNat_lt
                omega
              rw [e1]

theorem under_digit : ∀ n < 256, ∀ d, digitTable n = some d → (d < 10 → 48 ≤ UInt8.ofNat n ∧ UInt8.ofNat n ≤ 57) ∧
    (d < 16 → (48 ≤ UInt8.ofNat n ∧ UInt8.ofNat n ≤ 57) ∨ (97 ≤ lower (UInt8.ofNat n) ∧ lower (UInt8.ofNat n) ≤ 102)) := by
  decide +kernel

/-- On digits and underscores, the check is that each underscore is followed by a digit. -/
theorem underscoreLoop_iff (base : Nat) (hex : Bool) (hb : base ≤ 10 ∨ base = 16 ∧ hex = true) {s : Bytes} {ds : List Nat}
    (h : Loose base s ds) :
    (underscoreLoop hex s .digit = true ↔ Digits base s ds) ∧
    (underscoreLoop hex s .under = true ↔ Digits base (95 :: s) ds ∧ s ≠ []) := by
  have hb16 : base ≤ 16 := by omega
  induction h with
  | nil =>
    unfold underscoreLoop
    exact ⟨⟨fun _ => .nil, fun _ => by decide⟩, ⟨fun h => absurd h (by decide), fun h => absurd rfl h.2⟩⟩
  | @digit c d s ds hd t ih =>
    have hg : (48 ≤ c ∧ c ≤ 57) ∨ (hex = true ∧ 97 ≤ lower c ∧ lower c ≤ 102) := by
      have h1 := ((digit_iff hb16 c d).1 hd).2
      have h2 := under_digit c.toNat c.toNat_lt d h1
      rw [UInt8.ofNat_toNat] at h2
      rcases hb with hb | ⟨hb, hh⟩
      · exact .inl (h2.1 (by have := hd.1; omega))
      · exact (h2.2 (by have := hd.1; omega)).imp_right fun h => ⟨hh, h⟩
    have e : ∀ saw, underscoreLoop hex (c :: s) saw = underscoreLoop hex s .digit := by
      intro saw
      conv => lhs; unfold underscoreLoop
      rw [if_pos hg]
    rw [e, e, ih.1]
    refine ⟨⟨fun h => .digit hd h, fun h => ?_⟩, ⟨fun h => ⟨.under hd h, List.cons_ne_nil _ _⟩, fun h => ?_⟩⟩
    · cases h with
      | digit _ t => exact t
      | under _ _ => exact absurd rfl (digit_ne_under hd hb16)
    · cases h.1 with
      | digit h' _ => exact absurd rfl (digit_ne_under h' hb16)
      | under _ t => exact t
  | @under s ds t ih =>
    have hn : ¬ (((48 : UInt8) ≤ 95 ∧ (95 : UInt8) ≤ 57) ∨ (hex = true ∧ 97 ≤ lower 95 ∧ lower 95 ≤ 102)) := by
      rintro (h | h)
      · exact absurd h (by decide)
      · exact absurd h.2 (by decide)
    constructor
    · conv => lhs; lhs; unfold underscoreLoop
      rw [if_neg hn, if_pos rfl, if_neg (by decide), ih.2]
      refine ⟨fun h => h.1, fun h => ⟨h, ?_⟩⟩
      rintro rfl
      cases h with
      | digit h' _ => exact absurd rfl (digit_ne_under h' hb16)
    · conv => lhs; lhs; unfold underscoreLoop
      rw [if_neg hn, if_pos rfl, if_pos (by decide)]
      refine ⟨fun h => absurd h (by decide), fun h => ?_⟩
      cases h.1 with
      | digit h' _ => exact absurd rfl (digit_ne_under h' hb16)
      | under h' _ => exact absurd rfl (digit_ne_under h' hb16)

/-- What `parseUint` returns, once the base and the digits are known. -/
theorem parseUint_parts {s : Bytes} (hs : s ≠ []) {base : UInt64} {t : Bytes} (hp : basePrefix s = (base, t))
    (hb : base ∈ ([2, 8, 10, 16] : List UInt64)) (n : UInt64) :
    parseUint s = .ok n ↔ ∃ ds, Loose base.toNat t ds ∧ n.toNat = valueOf base.toNat ds ∧
      ((95 : UInt8) ∈ t → underscoreOK s = true) := by
  unfold parseUint
  rw [if_neg hs, hp]
  dsimp only
  cases hl : parseUintLoop base t 0 false with
  | error e =>
    dsimp only
    constructor
    · intro h; cases h
    · rintro ⟨ds, h1, h2, h3⟩
      have := (loop_ok base hb t 0 false n _).2 ⟨ds, h1, h2, rfl⟩
      rw [hl] at this; cases this
  | ok x =>
    obtain ⟨m, u⟩ := x
    dsimp only
    obtain ⟨ds, h1, h2, h3⟩ := (loop_ok base hb t 0 false m u).1 hl
    rw [Bool.false_or] at h3
    subst h3
    constructor
    · intro h
      split at h
      · cases h
      · rename_i hu
        cases h
        refine ⟨ds, h1, h2, fun hm => ?_⟩
        by_cases ho : underscoreOK s = true
        · exact ho
        · exact absurd ⟨by simpa using hm, by simpa using ho⟩ hu
    · rintro ⟨ds', g1, g2, g3⟩
      have := (loop_ok base hb t 0 false n _).2 ⟨ds', g1, g2, rfl⟩
      rw [hl] at this
      rw [if_neg]
      · cases this; rfl
      · rintro ⟨a1, a2⟩
        rw [g3 (by simpa using a1)] at a2; cases a2

theorem digits_of {base : Nat} {t : Bytes} {ds : List Nat} (hl : Loose base t ds) {P : Prop} (hP : P ↔ Digits base t ds)
    : ((95 : UInt8) ∈ t → P) ↔ Digits base t ds := by
  refine ⟨fun h => ?_, fun h _ => hP.2 h⟩
  by_cases hm : (95 : UInt8) ∈ t
  · exact hP.1 (h hm)
  · exact hl.digits hm

theorem prefix_letter : ∀ n < 256, (lower (UInt8.ofNat n) = 98 ↔ UInt8.ofNat n = 98 ∨ UInt8.ofNat n = 66) ∧
    (lower (UInt8.ofNat n) = 111 ↔ UInt8.ofNat n = 111 ∨ UInt8.ofNat n = 79) ∧
    (lower (UInt8.ofNat n) = 120 ↔ UInt8.ofNat n = 120 ∨ UInt8.ofNat n = 88) ∧
    ((lower (UInt8.ofNat n) = 98 ∨ lower (UInt8.ofNat n) = 111 ∨ lower (UInt8.ofNat n) = 120) →
      UInt8.ofNat n ≠ 95 ∧ ∀ d, digitTable n = some d → 8 ≤ d) := by decide +kernel

theorem lower_eq (p : UInt8) : (lower p = 98 ↔ p = 98 ∨ p = 66) ∧ (lower p = 111 ↔ p = 111 ∨ p = 79) ∧
    (lower p = 120 ↔ p = 120 ∨ p = 88) ∧ ((lower p = 98 ∨ lower p = 111 ∨ lower p = 120) →
      p ≠ 95 ∧ ∀ d, digitTable p.toNat = some d → 8 ≤ d) := by
  have := prefix_letter p.toNat p.toNat_lt
  rwa [UInt8.ofNat_toNat] at this

/-- No octal digits begin with a prefix letter. -/
theorem loose_letter {p : UInt8} (h : lower p = 98 ∨ lower p = 111 ∨ lower p = 120) {s : Bytes} {ds : List Nat} :
    ¬ Loose 8 (p :: s) ds := by
  intro hl
  obtain ⟨k1, k2⟩ := (lower_eq p).2.2.2 h
  cases hl with
  | digit hd _ =>
    have := k2 _ ((digit_iff (by decide) p _).1 hd).2
    have := hd.1
    omega
  | under _ => exact k1 rfl

theorem underscoreOK_one (c : UInt8) (h : ¬ (c = 45 ∨ c = 43)) : underscoreOK [c] = underscoreLoop false [c] .start := by
  unfold underscoreOK
  simp only [if_neg h]

theorem underscoreOK_two (c p : UInt8) (cs : Bytes) (h : ¬ (c = 45 ∨ c = 43)) : underscoreOK (c :: p :: cs) =
    if c = 48 ∧ (lower p = 98 ∨ lower p = 111 ∨ lower p = 120) then underscoreLoop (lower p = 120) cs .digit
    else underscoreLoop false (c :: p :: cs) .start := by
  unfold underscoreOK
  simp only [if_neg h]

theorem parseUint_iff (s : Bytes) (n : UInt64) : parseUint s = .ok n ↔ Numeral s n.toNat := by
  cases s with
  | nil =>
    constructor
    · intro h; cases h
    · intro h; cases h
  | cons c cs =>
    by_cases hc : c = 48
    · subst hc
      by_cases hl : ∃ p d ds, cs = p :: d :: ds ∧ (lower p = 98 ∨ lower p = 111 ∨ lower p = 120)
      · obtain ⟨p, d, ds, rfl, hp⟩ := hl
        have key : ∀ (base : UInt64) (hex : Bool), basePrefix (48 :: p :: d :: ds) = (base, d :: ds) →
            base ∈ ([2, 8, 10, 16] : List UInt64) → hex = decide (lower p = 120) →
            (base.toNat ≤ 10 ∨ base.toNat = 16 ∧ hex = true) →
            (∀ b, (p, b) ∈ [((98 : UInt8), 2), (66, 2), (111, 8), (79, 8), (120, 16), (88, 16)] ↔ b = base.toNat) →
            (parseUint (48 :: p :: d :: ds) = .ok n ↔ Numeral (48 :: p :: d :: ds) n.toNat) := by
          intro base hex hbp hb hh hx hm
          rw [parseUint_parts (List.cons_ne_nil _ _) hbp hb]
          have ho : underscoreOK (48 :: p :: d :: ds) = underscoreLoop hex (d :: ds) .digit := by
            subst hh
            rw [underscoreOK_two _ _ _ (by decide), if_pos ⟨rfl, hp⟩]
          rw [ho]
          constructor
          · rintro ⟨es, h1, h2, h3⟩
            have h4 := (digits_of h1 (underscoreLoop_iff base.toNat hex hx h1).1).1 h3
            rw [h2]
            refine .prefixed ((hm _).2 rfl) h4 ?_
            rintro rfl
            cases h4
          · intro h
            generalize hs : (48 :: p :: d :: ds : Bytes) = s at h
            generalize hn : n.toNat = nn at h
            cases h with
            | decimal hd h0 h =>
              cases hs
              have := hd.2
              rcases this with ⟨_, g⟩ | ⟨_, g | g⟩
              · exact absurd g (by show ¬ 48 = _; omega)
              · exact absurd g (by show ¬ 48 = _; omega)
              · exact absurd g (by show ¬ 48 = _; have := hd.1; omega)
            | octal h =>
              cases hs
              exact absurd h.loose (loose_letter hp)
            | prefixed hp' h hne =>
              cases hs
              have := (hm _).1 hp'
              subst this
              exact ⟨_, h.loose, rfl, (digits_of h.loose (underscoreLoop_iff base.toNat hex hx h.loose).1).2 h⟩
        obtain ⟨l1, l2, l3, _⟩ := lower_eq p
        have hbp : ∀ base, (if lower p = 98 then (2, d :: ds) else if lower p = 111 then (8, d :: ds)
            else if lower p = 120 then (16, d :: ds) else (8, p :: d :: ds)) = (base, d :: ds) →
            basePrefix (48 :: p :: d :: ds) = (base, d :: ds) := by
          intro base h
          unfold basePrefix
          dsimp only
          rw [if_pos rfl]
          exact h
        rcases hp with hp | hp | hp
        · refine key 2 false (hbp 2 (by rw [if_pos hp])) (by decide) (by rw [hp]; decide) (by decide) ?_
          rcases l1.1 hp with rfl | rfl <;> simp
        · refine key 8 false (hbp 8 (by rw [if_neg (by rw [hp]; decide), if_pos hp])) (by decide) (by rw [hp]; decide) (by decide) ?_
          rcases l2.1 hp with rfl | rfl <;> simp
        · refine key 16 true (hbp 16 (by rw [if_neg (by rw [hp]; decide), if_neg (by rw [hp]; decide), if_pos hp])) (by decide)
            (by rw [hp]; decide) (by decide) ?_
          rcases l3.1 hp with rfl | rfl <;> simp
      · have hbp : basePrefix (48 :: cs) = (8, cs) := by
          unfold basePrefix
          dsimp only
          rw [if_pos rfl]
          cases cs with
          | nil => rfl
          | cons p cs =>
            cases cs with
            | nil => rfl
            | cons d ds =>
              dsimp only
              rw [if_neg fun h => hl ⟨p, d, ds, rfl, .inl h⟩, if_neg fun h => hl ⟨p, d, ds, rfl, .inr (.inl h)⟩,
                if_neg fun h => hl ⟨p, d, ds, rfl, .inr (.inr h)⟩]
        rw [parseUint_parts (List.cons_ne_nil _ _) hbp (by decide)]
        have ho : ∀ ds, Loose 8 cs ds → underscoreOK (48 :: cs) = underscoreLoop false cs .digit := by
          intro ds h
          have e : underscoreLoop false (48 :: cs) .start = underscoreLoop false cs .digit := by
            conv => lhs; unfold underscoreLoop
            rw [if_pos (.inl (by decide))]
          cases cs with
          | nil => rw [underscoreOK_one _ (by decide)]; exact e
          | cons p cs =>
            rw [underscoreOK_two _ _ _ (by decide), if_neg fun hp => loose_letter hp.2 h]
            exact e
        constructor
        · rintro ⟨ds, h1, h2, h3⟩
          rw [ho _ h1] at h3
          rw [h2]
          exact .octal ((digits_of h1 (underscoreLoop_iff 8 false (.inl (by decide)) h1).1).1 h3)
        · intro h
          generalize hs : (48 :: cs : Bytes) = s at h
          generalize hn : n.toNat = nn at h
          cases h with
          | decimal hd h0 h =>
            cases hs
            rcases hd.2 with ⟨_, g⟩ | ⟨_, g | g⟩
            · exact absurd g (by show ¬ 48 = _; omega)
            · exact absurd g (by show ¬ 48 = _; omega)
            · exact absurd g (by show ¬ 48 = _; have := hd.1; omega)
          | @octal _ ds h =>
            cases hs
            refine ⟨ds, h.loose, rfl, ?_⟩
            rw [ho _ h.loose]
            exact (digits_of h.loose (underscoreLoop_iff 8 false (.inl (by decide)) h.loose).1).2 h
          | @prefixed p base t ds hp' h hne =>
            cases hs
            exfalso
            have hp : lower p = 98 ∨ lower p = 111 ∨ lower p = 120 := by
              simp only [List.mem_cons, Prod.mk.injEq, List.not_mem_nil, or_false] at hp'
              rcases hp' with ⟨rfl, _⟩ | ⟨rfl, _⟩ | ⟨rfl, _⟩ | ⟨rfl, _⟩ | ⟨rfl, _⟩ | ⟨rfl, _⟩ <;> decide
            cases t with
            | nil => cases h; exact hne rfl
            | cons d ds => exact hl ⟨p, d, ds, rfl, hp⟩
    · have hbp : basePrefix (c :: cs) = (10, c :: cs) := by
        unfold basePrefix
        exact if_neg hc
      rw [parseUint_parts (List.cons_ne_nil _ _) hbp (by decide)]
      have ho : c ≠ 45 → c ≠ 43 → underscoreOK (c :: cs) = underscoreLoop false (c :: cs) .start := by
        intro h1 h2
        cases cs with
        | nil => exact underscoreOK_one _ fun h => h.elim h1 h2
        | cons p cs =>
          rw [underscoreOK_two _ _ _ fun h => h.elim h1 h2]
          exact if_neg fun h => hc h.1
      have hne : ∀ {d}, Digit 10 c d → c ≠ 45 ∧ c ≠ 43 ∧ ((48 ≤ c ∧ c ≤ 57) ∨ (false = true ∧ 97 ≤ lower c ∧ lower c ≤ 102)) := by
        intro d hd
        have h1 := ((digit_iff (by decide) c d).1 hd).2
        have h2 := under_digit c.toNat c.toNat_lt d h1
        rw [UInt8.ofNat_toNat] at h2
        have h3 := h2.1 hd.1
        refine ⟨?_, ?_, .inl h3⟩ <;> rintro rfl <;> exact absurd h3.1 (by decide)
      have hstep : ∀ {d}, Digit 10 c d → underscoreOK (c :: cs) = underscoreLoop false cs .digit := by
        intro d hd
        obtain ⟨g1, g2, g3⟩ := hne hd
        rw [ho g1 g2]
        conv => lhs; unfold underscoreLoop
        rw [if_pos g3]
      constructor
      · rintro ⟨ds, h1, h2, h3⟩
        cases h1 with
        | @digit _ d _ ds hd t =>
          rw [h2]
          rw [hstep hd] at h3
          refine .decimal hd ?_ ((digits_of t (underscoreLoop_iff 10 false (.inl (by decide)) t).1).1 fun hm => h3 (List.mem_cons_of_mem _ hm))
          rintro rfl
          rcases hd.2 with ⟨_, g⟩ | ⟨g, _⟩
          · exact hc (UInt8.toNat_inj.1 g)
          · omega
        | under t =>
          have := h3 List.mem_cons_self
          rw [ho (by decide) (by decide)] at this
          unfold underscoreLoop at this
          rw [if_neg (by decide), if_pos rfl, if_pos (by decide)] at this
          cases this
      · intro h
        generalize hs : (c :: cs : Bytes) = s at h
        generalize hn : n.toNat = nn at h
        cases h with
        | @decimal _ d _ ds hd h0 h =>
          cases hs
          refine ⟨d :: ds, .digit hd h.loose, rfl, fun hm => ?_⟩
          rw [hstep hd]
          refine (digits_of h.loose (underscoreLoop_iff 10 false (.inl (by decide)) h.loose).1).2 h ?_
          rcases List.mem_cons.1 hm with rfl | hm
          · exact absurd rfl (digit_ne_under hd (by decide))
          · exact hm
        | octal h => cases hs; exact absurd rfl hc
        | prefixed hp' h hne => cases hs; exact absurd rfl hc

theorem toInt_of_small (un : UInt64) (h : un.toNat < 2 ^ 63) : un.toInt64.toInt = un.toNat := LoadTest.toInt_toInt64 h

theorem toInt_neg_of_small (un : UInt64) (h : un.toNat ≤ 2 ^ 63) : (-un.toInt64).toInt = -un.toNat := by
  by_cases h' : un.toNat < 2 ^ 63
  · rw [Int64.toInt_neg, toInt_of_small un h', Int.bmod_eq_of_le (by omega) (by omega)]
  · have : un = 9223372036854775808 := UInt64.toNat_inj.1 (by show _ = 9223372036854775808; omega)
    subst this
    decide

theorem numeral_head {c : UInt8} {s : Bytes} {n : Nat} (h : Numeral (c :: s) n) : c ≠ 43 ∧ c ≠ 45 := by
  cases h with
  | decimal hd _ _ =>
    constructor
    · rintro rfl
      rcases hd.2 with ⟨_, g⟩ | ⟨_, g | g⟩
      · exact absurd g (by show ¬ 43 = _; omega)
      · exact absurd g (by show ¬ 43 = _; omega)
      · exact absurd g (by show ¬ 43 = _; omega)
    · rintro rfl
      rcases hd.2 with ⟨_, g⟩ | ⟨_, g | g⟩
      · exact absurd g (by show ¬ 45 = _; omega)
      · exact absurd g (by show ¬ 45 = _; omega)
      · exact absurd g (by show ¬ 45 = _; omega)
  | octal => decide
  | prefixed => decide

/-- Numbers that fit are read. -/
theorem parseUint_of {s : Bytes} {n : Nat} (h : Numeral s n) (hn : n < 2 ^ 64) : parseUint s = .ok (UInt64.ofNat n) := by
  rw [parseUint_iff, UInt64.toNat_ofNat_of_lt' hn]
  exact h

theorem parseSigned_iff {neg : Bool} {s : Bytes} {v : Int64} :
    parseSigned neg s = .ok v ↔ ∃ n, Numeral s n ∧ v.toInt = if neg then -(n : Int) else n := by
  unfold parseSigned
  have e63 : (9223372036854775808 : UInt64).toNat = 2 ^ 63 := by decide
  constructor
  · intro h
    split at h
    · cases h
    · rename_i un hu
      have hnum := (parseUint_iff s un).1 hu
      refine ⟨un.toNat, hnum, ?_⟩
      split at h
      · cases h
      · rename_i h1
        split at h
        · cases h
        · rename_i h2
          cases h
          rw [ge_iff_le, UInt64.le_iff_toNat_le, e63] at h1
          rw [gt_iff_lt, UInt64.lt_iff_toNat_lt, e63] at h2
          cases neg
          · simp only [true_and] at h1
            exact toInt_of_small un (by omega)
          · simp only [true_and] at h2
            exact toInt_neg_of_small un (by omega)
  · rintro ⟨n, hn, hv⟩
    have h1 := Int64.toInt_lt v
    have h2 := Int64.le_toInt v
    have hb : n < 2 ^ 64 := by cases neg <;> simp only [if_true, if_false, Bool.false_eq_true] at hv <;> omega
    rw [parseUint_of hn hb]
    dsimp only
    have c1 : ¬ (neg = false ∧ UInt64.ofNat n ≥ 9223372036854775808) := by
      rw [ge_iff_le, UInt64.le_iff_toNat_le, e63, UInt64.toNat_ofNat_of_lt' hb]
      rintro ⟨rfl, h⟩
      simp only [if_false, Bool.false_eq_true] at hv
      omega
    have c2 : ¬ (neg = true ∧ UInt64.ofNat n > 9223372036854775808) := by
      rw [gt_iff_lt, UInt64.lt_iff_toNat_lt, e63, UInt64.toNat_ofNat_of_lt' hb]
      rintro ⟨rfl, h⟩
      simp only [if_true] at hv
      omega
    rw [if_neg c1, if_neg c2]
    congr 1
    apply Int64.toInt_inj.1
    cases neg
    · simp only [if_false, Bool.false_eq_true] at hv ⊢
      rw [toInt_of_small _ (by rw [UInt64.toNat_ofNat_of_lt' hb]; omega), UInt64.toNat_ofNat_of_lt' hb, hv]
    · simp only [if_true] at hv ⊢
      rw [toInt_neg_of_small _ (by rw [UInt64.toNat_ofNat_of_lt' hb]; omega), UInt64.toNat_ofNat_of_lt' hb, hv]

theorem parseInt_iff (s : Bytes) (v : Int64) : parseInt s = .ok v ↔ SignedNumeral s v.toInt := by
  cases s with
  | nil =>
    constructor
    · intro h; cases h
    · intro h
      generalize v.toInt = x at h
      cases h with
      | plain h => cases h
  | cons c cs =>
    unfold parseInt
    dsimp only
    rw [parseSigned_iff]
    simp only [decide_eq_true_eq]
    by_cases h1 : c = 45
    · subst h1
      rw [if_pos (.inr rfl)]
      constructor
      · rintro ⟨n, hn, hv⟩
        rw [hv, if_pos rfl]
        exact .minus hn
      · intro h
        generalize hx : v.toInt = x at h
        cases h with
        | plain h => exact absurd rfl (numeral_head h).2
        | minus h => exact ⟨_, h, by rw [if_pos rfl]⟩
    · by_cases h2 : c = 43
      · subst h2
        rw [if_pos (.inl rfl)]
        constructor
        · rintro ⟨n, hn, hv⟩
          rw [hv, if_neg h1]
          exact .plus hn
        · intro h
          generalize hx : v.toInt = x at h
          cases h with
          | plain h => exact absurd rfl (numeral_head h).1
          | plus h => exact ⟨_, h, by rw [if_neg h1]⟩
      · rw [if_neg fun h => h.elim h2 h1]
        constructor
        · rintro ⟨n, hn, hv⟩
          rw [hv, if_neg h1]
          exact .plain hn
        · intro h
          generalize hx : v.toInt = x at h
          cases h with
          | plain h => exact ⟨_, h, by rw [if_neg h1]⟩
          | plus h => exact absurd rfl h2
          | minus h => exact absurd rfl h1

theorem set_iff (k : Kind) (s : Bytes) (v : Value) : k.set s = some v ↔ Denotes k s v := by
  cases k with
  | text =>
    show some (Value.text s) = some v ↔ _
    constructor
    · intro h; cases h; exact .text s
    · intro h; cases h; rfl
  | bool =>
    show (parseBool s).map Value.bool = some v ↔ _
    constructor
    · intro h
      rw [Option.map_eq_some_iff] at h
      obtain ⟨b, h1, rfl⟩ := h
      exact .bool ((Cmd.parseBool_iff s b).1 h1)
    · intro h
      cases h with
      | bool h => rw [(Cmd.parseBool_iff s _).2 h]; rfl
  | int =>
    unfold Kind.set
    constructor
    · intro h
      dsimp only at h
      split at h
      · rename_i x hx
        cases h
        exact .int ((parseInt_iff s x).1 hx)
      · cases h
    · intro h
      cases h with
      | int h => dsimp only; rw [(parseInt_iff s _).2 h]
  | uint =>
    unfold Kind.set
    constructor
    · intro h
      dsimp only at h
      split at h
      · rename_i x hx
        cases h
        exact .uint ((parseUint_iff s x).1 hx)
      · cases h
    · intro h
      cases h with
      | uint h => dsimp only; rw [(parseUint_iff s _).2 h]

/-- **C73.** What an argument means for a flag: a number flag accepts exactly the numerals of the Go language (the unsigned one without a sign)
that fit in 64 bits, with their value; a truth value flag accepts exactly the twelve words for a truth value; a text flag accepts every text. -/
theorem C73_numerals (k : Kind) (s : Bytes) (v : Value) : k.set s = some v ↔ Denotes k s v := set_iff k s v

/-! ### Reading the command line -/

open VibeCol.Cmd (Dashed Rest boolWords Plain word_dashed word_flag word_positional word_terminator cutEq_plain cutEq_append)

/-- Setting flags one after the other. -/
def setAll (os : List (Bytes × Value)) (v : Values) : Values := os.foldl (fun v o => v.set o.1 o.2) v

theorem setAll_apply (os : List (Bytes × Value)) (v : Values) (name : Bytes) :
    setAll os v name = lastOf os name (v name) := by
  unfold setAll lastOf
  induction os generalizing v with
  | nil => rfl
  | cons o os ih =>
    rw [List.foldl_cons, ih, List.reverse_cons, List.lookup_append]
    cases os.reverse.lookup name with
    | some x => rfl
    | none =>
      obtain ⟨k, x⟩ := o
      simp only [Option.getD_none, Option.none_or, Values.set, List.lookup_cons, List.lookup_nil]
      by_cases h : name = k
      · simp [h]
      · rw [if_neg h, show (name == k) = false by simpa using h]; rfl

/-- `kind` describes these flags. -/
structure FlagsOf (kind : Bytes → Option Kind) (flags : List (Bytes × Kind)) : Prop where
  kind : ∀ n k, kind n = some k ↔ (n, k) ∈ flags
  plain : ∀ n k, (n, k) ∈ flags → Plain n

theorem kind_of_list (flags : List (Bytes × Kind)) (hn : (flags.map Prod.fst).Nodup) (n : Bytes) (k : Kind) :
    flags.lookup n = some k ↔ (n, k) ∈ flags := by
  induction flags with
  | nil => simp
  | cons a l ih =>
    obtain ⟨m, j⟩ := a
    rw [List.map_cons, List.nodup_cons] at hn
    rw [List.lookup_cons, List.mem_cons, Prod.mk.injEq]
    by_cases h : n = m
    · subst h
      rw [beq_self_eq_true]
      constructor
      · intro e; cases e; exact .inl ⟨rfl, rfl⟩
      · rintro (⟨_, rfl⟩ | h)
        · rfl
        · exact absurd (List.mem_map_of_mem (f := Prod.fst) h) hn.1
    · rw [show (n == m) = false by simpa using h]
      dsimp only
      rw [ih hn.2]
      exact ⟨.inr, fun h' => h'.resolve_left fun e => h e.1⟩

theorem importKind_lookup (n : Bytes) : importKind n = importFlags.lookup n := by
  unfold importKind importFlags
  simp only [List.lookup_cons, List.lookup_nil]
  by_cases h1 : n = str "n"
  · subst h1; rfl
  by_cases h2 : n = str "block-size"
  · subst h2; decide
  by_cases h3 : n = str "file"
  · subst h3; decide
  by_cases h4 : n = str "seed"
  · subst h4; decide
  by_cases h5 : n = str "max-value"
  · subst h5; decide
  by_cases h6 : n = str "max-id"
  · subst h6; decide
  rw [if_neg (by simp [h1, h2, h4, h5]), if_neg h6, if_neg h3]
  simp only [beq_false_of_ne h1, beq_false_of_ne h2, beq_false_of_ne h3, beq_false_of_ne h4, beq_false_of_ne h5, beq_false_of_ne h6]

theorem aggregateKind_lookup (n : Bytes) : aggregateKind n = aggregateFlags.lookup n := by
  unfold aggregateKind aggregateFlags
  simp only [List.lookup_cons, List.lookup_nil]
  by_cases h1 : n = str "file"
  · subst h1; decide
  by_cases h2 : n = str "skip-cache"
  · subst h2; decide
  by_cases h3 : n = str "parallel"
  · subst h3; decide
  rw [if_neg h1, if_neg h2, if_neg h3]
  simp only [beq_false_of_ne h1, beq_false_of_ne h2, beq_false_of_ne h3]

theorem import_flagsOf : FlagsOf importKind importFlags where
  kind n k := by rw [importKind_lookup]; exact kind_of_list _ (by decide) n k
  plain n k h := by
    simp only [importFlags, List.mem_cons, Prod.mk.injEq, List.not_mem_nil, or_false] at h
    rcases h with ⟨rfl, _⟩ | ⟨rfl, _⟩ | ⟨rfl, _⟩ | ⟨rfl, _⟩ | ⟨rfl, _⟩ | ⟨rfl, _⟩ <;> decide

theorem aggregate_flagsOf : FlagsOf aggregateKind aggregateFlags where
  kind n k := by rw [aggregateKind_lookup]; exact kind_of_list _ (by decide) n k
  plain n k h := by
    simp only [aggregateFlags, List.mem_cons, Prod.mk.injEq, List.not_mem_nil, or_false] at h
    rcases h with ⟨rfl, _⟩ | ⟨rfl, _⟩ | ⟨rfl, _⟩ <;> decide

theorem lparse_rest {kind : Bytes → Option Kind} {rest : List Bytes} (h : Rest rest) (v : Values) :
    ∃ left, parse kind rest v = .ok (v, left) := by
  cases h with
  | nil => exact ⟨_, rfl⟩
  | dashes args => exact ⟨args, by unfold parse; rw [(word_terminator _).mpr rfl]⟩
  | word s args h => exact ⟨s :: args, by unfold parse; rw [(word_positional _).mpr h]⟩

theorem lparse_prefix {kind : Bytes → Option Kind} {flags : List (Bytes × Kind)} (hf : FlagsOf kind flags)
    {opts : List Bytes} {os : List (Bytes × Value)} (h : Options flags opts os) (rest : List Bytes)
    (v : Values) : parse kind (opts ++ rest) v = parse kind rest (setAll os v) := by
  induction h generalizing v with
  | nil => rfl
  | @separate name d value k x args os hn hk hd hv _ ih =>
    refine Eq.trans ?_ (ih (v.set name x))
    generalize hz : parse kind (args ++ rest) (v.set name x) = z
    rw [List.cons_append, List.cons_append]
    unfold parse
    rw [Cmd.word_plain (hf.plain _ _ hn) hd]
    simp only [(hf.kind _ _).mpr hn, if_neg hk, (set_iff _ _ _).2 hv]
    exact hz
  | @joined name d value k x args os hn hd hv _ ih =>
    refine Eq.trans ?_ (ih (v.set name x))
    generalize hz : parse kind (args ++ rest) (v.set name x) = z
    rw [List.cons_append]
    unfold parse
    rw [Cmd.word_value (hf.plain _ _ hn) hd]
    simp only [(hf.kind _ _).mpr hn, (set_iff _ _ _).2 hv]
    exact hz
  | @switch name d args os hn hd _ ih =>
    refine Eq.trans ?_ (ih (v.set name (.bool true)))
    generalize hz : parse kind (args ++ rest) (v.set name (.bool true)) = z
    rw [List.cons_append]
    unfold parse
    rw [Cmd.word_plain (hf.plain _ _ hn) hd]
    simp only [(hf.kind _ _).mpr hn, if_true]
    exact hz

theorem lparse_options {kind : Bytes → Option Kind} {flags : List (Bytes × Kind)} (hf : FlagsOf kind flags)
    {opts : List Bytes} {os : List (Bytes × Value)} (h : Options flags opts os) {rest : List Bytes} (hr : Rest rest)
    (v : Values) : ∃ left, parse kind (opts ++ rest) v = .ok (setAll os v, left) := by
  rw [lparse_prefix hf h]
  exact lparse_rest hr _

theorem lparse_helped {kind : Bytes → Option Kind} {flags : List (Bytes × Kind)} (hf : FlagsOf kind flags) (n : Nat)
    (args : List Bytes) (hlen : args.length ≤ n) (v : Values) (h : parse kind args v = .error .help) : Help flags args := by
  induction n generalizing args v with
  | zero =>
    match args, hlen with
    | [], _ => unfold parse at h; cases h
  | succ n ih =>
    match args with
    | [] => unfold parse at h; cases h
    | s :: args =>
      unfold parse at h
      split at h
      · cases h
      · cases h
      · cases h
      · rename_i name value hw
        obtain ⟨d, hd, hs⟩ := word_flag hw
        split at h
        · split at h
          · rename_i hn
            exact ⟨[], [], s, args, rfl, .nil, Cmd.word_help.mpr ⟨name, value, hw, hn⟩⟩
          · cases h
        · rename_i k hk
          have hn := (hf.kind _ _).mp hk
          split at h
          · rename_i x
            split at h
            · cases h
            · rename_i y hy
              obtain ⟨opts, os, t, rest, h1, h2, h3⟩ := ih args (by simp at hlen; omega) _ h
              rcases hs with ⟨hx, _⟩ | ⟨z, hz, rfl⟩
              · cases hx
              · cases hz
                subst h1
                exact ⟨_, _, t, rest, rfl, .joined hn hd ((set_iff _ _ _).1 hy) h2, h3⟩
          · split at h
            · rename_i hb
              subst hb
              obtain ⟨opts, os, t, rest, h1, h2, h3⟩ := ih args (by simp at hlen; omega) _ h
              rcases hs with ⟨_, rfl⟩ | ⟨z, hz, _⟩
              · subst h1
                exact ⟨_, _, t, rest, rfl, .switch hn hd h2, h3⟩
              · cases hz
            · rename_i hb
              split at h
              · cases h
              · rename_i x args
                split at h
                · cases h
                · rename_i y hy
                  obtain ⟨opts, os, t, rest, h1, h2, h3⟩ := ih args (by simp at hlen; omega) _ h
                  rcases hs with ⟨_, rfl⟩ | ⟨z, hz, _⟩
                  · subst h1
                    exact ⟨_, _, t, rest, rfl, .separate hn hb hd ((set_iff _ _ _).1 hy) h2, h3⟩
                  · cases hz

/-- The parser reports a request for help exactly if there is one. -/
theorem lparse_help {kind : Bytes → Option Kind} {flags : List (Bytes × Kind)} (hf : FlagsOf kind flags)
    (hh : kind (str "h") = none ∧ kind (str "help") = none) (args : List Bytes) (v : Values) :
    parse kind args v = .error .help ↔ Help flags args := by
  constructor
  · exact lparse_helped hf _ args (Nat.le_refl _) v
  · rintro ⟨opts, os, s, rest, rfl, h1, h2⟩
    obtain ⟨name, value, hw, hn⟩ := Cmd.word_help.mp h2
    rw [lparse_prefix hf h1]
    unfold parse
    rw [hw]
    have hk : kind name = none := by rcases hn with rfl | rfl <;> [exact hh.2; exact hh.1]
    simp only [hk, if_pos hn]

theorem lparse_ok {kind : Bytes → Option Kind} {flags : List (Bytes × Kind)} (hf : FlagsOf kind flags) (n : Nat)
    (args : List Bytes) (hlen : args.length ≤ n) (v v' : Values) (left : List Bytes) (h : parse kind args v = .ok (v', left)) :
    ∃ os, Sets flags args os ∧ v' = setAll os v := by
  induction n generalizing args v with
  | zero =>
    match args, hlen with
    | [], _ =>
      unfold parse at h
      cases h
      exact ⟨[], ⟨[], [], rfl, .nil, .nil⟩, rfl⟩
  | succ n ih =>
    match args with
    | [] =>
      unfold parse at h
      cases h
      exact ⟨[], ⟨[], [], rfl, .nil, .nil⟩, rfl⟩
    | s :: args =>
      unfold parse at h
      split at h
      · rename_i hw
        cases h
        exact ⟨[], ⟨[], _, rfl, .nil, .word s args ((word_positional s).mp hw)⟩, rfl⟩
      · rename_i hw
        cases h
        rw [word_terminator] at hw
        subst hw
        exact ⟨[], ⟨[], _, rfl, .nil, .dashes _⟩, rfl⟩
      · cases h
      · rename_i name value hw
        obtain ⟨d, hd, hs⟩ := word_flag hw
        split at h
        · cases h
        · rename_i k hk
          have hn := (hf.kind _ _).mp hk
          split at h
          · rename_i x
            split at h
            · cases h
            · rename_i y hy
              obtain ⟨os, ⟨opts, rest, h1, h2, h3⟩, h4⟩ := ih args (by simp at hlen; omega) _ h
              rcases hs with ⟨hx, _⟩ | ⟨z, hz, rfl⟩
              · cases hx
              · cases hz
                subst h1
                exact ⟨_, ⟨_, rest, rfl, .joined hn hd ((set_iff _ _ _).1 hy) h2, h3⟩, h4⟩
          · split at h
            · rename_i hb
              subst hb
              obtain ⟨os, ⟨opts, rest, h1, h2, h3⟩, h4⟩ := ih args (by simp at hlen; omega) _ h
              rcases hs with ⟨_, rfl⟩ | ⟨z, hz, _⟩
              · subst h1
                exact ⟨_, ⟨_, rest, rfl, .switch hn hd h2, h3⟩, h4⟩
              · cases hz
            · rename_i hb
              split at h
              · cases h
              · rename_i x args
                split at h
                · cases h
                · rename_i y hy
                  obtain ⟨os, ⟨opts, rest, h1, h2, h3⟩, h4⟩ := ih args (by simp at hlen; omega) _ h
                  rcases hs with ⟨_, rfl⟩ | ⟨z, hz, _⟩
                  · subst h1
                    exact ⟨_, ⟨_, rest, rfl, .separate hn hb hd ((set_iff _ _ _).1 hy) h2, h3⟩, h4⟩
                  · cases hz

theorem lparse_iff {kind : Bytes → Option Kind} {flags : List (Bytes × Kind)} (hf : FlagsOf kind flags)
    (args : List Bytes) (v v' : Values) :
    (∃ left, parse kind args v = .ok (v', left)) ↔ ∃ os, Sets flags args os ∧ v' = setAll os v := by
  constructor
  · rintro ⟨left, h⟩
    exact lparse_ok hf _ args (Nat.le_refl _) v v' left h
  · rintro ⟨os, ⟨opts, rest, rfl, h1, h2⟩, rfl⟩
    exact lparse_options hf h1 h2 v

/-- The value has this kind. -/
def Value.Is : Value → Kind → Prop
  | .text _, .text => True
  | .bool _, .bool => True
  | .int _, .int => True
  | .uint _, .uint => True
  | _, _ => False

/-- The last value of a flag has its kind. -/
theorem lastOf_is {flags : List (Bytes × Kind)} {kind : Bytes → Option Kind} (hf : FlagsOf kind flags) {opts : List Bytes}
    {os : List (Bytes × Value)} (h : Options flags opts os) {name : Bytes} {k : Kind} (hn : (name, k) ∈ flags) {d : Value} (hd : d.Is k) :
    (lastOf os name d).Is k := by
  have den : ∀ {k : Kind} {s : Bytes} {v : Value}, Denotes k s v → v.Is k := by
    intro k s v h
    cases h <;> trivial
  have uniq : ∀ {j : Kind}, (name, j) ∈ flags → j = k := by
    intro j hj
    have := (hf.kind _ _).2 hj
    rw [(hf.kind _ _).2 hn] at this
    exact (Option.some.inj this).symm
  have key : ∀ p ∈ os, p.1 = name → p.2.Is k := by
    induction h with
    | nil => intro p hp; cases hp
    | separate hm _ _ hv _ ih | joined hm _ hv _ ih =>
      intro p hp
      rcases List.mem_cons.mp hp with rfl | hp
      · intro e
        subst e
        rw [← uniq hm]
        exact den hv
      · exact ih p hp
    | switch hm _ _ ih =>
      intro p hp
      rcases List.mem_cons.mp hp with rfl | hp
      · intro e
        subst e
        rw [← uniq hm]
        trivial
      · exact ih p hp
  unfold lastOf
  cases hl : os.reverse.lookup name with
  | none => exact hd
  | some x =>
    obtain ⟨l1, l2, he, _⟩ := List.lookup_eq_some_iff.mp hl
    exact key (name, x) (by rw [← List.mem_reverse, he]; simp) rfl

theorem Value.Is.text {v : Value} (h : v.Is .text) : ∃ s, v = .text s := by cases v <;> first | exact ⟨_, rfl⟩ | exact h.elim
theorem Value.Is.bool {v : Value} (h : v.Is .bool) : ∃ s, v = .bool s := by cases v <;> first | exact ⟨_, rfl⟩ | exact h.elim
theorem Value.Is.int {v : Value} (h : v.Is .int) : ∃ s, v = .int s := by cases v <;> first | exact ⟨_, rfl⟩ | exact h.elim
theorem Value.Is.uint {v : Value} (h : v.Is .uint) : ∃ s, v = .uint s := by cases v <;> first | exact ⟨_, rfl⟩ | exact h.elim

section
variable {B : Type} [Bitmap B]

theorem main_import {w : World} {fs : Files} {args : List Bytes} {a : ImportArgs} (h : AsksImport w.now args a) :
    main B w fs args = runImport B w fs a.num a.blockSize a.file a.seed a.maxValue a.maxID := by
  obtain ⟨args', os, rfl, hs, h1, h2, h3, h4, h5, h6⟩ := h
  obtain ⟨left, hp⟩ := (lparse_iff import_flagsOf args' (importDefaults w.now) _).mpr ⟨os, hs, rfl⟩
  unfold main
  simp only [if_true, hp]
  have i : ∀ {name x}, lastOf os name (importDefaults w.now name) = .int x → (setAll os (importDefaults w.now)).int name = x := by
    intro name x h
    unfold Values.int
    rw [setAll_apply, h]
  rw [i (name := str "n") (x := a.num) h1, i (name := str "block-size") (x := a.blockSize) h2, i (name := str "seed") (x := a.seed) h4,
    i (name := str "max-value") (x := a.maxValue) h5]
  congr 1
  · unfold Values.string
    rw [setAll_apply, show importDefaults w.now (str "file") = .text (str "loadtest.col") from by rfl, h3]
  · unfold Values.uint
    rw [setAll_apply, show importDefaults w.now (str "max-id") = .uint 20000000 from by rfl, h6]

theorem main_aggregate {w : World} {fs : Files} {args : List Bytes} {file : Bytes} {skip : Bool} {par : Int64}
    (h : AsksAggregate args file skip par) : main B w fs args = runAggregate B w fs file skip par := by
  obtain ⟨args', os, rfl, hs, h1, h2, h3⟩ := h
  obtain ⟨left, hp⟩ := (lparse_iff aggregate_flagsOf args' aggregateDefaults _).mpr ⟨os, hs, rfl⟩
  unfold main
  simp only [hp]
  rw [if_neg (by decide), if_pos trivial]
  unfold Values.string Values.bool Values.int
  simp only [setAll_apply]
  rw [show aggregateDefaults (str "file") = .text (str "loadtest.col") from by rfl, h1,
    show aggregateDefaults (str "skip-cache") = .bool true from by rfl, h2, show aggregateDefaults (str "parallel") = .int 0 from by rfl, h3]

/-- **C73.** Every command line is an `import` command, an `aggregate` command, or is rejected: then it touches no file, and its status is
0 if it asks for help, 1 if it does not begin with one of the two commands, otherwise 2. -/
theorem C73_commands (now : Int64) (args : List Bytes) :
    (∃ a, AsksImport now args a) ∨ (∃ f skip par, AsksAggregate args f skip par) ∨
      ∀ (w : World), w.now = now → ∀ fs : Files, ∃ stop, main B w fs args = ⟨stop, fs⟩ ∧
        (stop.status = 0 ↔ AsksHelp args) ∧
        (stop.status = 1 ↔ args.head? ≠ some (str "import") ∧ args.head? ≠ some (str "aggregate")) ∧ stop.status ≤ 2 := by
  have noHelp : ∀ {c : Bytes} {args : List Bytes}, c ≠ str "import" → c ≠ str "aggregate" → ¬ AsksHelp (c :: args) := by
    rintro c args hw hr ⟨args', ⟨e, _⟩ | ⟨e, _⟩⟩
    · cases e; exact hw rfl
    · cases e; exact hr rfl
  match args with
  | [] =>
    refine .inr (.inr fun _ _ _ => ⟨_, rfl, ?_, by simp [End.status], by simp [End.status]⟩)
    refine ⟨fun h => (by simp [End.status] at h), ?_⟩
    rintro ⟨args', ⟨e, _⟩ | ⟨e, _⟩⟩ <;> cases e
  | command :: args =>
    by_cases hw : command = str "import"
    · subst hw
      cases hp : parse importKind args (importDefaults now) with
      | error e =>
        have hh : e = .help ↔ AsksHelp (str "import" :: args) := by
          have h := lparse_help import_flagsOf (by decide) args (importDefaults now)
          rw [hp] at h
          constructor
          · rintro rfl
            exact ⟨args, .inl ⟨rfl, h.mp rfl⟩⟩
          · rintro ⟨args', ⟨e', h'⟩ | ⟨e', _⟩⟩
            · cases e'
              have := h.mpr h'
              injection this
            · exact absurd (List.cons.inj e').1 (by decide)
        refine .inr (.inr fun w hnow fs => ⟨.flags e, ?_, ?_, ?_, ?_⟩)
        · unfold main
          simp only [if_true, hnow, hp]
        · rw [← hh]
          cases e <;> simp [End.status]
        · cases e <;> simp [End.status]
        · cases e <;> simp [End.status]
      | ok x =>
        obtain ⟨v, left⟩ := x
        obtain ⟨os, hs, rfl⟩ := (lparse_iff import_flagsOf args (importDefaults now) v).mp ⟨left, hp⟩
        obtain ⟨opts, rest, h1, h2, h3⟩ := hs
        obtain ⟨a1, e1⟩ := (lastOf_is import_flagsOf h2 (name := str "n") (k := .int) (by decide) (d := .int 10000000) trivial).int
        obtain ⟨a2, e2⟩ := (lastOf_is import_flagsOf h2 (name := str "block-size") (k := .int) (by decide) (d := .int 10000) trivial).int
        obtain ⟨a3, e3⟩ := (lastOf_is import_flagsOf h2 (name := str "file") (k := .text) (by decide) (d := .text (str "loadtest.col")) trivial).text
        obtain ⟨a4, e4⟩ := (lastOf_is import_flagsOf h2 (name := str "seed") (k := .int) (by decide) (d := .int now) trivial).int
        obtain ⟨a5, e5⟩ := (lastOf_is import_flagsOf h2 (name := str "max-value") (k := .int) (by decide) (d := .int 1000000) trivial).int
        obtain ⟨a6, e6⟩ := (lastOf_is import_flagsOf h2 (name := str "max-id") (k := .uint) (by decide) (d := .uint 20000000) trivial).uint
        exact .inl ⟨⟨a1, a2, a3, a4, a5, a6⟩, args, os, rfl, ⟨opts, rest, h1, h2, h3⟩, e1, e2, e3, e4, e5, e6⟩
    · by_cases hr : command = str "aggregate"
      · subst hr
        cases hp : parse aggregateKind args aggregateDefaults with
        | error e =>
          have hh : e = .help ↔ AsksHelp (str "aggregate" :: args) := by
            have h := lparse_help aggregate_flagsOf (by decide) args aggregateDefaults
            rw [hp] at h
            constructor
            · rintro rfl
              exact ⟨args, .inr ⟨rfl, h.mp rfl⟩⟩
            · rintro ⟨args', ⟨e', _⟩ | ⟨e', h'⟩⟩
              · exact absurd (List.cons.inj e').1 (by decide)
              · cases e'
                have := h.mpr h'
                injection this
          refine .inr (.inr fun w hnow fs => ⟨.flags e, ?_, ?_, ?_, ?_⟩)
          · unfold main
            simp only [hw, if_false, if_true, hp]
          · rw [← hh]
            cases e <;> simp [End.status]
          · cases e <;> simp [End.status]
          · cases e <;> simp [End.status]
        | ok x =>
          obtain ⟨v, left⟩ := x
          obtain ⟨os, hs, rfl⟩ := (lparse_iff aggregate_flagsOf args aggregateDefaults v).mp ⟨left, hp⟩
          obtain ⟨opts, rest, h1, h2, h3⟩ := hs
          obtain ⟨a1, e1⟩ := (lastOf_is aggregate_flagsOf h2 (name := str "file") (k := .text) (by decide) (d := .text (str "loadtest.col")) trivial).text
          obtain ⟨a2, e2⟩ := (lastOf_is aggregate_flagsOf h2 (name := str "skip-cache") (k := .bool) (by decide) (d := .bool true) trivial).bool
          obtain ⟨a3, e3⟩ := (lastOf_is aggregate_flagsOf h2 (name := str "parallel") (k := .int) (by decide) (d := .int 0) trivial).int
          exact .inr (.inl ⟨a1, a2, a3, args, os, rfl, ⟨opts, rest, h1, h2, h3⟩, e1, e2, e3⟩)
      · refine .inr (.inr fun w _ fs => ⟨.badCommand, ?_, ?_, by simp [End.status, hw, hr], by simp [End.status]⟩)
        · unfold main
          simp only [hw, hr, if_false]
        · exact ⟨fun h => (by simp [End.status] at h), fun h => absurd h (noHelp hw hr)⟩

/-- `loadtest import -n 010 -h` asks for help, `loadtest import -n 08 -h` does not: `08` is no number. -/
example : AsksHelp [str "import", str "-n", str "010", str "-h"] ∧ ¬ AsksHelp [str "import", str "-n", str "08", str "-h"] := by
  have h1 : (match parse importKind [str "-n", str "010", str "-h"] (importDefaults 0) with | .error .help => true | _ => false) = true := by
    decide
  have h2 : (match parse importKind [str "-n", str "08", str "-h"] (importDefaults 0) with | .error .badValue => true | _ => false) = true := by
    decide
  constructor
  · refine ⟨_, .inl ⟨rfl, (lparse_help import_flagsOf (by decide) _ (importDefaults 0)).mp ?_⟩⟩
    generalize parse importKind _ _ = x at h1 ⊢
    split at h1
    · rfl
    · cases h1
  · rintro ⟨args', ⟨e, h⟩ | ⟨e, _⟩⟩
    · cases e
      rw [(lparse_help import_flagsOf (by decide) _ (importDefaults 0)).mpr h] at h2
      cases h2
    · exact absurd (List.cons.inj e).1 (by decide)

/-- A command line asks for one import only. -/
theorem asksImport_unique {now : Int64} {args : List Bytes} {a a' : ImportArgs} (h : AsksImport now args a) (h' : AsksImport now args a') :
    a = a' := by
  obtain ⟨args1, os, rfl, hs, h1, h2, h3, h4, h5, h6⟩ := h
  obtain ⟨args2, os', he, hs', g1, g2, g3, g4, g5, g6⟩ := h'
  cases he
  obtain ⟨left, hp⟩ := (lparse_iff import_flagsOf args1 (importDefaults now) _).mpr ⟨os, hs, rfl⟩
  obtain ⟨left', hp'⟩ := (lparse_iff import_flagsOf args1 (importDefaults now) _).mpr ⟨os', hs', rfl⟩
  rw [hp] at hp'
  have e : setAll os (importDefaults now) = setAll os' (importDefaults now) := by injection hp' with e; injection e
  have key : ∀ name d x y, importDefaults now name = d → lastOf os name d = x → lastOf os' name d = y → x = y := by
    intro name d x y hd hx hy
    rw [← hx, ← hy, ← hd, ← setAll_apply, ← setAll_apply, e]
  have i1 := key (str "n") _ _ _ (by rfl) h1 g1
  have i2 := key (str "block-size") _ _ _ (by rfl) h2 g2
  have i3 := key (str "file") _ _ _ (by rfl) h3 g3
  have i4 := key (str "seed") _ _ _ (by rfl) h4 g4
  have i5 := key (str "max-value") _ _ _ (by rfl) h5 g5
  have i6 := key (str "max-id") _ _ _ (by rfl) h6 g6
  cases a; cases a'
  simp_all

/-- **C73.** A command changes no file except the one an `import` command names, and only if its directory and the file can be created. -/
theorem C73_untouched {w : World} {fs : Files} {args : List Bytes} {name : Bytes} (h : (main B w fs args).files name ≠ fs name) :
    w.directory name = true ∧ w.creatable name = true ∧ ∃ a, AsksImport w.now args a ∧ a.file = name := by
  rcases C73_commands (B := B) w.now args with ⟨a, ha⟩ | ⟨f, skip, par, hr⟩ | hx
  · rw [main_import ha] at h
    unfold runImport at h
    split at h
    · exact absurd rfl h
    · rename_i hd
      split at h
      · exact absurd rfl h
      · rename_i hc
        have hn : name = a.file := by
          apply Classical.byContradiction
          intro hne
          split at h <;> exact h (if_neg hne)
        subst hn
        exact ⟨by simpa using hd, by simpa using hc, a, ha, rfl⟩
  · rw [main_aggregate hr] at h
    unfold runAggregate at h
    split at h
    · exact absurd rfl h
    · split at h
      · exact absurd rfl h
      · split at h
        · exact absurd rfl h
        · exact absurd rfl h
        · split at h <;> exact absurd rfl h
  · obtain ⟨stop, he, _⟩ := hx w rfl fs
    rw [he] at h
    exact absurd rfl h

/-- The same for a series of commands. -/
theorem lsession_untouched {name : Bytes} (cmds : List (World × List Bytes))
    (h : ∀ c ∈ cmds, ∀ a, AsksImport c.1.now c.2 a → a.file ≠ name) (fs : Files) : session B cmds fs name = fs name := by
  induction cmds generalizing fs with
  | nil => rfl
  | cons c cs ih =>
    obtain ⟨w, args⟩ := c
    unfold session
    rw [ih fun c hc => h c (List.mem_cons_of_mem _ hc)]
    apply Classical.byContradiction
    intro hne
    obtain ⟨_, _, a, ha, hf⟩ := C73_untouched hne
    exact h _ (List.mem_cons_self ..) a ha hf

theorem batches_unique {g : Rng} {mv : Int64} {mi : UInt64} {n k : Nat} {bs bs' : List (List UInt64 × List Int64)} {m k1 k2 : Nat}
    (h : Batches g mv mi n k bs m k1) (hm : m = 0) (h' : Batches g mv mi n k bs' 0 k2) : bs = bs' ∧ k1 = k2 := by
  induction h generalizing bs' with
  | nil =>
    subst hm
    cases h' with
    | nil => exact ⟨rfl, rfl⟩
    | cons hn _ _ => omega
  | cons hn hb t ih =>
    cases h' with
    | nil => omega
    | cons hn' hb' t' =>
      rw [hb] at hb'
      cases hb'
      obtain ⟨e1, e2⟩ := ih hm t'
      exact ⟨by rw [e1], e2⟩

variable [LawfulBitmap B]

/-- The totals, whatever the size of the file; and its size. -/
theorem import_counts {env : Env} (hs : LawfulSort env.sort) {g : Rng} {num bs mv : Int64} {mi : UInt64} {v i : Nat}
    {sw : SimpleWriter B} (h : LoadTest.runImport env g num bs mv mi = (.done v i, some sw)) :
    v = num.toInt.toNat ∧ i = num.toInt.toNat := by
  obtain ⟨sw0, h0, h1⟩ := LoadTest.runImport_eq h
  obtain ⟨batches, k, hb, hv, hi, hrun⟩ := LoadTest.importLoop_done env g mv mi _ _ _ _ h1
  have H : SWHistory B env (LoadTest.options bs) (LoadTest.writes batches ++ [.close])
    (LoadTest.succeeded (LoadTest.writes batches ++ [.close])) sw := ⟨sw0, h0, hrun⟩
  have hclose : (SWCall.close, Except.ok ()) ∈ LoadTest.succeeded (LoadTest.writes batches ++ [.close]) := by simp [LoadTest.succeeded]
  have hacc := LoadTest.accepted_succeeded batches [.close] (.inr rfl)
  have hacct := (C21_accounting hs H (LoadTest.options_enc bs) hb.bounded (LoadTest.noIOError_succeeded _)).2.2 hclose
  have hn := hb.split.1
  rw [hacc] at hacct
  exact ⟨by omega, by omega⟩

theorem import_small {env : Env} (hs : LawfulSort env.sort) {g : Rng} {num bs mv : Int64} {mi : UInt64} {v i : Nat}
    {sw : SimpleWriter B} (h : LoadTest.runImport env g num bs mv mi = (.done v i, some sw)) (hfew : num.toInt ≤ 7 * 10 ^ 7)
    (hbuf : ∀ L : List UInt64, L.length = num.toInt.toNat → (Bitmap.toBuffer (L.foldl Bitmap.set (Bitmap.empty : B))).length < 2 ^ 32) :
    sw.writer.file.bytes.length ≤ maxFileSize := by
  obtain ⟨sw0, h0, h1⟩ := LoadTest.runImport_eq h
  obtain ⟨batches, k, hb, hv, hi, hrun⟩ := LoadTest.importLoop_done env g mv mi _ _ _ _ h1
  have H : SWHistory B env (LoadTest.options bs) (LoadTest.writes batches ++ [.close])
    (LoadTest.succeeded (LoadTest.writes batches ++ [.close])) sw := ⟨sw0, h0, hrun⟩
  have hclose : (SWCall.close, Except.ok ()) ∈ LoadTest.succeeded (LoadTest.writes batches ++ [.close]) := by simp [LoadTest.succeeded]
  have hacc := LoadTest.accepted_succeeded batches [.close] (.inr rfl)
  have hn := hb.split.1
  have hlen : (accepted (LoadTest.succeeded (LoadTest.writes batches ++ [.close]))).flatten.length = num.toInt.toNat := by
    rw [hacc]; omega
  obtain ⟨r, stored, _, hst, _, hsz, _⟩ := C20_sized hs H (LoadTest.options_enc bs) hb.bounded (LoadTest.noIOError_succeeded _) hclose
    (by omega) (by rw [hlen]; exact hbuf)
  have hb2 := hbuf (stored.flatten.map Prod.fst) (by rw [List.length_map, hst.perm.length_eq, hlen])
  have : (Bitmap.toBuffer (bitmapOfPairs B stored.flatten)).length < 2 ^ 32 := hb2
  have hm : maxFileSize = 4096 * 76695844 := rfl
  rw [hm]
  omega

/-- **C73.** If an `import` command, however its flags are written, ends with status 0, then it reports as many values generated and
written as it was asked for, and after any further commands none of which imports to the same file, every `aggregate` command for that
file, with any schedule, ends by reporting the exact count, minimum, maximum, sum and average of the values generated from the seed, and by
finding all of them in its full scan. -/
theorem C73_session {w : World} {fs : Files} {args : List Bytes} {a : ImportArgs} (h : AsksImport w.now args a)
    (hsort : LawfulSort w.env.sort) (hg : (w.rng a.seed).Lawful) (hs : (main B w fs args).stop.status = 0) :
    (main B w fs args).stop = .import (.done a.num.toInt.toNat a.num.toInt.toNat) ∧
    ∃ bytes, (main B w fs args).files a.file = some bytes ∧
      (bytes.length ≤ maxFileSize → ∃ batches k, Batches (w.rng a.seed) a.maxValue a.maxID a.num.toInt.toNat 0 batches 0 k ∧
        ∀ cmds : List (World × List Bytes), (∀ c ∈ cmds, ∀ a', AsksImport c.1.now c.2 a' → a'.file ≠ a.file) →
        ∀ (w' : World) (rargs : List Bytes) (skip : Bool) (par : Int64), AsksAggregate rargs a.file skip par → w'.openable a.file = true →
          w'.sched.Fair → (skip = true ∨ a.maxValue.toInt ≤ 2 ^ 35) →
          ∃ rep, main B w' (session B cmds (main B w fs args).files) rargs = ⟨.report rep, session B cmds (main B w fs args).files⟩ ∧
            rep.version = 1 ∧ rep.encoding = encVarIntBoth ∧ rep.result.count = a.num.toInt.toNat ∧
            IsAggregate rep.result ((LoadTest.pairs batches).flatten.map Prod.snd) ∧ rep.scanned.toInt = a.num.toInt.toNat ∧
            rep.workers = (if par = 0 then none else some (if par < 0 then (w'.sched.gomaxprocs : Int) else par.toInt))) := by
  rw [main_import h] at hs ⊢
  unfold runImport at hs ⊢
  split at hs
  · cases hs
  · rename_i hd
    rw [if_neg hd]
    split at hs
    · cases hs
    · rename_i hc
      rw [if_neg hc]
      cases hrun : LoadTest.runImport (B := B) w.env (w.rng a.seed) a.num a.blockSize a.maxValue a.maxID with
      | mk e out =>
        rw [hrun] at hs
        cases out with
        | none =>
          exfalso
          unfold LoadTest.runImport at hrun
          split at hrun
          · cases hrun; cases hs
          · cases hrun
        | some sw =>
          dsimp only at hs ⊢
          cases e with
          | failed e => cases hs
          | panicked => cases hs
          | done v i =>
            have hfile : fs.put a.file sw.writer.file.bytes a.file = some sw.writer.file.bytes := if_pos rfl
            have hvi := import_counts hsort hrun
            refine ⟨by rw [hvi.1, hvi.2], _, hfile, fun hsize => ?_⟩
            obtain ⟨_, _, batches, k, hb, _⟩ := LoadTest.C54_import hsort hrun hsize
            refine ⟨batches, k, hb, fun cmds hcmds w' rargs skip par hr hop hfair hmv => ?_⟩
            obtain ⟨batches', k', rep, hb', hrep, g1, g2, g3, g4, g5, g6⟩ :=
              LoadTest.C55_aggregate hsort hg hrun hsize w'.sched hfair skip par.toInt hmv
            obtain ⟨rfl, rfl⟩ := batches_unique hb rfl hb'
            refine ⟨rep, ?_, g1, g2, g3, g4, g5, ?_⟩
            · rw [main_aggregate hr]
              unfold runAggregate
              rw [lsession_untouched cmds hcmds, hfile]
              dsimp only
              rw [if_neg (by simp [hop])]
              cases hn : newReader (B := B) sw.writer.file.bytes with
              | ok r => dsimp only; rw [hrep]
              | err e => unfold LoadTest.runAggregate at hrep; rw [hn] at hrep; cases hrep
              | panic => unfold LoadTest.runAggregate at hrep; rw [hn] at hrep; cases hrep
            · rw [g6]
              have z : par.toInt = 0 ↔ par = 0 := by
                rw [← Int64.toInt_inj]; rfl
              have l : par.toInt < 0 ↔ par < 0 := by rw [Int64.lt_iff_toInt_lt]; rfl
              simp only [z, l]

/-- **C73.** Without file system errors every `import` command with a `-max-value` of at least 10 and a `-max-id` from 1 to 2^63 - 1, such
as the defaults, ends with status 0. Up to 70 million values, its file is small enough for `C73_session`. -/
theorem C73_succeeds {w : World} {fs : Files} {args : List Bytes} {a : ImportArgs} (h : AsksImport w.now args a)
    (hsort : LawfulSort w.env.sort) (hnf : w.env.NoFault) (hd : w.directory a.file = true) (hc : w.creatable a.file = true)
    (hv : 10 ≤ a.maxValue.toInt) (hi : 0 < a.maxID.toNat ∧ a.maxID.toNat < 2 ^ 63) :
    (main B w fs args).stop.status = 0 ∧ (a.num.toInt ≤ 7 * 10 ^ 7 →
      (∀ L : List UInt64, L.length = a.num.toInt.toNat → (Bitmap.toBuffer (L.foldl Bitmap.set (Bitmap.empty : B))).length < 2 ^ 32) →
      ∀ bytes, (main B w fs args).files a.file = some bytes → bytes.length ≤ maxFileSize) := by
  obtain ⟨sw, hrun⟩ := LoadTest.C54_succeeds (B := B) hsort hnf (w.rng a.seed) a.num a.blockSize hv hi
  rw [main_import h]
  unfold runImport
  rw [if_neg (by simp [hd]), if_neg (by simp [hc]), hrun]
  refine ⟨rfl, fun hfew hbuf bytes hb => ?_⟩
  have : fs.put a.file sw.writer.file.bytes a.file = some bytes := hb
  rw [show fs.put a.file sw.writer.file.bytes a.file = some sw.writer.file.bytes from if_pos rfl] at this
  cases this
  exact import_small hsort hrun hfew hbuf

/-- **C73.** The values depend only on the seed, the number of values, `-max-value` and `-max-id`: two successful `import` commands for which
these are the same, and that ask for at least one value (at different times, to different files, with different block sizes) are followed by `aggregate` commands that report the
same result. -/
theorem C73_reproducible {w₁ w₂ : World} {fs₁ fs₂ : Files} {args₁ args₂ : List Bytes} {a₁ a₂ : ImportArgs}
    (h₁ : AsksImport w₁.now args₁ a₁) (h₂ : AsksImport w₂.now args₂ a₂) (hrng : w₁.rng a₁.seed = w₂.rng a₂.seed)
    (hg : (w₁.rng a₁.seed).Lawful) (hsame : a₁.num = a₂.num ∧ a₁.maxValue = a₂.maxValue ∧ a₁.maxID = a₂.maxID)
    (hsort₁ : LawfulSort w₁.env.sort) (hsort₂ : LawfulSort w₂.env.sort)
    (hs₁ : (main B w₁ fs₁ args₁).stop.status = 0) (hs₂ : (main B w₂ fs₂ args₂).stop.status = 0)
    (hz₁ : ∀ bytes, (main B w₁ fs₁ args₁).files a₁.file = some bytes → bytes.length ≤ maxFileSize)
    (hz₂ : ∀ bytes, (main B w₂ fs₂ args₂).files a₂.file = some bytes → bytes.length ≤ maxFileSize)
    {w₁' w₂' : World} {rargs₁ rargs₂ : List Bytes} {skip₁ skip₂ : Bool} {par₁ par₂ : Int64}
    (hr₁ : AsksAggregate rargs₁ a₁.file skip₁ par₁) (hr₂ : AsksAggregate rargs₂ a₂.file skip₂ par₂)
    (ho₁ : w₁'.openable a₁.file = true) (ho₂ : w₂'.openable a₂.file = true) (hf₁ : w₁'.sched.Fair) (hf₂ : w₂'.sched.Fair)
    (hpos : 0 < a₁.num.toInt) (hm : a₁.maxValue.toInt ≤ 2 ^ 35) :
    ∃ r₁ r₂, (main B w₁' (main B w₁ fs₁ args₁).files rargs₁).stop = .report r₁ ∧
      (main B w₂' (main B w₂ fs₂ args₂).files rargs₂).stop = .report r₂ ∧ r₁.result = r₂.result := by
  obtain ⟨_, b₁, hb₁, k₁⟩ := C73_session h₁ hsort₁ hg hs₁
  obtain ⟨_, b₂, hb₂, k₂⟩ := C73_session h₂ hsort₂ (hrng ▸ hg) hs₂
  obtain ⟨bs₁, n₁, e₁, k₁⟩ := k₁ (hz₁ _ hb₁)
  obtain ⟨bs₂, n₂, e₂, k₂⟩ := k₂ (hz₂ _ hb₂)
  obtain ⟨r₁, g₁, _, _, c₁, i₁, _⟩ := k₁ [] (fun _ hc => absurd hc List.not_mem_nil) w₁' rargs₁ skip₁ par₁ hr₁ ho₁ hf₁ (.inr hm)
  obtain ⟨r₂, g₂, _, _, _, i₂, _⟩ := k₂ [] (fun _ hc => absurd hc List.not_mem_nil) w₂' rargs₂ skip₂ par₂ hr₂ ho₂ hf₂
    (.inr (hsame.2.1 ▸ hm))
  rw [← hrng, ← hsame.1, ← hsame.2.1, ← hsame.2.2] at e₂
  obtain ⟨rfl, _⟩ := batches_unique e₁ rfl e₂
  refine ⟨r₁, r₂, congrArg Run.stop g₁, congrArg Run.stop g₂, i₁.unique i₂ fun hnil => ?_⟩
  have := i₁.count
  rw [hnil] at this
  simp only [List.length_nil] at this
  omega

end

/-! ### Examples -/

/-- **C73.** Surprises: `-n 010` asks for eight values, and `-n 1_000` for a thousand; `-skip-cache false` does not switch it off, and
whatever follows is ignored. -/
theorem C73_usage (now : Int64) :
    AsksImport now [str "import", str "-n", str "010"] ⟨8, 10000, str "loadtest.col", now, 1000000, 20000000⟩ ∧
    AsksImport now [str "import", str "--file=a.col", str "-n", str "1_000", str "-seed", str "-0x2A"]
      ⟨1000, 10000, str "a.col", -42, 1000000, 20000000⟩ ∧
    AsksAggregate [str "aggregate", str "-file", str "a.col", str "-skip-cache=false", str "-parallel", str "4"] (str "a.col") false 4 ∧
    ∀ args, AsksAggregate (str "aggregate" :: str "-skip-cache" :: str "false" :: args) (str "loadtest.col") true 0 := by
  have d1 : Denotes .int (str "010") (.int 8) := (set_iff _ _ _).1 (by decide +kernel)
  have d2 : Denotes .int (str "1_000") (.int 1000) := (set_iff _ _ _).1 (by decide +kernel)
  have d3 : Denotes .int (str "-0x2A") (.int (-42)) := (set_iff _ _ _).1 (by decide +kernel)
  have d4 : Denotes .int (str "4") (.int 4) := (set_iff _ _ _).1 (by decide +kernel)
  have d5 : Denotes .bool (str "false") (.bool false) := (set_iff _ _ _).1 (by decide +kernel)
  refine ⟨⟨_, [(str "n", .int 8)], rfl, ⟨_, [], (List.append_nil _).symm, ?_, .nil⟩, by rfl, by rfl, by rfl, by rfl, by rfl, by rfl⟩,
    ⟨_, [(str "file", .text (str "a.col")), (str "n", .int 1000), (str "seed", .int (-42))], rfl,
      ⟨_, [], (List.append_nil _).symm, ?_, .nil⟩, by rfl, by rfl, by rfl, by rfl, by rfl, by rfl⟩,
    ⟨_, [(str "file", .text (str "a.col")), (str "skip-cache", .bool false), (str "parallel", .int 4)], rfl,
      ⟨_, [], (List.append_nil _).symm, ?_, .nil⟩, by decide, by decide, by decide⟩,
    fun args => ⟨_, [(str "skip-cache", .bool true)], rfl, ⟨[str "-skip-cache"], str "false" :: args, rfl, ?_, .word _ _ (.inr (by decide))⟩,
      by decide, by decide, by decide⟩⟩
  · exact .separate (by decide) (by decide) (.inl rfl) d1 .nil
  · exact .joined (d := str "--file") (by decide) (.inr rfl) (.text (str "a.col")) (.separate (by decide) (by decide) (.inl rfl) d2
      (.separate (by decide) (by decide) (.inl rfl) d3 .nil))
  · exact .separate (by decide) (by decide) (.inl rfl) (.text _) (.joined (d := str "-skip-cache") (by decide) (.inl rfl) d5
      (.separate (by decide) (by decide) (.inl rfl) d4 .nil))
  · exact .switch (by decide) (.inl rfl) .nil

/-- A world in which nothing fails. -/
def quietWorld : World :=
  { env := quietEnv, sched := inOrder, now := 0, rng := fun _ => LoadTest.unlucky, directory := fun _ => true, creatable := fun _ => true,
    openable := fun _ => true }

/-- Non-vacuity of C73: import a thousand values, import eight to another file, aggregate the first file. -/
theorem C73_example (fs : Files) : ∃ fs1 fs2 rep,
    main IdSet quietWorld fs [str "import", str "--file=a.col", str "-n", str "1_000", str "-seed", str "-0x2A"] =
      ⟨.import (.done 1000 1000), fs1⟩ ∧
    session IdSet [(quietWorld, [str "import", str "-n", str "010"])] fs1 = fs2 ∧
    main IdSet quietWorld fs2 [str "aggregate", str "-file", str "a.col", str "-skip-cache=false", str "-parallel", str "4"] =
      ⟨.report rep, fs2⟩ ∧
    rep.result.count = 1000 ∧ rep.scanned = 1000 ∧ rep.workers = some 4 := by
  have hs : LawfulSort quietWorld.env.sort := sortByInsertion_lawful
  have hask := (C73_usage 0).2.1
  obtain ⟨h1, h2⟩ := C73_succeeds (B := IdSet) (w := quietWorld) (fs := fs) hask hs quietEnv_noFault rfl rfl (by decide) (by decide)
  obtain ⟨h3, bytes, h4, h5⟩ := C73_session (B := IdSet) (w := quietWorld) (fs := fs) hask hs LoadTest.unlucky_lawful h1
  obtain ⟨batches, k, _, h6⟩ := h5 (h2 (by decide) (fun L hL => by
    have := idSet_buffer 1000 L (by rw [hL]; decide)
    omega) _ h4)
  obtain ⟨rep, h7, _, _, h8, _, h9, h10⟩ := h6 [(quietWorld, [str "import", str "-n", str "010"])]
    (by
      intro c hc a' ha'
      rw [List.mem_singleton.mp hc] at ha'
      have e : a' = _ := asksImport_unique ha' (C73_usage 0).1
      rw [e]
      decide)
    quietWorld _ false 4 (C73_usage 0).2.2.1 rfl inOrder_fair (.inr (by decide))
  generalize hrun : main IdSet quietWorld fs _ = run at h3 h7
  obtain ⟨stop, fs1⟩ := run
  dsimp only at h3 h7
  subst h3
  refine ⟨fs1, _, rep, rfl, rfl, h7, h8, Int64.toInt_inj.1 (by rw [h9]; decide), ?_⟩
  rw [h10]; decide

end VibeCol.LoadCmd
