/-
The operations on floating-point numbers round correctly.
-/
import Verif.Lemmas.Float
namespace VibeCol

theorem ofRatio_val (neg : Bool) (p q : ℕ) :
    (F64.ofRatio neg p q).val = (if neg then -1 else 1) * (F64.ofRatio false p q).val := by
  unfold F64.ofRatio F64.val
  split <;> cases neg <;> simp

/-- `ofRatio` rounds `±p/q`. -/
theorem ofRatio_signed (neg : Bool) {p q : ℕ} (hq : 0 < q) (hp : p < 2 ^ 200) (hq' : q < 2 ^ 200) :
    Rounds ((if neg then -1 else 1) * ((p : ℚ) / q)) (F64.ofRatio neg p q).val := by
  rw [ofRatio_val]
  have h : Rounds ((p : ℚ) / q) (F64.ofRatio false p q).val := by
    rcases Nat.eq_zero_or_pos p with rfl | h0
    · have e : (F64.ofRatio false 0 q).val = 0 := by simp [F64.ofRatio, F64.val]
      rw [e, Nat.cast_zero, zero_div]
      exact rounds_zero
    · exact ofRatio_rounds h0 hq hp hq'
  cases neg
  · simpa using h
  · simpa using h.neg

/-- The size of the parts of a rounded integer. -/
theorem ofRatio_small (neg : Bool) {p : ℕ} (hp : p < 2 ^ 64) :
    (F64.ofRatio neg p 1).man ≤ 2 ^ 53 ∧ -53 ≤ (F64.ofRatio neg p 1).exp ∧ (F64.ofRatio neg p 1).exp ≤ 12 := by
  rcases Nat.eq_zero_or_pos p with rfl | h0
  · simp [F64.ofRatio]
  have hl : p.log2 < 64 := (Nat.log2_lt h0.ne').2 hp
  have hle : 2 ^ p.log2 ≤ p := Nat.log2_self_le h0.ne'
  have hlt : p < 2 ^ (p.log2 + 1) := Nat.lt_log2_self
  have hc : 1 * 2 ^ (((p.log2 : ℤ) - (Nat.log2 1 : ℕ)).toNat) ≤ p * 2 ^ (-((p.log2 : ℤ) - (Nat.log2 1 : ℕ))).toNat := by
    rw [show (Nat.log2 1) = 0 from by decide]
    rw [show ((p.log2 : ℤ) - (0 : ℕ)).toNat = p.log2 by omega, show (-((p.log2 : ℤ) - (0 : ℕ))).toNat = 0 by omega]
    simpa using hle
  unfold F64.ofRatio
  rw [if_neg h0.ne']
  dsimp only
  rw [if_pos hc, show (Nat.log2 1) = 0 from by decide]
  refine ⟨?_, by omega, by omega⟩
  generalize hl' : p.log2 = l at *
  have hu : ∀ a b : ℕ, 0 < b → a < 2 ^ 53 * b → nearestEven a b ≤ 2 ^ 53 := by
    intro a b hb hab
    unfold nearestEven
    have : a / b < 2 ^ 53 := (Nat.div_lt_iff_lt_mul hb).2 hab
    split <;> omega
  refine hu _ _ (by positivity) ?_
  rcases le_total l 52 with h | h
  · rw [show ((l : ℤ) - (0 : ℕ) - 52).toNat = 0 by omega, show (-((l : ℤ) - (0 : ℕ) - 52)).toNat = 52 - l by omega]
    calc p * 2 ^ (52 - l) < 2 ^ (l + 1) * 2 ^ (52 - l) := Nat.mul_lt_mul_of_pos_right hlt (by positivity)
      _ = 2 ^ 53 * (1 * 2 ^ 0) := by rw [← pow_add, show l + 1 + (52 - l) = 53 by omega]; norm_num
  · rw [show ((l : ℤ) - (0 : ℕ) - 52).toNat = l - 52 by omega, show (-((l : ℤ) - (0 : ℕ) - 52)).toNat = 0 by omega]
    calc p * 2 ^ 0 < 2 ^ (l + 1) := by simpa using hlt
      _ = 2 ^ 53 * (1 * 2 ^ (l - 52)) := by rw [one_mul, ← pow_add, show 53 + (l - 52) = l + 1 by omega]

theorem ofRatio_neg (neg : Bool) (p q : ℕ) : (F64.ofRatio neg p q).neg = neg := by
  unfold F64.ofRatio
  split <;> rfl

theorem natAbs_lt (v : Int64) : v.toInt.natAbs < 2 ^ 64 := by
  have h1 := v.toInt_lt
  have h2 := v.le_toInt
  omega

/-- `float64(v)` is `v` rounded. -/
theorem ofInt_rounds (v : Int64) : Rounds (v.toInt : ℚ) (F64.ofInt v).val := by
  have h := ofRatio_signed (decide (v.toInt < 0)) (p := v.toInt.natAbs) (q := 1) (by norm_num)
    ((natAbs_lt v).trans (by norm_num)) (by norm_num)
  have e : (if decide (v.toInt < 0) then (-1 : ℚ) else 1) * ((v.toInt.natAbs : ℚ) / (1 : ℕ)) = v.toInt := by
    rw [Nat.cast_one, div_one]
    have : (v.toInt.natAbs : ℚ) = ((|v.toInt| : ℤ) : ℚ) := by
      rw [Nat.cast_natAbs]
    rw [this]
    by_cases h0 : v.toInt < 0
    · simp [h0, abs_of_neg h0]
    · simp [h0, abs_of_nonneg (not_lt.1 h0)]
  rw [e] at h
  exact h

/-- `float64(n)` is `n` rounded. -/
theorem ofNat_rounds {n : ℕ} (h : n < 2 ^ 64) : Rounds (n : ℚ) (F64.ofNat n).val := by
  have h := ofRatio_signed false (p := n) (q := 1) (by norm_num) (h.trans (by norm_num)) (by norm_num)
  show Rounds (n : ℚ) (F64.ofRatio false n 1).val
  simpa using h

/-- The quotient of two floating-point numbers is rounded. -/
theorem div_rounds {a b : F64} (ha : a.man ≤ 2 ^ 53) (hb : b.man ≤ 2 ^ 53) (hb0 : 0 < b.man)
    (ha1 : -53 ≤ a.exp) (ha2 : a.exp ≤ 12) (hb1 : -53 ≤ b.exp) (hb2 : b.exp ≤ 12) :
    Rounds (a.val / b.val) (a.div b).val := by
  have hsmall : ∀ (m : ℕ) (k : ℤ), m ≤ 2 ^ 53 → k ≤ 65 → m * 2 ^ k.toNat < 2 ^ 200 := by
    intro m k hm hk
    calc m * 2 ^ k.toNat ≤ 2 ^ 53 * 2 ^ 65 :=
        Nat.mul_le_mul hm (Nat.pow_le_pow_right (by norm_num) (by omega))
      _ < 2 ^ 200 := by norm_num
  have h := ofRatio_signed (a.neg != b.neg) (p := a.man * 2 ^ (a.exp - b.exp).toNat) (q := b.man * 2 ^ (b.exp - a.exp).toNat)
    (by positivity) (hsmall _ _ ha (by omega)) (hsmall _ _ hb (by omega))
  have e : (if (a.neg != b.neg) then (-1 : ℚ) else 1) * (((a.man * 2 ^ (a.exp - b.exp).toNat : ℕ) : ℚ) / (b.man * 2 ^ (b.exp - a.exp).toNat : ℕ)) =
      a.val / b.val := by
    have hb0' : (b.man : ℚ) ≠ 0 := by exact_mod_cast hb0.ne'
    have hs : (2 : ℚ) ^ a.exp / 2 ^ b.exp = 2 ^ (a.exp - b.exp).toNat / 2 ^ (b.exp - a.exp).toNat := by
      rw [← zpow_sub₀ (by norm_num), pow_split, neg_sub]
    unfold F64.val
    push_cast
    rw [mul_div_mul_comm, ← hs]
    cases a.neg <;> cases b.neg <;> simp <;> field_simp
  rw [e] at h
  exact h

/-- The float that an average stands for: the sum and the count are rounded, then their quotient. -/
theorem float_rounds (s : Int64) {n : ℕ} (h0 : 0 < n) (hn : n < 2 ^ 64) :
    Rounds ((F64.ofInt s).val / (F64.ofNat n).val) (Avg.quot s n).float.val := by
  obtain ⟨a1, a2, a3⟩ := ofRatio_small (decide (s.toInt < 0)) (natAbs_lt s)
  obtain ⟨b1, b2, b3⟩ := ofRatio_small false hn
  refine div_rounds a1 b1 ?_ a2 a3 b2 b3
  rcases Nat.eq_zero_or_pos (F64.ofNat n).man with h | h
  · exfalso
    have e : (F64.ofNat n).val = 0 := by simp [F64.val, h]
    have hr := ofNat_rounds hn
    rw [e] at hr
    have h1 : Rounds ((1 : ℤ) : ℚ) ((1 : ℤ) : ℚ) := by
      have d : IsDouble ((1 : ℤ) : ℚ) := isDouble_int (by norm_num)
      exact ⟨d, fun z _ => by simp, fun z _ hne h => absurd (by
        rw [sub_self, abs_zero, abs_eq_zero] at h; linarith) hne⟩
    have := h1.mono hr (by exact_mod_cast h0)
    norm_num at this
  · exact h

end VibeCol
