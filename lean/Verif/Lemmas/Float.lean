/-
Rounding to 53 bits is what IEEE 754 asks for.
-/
import Mathlib.Algebra.Order.Archimedean.Basic
import Mathlib.Tactic.Linarith
import Mathlib.Tactic.FieldSimp
import Mathlib.Tactic.Positivity
import Mathlib.Tactic.Ring
import Mathlib.Tactic.NormNum
import Verif.Spec.Float
namespace VibeCol

theorem nearestEven_int (p q : Nat) (hq : 0 < q) :
    2 * |(p : ℤ) - nearestEven p q * q| ≤ q ∧ (2 * |(p : ℤ) - nearestEven p q * q| = q → nearestEven p q % 2 = 0) := by
  have h1 : (p : ℤ) = q * (p / q : ℕ) + (p % q : ℕ) := by exact_mod_cast (Nat.div_add_mod p q).symm
  have h2 := Nat.mod_lt p hq
  unfold nearestEven
  generalize p / q = t at *
  generalize p % q = r at *
  split
  · rename_i h
    have e : (p : ℤ) - ((t + 1 : ℕ) : ℤ) * q = r - q := by rw [h1]; push_cast; ring
    rw [e, abs_of_nonpos (by omega)]
    omega
  · rename_i h
    have e : (p : ℤ) - (t : ℤ) * q = r := by rw [h1]; ring
    rw [e, abs_of_nonneg (by omega)]
    omega

theorem nearestEven_rat (p q : Nat) (hq : 0 < q) :
    |(p : ℚ) / q - nearestEven p q| ≤ 1 / 2 ∧ (|(p : ℚ) / q - nearestEven p q| = 1 / 2 → nearestEven p q % 2 = 0) := by
  obtain ⟨h1, h2⟩ := nearestEven_int p q hq
  have hq' : (0 : ℚ) < q := by exact_mod_cast hq
  have e : |(p : ℚ) / q - nearestEven p q| = |((p : ℤ) - nearestEven p q * q : ℤ)| / q := by
    rw [show (p : ℚ) / q - nearestEven p q = ((p : ℤ) - nearestEven p q * q : ℤ) / q by push_cast; field_simp, abs_div,
      abs_of_pos hq']
    push_cast; rfl
  rw [e]
  constructor
  · rw [div_le_div_iff₀ hq' (by norm_num)]
    have : ((2 * |(p : ℤ) - nearestEven p q * q| : ℤ) : ℚ) ≤ (q : ℤ) := by exact_mod_cast h1
    push_cast at this ⊢
    linarith
  · intro h
    apply h2
    rw [div_eq_div_iff hq'.ne' (by norm_num)] at h
    have : ((2 * |(p : ℤ) - nearestEven p q * q| : ℤ) : ℚ) = (q : ℤ) := by
      push_cast at h ⊢
      linarith
    exact_mod_cast this

/-- A number that is within one half of `x` is at least as near as any integer. -/
theorem nearest_integer {x : ℚ} {n : ℤ} (h : |x - n| ≤ 1 / 2) (j : ℤ) : |x - n| ≤ |x - j| := by
  by_cases hj : j = n
  · rw [hj]
  have h1 : (1 : ℚ) ≤ |(j : ℚ) - n| := by
    have : (1 : ℤ) ≤ |j - n| := Int.one_le_abs (sub_ne_zero.2 hj)
    exact_mod_cast this
  have h2 : |(j : ℚ) - n| ≤ |x - j| + |x - n| := by
    rw [show (j : ℚ) - n = -(x - j) + (x - n) by ring]
    exact (abs_add_le _ _).trans (by rw [abs_neg])
  linarith

theorem tie_half {x : ℚ} {n j : ℤ} (h : |x - n| ≤ 1 / 2) (hj : j ≠ n) (he : |x - j| = |x - n|) : |x - n| = 1 / 2 := by
  have h1 : (1 : ℚ) ≤ |(j : ℚ) - n| := by
    have : (1 : ℤ) ≤ |j - n| := Int.one_le_abs (sub_ne_zero.2 hj)
    exact_mod_cast this
  have h2 : |(j : ℚ) - n| ≤ |x - j| + |x - n| := by
    rw [show (j : ℚ) - n = -(x - j) + (x - n) by ring]
    exact (abs_add_le _ _).trans (by rw [abs_neg])
  linarith

/-- Rounding the significand `x`, which has 53 bits before the point, rounds the number. -/
theorem rounds_scaled {x : ℚ} {n : ℕ} {e : ℤ} (hlo : 2 ^ 52 ≤ x) (hhi : x < 2 ^ 53) (hn : |x - n| ≤ 1 / 2)
    (heven : |x - n| = 1 / 2 → n % 2 = 0) (he1 : -1074 ≤ e) (he2 : e ≤ 970) : Rounds (x * 2 ^ e) (n * 2 ^ e) := by
  have hp : (0 : ℚ) < 2 ^ e := by positivity
  have hn' : |x - ((n : ℤ) : ℚ)| ≤ 1 / 2 := by exact_mod_cast hn
  have hab := abs_le.1 hn
  have n1 : 2 ^ 52 ≤ n := by
    have : ((2 : ℚ) ^ 52 - 1) < n := by linarith [hab.2]
    have h3 : ((2 ^ 52 - 1 : ℕ) : ℚ) < n := by push_cast; norm_num at this ⊢; exact this
    have h4 : 2 ^ 52 - 1 < n := by exact_mod_cast h3
    omega
  have n2 : n ≤ 2 ^ 53 := by
    have : (n : ℚ) < 2 ^ 53 + 1 := by linarith [hab.1]
    have h3 : (n : ℚ) < ((2 ^ 53 + 1 : ℕ) : ℚ) := by push_cast; norm_num at this ⊢; exact this
    have h4 : n < 2 ^ 53 + 1 := by exact_mod_cast h3
    omega
  have key : ∀ z, IsDouble z → (∃ j : ℤ, z = j * 2 ^ e) ∨ |x * 2 ^ e - n * 2 ^ e| < |x * 2 ^ e - z| := by
    rintro z ⟨m, k, hm, _, _, rfl⟩
    by_cases hk : e ≤ k
    · left
      obtain ⟨c, hc⟩ := Int.eq_ofNat_of_zero_le (sub_nonneg.2 hk)
      refine ⟨m * 2 ^ c, ?_⟩
      rw [show k = e + c by omega, zpow_add₀ (by norm_num)]
      push_cast
      rw [zpow_natCast]; ring
    · right
      have hz : (m : ℚ) * 2 ^ k < 2 ^ 52 * 2 ^ e := by
        have h1 : (m : ℚ) < 2 ^ 53 := by
          have : m < 2 ^ 53 := lt_of_le_of_lt (le_abs_self m) hm
          exact_mod_cast this
        have hk0 : (0 : ℚ) < 2 ^ k := by positivity
        have h2 : (2 : ℚ) ^ k ≤ 2 ^ (e - 1) := zpow_le_zpow_right₀ (by norm_num) (by omega)
        have h3 : (2 : ℚ) ^ e = 2 * 2 ^ (e - 1) := by
          rw [show e = 1 + (e - 1) by ring, zpow_add₀ (by norm_num)]; norm_num
        have h4 : (m : ℚ) * 2 ^ k < 2 ^ 53 * 2 ^ k := by
          exact mul_lt_mul_of_pos_right h1 hk0
        have h5 : (2 : ℚ) ^ 53 * 2 ^ k ≤ 2 ^ 53 * 2 ^ (e - 1) := mul_le_mul_of_nonneg_left h2 (by positivity)
        rw [h3]
        linarith
      have h6 : |x - n| ≤ |x - 2 ^ 52| := by
        have := nearest_integer hn' (2 ^ 52)
        norm_num at this ⊢
        exact this
      have h7 : |x - 2 ^ 52| = x - 2 ^ 52 := abs_of_nonneg (by linarith)
      rw [h7] at h6
      have h8 : |x * 2 ^ e - n * 2 ^ e| = |x - n| * 2 ^ e := by
        rw [← sub_mul, abs_mul, abs_of_pos hp]
      have h9 : |x - n| * 2 ^ e ≤ (x - 2 ^ 52) * 2 ^ e := mul_le_mul_of_nonneg_right h6 hp.le
      rw [h8]
      have h10 : x * 2 ^ e - m * 2 ^ k ≤ |x * 2 ^ e - m * 2 ^ k| := le_abs_self _
      linarith
  have scale : ∀ j : ℤ, |x * 2 ^ e - j * 2 ^ e| = |x - j| * 2 ^ e := by
    intro j
    rw [← sub_mul, abs_mul, abs_of_pos hp]
  have scale' : |x * 2 ^ e - n * 2 ^ e| = |x - n| * 2 ^ e := by
    rw [← sub_mul, abs_mul, abs_of_pos hp]
  refine ⟨?_, ?_, ?_⟩
  · by_cases hb : n < 2 ^ 53
    · exact ⟨n, e, by rw [abs_of_nonneg (by omega)]; exact_mod_cast hb, he1, by omega, by push_cast; rfl⟩
    · have : n = 2 ^ 53 := by omega
      subst this
      refine ⟨2 ^ 52, e + 1, by norm_num, by omega, by omega, ?_⟩
      rw [zpow_add₀ (by norm_num)]; push_cast; norm_num; ring
  · intro z hz
    rcases key z hz with ⟨j, rfl⟩ | h
    · rw [scale, scale']
      exact mul_le_mul_of_nonneg_right (by exact_mod_cast nearest_integer hn' j) hp.le
    · exact h.le
  · intro z hz hne heq
    rcases key z hz with ⟨j, rfl⟩ | h
    · rw [scale, scale'] at heq
      have hj : j ≠ n := by rintro rfl; exact hne (by push_cast; rfl)
      have heq' : |x - j| = |x - n| := mul_right_cancel₀ hp.ne' heq
      have hh := tie_half hn' hj (by exact_mod_cast heq')
      have := heven (by exact_mod_cast hh)
      exact ⟨n, e, .inl (by rw [abs_of_nonneg (by omega)]; exact_mod_cast n1), by rw [abs_of_nonneg (by omega)]; exact_mod_cast n2,
        he1, by omega, by push_cast; rfl⟩
    · rw [heq] at h
      exact absurd h (lt_irrefl _)

/-! ### Rounding a quotient of natural numbers -/

theorem pow_split (d : ℤ) : (2 : ℚ) ^ d = 2 ^ d.toNat / 2 ^ (-d).toNat := by
  rcases le_total 0 d with h | h
  · rw [show (-d).toNat = 0 by omega, pow_zero, div_one]
    conv_lhs => rw [show d = (d.toNat : ℤ) by omega]
    rw [zpow_natCast]
  · rw [show d.toNat = 0 by omega, pow_zero]
    conv_lhs => rw [show d = -((-d).toNat : ℤ) by omega]
    rw [zpow_neg, zpow_natCast, one_div]

theorem le_scaled (p q : ℕ) (hq : 0 < q) (d : ℤ) :
    q * 2 ^ d.toNat ≤ p * 2 ^ (-d).toNat ↔ (2 : ℚ) ^ d ≤ p / q := by
  have hq' : (0 : ℚ) < q := by exact_mod_cast hq
  have hb : (0 : ℚ) < 2 ^ (-d).toNat := by positivity
  rw [pow_split, div_le_div_iff₀ hb hq']
  constructor
  · intro h
    have h' : ((q * 2 ^ d.toNat : ℕ) : ℚ) ≤ (p * 2 ^ (-d).toNat : ℕ) := by exact_mod_cast h
    push_cast at h'
    linarith
  · intro h
    have h' : ((q * 2 ^ d.toNat : ℕ) : ℚ) ≤ (p * 2 ^ (-d).toNat : ℕ) := by push_cast; linarith
    exact_mod_cast h'

theorem log2_bounds (p : ℕ) (hp : 0 < p) : (2 : ℚ) ^ (p.log2 : ℤ) ≤ p ∧ (p : ℚ) < 2 ^ ((p.log2 : ℤ) + 1) := by
  constructor
  · rw [zpow_natCast]
    exact_mod_cast Nat.log2_self_le hp.ne'
  · rw [show ((p.log2 : ℤ) + 1) = ((p.log2 + 1 : ℕ) : ℤ) by push_cast; rfl, zpow_natCast]
    exact_mod_cast Nat.lt_log2_self

theorem log2_lt_of {p k : ℕ} (hp : 0 < p) (h : p < 2 ^ k) : p.log2 < k := (Nat.log2_lt hp.ne').2 h

theorem ofRatio_rounds {p q : ℕ} (hp0 : 0 < p) (hq : 0 < q) (hp : p < 2 ^ 200) (hq' : q < 2 ^ 200) :
    Rounds ((p : ℚ) / q) (F64.ofRatio false p q).val := by
  have hlp := log2_lt_of hp0 hp
  have hlq := log2_lt_of hq hq'
  obtain ⟨p1, p2⟩ := log2_bounds p hp0
  obtain ⟨q1, q2⟩ := log2_bounds q hq
  have hqQ : (0 : ℚ) < q := by exact_mod_cast hq
  have hpQ : (0 : ℚ) < p := by exact_mod_cast hp0
  unfold F64.ofRatio
  rw [if_neg hp0.ne']
  dsimp only
  generalize hd : (p.log2 : ℤ) - q.log2 = d
  -- bounds of the quotient
  have lo : (2 : ℚ) ^ (d - 1) < p / q := by
    rw [lt_div_iff₀ hqQ]
    calc (2 : ℚ) ^ (d - 1) * q < 2 ^ (d - 1) * 2 ^ ((q.log2 : ℤ) + 1) := mul_lt_mul_of_pos_left q2 (by positivity)
      _ = 2 ^ (p.log2 : ℤ) := by rw [← zpow_add₀ (by norm_num)]; congr 1; omega
      _ ≤ p := p1
  have hi : (p : ℚ) / q < 2 ^ (d + 1) := by
    rw [div_lt_iff₀ hqQ]
    calc (p : ℚ) < 2 ^ ((p.log2 : ℤ) + 1) := p2
      _ = 2 ^ (d + 1) * 2 ^ (q.log2 : ℤ) := by rw [← zpow_add₀ (by norm_num)]; congr 1; omega
      _ ≤ 2 ^ (d + 1) * q := mul_le_mul_of_nonneg_left q1 (by positivity)
  have main : ∀ e : ℤ, -1000 ≤ e → e ≤ 900 → (2 : ℚ) ^ (e + 52) ≤ p / q → (p : ℚ) / q < 2 ^ (e + 53) →
      Rounds ((p : ℚ) / q) (F64.val ⟨false, nearestEven (p * 2 ^ (-e).toNat) (q * 2 ^ e.toNat), e⟩) := by
    intro e he1 he2 h1 h2
    have hpe : (0 : ℚ) < 2 ^ e := by positivity
    have hx : (p : ℚ) / q / 2 ^ e = ((p * 2 ^ (-e).toNat : ℕ) : ℚ) / (q * 2 ^ e.toNat : ℕ) := by
      rw [pow_split e]
      push_cast
      field_simp
    obtain ⟨n1, n2⟩ := nearestEven_rat (p * 2 ^ (-e).toNat) (q * 2 ^ e.toNat) (by positivity)
    rw [← hx] at n1 n2
    have := rounds_scaled (x := (p : ℚ) / q / 2 ^ e) (n := nearestEven (p * 2 ^ (-e).toNat) (q * 2 ^ e.toNat)) (e := e)
      (by
        rw [le_div_iff₀ hpe, ← zpow_natCast, ← zpow_add₀ (by norm_num)]
        rw [show ((52 : ℕ) : ℤ) + e = e + 52 by push_cast; ring]; exact h1)
      (by
        rw [div_lt_iff₀ hpe, ← zpow_natCast, ← zpow_add₀ (by norm_num)]
        rw [show ((53 : ℕ) : ℤ) + e = e + 53 by push_cast; ring]; exact h2)
      n1 n2 (by omega) (by omega)
    rw [div_mul_cancel₀ _ hpe.ne'] at this
    unfold F64.val
    simpa using this
  split
  · rename_i h
    rw [le_scaled p q hq d] at h
    apply main
    · omega
    · omega
    · rw [show d - 52 + 52 = d by ring]; exact h
    · rw [show d - 52 + 53 = d + 1 by ring]; exact hi
  · rename_i h
    rw [le_scaled p q hq d, not_le] at h
    apply main
    · omega
    · omega
    · rw [show d - 53 + 52 = d - 1 by ring]; exact lo.le
    · rw [show d - 53 + 53 = d by ring]; exact h

/-! ### Consequences of the specification -/

theorem IsDouble.neg {x : ℚ} (h : IsDouble x) : IsDouble (-x) := by
  obtain ⟨m, e, h1, h2, h3, rfl⟩ := h
  exact ⟨-m, e, by rw [abs_neg]; exact h1, h2, h3, by push_cast; ring⟩

theorem EvenSignificand.neg {x : ℚ} (h : EvenSignificand x) : EvenSignificand (-x) := by
  obtain ⟨m, k, a, b, c, d, rfl⟩ := h
  exact ⟨-m, k, by rw [abs_neg]; exact a, by rw [abs_neg]; exact b, c, by omega, by push_cast; ring⟩

theorem isDouble_zero : IsDouble 0 := ⟨0, 0, by norm_num, by norm_num, by norm_num, by norm_num⟩

theorem Rounds.neg {x y : ℚ} (h : Rounds x y) : Rounds (-x) (-y) := by
  have e : ∀ a b : ℚ, |(-a) - b| = |a - (-b)| := fun a b => by
    rw [show -a - b = -(a - -b) by ring, abs_neg]
  refine ⟨h.double.neg, fun z hz => ?_, fun z hz hne heq => ?_⟩
  · rw [e, e, neg_neg]
    exact h.nearest _ hz.neg
  · rw [e, e, neg_neg] at heq
    exact (h.even (-z) hz.neg (fun hc => hne (by rw [← hc, neg_neg])) heq).neg

/-- A `float64` is rounded to itself. -/
theorem Rounds.exact {x y : ℚ} (h : Rounds x y) (hx : IsDouble x) : y = x := by
  have := h.nearest x hx
  rw [sub_self, abs_zero] at this
  have h0 := abs_nonpos_iff.1 this
  linarith

/-- Integers up to 2^53 are `float64`s. -/
theorem isDouble_int {n : ℤ} (h : |n| ≤ 2 ^ 53) : IsDouble n := by
  rcases h.lt_or_eq with h | h
  · exact ⟨n, 0, h, by norm_num, by norm_num, by simp⟩
  · rcases abs_choice n with h' | h'
    · refine ⟨2 ^ 52, 1, by norm_num, by norm_num, by norm_num, ?_⟩
      have : n = 2 ^ 53 := by omega
      rw [this]; norm_num
    · refine ⟨-2 ^ 52, 1, by norm_num, by norm_num, by norm_num, ?_⟩
      have : n = -2 ^ 53 := by omega
      rw [this]; norm_num

/-! ### Rounding is a function, and monotone -/

theorem two_evens_nonneg {y z : ℚ} (h0 : 0 ≤ y) (hyz : y < z) (hz : IsDouble z) (ey : EvenSignificand y)
    (ez : EvenSignificand z) : ∃ w, IsDouble w ∧ y < w ∧ w < z := by
  obtain ⟨m, e, h1, h2, h3, h4, rfl⟩ : ∃ m e : ℤ, (2 ^ 52 ≤ m ∨ (0 ≤ m ∧ e = -1074)) ∧ m < 2 ^ 53 ∧ -1074 ≤ e ∧ m % 2 = 0 ∧ y = m * 2 ^ e := by
    obtain ⟨m, e, h1, h2, h3, h4, rfl⟩ := ey
    have hp : (0 : ℚ) < 2 ^ e := by positivity
    have hm : 0 ≤ m := by
      have := nonneg_of_mul_nonneg_left h0 hp
      exact_mod_cast this
    rw [abs_of_nonneg hm] at h1 h2
    rcases h2.lt_or_eq with h | h
    · exact ⟨m, e, h1.imp_right fun h' => ⟨hm, h'⟩, h, h3, h4, rfl⟩
    · refine ⟨2 ^ 52, e + 1, .inl (le_refl _), by norm_num, by omega, by norm_num, ?_⟩
      rw [h, zpow_add₀ (by norm_num)]; push_cast; norm_num; ring
  have hp : (0 : ℚ) < 2 ^ e := by positivity
  have hm0 : 0 ≤ m := by rcases h1 with h | h <;> omega
  refine ⟨(m + 1 : ℤ) * 2 ^ e, ⟨m + 1, e, by rw [abs_of_nonneg (by omega)]; omega, h3, ?_, rfl⟩, ?_, ?_⟩
  · by_contra hc
    have hm : (2 : ℚ) ^ 52 ≤ m := by
      have : (2 : ℤ) ^ 52 ≤ m := by rcases h1 with h | h <;> omega
      exact_mod_cast this
    obtain ⟨n, k, g1, g2, g3, rfl⟩ := hz
    have a1 : (2 : ℚ) ^ (972 : ℤ) ≤ 2 ^ e := zpow_le_zpow_right₀ (by norm_num) (by omega)
    have a2 : (2 : ℚ) ^ k ≤ 2 ^ (971 : ℤ) := zpow_le_zpow_right₀ (by norm_num) g3
    have a3 : (n : ℚ) < 2 ^ 53 := by exact_mod_cast (abs_lt.1 g1).2
    have a4 : (n : ℚ) * 2 ^ k ≤ 2 ^ 53 * 2 ^ (971 : ℤ) := by
      have hk : (0 : ℚ) < 2 ^ k := by positivity
      calc (n : ℚ) * 2 ^ k ≤ 2 ^ 53 * 2 ^ k := mul_le_mul_of_nonneg_right a3.le hk.le
        _ ≤ _ := mul_le_mul_of_nonneg_left a2 (by norm_num)
    have a5 : (2 : ℚ) ^ 52 * 2 ^ (972 : ℤ) ≤ m * 2 ^ e :=
      mul_le_mul hm a1 (by positivity) (by linarith [show (0 : ℚ) < 2 ^ 52 by norm_num])
    have a6 : (2 : ℚ) ^ 52 * 2 ^ (972 : ℤ) = 2 ^ 53 * 2 ^ (971 : ℤ) := by
      rw [show (972 : ℤ) = 971 + 1 by norm_num, zpow_add₀ (by norm_num), zpow_one]; ring
    exact absurd (hyz.trans_le a4) (not_lt.2 (a6 ▸ a5))
  · push_cast
    linarith
  · by_contra hc
    push Not at hc
    obtain ⟨n, k, g1, g2, g3, g4, rfl⟩ := ez
    have hk : (0 : ℚ) < 2 ^ k := by positivity
    rcases le_or_gt e k with hek | hek
    · obtain ⟨c, rfl⟩ := Int.exists_add_of_le hek
      have hs : (2 : ℚ) ^ (e + (c : ℤ)) = 2 ^ e * ((2 ^ c : ℤ) : ℚ) := by
        rw [zpow_add₀ (by norm_num), zpow_natCast]; push_cast; rfl
      have hs' : (n : ℚ) * 2 ^ (e + (c : ℤ)) = ((n * 2 ^ c : ℤ) : ℚ) * 2 ^ e := by rw [hs]; push_cast; ring
      rw [hs'] at hc hyz
      have b1 : m < n * 2 ^ c := by
        have := lt_of_mul_lt_mul_right hyz hp.le
        exact_mod_cast this
      have b2 : n * 2 ^ c ≤ m + 1 := by
        have := le_of_mul_le_mul_right hc hp
        exact_mod_cast this
      have b3 : (n * 2 ^ c) % 2 = 0 := by rw [Int.mul_emod, g4]; simp
      omega
    · have hm : (2 : ℚ) ^ 52 ≤ m := by
        have : (2 : ℤ) ^ 52 ≤ m := by rcases h1 with h | h <;> omega
        exact_mod_cast this
      have a2 : (2 : ℚ) ^ (k + 1) ≤ 2 ^ e := zpow_le_zpow_right₀ (by norm_num) (by omega)
      rw [zpow_add₀ (by norm_num), zpow_one] at a2
      have a3 : (n : ℚ) ≤ 2 ^ 53 := by exact_mod_cast (abs_le.1 g2).2
      have a4 : (n : ℚ) * 2 ^ k ≤ 2 ^ 53 * 2 ^ k := mul_le_mul_of_nonneg_right a3 hk.le
      have a5 : (2 : ℚ) ^ 52 * (2 ^ k * 2) ≤ m * 2 ^ e :=
        mul_le_mul hm a2 (by positivity) (by linarith [show (0 : ℚ) < 2 ^ 52 by norm_num])
      have a6 : (2 : ℚ) ^ 52 * (2 ^ k * 2) = 2 ^ 53 * 2 ^ k := by ring
      linarith

/-- Between two numbers with even significands there is another `float64`. -/
theorem two_evens {y z : ℚ} (hyz : y < z) (hy : IsDouble y) (hz : IsDouble z) (ey : EvenSignificand y)
    (ez : EvenSignificand z) : ∃ w, IsDouble w ∧ y < w ∧ w < z := by
  rcases le_or_gt 0 y with h | h
  · exact two_evens_nonneg h hyz hz ey ez
  · rcases le_or_gt z 0 with h' | h'
    · obtain ⟨w, h1, h2, h3⟩ := two_evens_nonneg (y := -z) (z := -y) (by linarith) (by linarith) hy.neg ez.neg ey.neg
      exact ⟨-w, h1.neg, by linarith, by linarith⟩
    · exact ⟨0, isDouble_zero, h, h'⟩

theorem Rounds.not_lt {x y z : ℚ} (h : Rounds x y) (h' : Rounds x z) : ¬ y < z := by
  intro hlt
  have e : |x - y| = |x - z| := le_antisymm (h.nearest z h'.double) (h'.nearest y h.double)
  obtain ⟨w, w1, w2, w3⟩ := two_evens hlt h.double h'.double (h.even z h'.double hlt.ne' e.symm)
    (h'.even y h.double hlt.ne e)
  have n1 := h.nearest w w1
  have n2 := h'.nearest w w1
  rcases abs_eq_abs.1 e with h1 | h1
  · linarith
  · rw [abs_of_nonneg (by linarith : 0 ≤ x - y)] at n1
    rw [abs_of_nonpos (by linarith : x - z ≤ 0)] at n2
    rcases abs_cases (x - w) with ⟨h2, _⟩ | ⟨h2, _⟩ <;> linarith

/-- The result of rounding is determined. -/
theorem Rounds.unique {x y z : ℚ} (h : Rounds x y) (h' : Rounds x z) : y = z :=
  le_antisymm (le_of_not_gt (h'.not_lt h)) (le_of_not_gt (h.not_lt h'))

/-- Rounding is monotone. -/
theorem Rounds.mono {x x' y y' : ℚ} (h : Rounds x y) (h' : Rounds x' y') (hle : x ≤ x') : y ≤ y' := by
  by_contra hc
  push Not at hc
  have n1 := h.nearest y' h'.double
  have n2 := h'.nearest y h.double
  have hx : x = x' := by
    refine le_antisymm hle ?_
    have m1 : y' + y ≤ 2 * x := by
      by_contra hc'
      push Not at hc'
      rcases abs_cases (x - y) with ⟨a, _⟩ | ⟨a, _⟩ <;> rcases abs_cases (x - y') with ⟨b, _⟩ | ⟨b, _⟩ <;> linarith
    have m2 : 2 * x' ≤ y' + y := by
      by_contra hc'
      push Not at hc'
      rcases abs_cases (x' - y) with ⟨a, _⟩ | ⟨a, _⟩ <;> rcases abs_cases (x' - y') with ⟨b, _⟩ | ⟨b, _⟩ <;> linarith
    linarith
  subst hx
  exact hc.ne (h'.unique h)

/-- The relative error of rounding a number of ordinary size is at most 2^-53. -/
theorem Rounds.error_pos {x y : ℚ} (h : Rounds x y) (h1 : 2 ^ (-1000 : ℤ) ≤ x) (h2 : x < 2 ^ (1000 : ℤ)) :
    |x - y| ≤ x / 2 ^ 53 := by
  have hx : 0 < x := lt_of_lt_of_le (by positivity) h1
  obtain ⟨d, d1, d2⟩ := exists_mem_Ico_zpow (y := (2 : ℚ)) hx (by norm_num)
  have b1 : -1001 < d := by
    have : (2 : ℚ) ^ (-1000 : ℤ) < 2 ^ (d + 1) := lt_of_le_of_lt h1 d2
    have := (zpow_lt_zpow_iff_right₀ (by norm_num : (1 : ℚ) < 2)).1 this
    omega
  have b2 : d < 1000 := (zpow_lt_zpow_iff_right₀ (by norm_num : (1 : ℚ) < 2)).1 (lt_of_le_of_lt d1 h2)
  have hp : (0 : ℚ) < 2 ^ (d - 52) := by positivity
  have hd : (2 : ℚ) ^ d = 2 ^ 52 * 2 ^ (d - 52) := by
    conv_lhs => rw [show d = 52 + (d - 52) by omega, zpow_add₀ (by norm_num)]
    norm_num
  have hd' : (2 : ℚ) ^ (d + 1) = 2 ^ 53 * 2 ^ (d - 52) := by
    rw [zpow_add₀ (by norm_num), hd]; norm_num; ring
  set t := x / 2 ^ (d - 52) with ht
  have hxt : x = t * 2 ^ (d - 52) := by rw [ht]; field_simp
  have t1 : 2 ^ 52 ≤ t := by
    rw [ht, le_div_iff₀ hp, ← hd]; exact d1
  have t2 : t < 2 ^ 53 := by
    rw [ht, div_lt_iff₀ hp, ← hd']; exact d2
  have r1 : |t - round t| ≤ 1 / 2 := abs_sub_round t
  have hdb : IsDouble (round t * 2 ^ (d - 52)) := by
    have a := abs_le.1 r1
    have r0 : 2 ^ 52 - 1 < round t := by
      have : (2 : ℚ) ^ 52 - 1 < round t := by linarith
      exact_mod_cast this
    have r2 : round t ≤ 2 ^ 53 := by
      have : (round t : ℚ) < 2 ^ 53 + 1 := by linarith
      have : round t < 2 ^ 53 + 1 := by exact_mod_cast this
      omega
    rcases r2.lt_or_eq with r3 | r3
    · exact ⟨round t, d - 52, by rw [abs_of_nonneg (by omega)]; exact r3, by omega, by omega, rfl⟩
    · refine ⟨2 ^ 52, d - 52 + 1, by norm_num, by omega, by omega, ?_⟩
      rw [r3, zpow_add₀ (by norm_num)]; push_cast; norm_num; ring
  have n := h.nearest _ hdb
  have e : |x - round t * 2 ^ (d - 52)| = |t - round t| * 2 ^ (d - 52) := by
    conv_lhs => rw [hxt, ← sub_mul, abs_mul, abs_of_pos hp]
  rw [e] at n
  calc |x - y| ≤ |t - round t| * 2 ^ (d - 52) := n
    _ ≤ 1 / 2 * 2 ^ (d - 52) := mul_le_mul_of_nonneg_right r1 hp.le
    _ ≤ x / 2 ^ 53 := by
      rw [le_div_iff₀ (by norm_num), hxt]
      have : 2 ^ 52 * 2 ^ (d - 52) ≤ t * 2 ^ (d - 52) := mul_le_mul_of_nonneg_right t1 hp.le
      calc 1 / 2 * (2 : ℚ) ^ (d - 52) * 2 ^ 53 = 2 ^ 52 * 2 ^ (d - 52) := by ring
        _ ≤ _ := this

theorem rounds_zero : Rounds 0 0 :=
  ⟨isDouble_zero, fun z _ => by simp, fun z _ hne h => absurd (by simpa using h) hne⟩

theorem Rounds.error {x y : ℚ} (h : Rounds x y) (h1 : x = 0 ∨ 2 ^ (-1000 : ℤ) ≤ |x|) (h2 : |x| < 2 ^ (1000 : ℤ)) :
    |x - y| ≤ |x| / 2 ^ 53 := by
  rcases h1 with rfl | h1
  · rw [h.unique rounds_zero]; simp
  rcases le_or_gt 0 x with h0 | h0
  · rw [abs_of_nonneg h0] at *
    exact h.error_pos h1 h2
  · rw [abs_of_neg h0] at *
    have := h.neg.error_pos h1 h2
    rwa [show -x - -y = -(x - y) by ring, abs_neg] at this

end VibeCol
