/-
Block statistics and the accumulators of the aggregation loops.
-/
import Verif.Lemmas.Ints
import Verif.Spec.Aggregate
namespace VibeCol

/-! ### Order on the fixed-width integers -/

theorem i64_lt (a b : Int64) : a < b ↔ a.toInt < b.toInt := Int64.lt_iff_toInt_lt
theorem i64_le (a b : Int64) : a ≤ b ↔ a.toInt ≤ b.toInt := Int64.le_iff_toInt_le
theorem i64_ext {a b : Int64} (h : a.toInt = b.toInt) : a = b := Int64.toInt_inj.1 h
theorem i64_lo (a : Int64) : -9223372036854775808 ≤ a.toInt := by
  have := Int64.le_toInt a; simpa using this
theorem i64_hi (a : Int64) : a.toInt ≤ 9223372036854775807 := by
  have := Int64.toInt_lt a; omega

/-! ### Minimum, maximum and sum of a block -/

theorem minmax64_fold (vs : List UInt64) (lo hi : UInt64) :
    let r := vs.foldl (fun (acc : UInt64 × UInt64) v =>
        (if v < acc.1 then v else acc.1, if v > acc.2 then v else acc.2)) (lo, hi)
    (r.1 ≤ lo ∧ hi ≤ r.2 ∧ (∀ v ∈ vs, r.1 ≤ v ∧ v ≤ r.2)) ∧ (r.1 = lo ∨ r.1 ∈ vs) ∧ (r.2 = hi ∨ r.2 ∈ vs) := by
  induction vs generalizing lo hi with
  | nil => simp
  | cons v vs ih =>
    intro r
    have h := ih (if v < lo then v else lo) (if v > hi then v else hi)
    have hr : r = vs.foldl (fun (acc : UInt64 × UInt64) v =>
        (if v < acc.1 then v else acc.1, if v > acc.2 then v else acc.2))
        (if v < lo then v else lo, if v > hi then v else hi) := rfl
    rw [← hr] at h
    obtain ⟨⟨h1, h2, h3⟩, h4, h5⟩ := h
    simp only [UInt64.le_iff_toNat_le, UInt64.lt_iff_toNat_lt, gt_iff_lt] at *
    refine ⟨⟨?_, ?_, ?_⟩, ?_, ?_⟩
    · split at h1 <;> omega
    · split at h2 <;> omega
    · intro x hx
      rcases List.mem_cons.1 hx with rfl | hx
      · constructor
        · split at h1 <;> omega
        · split at h2 <;> omega
      · exact h3 x hx
    · rcases h4 with h4 | h4
      · split at h4
        · right; rw [h4]; simp
        · left; exact h4
      · right; exact List.mem_cons_of_mem _ h4
    · rcases h5 with h5 | h5
      · split at h5
        · right; rw [h5]; simp
        · left; exact h5
      · right; exact List.mem_cons_of_mem _ h5

theorem minmaxI64_fold (vs : List Int64) (lo hi : Int64) :
    let r := vs.foldl (fun (acc : Int64 × Int64) v =>
        (if v < acc.1 then v else acc.1, if v > acc.2 then v else acc.2)) (lo, hi)
    (r.1 ≤ lo ∧ hi ≤ r.2 ∧ (∀ v ∈ vs, r.1 ≤ v ∧ v ≤ r.2)) ∧ (r.1 = lo ∨ r.1 ∈ vs) ∧ (r.2 = hi ∨ r.2 ∈ vs) := by
  induction vs generalizing lo hi with
  | nil => simp
  | cons v vs ih =>
    intro r
    have h := ih (if v < lo then v else lo) (if v > hi then v else hi)
    have hr : r = vs.foldl (fun (acc : Int64 × Int64) v =>
        (if v < acc.1 then v else acc.1, if v > acc.2 then v else acc.2))
        (if v < lo then v else lo, if v > hi then v else hi) := rfl
    rw [← hr] at h
    obtain ⟨⟨h1, h2, h3⟩, h4, h5⟩ := h
    simp only [i64_le, i64_lt, gt_iff_lt] at *
    refine ⟨⟨?_, ?_, ?_⟩, ?_, ?_⟩
    · split at h1 <;> omega
    · split at h2 <;> omega
    · intro x hx
      rcases List.mem_cons.1 hx with rfl | hx
      · constructor
        · split at h1 <;> omega
        · split at h2 <;> omega
      · exact h3 x hx
    · rcases h4 with h4 | h4
      · split at h4
        · right; rw [h4]; simp
        · left; exact h4
      · right; exact List.mem_cons_of_mem _ h4
    · rcases h5 with h5 | h5
      · split at h5
        · right; rw [h5]; simp
        · left; exact h5
      · right; exact List.mem_cons_of_mem _ h5

/-- `calculateMinMaxUint64` computes the least and the greatest element. -/
theorem minMaxUint64_spec (vs : List UInt64) (h : vs ≠ []) :
    (calculateMinMaxUint64 vs).1 ∈ vs ∧ (calculateMinMaxUint64 vs).2 ∈ vs ∧
    ∀ v ∈ vs, (calculateMinMaxUint64 vs).1 ≤ v ∧ v ≤ (calculateMinMaxUint64 vs).2 := by
  cases vs with
  | nil => exact absurd rfl h
  | cons v vs =>
    obtain ⟨⟨_, _, h1⟩, h2, h3⟩ := minmax64_fold (v :: vs) v v
    refine ⟨h2.elim (fun h => ?_) id, h3.elim (fun h => ?_) id, h1⟩
    · exact List.mem_cons.2 (.inl h)
    · exact List.mem_cons.2 (.inl h)

/-- `calculateMinMaxInt64` computes the least and the greatest element. -/
theorem minMaxInt64_spec (vs : List Int64) (h : vs ≠ []) :
    (calculateMinMaxInt64 vs).1 ∈ vs ∧ (calculateMinMaxInt64 vs).2 ∈ vs ∧
    ∀ v ∈ vs, (calculateMinMaxInt64 vs).1 ≤ v ∧ v ≤ (calculateMinMaxInt64 vs).2 := by
  cases vs with
  | nil => exact absurd rfl h
  | cons v vs =>
    obtain ⟨⟨_, _, h1⟩, h2, h3⟩ := minmaxI64_fold (v :: vs) v v
    refine ⟨h2.elim (fun h => ?_) id, h3.elim (fun h => ?_) id, h1⟩
    · exact List.mem_cons.2 (.inl h)
    · exact List.mem_cons.2 (.inl h)

theorem ofInt_add_toInt (x : Int) (v : Int64) : Int64.ofInt x + v = Int64.ofInt (x + v.toInt) := by
  rw [Int64.ofInt_add, Int64.ofInt_toInt]

theorem sum_fold (vs : List Int64) (s : Int) :
    vs.foldl (fun sum v => sum + v) (Int64.ofInt s) = Int64.ofInt (s + intSum vs) := by
  induction vs generalizing s with
  | nil => simp [intSum]
  | cons v vs ih =>
    rw [List.foldl_cons, ofInt_add_toInt, ih]
    simp [intSum, Int.add_assoc]

/-- `calculateSumInt64` is the sum modulo 2^64. -/
theorem calculateSumInt64_spec (vs : List Int64) : calculateSumInt64 vs = Int64.ofInt (intSum vs) := by
  have := sum_fold vs 0
  rw [Int.zero_add] at this
  exact this

theorem intSum_append (xs ys : List Int64) : intSum (xs ++ ys) = intSum xs + intSum ys := by
  simp [intSum]

/-! ### Sign-magnitude storage -/

theorem one_shl_63 : ((1 : UInt64) <<< 63) = 9223372036854775808 := by decide

theorem int64_neg_lnot (v : Int64) : (~~~v) + 1 = -v := by
  rw [← Int64.toBitVec_inj]; simp [BitVec.neg_eq_not_add]

theorem bit63_zero (x : UInt64) (h : x.toNat < 2 ^ 63) : x &&& 9223372036854775808 = 0 := by
  apply UInt64.toNat_inj.1
  rw [UInt64.toNat_and]
  show x.toNat &&& 2 ^ 63 = 0
  apply Nat.eq_of_testBit_eq
  intro i
  rw [Nat.testBit_and, Nat.testBit_two_pow]
  by_cases hi : 63 = i
  · subst hi; simp [Nat.testBit_lt_two_pow h]
  · simp [hi]

theorem low_or_63 (x : UInt64) (h : x.toNat < 2 ^ 63) : (x ||| 9223372036854775808).toNat = 2 ^ 63 + x.toNat := by
  rw [UInt64.toNat_or]
  show x.toNat ||| 2 ^ 63 = _
  have := Nat.two_pow_add_eq_or_of_lt h 1
  rw [Nat.mul_one] at this
  rw [Nat.or_comm, this]

theorem and_not_63 (x : UInt64) : (x &&& ~~~ (9223372036854775808 : UInt64)).toNat = x.toNat % 2 ^ 63 := by
  rw [UInt64.toNat_and]
  show x.toNat &&& 2 ^ 63 - 1 = _
  rw [Nat.and_two_pow_sub_one_eq_mod]

theorem bit63_one (x : UInt64) (h : 2 ^ 63 ≤ x.toNat) : x &&& 9223372036854775808 ≠ 0 := by
  intro hc
  have h2 := congrArg (fun y : UInt64 => y.toNat.testBit 63) hc
  simp only [UInt64.toNat_and, Nat.testBit_and] at h2
  have h3 : (9223372036854775808 : UInt64).toNat.testBit 63 = true := by decide
  have h4 : x.toNat.testBit 63 = true := by
    have hlt : x.toNat < 2 ^ 64 := x.toNat_lt
    have : x.toNat = 2 ^ 63 + (x.toNat - 2 ^ 63) := by omega
    rw [this, Nat.testBit_two_pow_add_eq, Nat.testBit_lt_two_pow (by omega)]; rfl
  rw [h3, h4] at h2
  simp at h2

theorem i64_toUInt64_nonneg (v : Int64) (h : 0 ≤ v.toInt) : v.toUInt64.toNat = v.toInt.toNat := by
  have h1 : v = Int64.ofNat v.toInt.toNat := by
    apply i64_ext
    have := i64_hi v
    rw [int64_toInt_ofNat _ (by omega)]; omega
  have h2 : v.toUInt64 = UInt64.ofNat v.toInt.toNat := by
    conv => lhs; rw [h1]
    rw [← uint64_ofNat_toInt64]; simp
  have := i64_hi v
  rw [h2, UInt64.toNat_ofNat']; omega

/-- The stored form of every value except the least one reads back as that value. -/
theorem uint64ToInt64_int64ToUint64 (v : Int64) (h : v ≠ minInt64Value) :
    uint64ToInt64 (int64ToUint64 v) = v := by
  have hlo := i64_lo v
  have hhi := i64_hi v
  have hne : v.toInt ≠ -9223372036854775808 := by
    intro hc; apply h; apply i64_ext; rw [hc]; rfl
  unfold int64ToUint64 uint64ToInt64
  rw [one_shl_63]
  by_cases hv : v ≥ 0
  · rw [if_pos hv]
    have h0 : 0 ≤ v.toInt := by
      have := (i64_le 0 v).1 hv; simpa using this
    have hn := i64_toUInt64_nonneg v h0
    rw [if_pos (bit63_zero _ (by omega))]; simp
  · rw [if_neg hv, int64_neg_lnot]
    have h0 : v.toInt < 0 := by
      have h' : ¬ (0 : Int64) ≤ v := hv
      rw [i64_le] at h'
      simpa using h'
    have hneg : (-v).toInt = - v.toInt := by
      rw [Int64.toInt_neg, Int.bmod_eq_of_le] <;> omega
    have hn := i64_toUInt64_nonneg (-v) (by omega)
    have hlow := low_or_63 (-v).toUInt64 (by omega)
    rw [if_neg (bit63_one _ (by omega)), int64_neg_lnot]
    have hand := and_not_63 ((-v).toUInt64 ||| 9223372036854775808)
    rw [hlow] at hand
    have hback : ((-v).toUInt64 ||| 9223372036854775808) &&& ~~~ 9223372036854775808 = (-v).toUInt64 := by
      apply UInt64.toNat_inj.1
      rw [hand]; omega
    rw [hback]; simp

/-- The least value reads back as zero. -/
theorem uint64ToInt64_int64ToUint64_min : uint64ToInt64 (int64ToUint64 minInt64Value) = 0 := by decide

end VibeCol
