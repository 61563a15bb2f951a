/-
The accumulators of the aggregation loops, as functions of the list of values seen.
-/
import Verif.Lemmas.Stats
namespace VibeCol

/-- The accumulator after the values `vs`. -/
def accOf (vs : List Int64) : Acc := Acc.init.addValues vs

theorem addValue_fold (vs : List Int64) (a : Acc) :
    let r := vs.foldl Acc.addValue a
    r.count = a.count ∧ r.sum = a.sum + Int64.ofInt (intSum vs) ∧
    (r.min ≤ a.min ∧ ∀ v ∈ vs, r.min ≤ v) ∧ (r.min = a.min ∨ r.min ∈ vs) ∧
    (a.max ≤ r.max ∧ ∀ v ∈ vs, v ≤ r.max) ∧ (r.max = a.max ∨ r.max ∈ vs) := by
  induction vs generalizing a with
  | nil => simp [intSum]
  | cons v vs ih =>
    intro r
    obtain ⟨h1, h2, ⟨h3, h4⟩, h5, ⟨h6, h7⟩, h8⟩ := ih (a.addValue v)
    change r.count = _ at h1
    change r.sum = _ at h2
    change r.min ≤ _ at h3
    change ∀ v ∈ vs, r.min ≤ v at h4
    change r.min = _ ∨ r.min ∈ vs at h5
    change _ ≤ r.max at h6
    change ∀ v ∈ vs, v ≤ r.max at h7
    change r.max = _ ∨ r.max ∈ vs at h8
    simp only [Acc.addValue] at h1 h2 h3 h5 h6 h8
    simp only [i64_le, i64_lt, gt_iff_lt] at *
    refine ⟨h1, ?_, ⟨?_, ?_⟩, ?_, ⟨?_, ?_⟩, ?_⟩
    · rw [h2]; simp [intSum, Int64.ofInt_add, Int64.add_assoc]
    · split at h3 <;> omega
    · intro x hx
      rcases List.mem_cons.1 hx with rfl | hx
      · split at h3 <;> omega
      · exact h4 x hx
    · rcases h5 with h5 | h5
      · split at h5
        · right; rw [h5]; simp
        · left; exact h5
      · right; exact List.mem_cons_of_mem _ h5
    · split at h6 <;> omega
    · intro x hx
      rcases List.mem_cons.1 hx with rfl | hx
      · split at h6 <;> omega
      · exact h7 x hx
    · rcases h8 with h8 | h8
      · split at h8
        · right; rw [h8]; simp
        · left; exact h8
      · right; exact List.mem_cons_of_mem _ h8

/-- What determines an accumulator. -/
structure AccFor (a : Acc) (vs : List Int64) : Prop where
  count : a.count = vs.length
  sum : a.sum = Int64.ofInt (intSum vs)
  min_le : ∀ v ∈ vs, a.min ≤ v
  min_mem : a.min = 9223372036854775807 ∨ a.min ∈ vs
  le_max : ∀ v ∈ vs, v ≤ a.max
  max_mem : a.max = -9223372036854775808 ∨ a.max ∈ vs

theorem AccFor.unique {a b : Acc} {vs : List Int64} (ha : AccFor a vs) (hb : AccFor b vs) : a = b := by
  have hmin : a.min = b.min := by
    apply i64_ext
    have h1 := i64_hi a.min
    have h2 := i64_hi b.min
    have hm : (9223372036854775807 : Int64).toInt = 9223372036854775807 := by decide
    have h3 : b.min.toInt ≤ a.min.toInt := by
      rcases ha.min_mem with h | h
      · rw [h]; omega
      · exact (i64_le _ _).1 (hb.min_le _ h)
    have h4 : a.min.toInt ≤ b.min.toInt := by
      rcases hb.min_mem with h | h
      · rw [h]; omega
      · exact (i64_le _ _).1 (ha.min_le _ h)
    omega
  have hmax : a.max = b.max := by
    apply i64_ext
    have h1 := i64_lo a.max
    have h2 := i64_lo b.max
    have hm : (-9223372036854775808 : Int64).toInt = -9223372036854775808 := by decide
    have h3 : a.max.toInt ≤ b.max.toInt := by
      rcases ha.max_mem with h | h
      · rw [h]; omega
      · exact (i64_le _ _).1 (hb.le_max _ h)
    have h4 : b.max.toInt ≤ a.max.toInt := by
      rcases hb.max_mem with h | h
      · rw [h]; omega
      · exact (i64_le _ _).1 (ha.le_max _ h)
    omega
  have hc := ha.count.trans hb.count.symm
  have hs := ha.sum.trans hb.sum.symm
  cases a; cases b; simp_all

theorem accOf_for (vs : List Int64) : AccFor (accOf vs) vs := by
  obtain ⟨h1, h2, ⟨_, h4⟩, h5, ⟨_, h7⟩, h8⟩ :=
    addValue_fold vs { Acc.init with count := Acc.init.count + vs.length }
  refine ⟨?_, ?_, h4, h5, h7, h8⟩
  · rw [show (accOf vs).count = _ from h1]; simp [Acc.init]
  · rw [show (accOf vs).sum = _ from h2]; simp [Acc.init]

theorem AccFor.eq {a : Acc} {vs : List Int64} (h : AccFor a vs) : a = accOf vs := h.unique (accOf_for vs)

theorem intSum_perm {vs ws : List Int64} (hp : vs.Perm ws) : intSum vs = intSum ws := by
  unfold intSum
  induction hp with
  | nil => rfl
  | cons x _ ih => simp only [List.map_cons, List.sum_cons, ih]
  | swap x y l => simp only [List.map_cons, List.sum_cons]; omega
  | trans _ _ ih1 ih2 => exact ih1.trans ih2

theorem AccFor.perm {a : Acc} {vs ws : List Int64} (h : AccFor a vs) (hp : vs.Perm ws) : AccFor a ws := by
  refine ⟨?_, ?_, ?_, ?_, ?_, ?_⟩
  · rw [h.count, hp.length_eq]
  · rw [h.sum]; congr 1
    exact intSum_perm hp
  · exact fun v hv => h.min_le v (hp.mem_iff.2 hv)
  · exact h.min_mem.imp id hp.mem_iff.1
  · exact fun v hv => h.le_max v (hp.mem_iff.2 hv)
  · exact h.max_mem.imp id hp.mem_iff.1

/-- The order of the values does not matter. -/
theorem accOf_perm {vs ws : List Int64} (hp : vs.Perm ws) : accOf vs = accOf ws :=
  ((accOf_for vs).perm hp).eq

/-- Joining two accumulators. -/
def Acc.join (a b : Acc) : Acc where
  count := a.count + b.count
  min := if b.min < a.min then b.min else a.min
  max := if b.max > a.max then b.max else a.max
  sum := a.sum + b.sum

theorem AccFor.join {a b : Acc} {xs ys : List Int64} (ha : AccFor a xs) (hb : AccFor b ys) :
    AccFor (a.join b) (xs ++ ys) := by
  have e1 := ha.min_le; have e2 := hb.min_le; have e3 := ha.le_max; have e4 := hb.le_max
  simp only [i64_le] at e1 e2 e3 e4
  refine ⟨?_, ?_, ?_, ?_, ?_, ?_⟩
  · simp [Acc.join, ha.count, hb.count]
  · simp [Acc.join, ha.sum, hb.sum, intSum_append, Int64.ofInt_add]
  · intro v hv
    simp only [Acc.join, i64_lt, i64_le]
    rcases List.mem_append.1 hv with hv | hv
    · have := e1 v hv; split <;> omega
    · have := e2 v hv; split <;> omega
  · simp only [Acc.join, List.mem_append]
    split
    · exact hb.min_mem.imp id .inr
    · exact ha.min_mem.imp id .inl
  · intro v hv
    simp only [Acc.join, i64_lt, i64_le, gt_iff_lt]
    rcases List.mem_append.1 hv with hv | hv
    · have := e3 v hv; split <;> omega
    · have := e4 v hv; split <;> omega
  · simp only [Acc.join, List.mem_append]
    split
    · exact hb.max_mem.imp id .inr
    · exact ha.max_mem.imp id .inl

theorem accOf_append (xs ys : List Int64) : accOf (xs ++ ys) = (accOf xs).join (accOf ys) :=
  (((accOf_for xs).join (accOf_for ys)).eq).symm

/-- One more block of values. -/
theorem addValues_accOf (xs ys : List Int64) : (accOf xs).addValues ys = accOf (xs ++ ys) := by
  have hx := accOf_for xs
  obtain ⟨h1, h2, ⟨h3, h4⟩, h5, ⟨h6, h7⟩, h8⟩ :=
    addValue_fold ys { accOf xs with count := (accOf xs).count + ys.length }
  apply AccFor.eq
  refine ⟨?_, ?_, ?_, ?_, ?_, ?_⟩
  · rw [show ((accOf xs).addValues ys).count = _ from h1]; simp [hx.count]
  · rw [show ((accOf xs).addValues ys).sum = _ from h2]; simp [hx.sum, intSum_append, Int64.ofInt_add]
  · intro v hv
    rcases List.mem_append.1 hv with hv | hv
    · have := hx.min_le v hv
      rw [i64_le] at *
      exact Int.le_trans h3 this
    · exact h4 v hv
  · rcases h5 with h5 | h5
    · rw [show ((accOf xs).addValues ys).min = _ from h5]
      exact hx.min_mem.imp id (fun h => List.mem_append_left _ h)
    · exact .inr (List.mem_append_right _ h5)
  · intro v hv
    rcases List.mem_append.1 hv with hv | hv
    · have := hx.le_max v hv
      rw [i64_le] at *
      exact Int.le_trans this h6
    · exact h7 v hv
  · rcases h8 with h8 | h8
    · rw [show ((accOf xs).addValues ys).max = _ from h8]
      exact hx.max_mem.imp id (fun h => List.mem_append_left _ h)
    · exact .inr (List.mem_append_right _ h8)

/-- The statistics of an index entry are those of a block's values. -/
structure EntryStats (x : FooterEntry) (vs : List Int64) : Prop where
  minValue : uint64ToInt64 x.minValue = (calculateMinMaxInt64 vs).1
  maxValue : uint64ToInt64 x.maxValue = (calculateMinMaxInt64 vs).2
  sum : uint64ToInt64 x.sum = calculateSumInt64 vs
  count : x.count.toNat = vs.length

/-- One more index entry. -/
theorem addEntry_accOf (xs vs : List Int64) (x : FooterEntry) (h : EntryStats x vs) (hne : vs ≠ []) :
    (accOf xs).addEntry x = accOf (xs ++ vs) := by
  obtain ⟨m1, m2, m3⟩ := minMaxInt64_spec vs hne
  have hb : AccFor (Acc.mk x.count.toNat (uint64ToInt64 x.minValue) (uint64ToInt64 x.maxValue)
      (uint64ToInt64 x.sum)) vs := by
    refine ⟨h.count, ?_, ?_, .inr ?_, ?_, .inr ?_⟩
    · show uint64ToInt64 x.sum = _
      rw [h.sum, calculateSumInt64_spec]
    · intro v hv
      show uint64ToInt64 x.minValue ≤ v
      rw [h.minValue]; exact (m3 v hv).1
    · show uint64ToInt64 x.minValue ∈ vs
      rw [h.minValue]; exact m1
    · intro v hv
      show v ≤ uint64ToInt64 x.maxValue
      rw [h.maxValue]; exact (m3 v hv).2
    · show uint64ToInt64 x.maxValue ∈ vs
      rw [h.maxValue]; exact m2
  exact ((accOf_for xs).join hb).eq

theorem accOf_nil : accOf [] = Acc.init := rfl

/-- The result built from an accumulator is the exact aggregate. -/
theorem accOf_isAggregate (vs : List Int64) : IsAggregate (accOf vs).result vs := by
  have h := accOf_for vs
  have hmax : (9223372036854775807 : Int64).toInt = 9223372036854775807 := by decide
  have hmin : (-9223372036854775808 : Int64).toInt = -9223372036854775808 := by decide
  refine ⟨h.count, h.sum, ?_, h.min_le, ?_, h.le_max, ?_⟩
  · intro hne
    rcases h.min_mem with hm | hm
    · obtain ⟨v, hv⟩ := List.exists_mem_of_ne_nil vs hne
      have h1 := h.min_le v hv
      rw [i64_le, hm, hmax] at h1
      have h2 := i64_hi v
      have : (accOf vs).min = v := by apply i64_ext; rw [hm]; omega
      show (accOf vs).min ∈ vs
      rw [this]; exact hv
    · exact hm
  · intro hne
    rcases h.max_mem with hm | hm
    · obtain ⟨v, hv⟩ := List.exists_mem_of_ne_nil vs hne
      have h1 := h.le_max v hv
      rw [i64_le, hm, hmin] at h1
      have h2 := i64_lo v
      have : (accOf vs).max = v := by apply i64_ext; rw [hm]; omega
      show (accOf vs).max ∈ vs
      rw [this]; exact hv
    · exact hm
  · show (if (accOf vs).count > 0 then _ else _) = _
    rw [h.count]
    cases vs with
    | nil => simp
    | cons v vs => simp [Acc.result, h.count]

/-- The aggregate of no values as an explicit zero. -/
theorem zero_isAggregate : IsAggregate AggregateResult.zero [] :=
  ⟨rfl, rfl, fun h => absurd rfl h, by simp, fun h => absurd rfl h, by simp, rfl⟩

/-- Exact aggregates of the same non-empty list are equal. -/
theorem IsAggregate.unique {a b : AggregateResult} {vs : List Int64} (ha : IsAggregate a vs)
    (hb : IsAggregate b vs) (hne : vs ≠ []) : a = b := by
  have h1 : a.min = b.min := by
    apply i64_ext
    have h1 := (i64_le _ _).1 (ha.min_le _ (hb.min_mem hne))
    have h2 := (i64_le _ _).1 (hb.min_le _ (ha.min_mem hne))
    omega
  have h2 : a.max = b.max := by
    apply i64_ext
    have h1 := (i64_le _ _).1 (ha.le_max _ (hb.max_mem hne))
    have h2 := (i64_le _ _).1 (hb.le_max _ (ha.max_mem hne))
    omega
  have h3 := ha.sum.trans hb.sum.symm
  have h4 := ha.count.trans hb.count.symm
  have h5 := ha.avg
  have h6 := hb.avg
  rw [if_neg hne] at h5 h6
  cases a; cases b; simp_all

/-! ### Joining accumulators -/

theorem ite_i64 (p : Prop) [Decidable p] (a b : Int64) :
    (if p then a else b).toInt = if p then a.toInt else b.toInt := by split <;> rfl

theorem Acc.ext' {a b : Acc} (h1 : a.count = b.count) (h2 : a.min.toInt = b.min.toInt)
    (h3 : a.max.toInt = b.max.toInt) (h4 : a.sum = b.sum) : a = b := by
  have h2 := i64_ext h2
  have h3 := i64_ext h3
  cases a; cases b; simp_all

theorem Acc.join_assoc (a b c : Acc) : (a.join b).join c = a.join (b.join c) := by
  apply Acc.ext'
  · simp only [Acc.join]; omega
  · simp only [Acc.join, ite_i64, i64_lt]; split <;> split <;> (try split) <;> (try split) <;> omega
  · simp only [Acc.join, ite_i64, i64_lt, gt_iff_lt]; split <;> split <;> (try split) <;> (try split) <;> omega
  · simp only [Acc.join, Int64.add_assoc]

theorem Acc.join_comm (a b : Acc) : a.join b = b.join a := by
  apply Acc.ext'
  · simp only [Acc.join]; omega
  · simp only [Acc.join, ite_i64, i64_lt]; split <;> split <;> omega
  · simp only [Acc.join, ite_i64, i64_lt, gt_iff_lt]; split <;> split <;> omega
  · simp only [Acc.join, Int64.add_comm]

theorem Acc.init_join (a : Acc) : Acc.init.join a = a := by
  have h1 := i64_hi a.min
  have h2 := i64_lo a.max
  have hm : (9223372036854775807 : Int64).toInt = 9223372036854775807 := by decide
  have hn : (-9223372036854775808 : Int64).toInt = -9223372036854775808 := by decide
  apply Acc.ext'
  · simp only [Acc.join, Acc.init]; omega
  · simp only [Acc.join, Acc.init, ite_i64, i64_lt, hm]; split <;> omega
  · simp only [Acc.join, Acc.init, ite_i64, i64_lt, gt_iff_lt, hn]; split <;> omega
  · simp only [Acc.join, Acc.init, Int64.zero_add]

theorem Acc.join_init (a : Acc) : a.join Acc.init = a := by rw [Acc.join_comm, Acc.init_join]

/-- The join of a list of accumulators. -/
def joinAll (as : List Acc) : Acc := as.foldl Acc.join Acc.init

theorem foldl_join (as : List Acc) (a : Acc) : as.foldl Acc.join a = a.join (joinAll as) := by
  unfold joinAll
  induction as generalizing a with
  | nil => simp [Acc.join_init]
  | cons b bs ih => rw [List.foldl_cons, List.foldl_cons, ih, ih (Acc.init.join b), Acc.init_join, Acc.join_assoc]

theorem joinAll_cons (a : Acc) (as : List Acc) : joinAll (a :: as) = a.join (joinAll as) := by
  unfold joinAll; rw [List.foldl_cons, foldl_join, Acc.init_join]; rfl

theorem joinAll_append (as bs : List Acc) : joinAll (as ++ bs) = (joinAll as).join (joinAll bs) := by
  unfold joinAll; rw [List.foldl_append, foldl_join]; rfl

theorem joinAll_flatten (ass : List (List Acc)) : joinAll ass.flatten = joinAll (ass.map joinAll) := by
  induction ass with
  | nil => rfl
  | cons as ass ih => rw [List.flatten_cons, joinAll_append, List.map_cons, joinAll_cons, ih]

theorem joinAll_perm {as bs : List Acc} (h : as.Perm bs) : joinAll as = joinAll bs := by
  induction h with
  | nil => rfl
  | cons x _ ih => rw [joinAll_cons, joinAll_cons, ih]
  | swap x y l =>
    rw [joinAll_cons, joinAll_cons, joinAll_cons, joinAll_cons, ← Acc.join_assoc, ← Acc.join_assoc,
      Acc.join_comm y x]
  | trans _ _ ih1 ih2 => exact ih1.trans ih2

theorem accOf_flatten (vss : List (List Int64)) : accOf vss.flatten = joinAll (vss.map accOf) := by
  induction vss with
  | nil => rfl
  | cons vs vss ih => rw [List.flatten_cons, accOf_append, List.map_cons, joinAll_cons, ih]

theorem addValues_join (a : Acc) (vs : List Int64) : a.addValues vs = a.join (accOf vs) := by
  have h := accOf_for vs
  obtain ⟨h1, h2, ⟨h3, h4⟩, h5, ⟨h6, h7⟩, h8⟩ := addValue_fold vs { a with count := a.count + vs.length }
  change (a.addValues vs).count = _ at h1
  change (a.addValues vs).sum = _ at h2
  change (a.addValues vs).min ≤ a.min at h3
  change ∀ v ∈ vs, (a.addValues vs).min ≤ v at h4
  change (a.addValues vs).min = a.min ∨ (a.addValues vs).min ∈ vs at h5
  change a.max ≤ (a.addValues vs).max at h6
  change ∀ v ∈ vs, v ≤ (a.addValues vs).max at h7
  change (a.addValues vs).max = a.max ∨ (a.addValues vs).max ∈ vs at h8
  have hm : (9223372036854775807 : Int64).toInt = 9223372036854775807 := by decide
  have hn : (-9223372036854775808 : Int64).toInt = -9223372036854775808 := by decide
  have q1 := h.min_le; have q2 := h.le_max
  simp only [i64_le] at h3 h4 h6 h7 q1 q2
  apply Acc.ext'
  · rw [h1]; simp only [Acc.join, h.count]
  · simp only [Acc.join, ite_i64, i64_lt]
    have : (a.addValues vs).min.toInt ≤ (accOf vs).min.toInt := by
      rcases h.min_mem with hh | hh
      · rw [hh, hm]; exact i64_hi _
      · exact h4 _ hh
    rcases h5 with h5 | h5
    · rw [h5] at this ⊢; split <;> omega
    · have := q1 _ h5
      split <;> omega
  · simp only [Acc.join, ite_i64, i64_lt, gt_iff_lt]
    have : (accOf vs).max.toInt ≤ (a.addValues vs).max.toInt := by
      rcases h.max_mem with hh | hh
      · rw [hh, hn]; exact i64_lo _
      · exact h7 _ hh
    rcases h8 with h8 | h8
    · rw [h8] at this ⊢; split <;> omega
    · have := q2 _ h8
      split <;> omega
  · rw [h2]; simp only [Acc.join, h.sum]

/-- The contribution of one index entry. -/
def entryAcc (x : FooterEntry) : Acc where
  count := x.count.toNat
  min := uint64ToInt64 x.minValue
  max := uint64ToInt64 x.maxValue
  sum := uint64ToInt64 x.sum

theorem addEntry_join (a : Acc) (x : FooterEntry) : a.addEntry x = a.join (entryAcc x) := rfl

/-- An accumulator that counted nothing is the initial one. -/
def Acc.Good (a : Acc) : Prop := a.count = 0 → a = Acc.init

theorem Acc.Good.join {a b : Acc} (ha : a.Good) (hb : b.Good) : (a.join b).Good := by
  intro h
  have h1 : a.count = 0 := by simp only [Acc.join] at h; omega
  have h2 : b.count = 0 := by simp only [Acc.join] at h; omega
  rw [ha h1, hb h2, Acc.init_join]

theorem joinAll_good {as : List Acc} (h : ∀ a ∈ as, a.Good) : (joinAll as).Good := by
  induction as with
  | nil => intro _; rfl
  | cons a as ih =>
    rw [joinAll_cons]
    exact (h a (by simp)).join (ih fun b hb => h b (by simp [hb]))

theorem accOf_good (vs : List Int64) : (accOf vs).Good := by
  intro h
  rw [(accOf_for vs).count] at h
  rw [List.eq_nil_of_length_eq_zero h]; rfl

/-! ### Merging -/

/-- The counters of a result. -/
def AggregateResult.acc (r : AggregateResult) : Acc := { count := r.count, min := r.min, max := r.max, sum := r.sum }

theorem merge_fold (as : List Acc) (f : AggregateResult) (hf : f.acc.Good) (h : ∀ a ∈ as, a.Good) :
    ((as.map Acc.result).foldl mergeStep f).acc = f.acc.join (joinAll as) := by
  induction as generalizing f with
  | nil => exact (Acc.join_init _).symm
  | cons b as ih =>
    have hs : (mergeStep f b.result).acc = f.acc.join b := by
      by_cases hc : f.count = 0
      · have h0 := hf hc
        have hs : f.sum = 0 := congrArg Acc.sum h0
        rw [h0, Acc.init_join]
        simp only [mergeStep, hc, or_true, if_true, AggregateResult.acc, Acc.result, Nat.zero_add, hs,
          Int64.zero_add]
      · simp only [mergeStep, hc, or_false, AggregateResult.acc, Acc.result, Acc.join]
        rfl
    rw [List.map_cons, List.foldl_cons, ih _ (hs ▸ hf.join (h b (by simp))) (fun a ha => h a (by simp [ha])),
      hs, joinAll_cons, Acc.join_assoc]

/-- The merge of at least one worker result. -/
theorem mergeResults_join (as : List Acc) (hne : as ≠ []) (h : ∀ a ∈ as, a.Good) :
    mergeResults (as.map Acc.result) = (joinAll as).result := by
  cases as with
  | nil => exact absurd rfl hne
  | cons b as =>
    have h0 : (mergeStep AggregateResult.zero b.result).acc = b := by
      simp [mergeStep, AggregateResult.zero, AggregateResult.acc, Acc.result]
    have h1 := merge_fold as (mergeStep AggregateResult.zero b.result)
      (by rw [h0]; exact h b (by simp)) (fun a ha => h a (by simp [ha]))
    unfold mergeResults
    rw [List.map_cons, List.foldl_cons, joinAll_cons]
    rw [h0] at h1
    rw [← h1]
    rfl

theorem perm_map_exists {α β : Type} (f : α → β) {l : List β} {m : List α} (h : l.Perm (m.map f)) :
    ∃ m' : List α, m'.Perm m ∧ l = m'.map f := by
  generalize hk : m.map f = k at h
  induction h generalizing m with
  | nil => cases m with
    | nil => exact ⟨[], .nil, rfl⟩
    | cons => cases hk
  | cons x _ ih =>
    cases m with
    | nil => cases hk
    | cons a m =>
      simp only [List.map_cons, List.cons.injEq] at hk
      obtain ⟨m', hp, rfl⟩ := ih hk.2
      exact ⟨a :: m', hp.cons a, by rw [List.map_cons, hk.1]⟩
  | swap x y l =>
    match m, hk with
    | a :: b :: m, hk =>
      simp only [List.map_cons, List.cons.injEq] at hk
      obtain ⟨h1, h2, h3⟩ := hk
      exact ⟨b :: a :: m, .swap a b m, by rw [List.map_cons, List.map_cons, h1, h2, h3]⟩
  | trans _ _ ih1 ih2 =>
    obtain ⟨m1, hp1, rfl⟩ := ih2 hk
    obtain ⟨m2, hp2, rfl⟩ := ih1 rfl
    exact ⟨m2, hp2.trans hp1, rfl⟩

/-- Arrival order does not matter. -/
theorem mergeResults_perm (as : List Acc) (hne : as ≠ []) (h : ∀ a ∈ as, a.Good)
    (l : List AggregateResult) (hp : l.Perm (as.map Acc.result)) :
    mergeResults l = (joinAll as).result := by
  obtain ⟨bs, hb, rfl⟩ := perm_map_exists _ hp
  have hne' : bs ≠ [] := by
    rintro rfl; exact hne (List.nil_perm.1 hb)
  rw [mergeResults_join bs hne' (fun a ha => h a (hb.mem_iff.1 ha)), joinAll_perm hb]

end VibeCol
