/-
Parallel and sequential aggregation agree, for arbitrary readers.
-/
import Verif.Lemmas.Agg
namespace VibeCol
variable {B : Type} [Bitmap B]

theorem bind_result (x : Res (List Acc)) :
    ((x.bind fun as => Res.ok (Acc.init.join (joinAll as))) >>= fun a => Res.ok a.result) =
      x.bind fun as => Res.ok (joinAll as).result := by
  cases x <;> simp [Res.bind, Acc.init_join]

omit [Bitmap B] in
theorem footer_join (r : Reader B) :
    r.blockIndex.foldl Acc.addEntry Acc.init = joinAll (r.blockIndex.map entryAcc) := by
  unfold joinAll
  rw [List.foldl_map]; rfl

omit [Bitmap B] in
/-- The index contributions of all blocks in order. -/
theorem joinOf_index (r : Reader B) (n : Nat) (hn : n ≤ r.blockIndex.length) (h64 : n < 2 ^ 64) :
    joinOf (indexAcc r) ((List.range n).map UInt64.ofNat) = .ok ((r.blockIndex.take n).map entryAcc) := by
  induction n with
  | zero => rfl
  | succ n ih =>
    rw [List.range_succ, List.map_append, joinOf_append, ih (by omega) (by omega)]
    have hi : (UInt64.ofNat n).toNat = n := by rw [UInt64.toNat_ofNat']; omega
    have hx : indexAcc r (UInt64.ofNat n) = some (entryAcc r.blockIndex[n]) := by
      unfold indexAcc; rw [hi, List.getElem?_eq_getElem (by omega)]; rfl
    simp only [List.map_cons, List.map_nil, joinOf, hx, Res.bind]
    rw [List.take_add_one, List.getElem?_eq_getElem (by omega), List.map_append]; rfl

theorem firstBlocks_ok {n : Nat} (h : 8 * n ≤ maxAlloc) : firstBlocks n = .ok ((List.range n).map UInt64.ofNat) := by
  unfold firstBlocks; rw [if_neg (by omega)]

/-- The blocks that `FilteredBlockIterator` returns if it does not panic. -/
def iterBlocks (r : Reader B) (filter : Option B) : List UInt64 :=
  match filter with
  | none => (List.range r.blockCount.toNat).map UInt64.ofNat
  | some f =>
    let filterMin := Bitmap.minimum f
    let filterMax := Bitmap.maximum f
    (r.blockIndex.zipIdx).filterMap fun (entry, i) =>
      if entry.maxID < filterMin ∨ entry.minID > filterMax then none else some (UInt64.ofNat i)

theorem iterator_ok {r : Reader B} {filter : Option B} (deny : Option B)
    (h : filter.isSome ∨ 8 * r.blockCount.toNat ≤ maxAlloc) :
    filteredBlockIterator r filter deny = .ok (iterBlocks r filter) := by
  unfold filteredBlockIterator iterBlocks
  cases filter with
  | none =>
    rcases h with h | h
    · cases h
    · exact firstBlocks_ok h
  | some f => rfl

/-- Reading aggregation (any filter, or `SkipPreCalculated`, or no index): parallel and
sequential agree for every reader whose block numbers `make` accepts. -/
theorem parallel_reading (sched : Sched) (hs : sched.Fair) (r : Reader B) (opts : AggregateOptions B)
    (h : opts.filter.isSome ∨ opts.denyFilter.isSome ∨ opts.skipPreCalculated = true ∨ r.blockIndex = [])
    (hm : opts.filter.isSome ∨ opts.denyFilter.isSome ∨ 8 * r.blockCount.toNat ≤ maxAlloc) :
    aggregateParallel sched r opts = aggregateSequential r { opts with parallel := 0 } := by
  unfold aggregateParallel
  generalize (if opts.parallel < 0 then sched.gomaxprocs else opts.parallel) = p
  simp only
  generalize hbc : r.header.blockCount.toInt64.toInt = bc
  generalize (if p > bc then bc else p) = nw
  split
  · rfl
  · rename_i hnw
    have hnw1 : 0 < nw.toNat := by omega
    have hb : 1 < bc := by omega
    by_cases hf : opts.filter.isSome ∨ opts.denyFilter.isSome
    · unfold aggregateSequential aggregateWithFilter
      simp only [hf, if_true]
      cases filteredBlockIterator r opts.filter opts.denyFilter with
      | err e => rfl
      | panic => rfl
      | ok idx =>
      simp only [Res.ok_bind]
      split
      · rfl
      · rename_i hne
        rw [if_neg (by rintro ⟨_, _, h1, h2⟩; rcases hf with hf | hf <;> simp_all)]
        rw [aggregateParallelWith_join sched hs _ _ (sumBlocks_join _) (readAcc_good _) _ (by
          intro hc; rw [hc] at hne; exact hne rfl) _ hnw1]
        rw [sumBlocks_join, bind_result]
    · have hidx : ¬ (r.blockIndex.length > 0 ∧ opts.skipPreCalculated = false) := by
        rintro ⟨h1, h2⟩
        rcases h with h | h | h | h
        · exact hf (.inl h)
        · exact hf (.inr h)
        · rw [h2] at h; cases h
        · rw [h] at h1; simp at h1
      unfold aggregateSequential
      simp only [hf, if_false, hidx]
      have hbn : bc.toNat = r.header.blockCount.toNat := by
        have := r.header.blockCount.toNat_lt
        have h1 : r.header.blockCount.toInt64.toInt = Int.bmod r.header.blockCount.toNat (2 ^ 64) := by
          rw [show r.header.blockCount.toInt64 = Int64.ofNat r.header.blockCount.toNat by
            rw [← uint64_ofNat_toInt64, UInt64.ofNat_toNat]]
          exact Int64.toInt_ofNat
        have h2 : r.header.blockCount.toNat < 2 ^ 63 := by
          rw [Int.bmod_def] at h1
          split at h1 <;> omega
        rw [Int.bmod_eq_of_le (by omega) (by omega)] at h1
        omega
      rw [hbn, firstBlocks_ok (by
        rcases hm with h | h | h
        · exact absurd (.inl h) hf
        · exact absurd (.inr h) hf
        · exact h), Res.ok_bind]
      have hlen : ¬ ((List.range r.header.blockCount.toNat).map UInt64.ofNat).length = 0 := by
        simp; omega
      rw [if_neg hlen, if_neg (by
        rintro ⟨h1, h2, _⟩; exact hidx ⟨h1, h2⟩)]
      rw [aggregateParallelWith_join sched hs _ _ (sumBlocks_join _) (readAcc_good _) _ (by
          intro hc; rw [hc] at hlen; exact hlen rfl) _ hnw1]
      rw [sumBlocks_join, bind_result]

/-- Footer aggregation: they agree if the header's block count is that of the index and no
index entry describes an empty block. -/
theorem parallel_footer (sched : Sched) (hs : sched.Fair) (r : Reader B) (opts : AggregateOptions B)
    (hf : opts.filter = none) (hd : opts.denyFilter = none) (hskip : opts.skipPreCalculated = false)
    (hm : 8 * r.blockCount.toNat ≤ maxAlloc)
    (hcnt : r.header.blockCount.toNat = r.blockIndex.length) (hpos : ∀ x ∈ r.blockIndex, x.count ≠ 0) :
    aggregateParallel sched r opts = aggregateSequential r { opts with parallel := 0 } := by
  by_cases hidx : r.blockIndex = []
  · exact parallel_reading sched hs r opts (.inr (.inr (.inr hidx))) (.inr (.inr hm))
  have hix : r.blockIndex.length > 0 := List.length_pos_iff.2 hidx
  have hg : ∀ i a, indexAcc r i = some a → a.Good := by
    intro i a h hc
    unfold indexAcc at h
    cases hx : r.blockIndex[i.toNat]? with
    | none => rw [hx] at h; cases h
    | some x =>
      rw [hx] at h
      cases h
      have := hpos x (List.mem_of_getElem? hx)
      exact absurd (UInt32.toNat_inj.1 (show x.count.toNat = (0 : UInt32).toNat from hc)) this
  unfold aggregateParallel
  generalize (if opts.parallel < 0 then sched.gomaxprocs else opts.parallel) = p
  simp only
  generalize hbc : r.header.blockCount.toInt64.toInt = bc
  generalize (if p > bc then bc else p) = nw
  split
  · rfl
  · rename_i hnw
    have hnw1 : 0 < nw.toNat := by omega
    have hb : 1 < bc := by omega
    have hlt := r.header.blockCount.toNat_lt
    have hbn : bc.toNat = r.blockIndex.length := by
      rw [← hcnt]
      have h1 : r.header.blockCount.toInt64.toInt = Int.bmod r.header.blockCount.toNat (2 ^ 64) := by
        rw [show r.header.blockCount.toInt64 = Int64.ofNat r.header.blockCount.toNat by
          rw [← uint64_ofNat_toInt64, UInt64.ofNat_toNat]]
        exact Int64.toInt_ofNat
      have h2 : r.header.blockCount.toNat < 2 ^ 63 := by
        rw [Int.bmod_def] at h1
        split at h1 <;> omega
      rw [Int.bmod_eq_of_le (by omega) (by omega)] at h1
      omega
    unfold aggregateSequential
    have hlen : ¬ ((List.range r.blockIndex.length).map UInt64.ofNat).length = 0 := by
        simp; exact hidx
    have hm' : 8 * r.blockIndex.length ≤ maxAlloc := by rw [← hcnt]; exact hm
    simp only [hf, hd, hskip, Option.isSome_none, Option.isNone_none, Bool.false_eq_true, or_self,
      if_false, and_self, hix, if_true, hbn, firstBlocks_ok hm', Res.ok_bind, hlen]
    rw [aggregateParallelWith_join sched hs _ _ (sumEntries_join r) hg _ (by
          intro hc; rw [hc] at hlen; exact hlen rfl) _ hnw1]
    rw [joinOf_index r _ (Nat.le_refl _) (by omega), List.take_length, footer_join]; rfl

end VibeCol
