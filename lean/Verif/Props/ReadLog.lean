/-
C72: which parts of a file are read.
-/
import Verif.Model.ReadLog
import Verif.Props.Blocks
import Verif.Props.Readable
import Verif.Props.Robust
import Verif.Props.Power
import Verif.Props.Examples
import Verif.Props.Multi
import Verif.Props.Live
set_option linter.unusedSectionVars false
namespace VibeCol.ReadLog
variable {B : Type} [Bitmap B]

/-! ### Recording the reads does not change the results -/

theorem bind_res {α β : Type} (x : Rd α) (f : α → Rd β) : (x >>= f).res = x.res >>= fun a => (f a).res := by
  show (Rd.bind x f).res = _
  unfold Rd.bind
  cases x.res <;> rfl

theorem bind_reads_ok {α β : Type} {x : Rd α} {f : α → Rd β} {a : α} (h : x.res = .ok a) :
    (x >>= f).reads = x.reads ++ (f a).reads := by
  show (Rd.bind x f).reads = _
  unfold Rd.bind
  rw [h]

theorem bind_reads {α β : Type} (x : Rd α) (f : α → Rd β) (h : ∀ a, x.res = .ok a → (f a).reads = []) :
    (x >>= f).reads = x.reads := by
  show (Rd.bind x f).reads = _
  unfold Rd.bind
  cases hx : x.res with
  | ok a => dsimp only; rw [h a hx, List.append_nil]
  | err e => rfl
  | panic => rfl

theorem bind_quiet {α β : Type} (x : Rd α) (f : α → Rd β) (hx : x.reads = []) (h : ∀ a, x.res = .ok a → (f a).reads = []) :
    (x >>= f).reads = [] := (bind_reads x f h).trans hx

theorem ite_res {α : Type} (c : Prop) [Decidable c] (x y : Rd α) : (if c then x else y).res = if c then x.res else y.res := by
  split <;> rfl

theorem ite_reads {α : Type} (c : Prop) [Decidable c] (x y : Rd α) : (if c then x else y).reads = if c then x.reads else y.reads := by
  split <;> rfl

@[simp] theorem lift_res {α : Type} (x : Res α) : (lift x).res = x := rfl
@[simp] theorem lift_reads {α : Type} (x : Res α) : (lift x).reads = [] := rfl

theorem readBytesAtR_res (file : Bytes) (o n : Int64) : (readBytesAtR file o n).res = readBytesAt file o n := by
  unfold readBytesAtR
  rw [ite_res]
  by_cases h : n < 0
  · rw [if_pos h]; unfold readBytesAt; rw [if_pos h]
  · rw [if_neg h]

theorem readHeaderR_res (file : Bytes) : (readHeaderR file).res = readHeader file := by
  unfold readHeaderR readHeader
  simp only [bind_res, ite_res, readBytesAtR_res, lift_res]

theorem readFooterR_res (file : Bytes) (hd : FileHeader) : (readFooterR file hd).res = readFooter file hd := by
  unfold readFooterR readFooter
  simp only [bind_res, ite_res, readBytesAtR_res, lift_res]

theorem newReaderR_res (file : Bytes) : (newReaderR (B := B) file).res = newReader file := by
  unfold newReaderR newReader
  simp only [bind_res, readHeaderR_res, readFooterR_res, lift_res]

theorem readBlockR_res (r : Reader B) (i : Int64) : (readBlockR r i).res = readBlock r i := by
  unfold readBlockR readBlock
  rw [ite_res]
  cases r.blockIndex[i.toInt.toNat]? with
  | none => rfl
  | some e => simp only [bind_res, ite_res, readBytesAtR_res, lift_res]

theorem getPairsR_res (r : Reader B) (i : UInt64) : (getPairsR r i).res = getPairs r i := readBlockR_res r _

theorem getGlobalIDBitmapR_res (r : Reader B) : (getGlobalIDBitmapR r).res = (getGlobalIDBitmap r).1 := by
  unfold getGlobalIDBitmapR getGlobalIDBitmap
  cases r.globalIDs <;> cases r.cacheGlobalIDs <;> dsimp only
  all_goals try rfl
  all_goals
    rw [ite_res]
    split
    · rfl
    · simp only [bind_res, readBytesAtR_res, lift_res]
      cases readBytesAt r.bytes r.header.bitmapOffset.toInt64 4 with
      | err e => rfl
      | panic => rfl
      | ok a =>
        simp only [Res.ok_bind]
        cases readBytesAt r.bytes (r.header.bitmapOffset.toInt64 + 4) (Int64.ofNat (rd32 a 0).toNat) <;> rfl

theorem readBlockFilteredR_res (r : Reader B) (i : Int64) (f d : Option B) :
    (readBlockFilteredR r i f d).res = readBlockFiltered r i f d := by
  unfold readBlockFilteredR readBlockFiltered
  simp only [bind_res, ite_res, readBlockR_res, lift_res]

theorem sumBlocksR_res (rd : UInt64 → Rd (List UInt64 × List Int64)) (rd' : UInt64 → Res (List UInt64 × List Int64))
    (h : ∀ i, (rd i).res = rd' i) (is : List UInt64) (a : Acc) : (sumBlocksR rd is a).res = sumBlocks rd' is a := by
  induction is generalizing a with
  | nil => rfl
  | cons i is ih =>
    unfold sumBlocksR sumBlocks
    rw [h i]
    cases rd' i with
    | ok x => exact ih _
    | err e => exact ih _
    | panic => rfl

theorem aggregateSequentialR_res (r : Reader B) (opts : AggregateOptions B) :
    (aggregateSequentialR r opts).res = aggregateSequential r opts := by
  unfold aggregateSequentialR aggregateSequential aggregateWithFilter
  simp only [bind_res, ite_res, lift_res,
    sumBlocksR_res _ _ (fun i => readBlockFilteredR_res r i.toInt64 opts.filter opts.denyFilter),
    sumBlocksR_res _ _ (getPairsR_res r)]

theorem workerResultsR_res (work : List UInt64 → Acc → Rd Acc) (work' : List UInt64 → Acc → Res Acc) (h : ∀ is a, (work is a).res = work' is a)
    (idx : List UInt64) (n : Nat) (ws : List Nat) : (workerResultsR work idx n ws).res = workerResults work' idx n ws := by
  induction ws with
  | nil => rfl
  | cons w ws ih =>
    unfold workerResultsR workerResults
    cases workerSlice idx n w with
    | nil => exact ih
    | cons i is => simp only [bind_res, h, ih, lift_res]

theorem aggregateParallelWithR_res (sched : Sched) (work : List UInt64 → Acc → Rd Acc) (work' : List UInt64 → Acc → Res Acc)
    (h : ∀ is a, (work is a).res = work' is a) (idx : List UInt64) (n : Nat) :
    (aggregateParallelWithR sched work idx n).res = aggregateParallelWith sched work' idx n := by
  unfold aggregateParallelWithR aggregateParallelWith
  simp only [bind_res, workerResultsR_res work work' h, lift_res]

theorem aggregateWithOptionsR_res (sched : Sched) (r : Reader B) (o : AggregateOptions B) :
    (aggregateWithOptionsR sched r o).res = aggregateWithOptions sched r o := by
  have hrd : ∀ i : UInt64, (if o.filter.isSome = true ∨ o.denyFilter.isSome = true then
      readBlockFilteredR r i.toInt64 o.filter o.denyFilter else getPairsR r i).res =
      if o.filter.isSome = true ∨ o.denyFilter.isSome = true then readBlockFiltered r i.toInt64 o.filter o.denyFilter else getPairs r i := by
    intro i
    rw [ite_res, readBlockFilteredR_res, getPairsR_res]
  unfold aggregateWithOptionsR aggregateWithOptions aggregateParallelR aggregateParallel
  simp only [bind_res, ite_res, lift_res, aggregateSequentialR_res,
    aggregateParallelWithR_res sched (fun is a => lift (sumEntries r is a)) (sumEntries r) (fun _ _ => rfl),
    aggregateParallelWithR_res sched _ _ (sumBlocksR_res _ _ hrd)]

theorem multiLoopR_res (sched : Sched) (skip : Bool) (filter : Option B) (rs : List (Reader B)) (deny : B) (res : AggregateResult) :
    (multiLoopR sched skip filter rs deny res).2 = multiLoop sched skip filter rs deny res := by
  induction rs generalizing deny res with
  | nil => rfl
  | cons r rs ih =>
    unfold multiLoopR multiLoop
    dsimp only
    rw [aggregateWithOptionsR_res]
    cases aggregateWithOptions sched r { skipPreCalculated := skip, filter := filter, denyFilter := some deny } with
    | err e => rfl
    | panic => rfl
    | ok a =>
      dsimp only
      rw [getGlobalIDBitmapR_res, Res.ok_bind]
      cases (getGlobalIDBitmap r).1 with
      | err e => rfl
      | panic => rfl
      | ok b => exact ih _ _

/-- **C72.** The model that records the reads computes the same results as the model of the other properties. -/
theorem C72_results (file : Bytes) (r : Reader B) (i : UInt64) (sched : Sched) (o : AggregateOptions B) (rs : List (Reader B)) (skip : Bool)
    (filter : Option B) :
    (newReaderR (B := B) file).res = newReader file ∧ (getPairsR r i).res = getPairs r i ∧
    (getGlobalIDBitmapR r).res = (getGlobalIDBitmap r).1 ∧
    (aggregateWithOptionsR sched r o).res = aggregateWithOptions sched r o ∧
    (multiAggregateR sched rs skip filter).2 = multiAggregate sched rs skip filter := by
  refine ⟨newReaderR_res file, getPairsR_res r i, getGlobalIDBitmapR_res r, aggregateWithOptionsR_res sched r o, ?_⟩
  unfold multiAggregateR multiAggregate
  split
  · rfl
  · exact multiLoopR_res ..

/-! ### Which reads -/

theorem readBlockR_reads (r : Reader B) (i : Int64) : (readBlockR r i).reads =
    if i < 0 then [] else match r.blockIndex[i.toInt.toNat]? with
      | none => []
      | some x => if Int64.ofNat x.blockSize.toNat - 64 < 0 then [] else
          [(x.blockOffset.toInt64 + 64, Int64.ofNat x.blockSize.toNat - 64)] := by
  unfold readBlockR
  rw [ite_reads]
  split
  · rfl
  · cases r.blockIndex[i.toInt.toNat]? with
    | none => rfl
    | some x =>
      dsimp only
      rw [bind_reads]
      · unfold readBytesAtR
        rw [ite_reads]
      · intro a _
        repeat
          first
          | rfl
          | (refine bind_quiet _ _ rfl fun _ _ => ?_)
          | (rw [ite_reads]; split)

theorem readBlockFilteredR_reads (r : Reader B) (i : Int64) (f d : Option B) :
    (readBlockFilteredR r i f d).reads = (readBlockR r i).reads := by
  unfold readBlockFilteredR
  refine bind_reads _ _ fun a _ => ?_
  dsimp only
  rw [ite_reads]
  split <;> rfl

theorem sumBlocksR_reads (read : UInt64 → Rd (List UInt64 × List Int64)) (h : ∀ i, (read i).res ≠ .panic) (is : List UInt64) (a : Acc) :
    (sumBlocksR read is a).reads = is.flatMap fun i => (read i).reads := by
  induction is generalizing a with
  | nil => rfl
  | cons i is ih =>
    unfold sumBlocksR
    cases hr : (read i).res with
    | ok b => dsimp only; rw [ih, List.flatMap_cons]
    | err e => dsimp only; rw [ih, List.flatMap_cons]
    | panic => exact absurd hr (h i)

theorem sumBlocksR_ok (read : UInt64 → Rd (List UInt64 × List Int64)) (h : ∀ i, (read i).res ≠ .panic) (is : List UInt64) (a : Acc) :
    ∃ b, (sumBlocksR read is a).res = .ok b := by
  induction is generalizing a with
  | nil => exact ⟨_, rfl⟩
  | cons i is ih =>
    unfold sumBlocksR
    cases hr : (read i).res with
    | ok b => exact ih _
    | err e => exact ih _
    | panic => exact absurd hr (h i)

theorem workerResultsR_reads (work : List UInt64 → Acc → Rd Acc) (g : UInt64 → List (Int64 × Int64))
    (h1 : ∀ is a, ∃ b, (work is a).res = .ok b) (h2 : ∀ is a, (work is a).reads = is.flatMap g) (bl : List UInt64) (n : Nat) (ws : List Nat) :
    (workerResultsR work bl n ws).reads = (ws.map fun w => workerSlice bl n w).flatten.flatMap g ∧
      ∃ l, (workerResultsR work bl n ws).res = .ok l := by
  induction ws with
  | nil => exact ⟨rfl, _, rfl⟩
  | cons w ws ih =>
    unfold workerResultsR
    rw [List.map_cons, List.flatten_cons, List.flatMap_append]
    cases workerSlice bl n w with
    | nil => exact ih
    | cons i is =>
      obtain ⟨b, hb⟩ := h1 (i :: is) Acc.init
      obtain ⟨ih1, l, hl⟩ := ih
      dsimp only
      constructor
      · rw [bind_reads_ok hb, bind_reads_ok hl, ih1, h2, lift_reads, List.append_nil]
      · exact ⟨_, by rw [bind_res, hb, Res.ok_bind, bind_res, hl, Res.ok_bind, lift_res]⟩

theorem aggregateParallelWithR_reads (sched : Sched) (work : List UInt64 → Acc → Rd Acc) (g : UInt64 → List (Int64 × Int64))
    (h1 : ∀ is a, ∃ b, (work is a).res = .ok b) (h2 : ∀ is a, (work is a).reads = is.flatMap g) (bl : List UInt64) (n : Nat) (hn : 0 < n) :
    (aggregateParallelWithR sched work bl n).reads = bl.flatMap g := by
  obtain ⟨h, l, hl⟩ := workerResultsR_reads work g h1 h2 bl n (List.range n)
  unfold aggregateParallelWithR
  rw [bind_reads_ok hl, h, slices_flatten bl n hn, lift_reads, List.append_nil]

theorem workerResultsR_quiet (work : List UInt64 → Acc → Rd Acc) (h : ∀ is a, (work is a).reads = []) (bl : List UInt64) (n : Nat) (ws : List Nat) :
    (workerResultsR work bl n ws).reads = [] := by
  induction ws with
  | nil => rfl
  | cons w ws ih =>
    unfold workerResultsR
    cases workerSlice bl n w with
    | nil => exact ih
    | cons i is =>
      dsimp only
      exact bind_quiet _ _ (h _ _) fun _ _ => bind_quiet _ _ ih fun _ _ => rfl

/-- **C72.** An aggregation that may use the index reads nothing from the file: for any file, any number of workers. -/
theorem C72_indexOnly (r : Reader B) (h : r.blockIndex ≠ []) (sched : Sched) (workers : Int) :
    (aggregateWithOptionsR sched r { parallel := workers }).reads = [] := by
  have h0 : 0 < r.blockIndex.length := List.length_pos_iff.2 h
  have hs : ∀ p, (aggregateSequentialR r { parallel := p }).reads = [] := by
    intro p
    unfold aggregateSequentialR
    rw [if_neg (by simp), if_pos ⟨h0, rfl⟩]
    rfl
  unfold aggregateWithOptionsR
  rw [ite_reads]
  split
  · unfold aggregateParallelR
    dsimp only
    generalize (if (if workers < 0 then sched.gomaxprocs else workers) > r.header.blockCount.toInt64.toInt then
      r.header.blockCount.toInt64.toInt else (if workers < 0 then sched.gomaxprocs else workers)) = n
    rw [ite_reads]
    split
    · exact hs _
    · refine bind_quiet _ _ rfl fun bl _ => ?_
      rw [ite_reads, ite_reads]
      split
      · rfl
      · rw [if_pos ⟨h0, rfl, rfl, rfl⟩]
        unfold aggregateParallelWithR
        exact bind_quiet _ _ (workerResultsR_quiet _ (fun _ _ => rfl) _ _ _) fun _ _ => rfl
  · exact hs _

/-- The part of a block that is read: the block without its 64 byte header. -/
def dataPart (x : FooterEntry) : Int64 × Int64 := (Int64.ofNat (x.start + 64), Int64.ofNat (x.stop - x.start - 64))

theorem getPairsR_in {r : Reader B} (hin : IndexIn r r.bytes.length) (hsm : r.bytes.length < 2 ^ 63) {i : Nat} {x : FooterEntry}
    (hx : r.blockIndex[i]? = some x) (hl : r.blockIndex.length < 2 ^ 63) : (getPairsR r (UInt64.ofNat i)).reads = [dataPart x] := by
  have hi : i < r.blockIndex.length := (List.getElem?_eq_some_iff.1 hx).1
  obtain ⟨h1, h2, h3⟩ := hin x (List.mem_of_getElem? hx)
  unfold getPairsR
  rw [readBlockR_reads, uint64_ofNat_toInt64, int64_toInt_ofNat _ (by omega)]
  rw [if_neg (int64_ofNat_not_neg _ (by omega))]
  rw [Int.toNat_natCast, hx]
  dsimp only
  have e1 : Int64.ofNat x.blockSize.toNat - 64 = Int64.ofNat (x.stop - x.start - 64) := by
    have := int64_ofNat_sub x.blockSize.toNat 64 (by unfold FooterEntry.start FooterEntry.stop at *; omega) (by have := x.blockSize.toNat_lt; omega)
    rw [show x.stop - x.start = x.blockSize.toNat by unfold FooterEntry.start FooterEntry.stop; omega]
    exact this
  have e2 : x.blockOffset.toInt64 + 64 = Int64.ofNat (x.start + 64) := by
    rw [← int64_ofNat_add, ← uint64_ofNat_toInt64 x.start]
    unfold FooterEntry.start
    rw [UInt64.ofNat_toNat]; rfl
  rw [e1, e2, if_neg (int64_ofNat_not_neg _ (by omega))]
  rfl


theorem considered_lt (r : Reader B) (hc : r.blockCount.toNat = r.blockIndex.length) (allow : Option B) :
    ∀ i ∈ considered r allow, i < r.blockIndex.length := by
  intro i hi
  cases allow with
  | none => exact hc ▸ List.mem_range.1 hi
  | some f => exact List.mem_range.1 (List.mem_filter.1 hi).1

theorem flatMap_reads {r : Reader B} (hin : IndexIn r r.bytes.length) (hsm : r.bytes.length < 2 ^ 63) (hl : r.blockIndex.length < 2 ^ 63)
    (l : List Nat) (h : ∀ i ∈ l, i < r.blockIndex.length) :
    ((l.map UInt64.ofNat).flatMap fun i => (getPairsR r i).reads) = l.filterMap fun i => r.blockIndex[i]?.map dataPart := by
  induction l with
  | nil => rfl
  | cons i l ih =>
    have hi := h i List.mem_cons_self
    have hx : r.blockIndex[i]? = some r.blockIndex[i] := List.getElem?_eq_getElem hi
    rw [List.map_cons, List.flatMap_cons, ih fun j hj => h j (List.mem_cons_of_mem _ hj), getPairsR_in hin hsm hx hl, List.filterMap_cons, hx]
    rfl

theorem aggregateR_reads {r : Reader B} (hin : IndexIn r r.bytes.length) (hsm : r.bytes.length < 2 ^ 63) (hl : r.blockIndex.length ≤ maxBlocks)
    (hc : r.blockCount.toNat = r.blockIndex.length) (sched : Sched) (o : AggregateOptions B)
    (ho : o.filter.isSome ∨ o.denyFilter.isSome ∨ o.skipPreCalculated = true) :
    (aggregateWithOptionsR sched r o).reads = (considered r o.filter).filterMap fun i => r.blockIndex[i]?.map dataPart := by
  unfold maxBlocks at hl
  have hp : ∀ i, getPairs r i ≠ .panic := C31_getPairs_wellformed r fun e he => by
    have := hin e he; unfold FooterEntry.start FooterEntry.stop at this; omega
  have hp1 : ∀ i, (getPairsR r i).res ≠ .panic := fun i => by rw [getPairsR_res]; exact hp i
  have hp2 : ∀ i : UInt64, (readBlockFilteredR r i.toInt64 o.filter o.denyFilter).res ≠ .panic := by
    intro i hi
    rw [readBlockFilteredR_res] at hi
    exact hp i ((C38_filtered r i.toInt64 o.filter o.denyFilter).1.1 hi)
  have hm := flatMap_reads hin hsm (by omega) _ (considered_lt r hc o.filter)
  have hit : filteredBlockIterator r o.filter o.denyFilter = .ok ((considered r o.filter).map UInt64.ofNat) := by
    rw [iterator_ok o.denyFilter (.inr (by unfold maxAlloc; omega)), iterBlocks_considered]
  have hseq : ∀ p, (aggregateSequentialR r { o with parallel := p }).reads =
      (considered r o.filter).filterMap fun i => r.blockIndex[i]?.map dataPart := by
    intro p
    unfold aggregateSequentialR
    dsimp only
    rw [ite_reads]
    split
    · rw [hit, bind_reads_ok rfl, lift_reads, List.nil_append, ite_reads]
      split
      · rename_i h0
        rw [List.length_map] at h0
        rw [List.length_eq_zero_iff.1 h0]; rfl
      · obtain ⟨b, hb⟩ := sumBlocksR_ok _ hp2 ((considered r o.filter).map UInt64.ofNat) Acc.init
        rw [bind_reads_ok hb, sumBlocksR_reads _ hp2, lift_reads, List.append_nil]
        simp only [readBlockFilteredR_reads]
        exact hm
    · rename_i hno
      have hf : o.filter = none := by cases hf : o.filter with
        | none => rfl
        | some f => exact absurd (.inl (by rw [hf]; rfl)) hno
      have hk : o.skipPreCalculated = true := ho.elim (fun h => absurd (.inl h) hno) fun h => h.elim (fun h => absurd (.inr h) hno) id
      rw [if_neg (by rw [hk]; simp)]
      obtain ⟨b, hb⟩ := sumBlocksR_ok _ hp1 ((List.range r.header.blockCount.toNat).map UInt64.ofNat) Acc.init
      rw [bind_reads_ok hb, sumBlocksR_reads _ hp1, lift_reads, List.append_nil]
      rw [hf] at hm ⊢
      exact hm
  unfold aggregateWithOptionsR
  rw [ite_reads]
  split
  · unfold aggregateParallelR
    dsimp only
    generalize hn : (if (if o.parallel < 0 then sched.gomaxprocs else o.parallel) > r.header.blockCount.toInt64.toInt then
      r.header.blockCount.toInt64.toInt else (if o.parallel < 0 then sched.gomaxprocs else o.parallel)) = n
    rw [ite_reads]
    by_cases h1 : n ≤ 1 ∨ r.header.blockCount.toInt64.toInt ≤ 1
    · rw [if_pos h1]; exact hseq _
    · rw [if_neg h1]
      have hbc : r.header.blockCount.toInt64.toInt.toNat = r.blockCount.toNat := by
        have : r.header.blockCount = UInt64.ofNat r.blockIndex.length := by
          rw [← hc]; exact UInt64.ofNat_toNat.symm
        rw [this, uint64_ofNat_toInt64, int64_toInt_ofNat _ (by omega), hc]; rfl
      have hbl : (if o.filter.isSome ∨ o.denyFilter.isSome then filteredBlockIterator r o.filter o.denyFilter
          else firstBlocks r.header.blockCount.toInt64.toInt.toNat) = .ok ((considered r o.filter).map UInt64.ofNat) := by
        split
        · exact hit
        · rename_i hno
          have hf : o.filter = none := by cases hf : o.filter with
            | none => rfl
            | some f => exact absurd (.inl (by rw [hf]; rfl)) hno
          rw [hbc, firstBlocks_ok (by unfold maxAlloc; omega), hf]; rfl
      rw [hbl, bind_reads_ok rfl, lift_reads, List.nil_append, ite_reads]
      split
      · rename_i h0
        rw [List.length_map] at h0
        rw [List.length_eq_zero_iff.1 h0]; rfl
      · rw [if_neg (by
          rintro ⟨_, h2, h3, h4⟩
          rcases ho with ho | ho | ho
          · rw [Option.isNone_iff_eq_none] at h3; rw [h3] at ho; cases ho
          · rw [Option.isNone_iff_eq_none] at h4; rw [h4] at ho; cases ho
          · rw [ho] at h2; cases h2)]
        have hp3 : ∀ i : UInt64, (if o.filter.isSome ∨ o.denyFilter.isSome then readBlockFilteredR r i.toInt64 o.filter o.denyFilter
          else getPairsR r i).res ≠ .panic := by
          intro i; split
          · exact hp2 i
          · exact hp1 i
        have hr3 : ∀ i : UInt64, (if o.filter.isSome ∨ o.denyFilter.isSome then readBlockFilteredR r i.toInt64 o.filter o.denyFilter
          else getPairsR r i).reads = (getPairsR r i).reads := by
          intro i; split
          · exact readBlockFilteredR_reads ..
          · rfl
        rw [aggregateParallelWithR_reads sched _ (fun i => (getPairsR r i).reads) (sumBlocksR_ok _ hp3) (fun is a => by
          rw [sumBlocksR_reads _ hp3]; simp only [hr3]) _ _ (by omega)]
        exact hm
  · exact hseq o.parallel


/-! ### Opening -/

theorem readHeaderR_reads (file : Bytes) : (readHeaderR file).reads = [(0, 64)] := by
  unfold readHeaderR
  refine (bind_reads _ _ fun a _ => ?_).trans rfl
  dsimp only
  rw [ite_reads, ite_reads]
  split
  · rfl
  · split <;> rfl

theorem read_then {β : Type} (file : Bytes) (o n : Int64) (f : Bytes → Rd β) :
    (readBytesAtR file o n >>= f) = ⟨[], .panic⟩ ∨ (∃ e, (readBytesAtR file o n >>= f) = ⟨[(o, n)], .err e⟩) ∨
    ∃ b, (readBytesAtR file o n >>= f) = ⟨(o, n) :: (f b).reads, (f b).res⟩ := by
  show Rd.bind _ _ = _ ∨ (∃ e, Rd.bind _ _ = _) ∨ ∃ b, Rd.bind _ _ = _
  unfold readBytesAtR
  by_cases h : n < 0
  · rw [if_pos h]; exact .inl rfl
  · rw [if_neg h]
    unfold Rd.bind
    dsimp only
    cases hb : readBytesAt file o n with
    | ok b => exact .inr (.inr ⟨b, rfl⟩)
    | err e => exact .inr (.inl ⟨e, rfl⟩)
    | panic => exact absurd (readBytesAt_panic.1 hb) h

theorem readFooterR_reads (file : Bytes) (hd : FileHeader) : (readFooterR file hd).reads.length ≤ 3 ∧
    ∀ hd' m idx, readFooter file hd = .ok (hd', m, idx) → (readFooterR file hd).reads =
      [(Int64.ofNat file.length - 24, 24), (Int64.ofNat file.length - 24 - m.footerSize.toInt64, 4),
       (Int64.ofNat file.length - 24 - m.footerSize.toInt64 + 4, Int64.ofNat (idx.length * 56))] := by
  rw [← readFooterR_res]
  unfold readFooterR
  dsimp only
  by_cases h1 : Int64.ofNat file.length < 24
  · rw [if_pos h1]
    exact ⟨by simp, fun _ _ _ h => by cases h⟩
  rw [if_neg h1]
  rcases read_then file _ _ _ with h | ⟨e, h⟩ | ⟨b, h⟩ <;> rw [h]
  · exact ⟨by simp, fun _ _ _ h => by cases h⟩
  · exact ⟨by simp, fun _ _ _ h => by cases h⟩
  dsimp only
  clear h
  generalize rd64 b 0 = fsz
  generalize rd64 b 8 = ck
  generalize rd64 b 16 = mg
  by_cases h2 : mg ≠ magicNumber
  · rw [if_pos h2]
    exact ⟨by simp, fun _ _ _ h => by cases h⟩
  rw [if_neg h2]
  generalize hfs : Int64.ofNat file.length - 24 - fsz.toInt64 = fs
  by_cases h3 : fs < 64
  · rw [if_pos h3]
    exact ⟨by simp, fun _ _ _ h => by cases h⟩
  rw [if_neg h3]
  rcases read_then file _ _ _ with h | ⟨e, h⟩ | ⟨b, h⟩ <;> rw [h]
  · exact ⟨by simp, fun _ _ _ h => by cases h⟩
  · exact ⟨by simp, fun _ _ _ h => by cases h⟩
  dsimp only
  clear h
  rcases read_then file _ _ _ with h | ⟨e, h⟩ | ⟨b, h⟩ <;> rw [h]
  · exact ⟨by simp, fun _ _ _ h => by cases h⟩
  · exact ⟨by simp, fun _ _ _ h => by cases h⟩
  dsimp only
  refine ⟨by simp, fun _ _ _ h => ?_⟩
  rw [lift_res] at h
  cases h
  rw [List.length_map, List.length_range]
  dsimp only
  rw [hfs, lift_reads]


theorem newReaderR_reads (file : Bytes) : (newReaderR (B := B) file).reads.length ≤ 4 ∧
    ∀ r : Reader B, newReader file = .ok r → (newReaderR (B := B) file).reads =
      [(0, 64), (Int64.ofNat file.length - 24, 24), (Int64.ofNat file.length - 24 - r.footerMeta.footerSize.toInt64, 4),
       (Int64.ofNat file.length - 24 - r.footerMeta.footerSize.toInt64 + 4, Int64.ofNat (r.blockIndex.length * 56))] := by
  rw [← newReaderR_res]
  unfold newReaderR
  have h1 := readHeaderR_reads file
  rw [bind_res]
  cases hh : (readHeaderR file).res with
  | ok hd =>
    obtain ⟨h2, h3⟩ := readFooterR_reads file hd
    rw [bind_reads_ok hh, h1, Res.ok_bind, bind_reads]
    · refine ⟨by simpa using h2, fun r hr => ?_⟩
      rw [bind_res, readFooterR_res] at hr
      obtain ⟨⟨hd', m, idx⟩, he, hr⟩ := Res.bind_ok hr
      dsimp only [lift_res] at hr
      cases hr
      rw [h3 _ _ _ he]
      rfl
    · rintro ⟨hd', m, idx⟩ _; rfl
  | err e =>
    rw [bind_reads _ _ (fun a h => by rw [hh] at h; cases h), h1]
    exact ⟨by simp, fun r hr => by cases hr⟩
  | panic =>
    rw [bind_reads _ _ (fun a h => by rw [hh] at h; cases h), h1]
    exact ⟨by simp, fun r hr => by cases hr⟩

/-- The two reads of the ID bitmap: its length, then its bytes. -/
def bitmapReads (r : Reader B) : List (Int64 × Int64) :=
  let off := r.header.bitmapOffset.toNat
  [(Int64.ofNat off, 4), (Int64.ofNat (off + 4), Int64.ofNat (rd32 (slice r.bytes off 4) 0).toNat)]

theorem getGlobalIDBitmapR_reads (r : Reader B) : (getGlobalIDBitmapR r).reads.length ≤ 2 := by
  unfold getGlobalIDBitmapR
  cases r.globalIDs <;> cases r.cacheGlobalIDs <;> dsimp only
  case some.true => simp
  all_goals
    rw [ite_reads]
    split
    · simp
    · rcases read_then r.bytes _ _ _ with h | ⟨e, h⟩ | ⟨b, h⟩ <;> rw [h]
      · simp
      · simp
      · dsimp only
        rw [bind_reads _ _ fun _ _ => rfl]
        unfold readBytesAtR
        rw [ite_reads]
        split <;> simp

theorem getGlobalIDBitmapR_in {r : Reader B} (h : ReadsIn r) (hs : r.header.bitmapSize ≠ 0) (hf : r.globalIDs = none ∨ r.cacheGlobalIDs = false) :
    (getGlobalIDBitmapR r).reads = bitmapReads r := by
  have hsm := h.small
  have hbm := h.bitmap
  have key : (if r.header.bitmapOffset = 0 ∨ r.header.bitmapSize = 0 then lift (.ok Bitmap.empty)
    else do
      let sizeBuf ← readBytesAtR r.bytes r.header.bitmapOffset.toInt64 4
      let bitmapSize := rd32 sizeBuf 0
      let bitmapBuf ← readBytesAtR r.bytes (r.header.bitmapOffset.toInt64 + 4) (Int64.ofNat bitmapSize.toNat)
      lift (.ok (Bitmap.fromBuffer bitmapBuf)) : Rd B).reads = bitmapReads r := by
    have e1 : r.header.bitmapOffset.toInt64 = Int64.ofNat r.header.bitmapOffset.toNat := by
      rw [← uint64_ofNat_toInt64]; simp
    rw [if_neg (by
      rintro (h0 | h0)
      · rw [h0] at hbm; simp at hbm
      · exact hs h0)]
    have e2 : (readBytesAtR r.bytes r.header.bitmapOffset.toInt64 4).res = .ok (slice r.bytes r.header.bitmapOffset.toNat 4) := by
      rw [readBytesAtR_res, e1]
      exact readBytesAt_ok r.bytes r.header.bitmapOffset.toNat 4 (by omega) (by omega)
    rw [bind_reads_ok e2, bind_reads _ _ fun _ _ => rfl]
    have n0 : ¬ Int64.ofNat (rd32 (slice r.bytes r.header.bitmapOffset.toNat 4) 0).toNat < 0 := int64_ofNat_not_neg _ (by omega)
    unfold readBytesAtR
    rw [if_neg n0, if_neg (by decide), e1]
    unfold bitmapReads
    dsimp only
    rw [← int64_ofNat_add]
    rfl
  unfold getGlobalIDBitmapR
  rcases hf with hf | hf
  · rw [hf]; exact key
  · rw [hf]
    cases r.globalIDs <;> exact key

/-- **C72, any file.** Whatever the file, `NewReader` makes at most four reads, `GetPairs` at most one, `GetGlobalIDBitmap` at most two and none if it has cached
the bitmap. If `NewReader` succeeds it has read the 64 bytes of the header, the last 24 bytes, and the index with its count. -/
theorem C72_anyFile (file : Bytes) (r : Reader B) (i : UInt64) :
    (newReaderR (B := B) file).reads.length ≤ 4 ∧
    (newReader file = .ok r → (newReaderR (B := B) file).reads =
      [(0, 64), (Int64.ofNat file.length - 24, 24), (Int64.ofNat file.length - 24 - r.footerMeta.footerSize.toInt64, 4),
       (Int64.ofNat file.length - 24 - r.footerMeta.footerSize.toInt64 + 4, Int64.ofNat (r.blockIndex.length * 56))]) ∧
    (getPairsR r i).reads.length ≤ 1 ∧ (getGlobalIDBitmapR r).reads.length ≤ 2 ∧
    (r.globalIDs.isSome → r.cacheGlobalIDs = true → (getGlobalIDBitmapR r).reads = []) := by
  refine ⟨(newReaderR_reads file).1, (newReaderR_reads file).2 r, ?_, getGlobalIDBitmapR_reads r, ?_⟩
  · unfold getPairsR
    rw [readBlockR_reads]
    split
    · simp
    · cases r.blockIndex[i.toInt64.toInt.toNat]? with
      | none => simp
      | some x => dsimp only; split <;> simp
  · intro h1 h2
    unfold getGlobalIDBitmapR
    rw [h2]
    cases hg : r.globalIDs with
    | none => rw [hg] at h1; cases h1
    | some b => rfl


/-! ### Finalized files -/
variable [LawfulBitmap B]

/-- `r` is a reader just opened on a finalized file. -/
structure Fresh (r : Reader B) (file : Bytes) : Prop where
  finalized : ∃ (env : Env) (opts : List WriterOption) (log : Log), Finalized B env opts log file ∧ (acked log).length ≤ maxBlocks
  opened : newReader file = .ok r

/-- What `NewReader` reads of a finalized file with `n` blocks. -/
def openReads (len n : Nat) : List (Int64 × Int64) :=
  let indexStart := len - 28 - 56 * n
  [(0, 64), (Int64.ofNat (len - 24), 24), (Int64.ofNat indexStart, 4), (Int64.ofNat (indexStart + 4), Int64.ofNat (56 * n))]

theorem Fresh.facts {r : Reader B} {file : Bytes} (h : Fresh r file) :
    r.bytes = file ∧ ReadsIn r ∧ r.blockIndex.length ≤ maxBlocks ∧ r.blockCount.toNat = r.blockIndex.length ∧ r.header.bitmapSize ≠ 0 ∧
    r.globalIDs = none ∧ r.header.bitmapOffset.toNat + 4 + (rd32 (slice r.bytes r.header.bitmapOffset.toNat 4) 0).toNat ≤ r.footerStart := by
  obtain ⟨env, opts, log, hf, hn⟩ := h.finalized
  obtain ⟨hb, hin⟩ := hf.readsIn hn r h.opened
  obtain ⟨hd, blks, buf, bo, fs, hok, hr', hp, hfit⟩ := hf.opened hn r h.opened
  have hl : r.blockIndex.length = (acked log).length := by
    rw [hr', ← hp]; simp [okReader]
  have hsm := hok.small
  have hf1 := hok.bmFits
  have hf2 := hok.fsLe
  have hc := hok.count
  have hbs := hok.bmSize
  unfold maxBlocks at hn
  have hh : r.header = hd := by rw [hr']; rfl
  have hbo : hd.bitmapOffset.toNat = bo := by
    rw [hok.bmOff, UInt64.toNat_ofNat']; omega
  have hrd : rd32 (slice file bo 4) 0 = UInt32.ofNat buf.length := by
    have := slice_of_slice hok.bmBytes 0 4 (by omega)
    rw [Nat.add_zero] at this
    rw [this]; apply rd32_of_slice; simp [slice, List.take_of_length_le]
  have hle : (UInt32.ofNat buf.length).toNat ≤ buf.length := by
    rw [UInt32.toNat_ofNat']; exact Nat.mod_le _ _
  refine ⟨hb, hin, by rw [hl]; exact hn, ?_, ?_, by rw [hr']; rfl, ?_⟩
  · show r.header.blockCount.toNat = _
    rw [hh, hc, hl, ← hp, UInt64.toNat_ofNat', List.length_map] 
    have : blks.length = (acked log).length := by rw [← hp, List.length_map]
    omega
  · rw [hh, hbs]
    intro h0
    have := congrArg UInt64.toNat h0
    rw [UInt64.toNat_ofNat'] at this
    simp at this
    omega
  · rw [hh, hbo, hb, hrd, hr', hok.footerStart]
    omega

/-- **C72, opening.** `NewReader` on a finalized file reads its header, its last 24 bytes, the count of index entries and the index entries, each once, and nothing
else. -/
theorem C72_open {env : Env} {opts : List WriterOption} {log : Log} {file : Bytes}
    (h : Finalized B env opts log file) (hn : (acked log).length ≤ maxBlocks) :
    (newReaderR (B := B) file).reads = openReads file.length (acked log).length := by
  obtain ⟨r, hr, _⟩ := C29_accessors h hn
  obtain ⟨hd, blks, buf, bo, fs, hok, hr', hp, hfit⟩ := h.opened hn r hr
  obtain ⟨_, _, _, h4⟩ := C08_extents h hn r hr
  have hb : r.bytes = file := by rw [hr']; rfl
  have hsm := hok.small
  have hl : r.blockIndex.length = (acked log).length := by
    rw [hr', ← hp]; simp [okReader]
  rw [(newReaderR_reads file).2 r hr]
  unfold openReads
  dsimp only
  have hfs : r.footerMeta.footerSize.toInt64 = Int64.ofNat r.footerMeta.footerSize.toNat := by
    rw [← uint64_ofNat_toInt64]; simp
  have hfz : r.footerMeta.footerSize.toNat = 4 + 56 * r.blockIndex.length := by
    have hfs2 := hok.fsLe
    rw [hr']
    show (UInt64.ofNat (4 + 56 * blks.length)).toNat = 4 + 56 * (blks.map _).length
    have := hok.length
    rw [UInt64.toNat_ofNat', List.length_map]; omega
  rw [hfs, hfz, show (24 : Int64) = Int64.ofNat 24 from rfl, int64_ofNat_sub _ _ (by omega) hsm, int64_ofNat_sub _ _ (by omega) (by omega),
    show (4 : Int64) = Int64.ofNat 4 from rfl, int64_ofNat_add, hl,
    show file.length - 24 - (4 + 56 * (acked log).length) = file.length - 28 - 56 * (acked log).length by omega, Nat.mul_comm]

theorem toInt64_index {i : UInt64} (h : ¬ i.toInt64 < 0) : i.toInt64.toInt.toNat = i.toNat := by
  have hz : (0 : Int64).toInt = 0 := by decide
  have h1 : 0 ≤ i.toInt64.toInt := by
    rw [Int64.lt_iff_toInt_lt, hz] at h; omega
  have h2 : i.toInt64.toInt = (i.toNat : Int).bmod (2 ^ 64) := by
    show BitVec.toInt _ = _
    rw [BitVec.toInt_eq_toNat_bmod]; rfl
  have h3 := i.toNat_lt
  rw [h2] at h1 ⊢
  simp only [Int.bmod_def] at h1 ⊢
  omega

/-- **C72, one block.** `GetPairs` reads one block, without its header, and nothing if there is no such block. -/
theorem C72_pairs {r : Reader B} {file : Bytes} (h : Fresh r file) (i : UInt64) :
    (getPairsR r i).reads = (r.blockIndex[i.toNat]?.map dataPart).toList := by
  obtain ⟨hb, hin, hl, _⟩ := h.facts
  have hsm := hin.small
  unfold maxBlocks at hl
  by_cases hi : i.toNat < r.blockIndex.length
  · have hx : r.blockIndex[i.toNat]? = some r.blockIndex[i.toNat] := List.getElem?_eq_getElem hi
    have := getPairsR_in hin.index hsm hx (by omega)
    rw [UInt64.ofNat_toNat] at this
    rw [this, hx]; rfl
  · have hx : r.blockIndex[i.toNat]? = none := List.getElem?_eq_none (by omega)
    rw [hx]
    unfold getPairsR
    rw [readBlockR_reads]
    split
    · rfl
    · rename_i hneg
      rw [List.getElem?_eq_none]
      · rfl
      · rw [toInt64_index hneg]; omega

/-- **C72, aggregation.** An aggregation of a finalized file that may use the index reads nothing. Any other reads each considered block (all blocks, or those
whose ID range meets the range of the allow filter) exactly once and nothing else, with any number of workers. -/
theorem C72_aggregate {r : Reader B} {file : Bytes} (h : Fresh r file) (sched : Sched) (o : AggregateOptions B) :
    (o.filter = none ∧ o.denyFilter = none ∧ o.skipPreCalculated = false → (aggregateWithOptionsR sched r o).reads = []) ∧
    (¬ (o.filter = none ∧ o.denyFilter = none ∧ o.skipPreCalculated = false) →
      (aggregateWithOptionsR sched r o).reads = (considered r o.filter).filterMap fun i => r.blockIndex[i]?.map dataPart) := by
  obtain ⟨hb, hin, hl, hc, _⟩ := h.facts
  constructor
  · rintro ⟨h1, h2, h3⟩
    obtain ⟨skip, f, d, p⟩ := o
    dsimp only at h1 h2 h3
    subst h1; subst h2; subst h3
    by_cases h0 : r.blockIndex = []
    · have hz : r.header.blockCount = 0 := by
        apply UInt64.toNat_inj.1
        rw [show r.header.blockCount.toNat = r.blockIndex.length from hc, h0]; rfl
      have hs : ∀ p, (aggregateSequentialR r { parallel := p }).reads = [] := by
        intro p
        unfold aggregateSequentialR
        rw [if_neg (by simp), if_neg (by simp [h0]), hz, show (List.range (0 : UInt64).toNat).map UInt64.ofNat = [] from rfl]
        exact bind_quiet _ _ rfl fun _ _ => rfl
      unfold aggregateWithOptionsR
      rw [ite_reads]
      split
      · unfold aggregateParallelR
        dsimp only
        rw [hz, if_pos (.inr (by decide))]
        exact hs 0
      · exact hs p
    · exact C72_indexOnly r h0 sched p
  · intro ho
    refine aggregateR_reads hin.index hin.small hl hc sched o ?_
    cases hf : o.filter with
    | some f => exact .inl rfl
    | none =>
      cases hd : o.denyFilter with
      | some d => exact .inr (.inl rfl)
      | none =>
        refine .inr (.inr ?_)
        cases hs : o.skipPreCalculated with
        | true => rfl
        | false => exact absurd ⟨hf, hd, hs⟩ ho

/-- **C72, bitmap.** `GetGlobalIDBitmap` reads the length of the bitmap and the bitmap. -/
theorem C72_bitmap {r : Reader B} {file : Bytes} (h : Fresh r file) : (getGlobalIDBitmapR r).reads = bitmapReads r := by
  obtain ⟨hb, hin, hl, hc, h0, h1, _⟩ := h.facts
  exact getGlobalIDBitmapR_in hin h0 (.inl h1)


/-- The parts of a file that are read: the file header, -/
def headerPart : List (Int64 × Int64) := [(0, 64)]
/-- the blocks, without their headers, in the order of the index, -/
def blockParts (r : Reader B) : List (Int64 × Int64) := r.blockIndex.map dataPart
/-- and the footer: the number of index entries, the entries, and the last 24 bytes. -/
def footerParts (r : Reader B) : List (Int64 × Int64) :=
  [(Int64.ofNat r.footerStart, 4), (Int64.ofNat (r.footerStart + 4), Int64.ofNat (56 * r.blockIndex.length)),
   (Int64.ofNat (r.bytes.length - 24), 24)]

/-- **C72, where.** In a finalized file the parts that are read lie one after the other, without overlap, inside the file: the file header, the blocks without their
headers in the order of the index, the length of the bitmap, the bitmap, and the three parts of the footer. So opening reads no byte of a block, an aggregation
reads no byte twice, and nothing is read outside the file. -/
theorem C72_within {r : Reader B} {file : Bytes} (h : Fresh r file) :
    (headerPart ++ blockParts r ++ bitmapReads r ++ footerParts r).Pairwise (fun a b => a.1.toInt + a.2.toInt ≤ b.1.toInt) ∧
    (∀ a ∈ headerPart ++ blockParts r ++ bitmapReads r ++ footerParts r,
      0 ≤ a.1.toInt ∧ 0 ≤ a.2.toInt ∧ a.1.toInt + a.2.toInt ≤ (file.length : Int)) ∧
    ∀ a ∈ (newReaderR (B := B) file).reads, a ∈ headerPart ++ footerParts r := by
  unfold headerPart blockParts footerParts
  obtain ⟨env, opts, log, hf, hn⟩ := h.finalized
  obtain ⟨hb, hin, hl, hc, h0, h1, hfit⟩ := h.facts
  obtain ⟨e1, e2, e3, e4⟩ := C08_extents hf hn r h.opened
  have hsm := hin.small
  rw [hb] at hsm
  have hbm := hin.bitmap
  have hi4 : (4 : Int64).toInt = 4 := by decide
  have hi0 : (0 : Int64).toInt = 0 := by decide
  have hi64 : (64 : Int64).toInt = 64 := by decide
  have hi24 : (24 : Int64).toInt = 24 := by decide
  have hd : ∀ x ∈ r.blockIndex, (dataPart x).1.toInt = (x.start : Int) + 64 ∧ (dataPart x).1.toInt + (dataPart x).2.toInt = x.stop ∧
      64 ≤ x.start ∧ x.start + 80 ≤ x.stop ∧ x.stop ≤ r.header.bitmapOffset.toNat := by
    intro x hx
    obtain ⟨a1, a2, a3⟩ := e2 x hx
    unfold dataPart
    dsimp only
    rw [int64_toInt_ofNat _ (by omega), int64_toInt_ofNat _ (by omega)]
    omega
  rw [hb]
  rw [hb] at hfit hbm
  generalize hbz : (rd32 (slice file r.header.bitmapOffset.toNat 4) 0).toNat = bz at *
  have hbr : bitmapReads r = [(Int64.ofNat r.header.bitmapOffset.toNat, 4), (Int64.ofNat (r.header.bitmapOffset.toNat + 4), Int64.ofNat bz)] := by
    unfold bitmapReads; dsimp only; rw [hb, hbz]
  rw [hbr]
  have t1 := int64_toInt_ofNat r.header.bitmapOffset.toNat (by omega)
  have t2 := int64_toInt_ofNat (r.header.bitmapOffset.toNat + 4) (by omega)
  have t3 := int64_toInt_ofNat bz (by omega)
  have t4 := int64_toInt_ofNat r.footerStart (by omega)
  have t5 := int64_toInt_ofNat (r.footerStart + 4) (by omega)
  have t6 := int64_toInt_ofNat (56 * r.blockIndex.length) (by omega)
  have t7 := int64_toInt_ofNat (file.length - 24) (by omega)
  refine ⟨?_, ?_, ?_⟩
  · have p1 : (List.map dataPart r.blockIndex).Pairwise (fun a b : Int64 × Int64 => a.1.toInt + a.2.toInt ≤ b.1.toInt) := by
      rw [List.pairwise_map]
      refine e1.imp_of_mem ?_
      intro x y hx hy hxy
      have := hd x hx
      have := hd y hy
      omega
    rw [List.append_assoc, List.append_assoc, List.pairwise_append]
    refine ⟨List.pairwise_singleton .., ?_, ?_⟩
    · rw [List.pairwise_append]
      refine ⟨p1, ?_, ?_⟩
      · simp only [List.cons_append, List.nil_append, List.pairwise_cons, List.mem_cons, List.not_mem_nil, or_false, forall_eq_or_imp, forall_eq,
          List.Pairwise.nil, and_true, false_imp_iff, implies_true]
        omega
      · intro a ha b hb
        obtain ⟨x, hx, rfl⟩ := List.mem_map.1 ha
        have := hd x hx
        simp only [List.mem_append, List.mem_cons, List.not_mem_nil, or_false] at hb
        rcases hb with (rfl | rfl) | rfl | rfl | rfl <;> (dsimp only; omega)
    · intro a ha b hb
      rw [List.mem_singleton.1 ha]
      simp only [List.mem_append, List.mem_map, List.mem_cons, List.not_mem_nil, or_false] at hb
      rcases hb with ⟨x, hx, rfl⟩ | (rfl | rfl) | rfl | rfl | rfl
      · have := hd x hx; dsimp only; omega
      all_goals (dsimp only; omega)
  · intro a ha
    simp only [List.mem_append, List.mem_cons, List.mem_map, List.not_mem_nil, or_false] at ha
    rcases ha with ((rfl | ⟨x, hx, rfl⟩) | rfl | rfl) | rfl | rfl | rfl
    · dsimp only; omega
    · have := hd x hx; omega
    all_goals (dsimp only; omega)
  · intro a ha
    rw [C72_open hf hn] at ha
    have hla : r.blockIndex.length = (acked log).length := by
      obtain ⟨hd, blks, buf, bo, fs, hok, hr', hp, hfit⟩ := hf.opened hn r h.opened
      rw [hr', ← hp]; simp [okReader]
    unfold openReads at ha
    dsimp only at ha
    rw [← hla, show file.length - 28 - 56 * r.blockIndex.length = r.footerStart by omega] at ha
    simp only [List.mem_cons, List.not_mem_nil, or_false] at ha ⊢
    rcases ha with rfl | rfl | rfl | rfl <;> simp


theorem bitmap_ok {r : Reader B} (h : ReadsIn r) : ∃ b, (getGlobalIDBitmap r).1 = .ok b := by
  obtain ⟨h1, h2⟩ := h.bitmap
  have hsm := h.small
  have e1 : r.header.bitmapOffset.toInt64 = Int64.ofNat r.header.bitmapOffset.toNat := by
    rw [← uint64_ofNat_toInt64]; simp
  have r0 : readBytesAt r.bytes r.header.bitmapOffset.toInt64 4 = .ok (slice r.bytes r.header.bitmapOffset.toNat 4) := by
    rw [e1, show (4 : Int64) = Int64.ofNat 4 from rfl, readBytesAt_ok _ _ _ (by omega) hsm]
  have r2 : readBytesAt r.bytes (r.header.bitmapOffset.toInt64 + 4) (Int64.ofNat (rd32 (slice r.bytes r.header.bitmapOffset.toNat 4) 0).toNat) =
      .ok (slice r.bytes (r.header.bitmapOffset.toNat + 4) (rd32 (slice r.bytes r.header.bitmapOffset.toNat 4) 0).toNat) := by
    rw [e1, show (4 : Int64) = Int64.ofNat 4 from rfl, int64_ofNat_add, readBytesAt_ok _ _ _ (by omega) hsm]
  unfold getGlobalIDBitmap
  rw [r0]
  dsimp only
  rw [r2]
  dsimp only
  cases r.globalIDs <;> cases r.cacheGlobalIDs <;> dsimp only
  case some.true => exact ⟨_, rfl⟩
  all_goals
    split
    · exact ⟨_, rfl⟩
    · exact ⟨_, rfl⟩

/-- **C72, several files.** `MultiReader.Aggregate` always passes a deny filter, so it never uses the index: of every file it reads each considered block once, and
then the bitmap (files listed from newest to oldest). -/
theorem C72_multi (sched : Sched) (hs : sched.Fair) (readers : List (Reader B)) (h : ∀ r ∈ readers, ∃ file, Fresh r file) (skip : Bool) (filter : Option B) :
    (multiAggregateR sched readers skip filter).1 =
      readers.reverse.map fun r => ((considered r filter).filterMap fun i => r.blockIndex[i]?.map dataPart) ++ bitmapReads r := by
  have key : ∀ (rs : List (Reader B)), (∀ r ∈ rs, ∃ file, Fresh r file) → ∀ (deny : B) (res : AggregateResult),
      (multiLoopR sched skip filter rs deny res).1 =
        rs.map fun r => ((considered r filter).filterMap fun i => r.blockIndex[i]?.map dataPart) ++ bitmapReads r := by
    intro rs
    induction rs with
    | nil => intro _ _ _; rfl
    | cons r rs ih =>
      intro h deny res
      obtain ⟨file, hf⟩ := h r List.mem_cons_self
      have hrd := (C72_aggregate hf sched { skipPreCalculated := skip, filter := filter, denyFilter := some deny }).2 (by simp)
      have hbm := C72_bitmap hf
      obtain ⟨hb, hin, hl, hc, h0, h1, hfit⟩ := hf.facts
      unfold maxBlocks at hl
      have hp : ∀ i, getPairs r i ≠ .panic := C31_getPairs_wellformed r fun e he => by
        have := hin.index e he; unfold FooterEntry.start FooterEntry.stop at this; omega
      obtain ⟨a, ha, _⟩ := C49_filtered r hp sched hs { skipPreCalculated := skip, filter := filter, denyFilter := some deny }
        (.inr ⟨rfl, by omega⟩)
      have ⟨b, hb'⟩ : ∃ b, (getGlobalIDBitmap r).1 = .ok b := bitmap_ok hin
      unfold multiLoopR
      dsimp only
      rw [aggregateWithOptionsR_res, ha]
      dsimp only
      rw [getGlobalIDBitmapR_res, hb']
      dsimp only
      rw [ih (fun r hr => h r (List.mem_cons_of_mem _ hr)), hrd, hbm, List.map_cons]
  unfold multiAggregateR
  split
  · rename_i h0
    rw [List.length_eq_zero_iff.1 h0]; rfl
  · exact key _ (fun r hr => h r (List.mem_reverse.1 hr)) _ _


/-- Non-vacuity of C72: a file of two blocks, with IDs 1 to 3 and 9. With the filter {9} only the second block is read, with a deny filter both, and with no
filter none. -/
example : ∃ (file : Bytes) (r : Reader IdSet) (x y : FooterEntry), Fresh r file ∧ r.blockIndex = [x, y] ∧ x.stop ≤ y.start ∧
    (aggregateWithOptionsR inOrder r { filter := some ⟨[9]⟩ }).reads = [dataPart y] ∧
    (aggregateWithOptionsR inOrder r { denyFilter := some ⟨[9]⟩, parallel := 2 }).reads = [dataPart x, dataPart y] ∧
    (aggregateWithOptionsR inOrder r { parallel := 2 }).reads = [] ∧
    (multiAggregateR inOrder [r] false none).1 = [[dataPart x, dataPart y] ++ bitmapReads r] := by
  obtain ⟨file, hf⟩ := old_finalized
  obtain ⟨r, hr, _⟩ := C29_accessors hf (by decide)
  have hfr : Fresh r file := ⟨⟨_, _, _, hf, by decide⟩, hr⟩
  obtain ⟨hb, hin, hl, hc, h0, h1, hfit⟩ := hfr.facts
  have hlen : r.blockIndex.length = 2 := by
    obtain ⟨hd, blks, buf, bo, fs, hok, hr', hp, hfit⟩ := hf.opened (by decide) r hr
    have := congrArg List.length hp
    rw [List.length_map] at this
    rw [hr']
    exact (List.length_map _).trans this
  obtain ⟨x, y, hxy⟩ : ∃ x y, r.blockIndex = [x, y] := by
    cases hi : r.blockIndex with
    | nil => rw [hi] at hlen; cases hlen
    | cons x t =>
      cases t with
      | nil => rw [hi] at hlen; cases hlen
      | cons y t =>
        cases t with
        | nil => exact ⟨x, y, rfl⟩
        | cons z t => rw [hi] at hlen; simp at hlen
  obtain ⟨_, _, _, _, hx, _⟩ := C09_stats hf (by decide) r hr 0 (by omega)
  obtain ⟨_, _, _, ⟨hy1, _⟩, ⟨hy2, _⟩⟩ := C09_stats hf (by decide) r hr 1 (by omega)
  simp only [hxy, List.getElem_cons_zero, List.getElem_cons_succ] at hx hy1 hy2
  have hx' : x.maxID ≤ 3 := by
    have : ∀ z ∈ ([3, 1, 2] : List UInt64), z ≤ 3 := by decide
    exact this _ hx
  have hy1' : y.minID = 9 := List.mem_singleton.1 hy1
  have hy2' : y.maxID = 9 := List.mem_singleton.1 hy2
  have hn : considered r (none : Option IdSet) = [0, 1] := by
    unfold considered
    dsimp only
    rw [hc, hlen]; rfl
  have h9 : considered r (some ⟨[9]⟩ : Option IdSet) = [1] := by
    unfold considered
    dsimp only
    rw [hlen, show List.range 2 = [0, 1] from rfl, hxy]
    have m1 : Bitmap.minimum (⟨[9]⟩ : IdSet) = 9 := by decide
    have m2 : Bitmap.maximum (⟨[9]⟩ : IdSet) = 9 := by decide
    have n1 : ¬ (9 : UInt64) ≤ x.maxID := fun hc => absurd (UInt64.le_trans hc hx') (by decide)
    simp [m1, m2, hy1', hy2', n1]
  have hpw := (C08_extents hf (by decide) r hr).1
  rw [hxy] at hpw
  refine ⟨file, r, x, y, hfr, hxy, ?_, ?_, ?_, ?_, ?_⟩
  · exact (List.pairwise_cons.1 hpw).1 y List.mem_cons_self
  · rw [(C72_aggregate hfr inOrder _).2 (by simp)]
    dsimp only
    rw [h9, hxy]; rfl
  · rw [(C72_aggregate hfr inOrder _).2 (by simp)]
    dsimp only
    rw [hn, hxy]; rfl
  · exact (C72_aggregate hfr inOrder _).1 ⟨rfl, rfl, rfl⟩
  · rw [C72_multi inOrder inOrder_fair [r] (fun r' hr' => ⟨file, List.mem_singleton.1 hr' ▸ hfr⟩) false none]
    show [_] = _
    dsimp only
    rw [hn, hxy]; rfl

end VibeCol.ReadLog
