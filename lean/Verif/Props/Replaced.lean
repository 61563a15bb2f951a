/-
C67: readers of a file that is truncated, damaged or replaced while they are open.
-/
import Verif.Props.Live
import Verif.Props.Multi
set_option linter.unusedSectionVars false
namespace VibeCol.Replaced
open VibeCol
variable {B : Type} [Bitmap B]

/-! ### Helpers -/

theorem readBlockFilteredLive_eq (now : Bytes) (r : Reader B) (i : Int64) (f d : Option B) :
    readBlockFilteredLive now r i f d = readBlockFiltered { r with bytes := now } i f d := rfl

/-- The blocks an aggregation considers do not depend on what the file holds. -/
theorem iterator_bytes (now : Bytes) (r : Reader B) (f d : Option B) :
    filteredBlockIterator { r with bytes := now } f d = filteredBlockIterator r f d := rfl

/-- Sequential aggregation returns a result, whatever each read finds. -/
theorem sequential_ok (view : UInt64 → Bytes) (r : Reader B) (h : ∀ e ∈ r.blockIndex, 80 ≤ e.blockSize.toNat)
    (hb : r.blockCount.toNat ≤ 2 ^ 45) (o : AggregateOptions B) : ∃ res, aggregateSequentialLive view r o = .ok res := by
  unfold aggregateSequentialLive
  split
  · rename_i hfd
    rw [iterator_ok _ (.inr (by unfold maxAlloc; have : r.header.blockCount.toNat ≤ 2 ^ 45 := hb; omega)), Res.ok_bind]
    split
    · exact ⟨_, rfl⟩
    · obtain ⟨a, ha⟩ := sumBlocks_no_panic (fun i : UInt64 => readBlockFilteredLive (view i) r i.toInt64 o.filter o.denyFilter)
        (fun i => readBlockFiltered_no_panic (r := { r with bytes := view i }) h i o.filter o.denyFilter)
        (iterBlocks r o.filter) Acc.init
      rw [ha]
      exact ⟨_, rfl⟩
  · split
    · exact ⟨_, rfl⟩
    · obtain ⟨a, ha⟩ := sumBlocks_no_panic (fun i => getPairsLive (view i) r i)
        (fun i => C31_getPairs_wellformed { r with bytes := view i } h i)
        ((List.range r.header.blockCount.toNat).map UInt64.ofNat) Acc.init
      rw [ha]
      exact ⟨_, rfl⟩

/-- Aggregation returns a result, whatever each read finds. -/
theorem aggregate_ok (view : UInt64 → Bytes) (sched : Sched) (r : Reader B) (h : ∀ e ∈ r.blockIndex, 80 ≤ e.blockSize.toNat)
    (hc : r.blockCount.toNat ≤ r.blockIndex.length) (hb : r.blockCount.toNat ≤ 2 ^ 45) (o : AggregateOptions B) :
    ∃ res, aggregateWithOptionsLive view sched r o = .ok res := by
  by_cases ho : o.parallel = 0
  · unfold aggregateWithOptionsLive
    rw [if_neg (by simp [ho])]
    exact sequential_ok view r h hb o
  unfold aggregateWithOptionsLive
  rw [if_pos ho]
  unfold aggregateParallelLive
  dsimp only
  generalize hnw : (if o.parallel < 0 then sched.gomaxprocs else o.parallel) = nw
  generalize hnw2 : (if nw > r.header.blockCount.toInt64.toInt then r.header.blockCount.toInt64.toInt else nw) = nw2
  by_cases hw : nw2 ≤ 1 ∨ r.header.blockCount.toInt64.toInt ≤ 1
  · rw [if_pos hw]
    exact sequential_ok view r h hb _
  rw [if_neg hw]
  have hidx : ¬ (o.filter.isSome ∨ o.denyFilter.isSome) →
      ∀ i ∈ (List.range r.header.blockCount.toInt64.toInt.toNat).map UInt64.ofNat, i.toNat < r.blockIndex.length := by
    intro _ i hi
    obtain ⟨k, hk, rfl⟩ := List.mem_map.1 hi
    rw [List.mem_range] at hk
    have hbc := toInt64_toNat_le r.header.blockCount
    have : (UInt64.ofNat k).toNat ≤ k := by simp; exact Nat.mod_le _ _
    have : r.header.blockCount.toNat ≤ r.blockIndex.length := hc
    omega
  have hread : ∀ i, (fun i : UInt64 => if o.filter.isSome ∨ o.denyFilter.isSome then
      readBlockFilteredLive (view i) r i.toInt64 o.filter o.denyFilter else getPairsLive (view i) r i) i ≠ .panic := by
    intro i
    dsimp only
    split
    · exact readBlockFiltered_no_panic (r := { r with bytes := view i }) h i _ _
    · exact C31_getPairs_wellformed { r with bytes := view i } h i
  have hbi : ∃ idx, (if o.filter.isSome ∨ o.denyFilter.isSome then filteredBlockIterator r o.filter o.denyFilter
      else firstBlocks r.header.blockCount.toInt64.toInt.toNat) = .ok idx ∧
      (¬ (o.filter.isSome ∨ o.denyFilter.isSome) → ∀ i ∈ idx, i.toNat < r.blockIndex.length) := by
    have hb' : r.header.blockCount.toNat ≤ 2 ^ 45 := hb
    by_cases hn : o.filter.isSome ∨ o.denyFilter.isSome
    · exact ⟨_, by rw [if_pos hn, iterator_ok _ (.inr (by unfold maxAlloc; omega))], fun hc => absurd hn hc⟩
    · refine ⟨_, by
        rw [if_neg hn, firstBlocks_ok]
        have hbc := toInt64_toNat_le r.header.blockCount
        unfold maxAlloc; omega, hidx⟩
  obtain ⟨idx, hbi, hidx2⟩ := hbi
  rw [hbi, Res.ok_bind]
  generalize (fun i : UInt64 => if o.filter.isSome ∨ o.denyFilter.isSome then
      readBlockFilteredLive (view i) r i.toInt64 o.filter o.denyFilter else getPairsLive (view i) r i) = read at hread
  by_cases hl : idx.length = 0
  · rw [if_pos hl]; exact ⟨_, rfl⟩
  rw [if_neg hl]
  by_cases hcond : r.blockIndex.length > 0 ∧ o.skipPreCalculated = false ∧ o.filter.isNone ∧ o.denyFilter.isNone
  · rw [if_pos hcond]
    obtain ⟨_, _, hf, hd⟩ := hcond
    have hnone : ¬ (o.filter.isSome ∨ o.denyFilter.isSome) := by
      rw [Option.isNone_iff_eq_none] at hf hd
      simp [hf, hd]
    unfold aggregateParallelWith
    obtain ⟨rs, hrs⟩ := workerResults_noPanic (sumEntries r) idx nw2.toNat (List.range nw2.toNat)
      (fun w _ a => sumEntries_ok r _ (fun i hi => hidx2 hnone i (workerSlice_subset _ _ _ _ hi)) a)
    rw [hrs]
    exact ⟨_, rfl⟩
  · rw [if_neg hcond]
    unfold aggregateParallelWith
    obtain ⟨rs, hrs⟩ := workerResults_noPanic (sumBlocks read) idx nw2.toNat (List.range nw2.toNat)
      (fun w _ a => sumBlocks_no_panic read hread (workerSlice idx _ w) a)
    rw [hrs]
    exact ⟨_, rfl⟩

theorem bitmap_noPanic (view : Nat → Bytes) (r : Reader B) : (getGlobalIDBitmapLive view r).1 ≠ .panic := by
  unfold getGlobalIDBitmapLive
  split
  · nofun
  · dsimp only
    split
    · nofun
    · cases h : readBytesAt (view 0) r.header.bitmapOffset.toInt64 4 with
      | err e => nofun
      | panic => rw [readBytesAt_panic] at h; exact absurd h (by decide)
      | ok buf =>
        dsimp only
        cases h2 : readBytesAt (view 1) (r.header.bitmapOffset.toInt64 + 4) (Int64.ofNat (rd32 buf 0).toNat) with
        | err e => nofun
        | panic =>
          rw [readBytesAt_panic] at h2
          have := (rd32 buf 0).toNat_lt
          exact absurd h2 (int64_ofNat_not_neg _ (by omega))
        | ok buf2 => nofun

theorem getGlobalIDBitmapLive_still (view : Nat → Bytes) (r : Reader B) : (getGlobalIDBitmapLive view r).2.bytes = r.bytes ∧
    (getGlobalIDBitmapLive view r).2.header = r.header ∧ (getGlobalIDBitmapLive view r).2.blockIndex = r.blockIndex := by
  unfold getGlobalIDBitmapLive
  split
  · exact ⟨rfl, rfl, rfl⟩
  · dsimp only
    repeat' split
    all_goals exact ⟨rfl, rfl, rfl⟩

/-- A call leaves the header and the index of the reader alone. -/
theorem run_still (c : LiveCall B) (r : Reader B) :
    (c.run r).2.header = r.header ∧ (c.run r).2.blockIndex = r.blockIndex := by
  cases c with
  | getBitmap view => exact (getGlobalIDBitmapLive_still view r).2
  | _ => exact ⟨rfl, rfl⟩

/-- The outcome of the call is a panic. -/
def panicked : ReaderOut B → Prop
  | .done => False
  | .bitmap b => b = .panic
  | .pairs p => p = .panic
  | .result a => a = .panic

theorem run_noPanic (calls : List (LiveCall B)) (r : Reader B) (h : ∀ e ∈ r.blockIndex, 80 ≤ e.blockSize.toNat)
    (hc : r.blockCount.toNat ≤ r.blockIndex.length) (hb : r.blockCount.toNat ≤ 2 ^ 45) :
    ∀ o ∈ (runLive calls r).1, ¬ panicked o := by
  induction calls generalizing r with
  | nil => nofun
  | cons c cs ih =>
    intro o ho
    have hs := run_still c r
    rcases List.mem_cons.1 (show o ∈ (c.run r).1 :: (runLive cs (c.run r).2).1 from ho) with ho | ho
    · subst ho
      cases c with
      | enable => nofun
      | disable => nofun
      | getBitmap view => exact bitmap_noPanic view r
      | getPairs now i => exact C31_getPairs_wellformed { r with bytes := now } h i
      | aggregate view sched op =>
        obtain ⟨res, hres⟩ := aggregate_ok view sched r h hc hb op
        intro hp
        have hp' : aggregateWithOptionsLive view sched r op = .panic := hp
        rw [hres] at hp'; cases hp'
    · refine ih (c.run r).2 (by rw [hs.2]; exact h) ?_ ?_ o ho
      · unfold Reader.blockCount; rw [hs.1, hs.2]; exact hc
      · unfold Reader.blockCount; rw [hs.1]; exact hb

/-! ### C67 -/

variable [LawfulBitmap B]

/-- **C67.** A reader that was opened on a finalized file never panics, whatever its reads find in the file from then on:
whether it was cut off, overwritten, damaged or replaced, before or in the middle of a call. -/
theorem C67_noPanic {env : Env} {opts : List WriterOption} {log : Log} {file : Bytes} (h : Finalized B env opts log file)
    (hn : (acked log).length ≤ maxBlocks) (r : Reader B) (hr : newReader file = .ok r) (calls : List (LiveCall B)) :
    ∀ o ∈ (runLive calls r).1, ¬ panicked o := by
  have hx := (C08_extents h hn r hr).2.1
  have hI := h.indexed hn r hr
  have hcount : r.blockCount.toNat = (acked log).length := by
    unfold Reader.blockCount
    rw [hI.count, UInt64.toNat_ofNat']
    unfold maxBlocks at hn; omega
  refine run_noPanic calls r (fun e he => ?_) (by rw [hI.index]; omega) (by unfold maxBlocks at hn; omega)
  obtain ⟨_, h2, _⟩ := hx e he
  unfold FooterEntry.stop FooterEntry.start at h2
  omega

/-- Aggregation without filters from the index does not read the file. -/
theorem index_only {blocks : List Block} {r : Reader B} (H : Indexed r blocks) (hne : blocks ≠ []) (view : UInt64 → Bytes) (sched : Sched)
    (o : AggregateOptions B) (hf : o.filter = none) (hd : o.denyFilter = none) (hs : o.skipPreCalculated = false) :
    aggregateWithOptionsLive view sched r o = aggregateWithOptions sched r o := by
  have hpos : r.blockIndex.length > 0 := by rw [H.index]; exact List.length_pos_iff.2 hne
  have h1 : ∀ o : AggregateOptions B, o.filter = none → o.denyFilter = none → o.skipPreCalculated = false →
      aggregateSequentialLive view r o = aggregateSequential r o := by
    intro o hf hd hs
    unfold aggregateSequentialLive aggregateSequential
    rw [hf, hd, hs]
    simp only [Option.isSome_none, Bool.false_eq_true, or_self, if_false, hpos, true_and, if_true]
  unfold aggregateWithOptionsLive aggregateWithOptions aggregateParallelLive aggregateParallel
  rw [h1 o hf hd hs]
  dsimp only
  rw [h1 { o with parallel := 0 } hf hd hs]
  simp only [hf, hd, hs, hpos, Option.isNone_none, and_self, if_true]

/-- **C67.** Aggregating without filters and without `SkipPreCalculated` goes on to return the aggregate of the blocks the
reader was opened with, whatever has happened to the file. -/
theorem C67_index {env : Env} {opts : List WriterOption} {log : Log} {file : Bytes} (h : Finalized B env opts log file)
    (hn : (acked log).length ≤ maxBlocks) (hne : acked log ≠ []) (hrep : StatsRepresentable (acked log)) (r : Reader B) (hr : newReader file = .ok r)
    (view : UInt64 → Bytes) (sched : Sched) (hs : sched.Fair) (workers : Int) :
    ∃ res, aggregateWithOptionsLive view sched r { parallel := workers } = .ok res ∧ IsAggregate res (valuesOf (acked log)) := by
  rw [index_only (h.indexed hn r hr) hne view sched _ rfl rfl rfl]
  exact C10_parallel h hn hrep r hr sched hs workers

/-! #### A file that was cut off -/

omit [LawfulBitmap B] in
/-- Behind the end of the file only zeros are read, and there is no error. -/
theorem readBytesAt_behind {now : Bytes} (o n : Nat) (h : now.length ≤ o) (ho : o < 2 ^ 63) (hn : n < 2 ^ 63) :
    readBytesAt now (Int64.ofNat o) (Int64.ofNat n) = .ok (List.replicate n 0) := by
  unfold readBytesAt
  rw [if_neg (int64_ofNat_not_neg _ hn), if_neg (int64_ofNat_not_neg _ ho)]
  dsimp only
  rw [int64_toInt_ofNat _ ho, int64_toInt_ofNat _ hn, Int.toNat_natCast, Int.toNat_natCast, List.drop_eq_nil_of_le h]
  simp

/-- What the entry of a block in a finalized file looks like. -/
theorem entry_of {env : Env} {opts : List WriterOption} {log : Log} {file : Bytes} (h : Finalized B env opts log file)
    (hn : (acked log).length ≤ maxBlocks) (r : Reader B) (hr : newReader file = .ok r) (i : Nat) (hi : i < (acked log).length) :
    ∃ e, r.blockIndex[i]? = some e ∧ 64 ≤ e.blockOffset.toNat ∧ 80 ≤ e.blockSize.toNat ∧ e.blockOffset.toNat + e.blockSize.toNat < 2 ^ 63 := by
  have hI := h.indexed hn r hr
  have hlt : i < r.blockIndex.length := by rw [hI.index]; exact hi
  obtain ⟨hb, hin⟩ := h.readsIn hn r hr
  have hsm := hin.small
  obtain ⟨h1, h2, h3⟩ := hin.index _ (List.getElem_mem hlt)
  unfold FooterEntry.stop FooterEntry.start at *
  exact ⟨_, List.getElem?_eq_getElem hlt, h1, by omega, by omega⟩

omit [LawfulBitmap B] in
theorem goSlice_zeros (n lo hi : Nat) (h1 : lo ≤ hi) (h2 : hi ≤ n) : ∃ b, goSlice (List.replicate n (0 : UInt8)) lo hi = .ok b := by
  unfold goSlice
  exact ⟨_, if_pos ⟨h1, by simpa using h2⟩⟩

/-- Reading a block of a file that was cut off before it fails. -/
theorem readBlock_cut {r : Reader B} {now : Bytes} {i : Int64} {e : FooterEntry} (hi : ¬ i < 0) (he : r.blockIndex[i.toInt.toNat]? = some e)
    (h1 : now.length ≤ e.blockOffset.toNat + 64) (h2 : 80 ≤ e.blockSize.toNat) (h3 : e.blockOffset.toNat + e.blockSize.toNat < 2 ^ 63) :
    readBlockLive now r i = .err .zeroSection := by
  unfold readBlockLive readBlock
  rw [if_neg hi]
  dsimp only
  rw [he]
  dsimp only
  have e1 : e.blockOffset.toInt64 = Int64.ofNat e.blockOffset.toNat := by
    rw [← uint64_ofNat_toInt64]; simp
  rw [e1, show (64 : Int64) = Int64.ofNat 64 from rfl, int64_ofNat_add, int64_ofNat_sub _ _ (by omega) (by omega),
    readBytesAt_behind _ _ h1 (by omega) (by omega), Res.ok_bind]
  obtain ⟨b1, hb1⟩ := goSlice_zeros (e.blockSize.toNat - 64) 0 4 (by omega) (by omega)
  obtain ⟨b2, hb2⟩ := goSlice_zeros (e.blockSize.toNat - 64) 4 8 (by omega) (by omega)
  obtain ⟨b3, hb3⟩ := goSlice_zeros (e.blockSize.toNat - 64) 8 12 (by omega) (by omega)
  obtain ⟨b4, hb4⟩ := goSlice_zeros (e.blockSize.toNat - 64) 12 16 (by omega) (by omega)
  rw [hb1, Res.ok_bind, hb2, Res.ok_bind, hb3, Res.ok_bind, hb4, Res.ok_bind]
  have hz : rd32 (List.replicate (e.blockSize.toNat - 64) 0) 4 = 0 := by
    unfold rd32
    rw [List.drop_replicate, List.take_replicate, Nat.min_eq_left (by omega)]
    rfl
  rw [if_pos hz]

/-- **C67.** If the file was cut off before a block (for instance because a new writer was opened on the same path, which
leaves 64 bytes), reading that block returns an error. -/
theorem C67_truncated {env : Env} {opts : List WriterOption} {log : Log} {file : Bytes} (h : Finalized B env opts log file)
    (hn : (acked log).length ≤ maxBlocks) (r : Reader B) (hr : newReader file = .ok r) (i : Nat) (hi : i < (acked log).length) :
    ∃ e, r.blockIndex[i]? = some e ∧ 64 ≤ e.blockOffset.toNat ∧
      ∀ now : Bytes, now.length ≤ e.blockOffset.toNat + 64 → getPairsLive now r (UInt64.ofNat i) = .err .zeroSection := by
  obtain ⟨e, he, h1, h2, h3⟩ := entry_of h hn r hr i hi
  refine ⟨e, he, h1, fun now hl => ?_⟩
  unfold maxBlocks at hn
  have e1 : (UInt64.ofNat i).toInt64 = Int64.ofNat i := uint64_ofNat_toInt64 _
  refine readBlock_cut (e := e) ?_ ?_ hl h2 h3
  · rw [e1]; exact int64_ofNat_not_neg _ (by omega)
  · rw [e1, int64_toInt_ofNat _ (by omega), Int.toNat_natCast]; exact he

omit [Bitmap B] [LawfulBitmap B] in
theorem sumBlocks_none (read : UInt64 → Res (List UInt64 × List Int64)) (h : ∀ i, ∃ e, read i = .err e) (is : List UInt64) (a : Acc) :
    sumBlocks read is a = .ok a := by
  induction is with
  | nil => rfl
  | cons i is ih =>
    obtain ⟨e, he⟩ := h i
    unfold sumBlocks
    rw [he]
    exact ih

omit [Bitmap B] [LawfulBitmap B] in
theorem workerResults_none (read : UInt64 → Res (List UInt64 × List Int64)) (h : ∀ i, ∃ e, read i = .err e) (idx : List UInt64) (n : Nat)
    (ws : List Nat) : ∃ rs, workerResults (sumBlocks read) idx n ws = .ok rs ∧ ∀ x ∈ rs, x = Acc.init.result := by
  induction ws with
  | nil => exact ⟨[], rfl, nofun⟩
  | cons w ws ih =>
    obtain ⟨rs, h1, h2⟩ := ih
    unfold workerResults
    split
    · exact ⟨rs, h1, h2⟩
    · rw [sumBlocks_none read h, Res.ok_bind, h1, Res.ok_bind]
      refine ⟨_, rfl, fun x hx => ?_⟩
      rcases List.mem_cons.1 hx with hx | hx
      · exact hx
      · exact h2 x hx

omit [Bitmap B] [LawfulBitmap B] in
theorem mergeResults_none (rs : List AggregateResult) (h : ∀ x ∈ rs, x = Acc.init.result) :
    (mergeResults rs).count = 0 ∧ (mergeResults rs).sum = 0 ∧ (mergeResults rs).avg = .zero := by
  have key : ∀ (rs : List AggregateResult) (f : AggregateResult), (∀ x ∈ rs, x = Acc.init.result) → f.count = 0 ∧ f.sum = 0 →
      (rs.foldl mergeStep f).count = 0 ∧ (rs.foldl mergeStep f).sum = 0 := by
    intro rs
    induction rs with
    | nil => exact fun f _ hf => hf
    | cons x xs ih =>
      intro f hx hf
      refine ih (mergeStep f x) (fun y hy => hx y (List.mem_cons_of_mem _ hy)) ?_
      rw [hx x List.mem_cons_self]
      simp [mergeStep, Acc.result, Acc.init, hf.1, hf.2]
  obtain ⟨h1, h2⟩ := key rs .zero h ⟨rfl, rfl⟩
  unfold mergeResults
  refine ⟨h1, h2, ?_⟩
  dsimp only
  rw [if_neg (by omega)]

/-- **C67.** If nothing but the header is left when the blocks are read, an aggregation that reads the blocks (because of a
filter, a deny filter or `SkipPreCalculated`) reports no error: it returns a count and a sum of 0. -/
theorem C67_silent {env : Env} {opts : List WriterOption} {log : Log} {file : Bytes} (h : Finalized B env opts log file)
    (hn : (acked log).length ≤ maxBlocks) (r : Reader B) (hr : newReader file = .ok r) (view : UInt64 → Bytes)
    (hcut : ∀ i, (view i).length ≤ 64) (sched : Sched) (hs : sched.Fair) (o : AggregateOptions B)
    (ho : o.filter.isSome ∨ o.denyFilter.isSome ∨ o.skipPreCalculated = true) :
    ∃ res, aggregateWithOptionsLive view sched r o = .ok res ∧ res.count = 0 ∧ res.sum = 0 ∧ res.avg = .zero := by
  have hI := h.indexed hn r hr
  have hcnt : r.header.blockCount.toNat = (acked log).length := by
    rw [hI.count, UInt64.toNat_ofNat']
    unfold maxBlocks at hn; omega
  have hbc : 8 * r.header.blockCount.toNat ≤ maxAlloc := by
    unfold maxBlocks at hn; unfold maxAlloc; omega
  have hblk : ∀ (i : Int64) (now : Bytes), now.length ≤ 64 → ∃ e, readBlockLive now r i = .err e := by
    intro i now hl
    by_cases hi : i < 0
    · exact ⟨.badBlockIndex, by unfold readBlockLive readBlock; rw [if_pos hi]⟩
    cases he : r.blockIndex[i.toInt.toNat]? with
    | none => exact ⟨.badBlockIndex, by unfold readBlockLive readBlock; rw [if_neg hi]; dsimp only; rw [he]⟩
    | some e =>
      have hlt : i.toInt.toNat < (acked log).length := by
        rw [← hI.index]; exact (List.getElem?_eq_some_iff.1 he).1
      obtain ⟨e', he', h1, h2, h3⟩ := entry_of h hn r hr _ hlt
      rw [he] at he'; cases he'
      exact ⟨_, readBlock_cut hi he (by omega) h2 h3⟩
  have hread : ∀ i : UInt64, ∃ e, getPairsLive (view i) r i = .err e := fun i => hblk _ _ (hcut i)
  have hfilt : ∀ i : UInt64, ∃ e, readBlockFilteredLive (view i) r i.toInt64 o.filter o.denyFilter = .err e := by
    intro i
    obtain ⟨e, he⟩ := hblk i.toInt64 _ (hcut i)
    exact ⟨e, by unfold readBlockFilteredLive; rw [he]; rfl⟩
  have hseq : ∀ o' : AggregateOptions B, o'.filter = o.filter → o'.denyFilter = o.denyFilter → o'.skipPreCalculated = o.skipPreCalculated →
      ∃ res, aggregateSequentialLive view r o' = .ok res ∧ res.count = 0 ∧ res.sum = 0 ∧ res.avg = .zero := by
    intro o' h1 h2 h3
    unfold aggregateSequentialLive
    rw [h1, h2, h3]
    split
    · rw [iterator_ok _ (.inr hbc), Res.ok_bind]
      split
      · exact ⟨_, rfl, rfl, rfl, rfl⟩
      · rw [sumBlocks_none _ hfilt]
        exact ⟨_, rfl, rfl, rfl, rfl⟩
    · rename_i hfd
      rw [if_neg (by
        rcases ho with ho | ho | ho
        · exact absurd (.inl ho) hfd
        · exact absurd (.inr ho) hfd
        · simp [ho]), sumBlocks_none _ hread]
      exact ⟨_, rfl, rfl, rfl, rfl⟩
  unfold aggregateWithOptionsLive
  split
  · unfold aggregateParallelLive
    dsimp only
    generalize (if o.parallel < 0 then sched.gomaxprocs else o.parallel) = nw
    generalize (if nw > r.header.blockCount.toInt64.toInt then r.header.blockCount.toInt64.toInt else nw) = nw2
    split
    · exact hseq _ rfl rfl rfl
    have hbi : ∃ idx, (if o.filter.isSome ∨ o.denyFilter.isSome then filteredBlockIterator r o.filter o.denyFilter
        else firstBlocks r.header.blockCount.toInt64.toInt.toNat) = .ok idx := by
      split
      · exact ⟨_, iterator_ok _ (.inr hbc)⟩
      · exact ⟨_, firstBlocks_ok (by have := toInt64_toNat_le r.header.blockCount; omega)⟩
    obtain ⟨idx, hidx⟩ := hbi
    rw [hidx, Res.ok_bind]
    split
    · exact ⟨_, rfl, rfl, rfl, rfl⟩
    rw [if_neg (by
      rintro ⟨_, h2, h3, h4⟩
      rw [Option.isNone_iff_eq_none] at h3 h4
      simp [h2, h3, h4] at ho)]
    have hr' : ∀ i : UInt64, ∃ e, (fun i : UInt64 => if o.filter.isSome ∨ o.denyFilter.isSome then
        readBlockFilteredLive (view i) r i.toInt64 o.filter o.denyFilter else getPairsLive (view i) r i) i = .err e := by
      intro i
      dsimp only
      split
      · exact hfilt i
      · exact hread i
    obtain ⟨rs, h1, h2⟩ := workerResults_none _ hr' idx nw2.toNat (List.range nw2.toNat)
    unfold aggregateParallelWith
    rw [h1, Res.ok_bind]
    exact ⟨_, rfl, mergeResults_none _ fun x hx => h2 x ((hs rs).mem_iff.1 hx)⟩
  · exact hseq o rfl rfl rfl

/-- **C67.** `GetGlobalIDBitmap` does not report an error either if nothing but the header is left: it returns what the bitmap
library makes of an empty buffer (unless the bitmap was cached before). -/
theorem C67_bitmap {env : Env} {opts : List WriterOption} {log : Log} {file : Bytes} (h : Finalized B env opts log file)
    (hn : (acked log).length ≤ maxBlocks) (r : Reader B) (hr : newReader file = .ok r) (view : Nat → Bytes)
    (hcut : ∀ n, (view n).length ≤ 64) : (getGlobalIDBitmapLive view r).1 = .ok (Bitmap.fromBuffer []) := by
  obtain ⟨hb, hin⟩ := h.readsIn hn r hr
  obtain ⟨h1, h2⟩ := hin.bitmap
  have hsm := hin.small
  have hnone : r.globalIDs = none := by
    obtain ⟨hd, blks, buf, bo, fs, hok, rfl, hp, hfit⟩ := h.opened hn r hr
    rfl
  have hbs : r.header.bitmapSize ≠ 0 := by
    obtain ⟨hd, blks, buf, bo, fs, hok, rfl, hp, hfit⟩ := h.opened hn r hr
    have hf1 := hok.bmFits
    have hf2 := hok.fsLe
    have : hd.bitmapSize.toNat = 4 + buf.length := by
      rw [hok.bmSize, UInt64.toNat_ofNat']; have := hok.small; omega
    intro hc
    rw [show hd.bitmapSize = 0 from hc] at this
    simp at this
    omega
  have e1 : r.header.bitmapOffset.toInt64 = Int64.ofNat r.header.bitmapOffset.toNat := by
    rw [← uint64_ofNat_toInt64]; simp
  unfold getGlobalIDBitmapLive
  rw [hnone]
  dsimp only
  rw [if_neg (by
    rintro (hc | hc)
    · rw [hc] at h1; exact absurd h1 (by decide)
    · exact hbs hc)]
  rw [e1, show (4 : Int64) = Int64.ofNat 4 from rfl, readBytesAt_behind _ _ (by have := hcut 0; omega) (by omega) (by omega)]
  dsimp only
  rw [show rd32 (List.replicate 4 0) 0 = 0 by decide, int64_ofNat_add, readBytesAt_behind _ _ (by have := hcut 1; omega) (by omega) (by decide)]
  rfl

/-! #### A file that was replaced -/

omit [LawfulBitmap B] in
/-- What a block is decoded from: the contents of the file, the encoding in the header, and offset, size and number of pairs in the index. -/
theorem readBlock_shape {r r' : Reader B} {i : Int64} {e e' : FooterEntry} (hb : r.bytes = r'.bytes)
    (henc : r.header.encodingType = r'.header.encodingType) (he : r.blockIndex[i.toInt.toNat]? = some e)
    (he' : r'.blockIndex[i.toInt.toNat]? = some e') (h1 : e.blockOffset = e'.blockOffset) (h2 : e.blockSize = e'.blockSize)
    (h3 : e.count = e'.count) : readBlock r i = readBlock r' i := by
  unfold readBlock
  rw [he, he', hb, henc]
  dsimp only
  rw [h1, h2, h3]

/-- Blocks in a row with the same numbers of pairs lie at the same offsets in every file with the same fixed-width encoding. -/
theorem chain_shape {e : UInt32} (henc : e = encRaw ∨ e = encDeltaBoth) {as bs : List Blk} {lo h1 h2 : Nat} (ha : Chain e lo as h1) (hb : Chain e lo bs h2)
    (hoka : ∀ b ∈ as, b.OK e) (hokb : ∀ b ∈ bs, b.OK e)
    (i : Nat) (hia : i < as.length) (hib : i < bs.length)
    (hl : ∀ (j : Nat) (h : j ≤ i), (as[j]'(by omega)).ids.length = (bs[j]'(by omega)).ids.length) :
    as[i].off = bs[i].off ∧ as[i].size e = bs[i].size e := by
  have hv : isVarIntEnc e = false := by rcases henc with rfl | rfl <;> decide
  have hsize : ∀ a b : Blk, a.OK e → b.OK e → a.off = b.off → a.ids.length = b.ids.length → a.size e = b.size e := by
    intro a b h1 h2 h3 h4
    have h5 := h1.len
    have h6 := h2.len
    rw [Blk.size_eq, Blk.size_eq, Blk.img_length e a h1, Blk.img_length e b h2, h3]
    unfold idSize valSize
    simp only [hv, Bool.false_eq_true, if_false]
    rw [← h5, ← h6, h4]
  induction as generalizing bs lo i with
  | nil => exact absurd hia (by simp)
  | cons a as ih =>
    cases bs with
    | nil => exact absurd hib (by simp)
    | cons b bs =>
      have hoff : a.off = b.off := ha.1.trans hb.1.symm
      have hsz := hsize a b (hoka _ List.mem_cons_self) (hokb _ List.mem_cons_self) hoff (hl 0 (by omega))
      cases i with
      | zero => exact ⟨hoff, hsz⟩
      | succ i =>
        have hb2 : Chain e (a.stop e) bs h2 := by
          have := hb.2
          rwa [Blk.stop, ← hoff, ← hsz] at this
        exact ih ha.2 hb2 (fun b hb => hoka b (List.mem_cons_of_mem _ hb)) (fun b hb => hokb b (List.mem_cons_of_mem _ hb)) i
          (by simpa using hia) (by simpa using hib) (fun j hj => hl (j + 1) (by omega))

/-- **C67.** A reader does not notice that the file was replaced: if the new file (encoding 0 or 3, like the old one) has as many pairs in
each of its first blocks as the old one, `GetPairs` on the old reader returns the blocks of the new file, without an error. -/
theorem C67_replaced {env env' : Env} {opts opts' : List WriterOption} {log log' : Log} {file file' : Bytes}
    (h : Finalized B env opts log file) (h' : Finalized B env' opts' log' file')
    (henc : chosenEncoding opts = encRaw ∨ chosenEncoding opts = encDeltaBoth) (hsame : chosenEncoding opts' = chosenEncoding opts)
    (hn : (acked log).length ≤ maxBlocks) (hn' : (acked log').length ≤ maxBlocks)
    (hno : ∀ ev ∈ log, ev.1 ≠ .finalize) (hno' : ∀ ev ∈ log', ev.1 ≠ .finalize)
    (r : Reader B) (hr : newReader file = .ok r)
    (i : Nat) (hi : i < (acked log).length) (hi' : i < (acked log').length)
    (hl : ∀ (j : Nat) (h : j ≤ i), ((acked log)[j]'(by omega)).1.length = ((acked log')[j]'(by omega)).1.length) :
    getPairsLive file' r (UInt64.ofNat i) = .ok (acked log')[i] := by
  have hsym : SymEnc (chosenEncoding opts) := by
    rcases henc with h | h
    · exact .inl h
    · exact .inr (.inl h)
  have hsym' : SymEnc (chosenEncoding opts') := by rw [hsame]; exact hsym
  obtain ⟨hd, blks, bo, fs, hc⟩ := h.contents hsym
  obtain ⟨hd', blks', bo', fs', hc'⟩ := h'.contents hsym'
  have h1 := hc.newReader hn
  rw [hr] at h1
  cases h1
  have h2 := hc'.reads hsym' hn'
  have hlen := hc.count
  have hlen' := hc'.count
  rw [← h2.read i hi']
  have hp : ∀ (j : Nat) (hj : j < (acked log).length), (acked log)[j] = (blks[j]'(by omega)).pairs := by
    intro j hj
    simp only [← hc.pairs, List.getElem_map]
  have hp' : ∀ (j : Nat) (hj : j < (acked log').length), (acked log')[j] = (blks'[j]'(by omega)).pairs := by
    intro j hj
    simp only [← hc'.pairs, List.getElem_map]
  have hch := hc.chain hno
  have hch' := hc'.chain hno'
  rw [hsame] at hch'
  have hll : ∀ (j : Nat) (h : j ≤ i), (blks[j]'(by omega)).ids.length = (blks'[j]'(by omega)).ids.length := by
    intro j hj
    have := hl j hj
    rw [hp j (by omega), hp' j (by omega)] at this
    exact this
  obtain ⟨ho, hs⟩ := chain_shape henc hch hch' hc.ok.ok (by have := hc'.ok.ok; rwa [hsame] at this) i (by omega) (by omega) hll
  have e1 : (UInt64.ofNat i).toInt64 = Int64.ofNat i := uint64_ofNat_toInt64 _
  unfold maxBlocks at hn
  have e2 : (UInt64.ofNat i).toInt64.toInt.toNat = i := by
    rw [e1, int64_toInt_ofNat _ (by omega), Int.toNat_natCast]
  refine readBlock_shape (e := blks[i].entry (chosenEncoding opts)) (e' := (blks'[i]'(by omega)).entry (chosenEncoding opts')) rfl ?_ ?_ ?_ ?_ ?_ ?_
  · show hd.encodingType = hd'.encodingType
    rw [hc.ok.enc, hc'.ok.enc, hsame]
  · rw [e2]
    show (blks.map _)[i]? = _
    rw [List.getElem?_map, List.getElem?_eq_getElem (by omega)]; rfl
  · rw [e2]
    show (blks'.map _)[i]? = _
    rw [List.getElem?_map, List.getElem?_eq_getElem (by omega)]; rfl
  · show UInt64.ofNat _ = UInt64.ofNat _
    rw [ho]
  · show UInt32.ofNat _ = UInt32.ofNat _
    rw [hsame, hs]
  · show UInt32.ofNat _ = UInt32.ofNat _
    rw [hll i (by omega)]

/-! ### Examples -/

/-- The file that replaces another: as many pairs in each block as `oldLog`. -/
def otherLog : Log := [(.write [8, 9, 10] [1, 2, 3], .ok ()), (.write [1] [100], .ok ())]

theorem old_raw : ∃ file, Finalized IdSet quietEnv [] oldLog file :=
  finalized_of_log [] [.write [3, 1, 2] [30, -10, 20], .write [9] [-1]] oldLog
    (by decide) (by decide +kernel) (by unfold NoMismatch; decide) (by decide)

theorem other_finalized : ∃ file, Finalized IdSet quietEnv [] otherLog file :=
  finalized_of_log [] [.write [8, 9, 10] [1, 2, 3], .write [1] [100]] otherLog
    (by decide) (by decide +kernel) (by unfold NoMismatch; decide) (by decide)

/-- **C67 in one example**: a file is replaced by another while a reader is open. `GetPairs` on the reader then delivers the new blocks, while
`Aggregate` goes on to return the aggregate of the old ones, `GetPairs` on what `NewWriter` has left reports an error and
aggregating with a filter reports 0 values. -/
theorem C67_unnoticed : ∃ (file file' : Bytes) (r : Reader IdSet), Finalized IdSet quietEnv [] oldLog file ∧
    Finalized IdSet quietEnv [] otherLog file' ∧ newReader file = .ok r ∧
    getPairsLive file' r 0 = .ok ([8, 9, 10], [1, 2, 3]) ∧ getPairsLive file' r 1 = .ok ([1], [100]) ∧
    (∃ res, aggregateWithOptionsLive (fun _ => file') inOrder r {} = .ok res ∧ res.count = 4 ∧ res.sum = 39) ∧
    getPairsLive (file.take 64) r 1 = .err .zeroSection ∧
    (∃ res, aggregateWithOptionsLive (fun _ => file.take 64) inOrder r { filter := some ⟨[1, 2]⟩, parallel := 2 } = .ok res ∧ res.count = 0) := by
  obtain ⟨file, h⟩ := old_raw
  obtain ⟨file', h'⟩ := other_finalized
  obtain ⟨r, hr, _⟩ := C29_accessors h (by decide)
  have key := fun i hi hi' => C67_replaced h h' (.inl rfl) rfl (by decide) (by decide) (by decide) (by decide) r hr i hi hi'
  refine ⟨file, file', r, h, h', hr, ?_, ?_, ?_, ?_, ?_⟩
  · exact key 0 (by decide) (by decide) (by
      intro j hj
      obtain rfl : j = 0 := by omega
      rfl)
  · exact key 1 (by decide) (by decide) (by
      intro j hj
      obtain rfl | rfl : j = 0 ∨ j = 1 := by omega
      all_goals rfl)
  · obtain ⟨res, h1, h2⟩ := C67_index h (by decide) (by decide) (by unfold StatsRepresentable; decide) r hr (fun _ => file') inOrder inOrder_fair 0
    have : res = ⟨4, -10, 30, 39, .quot 39 4⟩ := (h2.unique (accOf_isAggregate _) (by decide)).trans (by decide)
    exact ⟨res, h1, by rw [this], by rw [this]⟩
  · obtain ⟨e, _, _, h3⟩ := C67_truncated h (by decide) r hr 1 (by decide)
    exact h3 _ (by rw [List.length_take]; omega)
  · obtain ⟨res, h1, h2, _⟩ := C67_silent h (by decide) r hr (fun _ => file.take 64)
      (fun _ => by rw [List.length_take]; omega) inOrder inOrder_fair { filter := some ⟨[1, 2]⟩, parallel := 2 } (.inl rfl)
    exact ⟨res, h1, h2⟩

end VibeCol.Replaced
