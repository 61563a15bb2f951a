/-
Reads that fail: the functions of Model/ReaderIO.lean compared with those of Model/Reader.lean.
-/
import Verif.Model.ReaderIO
import Verif.Props.Readable
namespace VibeCol
set_option linter.unusedSectionVars false
variable {B : Type} [Bitmap B]

theorem readBytesAtIO_false (file : Bytes) (o s : Int64) : readBytesAtIO false file o s = readBytesAt file o s := by
  unfold readBytesAtIO readBytesAt
  split
  · rfl
  · split
    · rfl
    · split
      · rename_i h
        subst h
        simp
      · simp

/-- A read fails, or gives what it should. -/
theorem readBytesAtIO_or (f : Bool) (file : Bytes) (o s : Int64) :
    readBytesAtIO f file o s = readBytesAt file o s ∨ f = true ∧ readBytesAtIO f file o s = .err .io := by
  cases f
  · exact .inl (readBytesAtIO_false file o s)
  · have h := readBytesAtIO_false file o s
    unfold readBytesAtIO at h ⊢
    split
    · exact .inl (by rw [← h]; simp [*])
    · split
      · exact .inl (by rw [← h]; simp [*])
      · split
        · exact .inl (by rw [← h]; simp [*])
        · exact .inr ⟨rfl, by simp⟩

theorem readHeaderIO_or (f : Bool) (file : Bytes) :
    readHeaderIO f file = readHeader file ∨ f = true ∧ readHeaderIO f file = .err .io := by
  unfold readHeaderIO readHeader
  rcases readBytesAtIO_or f file 0 (Int64.ofNat headerSize) with h | ⟨hf, h⟩
  · rw [h]; exact .inl rfl
  · rw [h]; exact .inr ⟨hf, rfl⟩

theorem readFooterIO_or (f : Nat → Bool) (file : Bytes) (hd : FileHeader) :
    readFooterIO f file hd = readFooter file hd ∨ (∃ n, f n = true) ∧ readFooterIO f file hd = .err .io := by
  unfold readFooterIO readFooter
  dsimp only
  split
  · exact .inl rfl
  · rcases readBytesAtIO_or (f 0) file (Int64.ofNat file.length - 24) 24 with h | ⟨hf, h⟩
    · rw [h]
      cases readBytesAt file (Int64.ofNat file.length - 24) 24 with
      | err e => exact .inl rfl
      | panic => exact .inl rfl
      | ok m =>
        simp only [Res.ok_bind]
        split
        · exact .inl rfl
        · split
          · exact .inl rfl
          · generalize Int64.ofNat file.length - 24 - (rd64 m 0).toInt64 = fs
            rcases readBytesAtIO_or (f 1) file fs 4 with h | ⟨hf, h⟩
            · rw [h]
              cases readBytesAt file fs 4 with
              | err e => exact .inl rfl
              | panic => exact .inl rfl
              | ok c =>
                simp only [Res.ok_bind]
                rcases readBytesAtIO_or (f 2) file (fs + 4) (Int64.ofNat ((rd32 c 0).toNat * 56)) with h | ⟨hf, h⟩
                · rw [h]; exact .inl rfl
                · rw [h]; exact .inr ⟨⟨_, hf⟩, rfl⟩
            · rw [h]; exact .inr ⟨⟨_, hf⟩, rfl⟩
    · rw [h]; exact .inr ⟨⟨_, hf⟩, rfl⟩

theorem newReaderIO_or (f : Nat → Bool) (file : Bytes) :
    newReaderIO (B := B) f file = newReader file ∨ (∃ n, f n = true) ∧ newReaderIO (B := B) f file = .err .io := by
  unfold newReaderIO newReader
  split
  · exact .inr ⟨⟨_, by assumption⟩, rfl⟩
  · split
    · exact .inr ⟨⟨_, by assumption⟩, rfl⟩
    · rcases readHeaderIO_or (f 2) file with h | ⟨hf, h⟩
      · rw [h]
        cases readHeader file with
        | err e => exact .inl rfl
        | panic => exact .inl rfl
        | ok hd =>
          simp only [Res.ok_bind]
          rcases readFooterIO_or (fun n => f (n + 3)) file hd with h | ⟨⟨n, hf⟩, h⟩
          · rw [h]; exact .inl rfl
          · rw [h]; exact .inr ⟨⟨_, hf⟩, rfl⟩
      · rw [h]; exact .inr ⟨⟨_, hf⟩, rfl⟩

theorem readBlockIO_or (f : Bool) (r : Reader B) (i : Int64) :
    readBlockIO f r i = readBlock r i ∨ f = true ∧ readBlockIO f r i = .err .io := by
  unfold readBlockIO readBlock
  split
  · exact .inl rfl
  · cases r.blockIndex[i.toInt.toNat]? with
    | none => exact .inl rfl
    | some x =>
      dsimp only
      rcases readBytesAtIO_or f r.bytes (x.blockOffset.toInt64 + 64) (Int64.ofNat x.blockSize.toNat - 64) with h | ⟨hf, h⟩
      · rw [h]; exact .inl rfl
      · rw [h]; exact .inr ⟨hf, rfl⟩

theorem readBlockIO_false (r : Reader B) (i : Int64) : readBlockIO false r i = readBlock r i := by
  rcases readBlockIO_or false r i with h | ⟨h, _⟩
  · exact h
  · cases h

/-- If the read fails, no pairs are returned. -/
theorem readBlockIO_true (r : Reader B) (i : Int64) (b : List UInt64 × List Int64) : readBlockIO true r i ≠ .ok b := by
  unfold readBlockIO
  split
  · intro h; cases h
  · split
    · intro h; cases h
    · rename_i x _
      dsimp only
      unfold readBytesAtIO
      split
      · intro h; cases h
      · split
        · intro h; cases h
        · split
          · intro h; cases h
          · intro h; cases h

theorem getPairsIO_or (f : Bool) (r : Reader B) (i : UInt64) :
    getPairsIO f r i = getPairs r i ∨ f = true ∧ getPairsIO f r i = .err .io := readBlockIO_or f r i.toInt64

/-- If the read fails and the block could have been read, the error is the I/O error. -/
theorem getPairsIO_true (r : Reader B) (i : UInt64) (b : List UInt64 × List Int64) (h : getPairs r i = .ok b) :
    getPairsIO true r i = .err .io := by
  rcases getPairsIO_or true r i with h1 | ⟨_, h1⟩
  · rw [h] at h1
    exact absurd h1 (readBlockIO_true r i.toInt64 b)
  · exact h1

theorem getPairsIO_false (r : Reader B) (i : UInt64) : getPairsIO false r i = getPairs r i := readBlockIO_false r _

theorem readBlockFilteredIO_or (f : Bool) (r : Reader B) (i : Int64) (allow deny : Option B) :
    readBlockFilteredIO f r i allow deny = readBlockFiltered r i allow deny ∨
      f = true ∧ readBlockFilteredIO f r i allow deny = .err .io := by
  unfold readBlockFilteredIO readBlockFiltered
  rcases readBlockIO_or f r i with h | ⟨hf, h⟩
  · rw [h]; exact .inl rfl
  · rw [h]; exact .inr ⟨hf, rfl⟩

/-! ### Aggregates -/

theorem parallelIO_reading (fail : UInt64 → Bool) (sched : Sched) (hs : sched.Fair) (r : Reader B) (opts : AggregateOptions B)
    (h : opts.filter.isSome ∨ opts.denyFilter.isSome ∨ opts.skipPreCalculated = true ∨ r.blockIndex = [])
    (hm : opts.filter.isSome ∨ opts.denyFilter.isSome ∨ 8 * r.blockCount.toNat ≤ maxAlloc) :
    aggregateParallelIO fail sched r opts = aggregateSequentialIO fail r { opts with parallel := 0 } := by
  unfold aggregateParallelIO
  generalize (if opts.parallel < 0 then sched.gomaxprocs else opts.parallel) = p
  simp only
  generalize hbc : r.header.blockCount.toInt64.toInt = bc
  generalize (if p > bc then bc else p) = nw
  split
  · rfl
  · rename_i hnw
    have hnw1 : 0 < nw.toNat := by omega
    have hb : 1 < bc := by omega
    by_cases hf : opts.filter.isSome ∨ opts.denyFilter.isSome
    · unfold aggregateSequentialIO
      simp only [hf, if_true]
      cases filteredBlockIterator r opts.filter opts.denyFilter with
      | err e => rfl
      | panic => rfl
      | ok idx =>
      simp only [Res.ok_bind]
      split
      · rfl
      · rename_i hne
        rw [if_neg (by rintro ⟨_, _, h1, h2⟩; rcases hf with hf | hf <;> simp_all)]
        rw [aggregateParallelWith_join sched hs _ _ (sumBlocks_join _) (readAcc_good _) _ (by
          intro hc; rw [hc] at hne; exact hne rfl) _ hnw1]
        rw [sumBlocks_join, bind_result]
    · have hidx : ¬ (r.blockIndex.length > 0 ∧ opts.skipPreCalculated = false) := by
        rintro ⟨h1, h2⟩
        rcases h with h | h | h | h
        · exact hf (.inl h)
        · exact hf (.inr h)
        · rw [h2] at h; cases h
        · rw [h] at h1; simp at h1
      unfold aggregateSequentialIO
      simp only [hf, if_false, hidx]
      have hbn : bc.toNat = r.header.blockCount.toNat := by
        have := r.header.blockCount.toNat_lt
        have h1 : r.header.blockCount.toInt64.toInt = Int.bmod r.header.blockCount.toNat (2 ^ 64) := by
          rw [show r.header.blockCount.toInt64 = Int64.ofNat r.header.blockCount.toNat by
            rw [← uint64_ofNat_toInt64, UInt64.ofNat_toNat]]
          exact Int64.toInt_ofNat
        have h2 : r.header.blockCount.toNat < 2 ^ 63 := by
          rw [Int.bmod_def] at h1
          split at h1 <;> omega
        rw [Int.bmod_eq_of_le (by omega) (by omega)] at h1
        omega
      rw [hbn, firstBlocks_ok (by
        rcases hm with h | h | h
        · exact absurd (.inl h) hf
        · exact absurd (.inr h) hf
        · exact h), Res.ok_bind]
      have hlen : ¬ ((List.range r.header.blockCount.toNat).map UInt64.ofNat).length = 0 := by
        simp; omega
      rw [if_neg hlen, if_neg (by
        rintro ⟨h1, h2, _⟩; exact hidx ⟨h1, h2⟩)]
      rw [aggregateParallelWith_join sched hs _ _ (sumBlocks_join _) (readAcc_good _) _ (by
          intro hc; rw [hc] at hlen; exact hlen rfl) _ hnw1]
      rw [sumBlocks_join, bind_result]

theorem parallelIO_eq (fail : UInt64 → Bool) (sched : Sched) (hs : sched.Fair) (r : Reader B) (o : AggregateOptions B)
    (h : o.filter.isSome ∨ o.denyFilter.isSome ∨ o.skipPreCalculated = true ∨ r.blockIndex = [])
    (hm : o.filter.isSome ∨ o.denyFilter.isSome ∨ 8 * r.blockCount.toNat ≤ maxAlloc) :
    aggregateWithOptionsIO fail sched r o = aggregateSequentialIO fail r { o with parallel := 0 } := by
  unfold aggregateWithOptionsIO
  split
  · exact parallelIO_reading fail sched hs r o h hm
  · rename_i hp
    have : o.parallel = 0 := by simpa using hp
    rw [← this]

/-- Without failures the aggregates are those of the model without failures. -/
theorem aggregateIO_none (sched : Sched) (r : Reader B) (o : AggregateOptions B) :
    aggregateWithOptionsIO (fun _ => false) sched r o = aggregateWithOptions sched r o := by
  have e1 : (fun i => getPairsIO false r i) = getPairs r := by funext i; exact getPairsIO_false r i
  have e2 : ∀ i, readBlockFilteredIO false r i o.filter o.denyFilter = readBlockFiltered r i o.filter o.denyFilter := by
    intro i
    rcases readBlockFilteredIO_or false r i o.filter o.denyFilter with h | ⟨h, _⟩
    · exact h
    · cases h
  unfold aggregateWithOptionsIO aggregateWithOptions aggregateParallelIO aggregateParallel aggregateSequentialIO
    aggregateSequential aggregateWithFilter
  simp only [e1, e2, getPairsIO_false]

/-- If no block is read, failures do not matter. -/
theorem aggregateIO_footer (fail : UInt64 → Bool) (sched : Sched) (r : Reader B) (o : AggregateOptions B)
    (hf : o.filter = none) (hd : o.denyFilter = none) (hskip : o.skipPreCalculated = false) (hidx : r.blockIndex ≠ []) :
    aggregateWithOptionsIO fail sched r o = aggregateWithOptions sched r o := by
  have hl : r.blockIndex.length > 0 := List.length_pos_iff.2 hidx
  unfold aggregateWithOptionsIO aggregateWithOptions aggregateParallelIO aggregateParallel aggregateSequentialIO
    aggregateSequential
  simp only [hf, hd, hskip, hl, Option.isSome_none, Option.isNone_none, Bool.false_eq_true, or_self, if_false, and_self, if_true]

end VibeCol
