/-
C10-C15, C17, C36: aggregation of one file.
-/
import Verif.Props.Robust
import Verif.Props.Blocks
set_option linter.unusedSimpArgs false
namespace VibeCol
variable {B : Type} [Bitmap B] [LawfulBitmap B]

/-! ### C10-C12 -/

/-- **C10.** `Aggregate()` on a finalized file in any encoding is the exact aggregate of all
persisted values, provided no block's values or sum hit the least `int64` (see `C10_refuted`). -/
theorem C10_aggregate {env : Env} {opts : List WriterOption} {log : Log} {file : Bytes}
    (h : Finalized B env opts log file) (hn : (acked log).length ≤ maxBlocks)
    (hrep : StatsRepresentable (acked log)) (r : Reader B) (hr : newReader file = .ok r) (sched : Sched) :
    ∃ res, aggregate sched r = .ok res ∧ IsAggregate res (valuesOf (acked log)) := by
  refine ⟨_, ?_, accOf_isAggregate _⟩
  exact (h.indexed hn r hr).footer {} rfl rfl rfl hrep

/-- **C10.** The same with any number of workers, under every schedule. -/
theorem C10_parallel {env : Env} {opts : List WriterOption} {log : Log} {file : Bytes}
    (h : Finalized B env opts log file) (hn : (acked log).length ≤ maxBlocks)
    (hrep : StatsRepresentable (acked log)) (r : Reader B) (hr : newReader file = .ok r)
    (sched : Sched) (hs : sched.Fair) (workers : Int) :
    ∃ res, aggregateWithOptions sched r { parallel := workers } = .ok res ∧
      IsAggregate res (valuesOf (acked log)) := by
  have H := h.indexed hn r hr
  refine ⟨_, ?_, accOf_isAggregate _⟩
  rw [H.parallel_eq sched hs]
  exact H.footer _ rfl rfl rfl hrep

/-- **C11.** With `SkipPreCalculated` (or an empty file) the aggregate is exact for all
values, symmetric encodings, any number of workers and schedule. -/
theorem C11_skip {env : Env} {opts : List WriterOption} {log : Log} {file : Bytes}
    (h : Finalized B env opts log file) (henc : SymEnc (chosenEncoding opts))
    (hn : (acked log).length ≤ maxBlocks) (r : Reader B) (hr : newReader file = .ok r)
    (sched : Sched) (hs : sched.Fair) (workers : Int) :
    ∃ res, aggregateWithOptions sched r { skipPreCalculated := true, parallel := workers } = .ok res ∧
      IsAggregate res (valuesOf (acked log)) := by
  have H := h.reads henc hn r hr
  refine ⟨_, ?_, accOf_isAggregate _⟩
  rw [H.parallel_eq sched hs]
  exact H.skip _ rfl rfl (.inl rfl)

/-- **C12.** With and without `SkipPreCalculated` the result is the same, for any numbers of
workers and schedules. -/
theorem C12_agree {env : Env} {opts : List WriterOption} {log : Log} {file : Bytes}
    (h : Finalized B env opts log file) (henc : SymEnc (chosenEncoding opts))
    (hn : (acked log).length ≤ maxBlocks) (hrep : StatsRepresentable (acked log)) (r : Reader B)
    (hr : newReader file = .ok r) (sched sched' : Sched) (hs : sched.Fair) (hs' : sched'.Fair)
    (workers workers' : Int) :
    aggregateWithOptions sched r { skipPreCalculated := true, parallel := workers } =
      aggregateWithOptions sched' r { skipPreCalculated := false, parallel := workers' } := by
  have H := h.reads henc hn r hr
  rw [H.parallel_eq sched hs, H.parallel_eq sched' hs', H.skip _ rfl rfl (.inl rfl), H.footer _ rfl rfl rfl hrep]

/-- A scheduler that delivers results in worker order. -/
def inOrder : Sched where
  gomaxprocs := 8
  order l := l

theorem inOrder_fair : inOrder.Fair := fun _ => .refl _

/-- A scheduler that delivers results in reverse order. -/
def reversed : Sched where
  gomaxprocs := 3
  order l := l.reverse

theorem reversed_fair : reversed.Fair := fun l => List.reverse_perm l

/-- Non-vacuity of C10-C12: the example file is representable, and has five values. -/
example : ∃ file, ∃ r : Reader IdSet, Finalized IdSet quietEnv exampleOpts exampleLog file ∧ newReader file = .ok r ∧
    StatsRepresentable (acked exampleLog) ∧
    valuesOf (acked exampleLog) = [30, -10, 20, 7, -9223372036854775807] ∧ reversed.Fair := by
  obtain ⟨file, h⟩ := example_finalized
  obtain ⟨r, h1, _⟩ := C29_accessors h (by decide)
  exact ⟨file, r, h, h1, by unfold StatsRepresentable; decide, by decide, reversed_fair⟩

/-- **C10 and C12 are refuted for the least `int64`**: on the file with the single block
`[-2^63, 5]`, `Aggregate()` reports the minimum 0 while `SkipPreCalculated` reports `-2^63`. -/
theorem C12_refuted : ∃ file, ∃ r : Reader IdSet, Finalized IdSet quietEnv [] minLog file ∧
    newReader file = .ok r ∧
    ∃ a b, aggregate inOrder r = .ok a ∧ a.min = 0 ∧ ¬ IsAggregate a (valuesOf (acked minLog)) ∧
      aggregateWithOptions inOrder r { skipPreCalculated := true } = .ok b ∧ b.min = -9223372036854775808 ∧
      IsAggregate b (valuesOf (acked minLog)) := by
  obtain ⟨file, r, h, h1, x, hx, hz, hns⟩ := C09_refuted
  obtain ⟨b, hb1, hb2⟩ := C11_skip h (.inl rfl) (by decide) r h1 inOrder inOrder_fair 0
  have H := h.reads (.inl rfl) (by decide) r h1
  obtain ⟨o, s, he⟩ := H.entry 0 (by decide) (by rw [hx]; simp)
  have hx0 : x = entryOf (o, s, statsOf [1, 2] [-9223372036854775808, 5]) := by
    have : r.blockIndex[0]'(by rw [hx]; simp) = x := by simp [hx]
    rw [← this]; exact he
  have ha : aggregate inOrder r = .ok (([x].foldl Acc.addEntry Acc.init).result) := by
    show aggregateSequential r {} = _
    unfold aggregateSequential
    simp [hx]
  have hmin : ([x].foldl Acc.addEntry Acc.init).result.min = 0 := by
    show (if uint64ToInt64 x.minValue < Acc.init.min then uint64ToInt64 x.minValue else Acc.init.min) = 0
    rw [hz]; decide
  refine ⟨file, r, h, h1, _, b, ha, hmin, ?_, hb1, ?_, hb2⟩
  · intro hi
    have := hi.min_le (-9223372036854775808) (by decide)
    rw [hmin] at this
    revert this; decide
  · have h2 := hb2.min_le (-9223372036854775808) (by decide)
    have h3 := i64_lo b.min
    rw [i64_le] at h2
    apply i64_ext
    rw [show (-9223372036854775808 : Int64).toInt = -9223372036854775808 by decide] at h2 ⊢
    omega

/-- **C10 is refuted for the least `int64`.** -/
theorem C10_refuted : ∃ file, ∃ r : Reader IdSet, Finalized IdSet quietEnv [] minLog file ∧
    newReader file = .ok r ∧ ∃ a, aggregate inOrder r = .ok a ∧ ¬ IsAggregate a (valuesOf (acked minLog)) := by
  obtain ⟨file, r, h, h1, a, _, h2, _, h3, _⟩ := C12_refuted
  exact ⟨file, r, h, h1, a, h2, h3⟩

/-! ### C13, C14 -/

/-- **C13.** With an allow filter and/or a deny filter, the result is the exact aggregate of
the values whose ID is allowed and not denied, whatever the other options and the schedule. -/
theorem C13_filtered {env : Env} {opts : List WriterOption} {log : Log} {file : Bytes}
    (h : Finalized B env opts log file) (henc : SymEnc (chosenEncoding opts))
    (hn : (acked log).length ≤ maxBlocks) (r : Reader B) (hr : newReader file = .ok r)
    (sched : Sched) (hs : sched.Fair) (o : AggregateOptions B) (ho : o.filter.isSome ∨ o.denyFilter.isSome) :
    ∃ res, aggregateWithOptions sched r o = .ok res ∧
      IsAggregate res (selectedValues o.filter o.denyFilter (acked log)) := by
  have H := h.reads henc hn r hr
  rw [H.parallel_eq sched hs]
  obtain ⟨h1, h2⟩ := H.withFilter { o with parallel := 0 } ho
  refine ⟨_, h1, ?_⟩
  split
  · rename_i hc
    rw [show selectedValues o.filter o.denyFilter (acked log) = [] from h2 hc]
    exact zero_isAggregate
  · exact accOf_isAggregate _

omit [LawfulBitmap B] in
theorem selectedValues_none (blocks : List Block) :
    selectedValues (none : Option B) none blocks = valuesOf blocks := by
  unfold selectedValues valuesOf
  rw [List.filter_eq_self.2 (by intro a _; rfl)]

/-- **C13.** All options at once: with `SkipPreCalculated` or a filter, the result is the exact
aggregate of the selected values. -/
theorem C13_general {env : Env} {opts : List WriterOption} {log : Log} {file : Bytes}
    (h : Finalized B env opts log file) (henc : SymEnc (chosenEncoding opts))
    (hn : (acked log).length ≤ maxBlocks) (r : Reader B) (hr : newReader file = .ok r)
    (sched : Sched) (hs : sched.Fair) (o : AggregateOptions B)
    (ho : o.filter.isSome ∨ o.denyFilter.isSome ∨ o.skipPreCalculated = true ∨ StatsRepresentable (acked log)) :
    ∃ res, aggregateWithOptions sched r o = .ok res ∧
      IsAggregate res (selectedValues o.filter o.denyFilter (acked log)) := by
  by_cases hf : o.filter.isSome ∨ o.denyFilter.isSome
  · exact C13_filtered h henc hn r hr sched hs o hf
  · have h1 : o.filter = none := by
      cases hh : o.filter with
      | none => rfl
      | some f => exact absurd (.inl (by rw [hh]; rfl)) hf
    have h2 : o.denyFilter = none := by
      cases hh : o.denyFilter with
      | none => rfl
      | some f => exact absurd (.inr (by rw [hh]; rfl)) hf
    have H := h.reads henc hn r hr
    rw [H.parallel_eq sched hs, h1, h2, selectedValues_none]
    refine ⟨_, ?_, accOf_isAggregate _⟩
    cases hsk : o.skipPreCalculated with
    | true => exact H.skip _ rfl rfl (.inl rfl)
    | false =>
      refine H.footer _ rfl rfl rfl ?_
      rcases ho with ho | ho | ho | ho
      · exact absurd (.inl ho) hf
      · exact absurd (.inr ho) hf
      · rw [hsk] at ho; cases ho
      · exact ho

/-- Non-vacuity of C13: IDs 1 and 5 allowed, 5 denied; the ID 1 occurs in both blocks. -/
example : selectedValues (some (⟨[1, 5]⟩ : IdSet)) (some ⟨[5]⟩) (acked exampleLog) =
    [-10, -9223372036854775807] := by decide

/-- **C14.** `FilteredBlockIterator` returns strictly increasing, in-range block numbers, and
with an allow filter every block that holds an allowed ID is among them (any encoding). -/
theorem C14_iterator {env : Env} {opts : List WriterOption} {log : Log} {file : Bytes}
    (h : Finalized B env opts log file) (hn : (acked log).length ≤ maxBlocks) (r : Reader B)
    (hr : newReader file = .ok r) (allow deny : Option B) :
    ∃ idx, filteredBlockIterator r allow deny = .ok idx ∧ idx.Pairwise (· < ·) ∧
    (∀ j ∈ idx, j.toNat < (acked log).length) ∧
    (∀ (i : Nat) (hi : i < (acked log).length) (id : UInt64), id ∈ (acked log)[i].1 →
      (∀ f, allow = some f → Bitmap.contains f id = true) →
      UInt64.ofNat i ∈ idx) := by
  have H := h.indexed hn r hr
  have hlt := H.lt64
  refine ⟨iterBlocks r allow, H.iterator allow deny, ?_, ?_, ?_⟩
  · have hall : ∀ n : Nat, n < 2 ^ 64 → ((List.range n).map UInt64.ofNat).Pairwise (· < ·) := by
      intro n hn
      rw [List.pairwise_map]
      refine List.pairwise_lt_range.imp_of_mem ?_
      intro a b ha hb hab
      rw [UInt64.lt_iff_toNat_lt, UInt64.toNat_ofNat', UInt64.toNat_ofNat']
      have := List.mem_range.1 ha; have := List.mem_range.1 hb
      omega
    unfold iterBlocks
    cases allow with
    | none => exact hall _ r.header.blockCount.toNat_lt
    | some f =>
      simp only
      have hsub : ((r.blockIndex.zipIdx).filterMap fun p =>
          if p.1.maxID < Bitmap.minimum f ∨ p.1.minID > Bitmap.maximum f then none else some (UInt64.ofNat p.2)).Sublist
          ((List.range r.blockIndex.length).map UInt64.ofNat) := by
        have := Reads.zipIdx_map r.blockIndex (fun i => i)
        rw [← this]
        generalize r.blockIndex.zipIdx = l
        induction l with
        | nil => exact .slnil
        | cons p l ih =>
          rw [List.filterMap_cons, List.map_cons]
          split
          · rename_i hx
            exact ih.cons _
          · rename_i hx
            split at hx
            · cases hx
            · cases hx; exact ih.cons_cons _
      exact (hall _ (by rw [H.index]; omega)).sublist hsub
  · intro j hj
    obtain ⟨i, hi, rfl⟩ := H.iter_range allow j hj
    rw [UInt64.toNat_ofNat']; omega
  · intro i hi id hid hf
    unfold iterBlocks
    cases allow with
    | none =>
      refine List.mem_map.2 ⟨i, List.mem_range.2 ?_, rfl⟩
      show i < r.header.blockCount.toNat
      rw [H.count_toNat]; exact hi
    | some f =>
      have hi' : i < r.blockIndex.length := by rw [H.index]; exact hi
      refine List.mem_filterMap.2 ⟨(r.blockIndex[i], i), List.mk_mem_zipIdx_iff_getElem?.2 (by simp [hi']), ?_⟩
      have hc := hf f rfl
      obtain ⟨e1, e2⟩ := H.entry_ids i hi hi' id hid
      have h3 := LawfulBitmap.minimum_le f _ hc
      have h4 := LawfulBitmap.le_maximum f _ hc
      simp only
      rw [if_neg]
      simp only [UInt64.le_iff_toNat_le, UInt64.lt_iff_toNat_lt, gt_iff_lt] at *
      omega

/-- Non-vacuity of C14: a filter for ID 5 meets only the second block of the example. -/
example : ∃ file, ∃ r : Reader IdSet, Finalized IdSet quietEnv exampleOpts exampleLog file ∧ newReader file = .ok r ∧
    ∃ idx, filteredBlockIterator r (some ⟨[5]⟩) none = .ok idx ∧ UInt64.ofNat 1 ∈ idx := by
  obtain ⟨file, h⟩ := example_finalized
  obtain ⟨r, h1, _⟩ := C29_accessors h (by decide)
  obtain ⟨idx, h2, _, _, h3⟩ := C14_iterator h (by decide) r h1 (some ⟨[5]⟩) none
  exact ⟨file, r, h, h1, idx, h2, h3 1 (by decide) 5 (by decide) (by rintro f hf; cases hf; decide)⟩

/-! ### C15 -/

/-- **C15.** On a finalized file (any encoding), for all options, any number of workers,
`GOMAXPROCS` and arrival order, the result is that of the sequential code. -/
theorem C15_parallel {env : Env} {opts : List WriterOption} {log : Log} {file : Bytes}
    (h : Finalized B env opts log file) (hn : (acked log).length ≤ maxBlocks) (r : Reader B)
    (hr : newReader file = .ok r) (sched : Sched) (hs : sched.Fair) (o : AggregateOptions B) :
    aggregateWithOptions sched r o = aggregateWithOptions sched r { o with parallel := 0 } :=
  (h.indexed hn r hr).parallel_eq sched hs o

omit [LawfulBitmap B] in
/-- **C15.** For arbitrary file contents, corrupt ones included, parallel and sequential agree
(including on a panic) whenever blocks are read: with a filter, or with `SkipPreCalculated` unless the header
claims more than 2^45 blocks (then the parallel code panics, see `C15_refuted_count`). -/
theorem C15_arbitrary (r : Reader B) (sched : Sched) (hs : sched.Fair) (o : AggregateOptions B)
    (ho : o.filter.isSome ∨ o.denyFilter.isSome ∨ (o.skipPreCalculated = true ∧ r.blockCount.toNat ≤ 2 ^ 45)) :
    aggregateWithOptions sched r o = aggregateWithOptions sched r { o with parallel := 0 } := by
  unfold aggregateWithOptions
  split
  · rw [parallel_reading sched hs r o (by
      rcases ho with ho | ho | ho
      · exact .inl ho
      · exact .inr (.inl ho)
      · exact .inr (.inr (.inl ho.1))) (by
      rcases ho with ho | ho | ho
      · exact .inl ho
      · exact .inr (.inl ho)
      · exact .inr (.inr (by have := ho.2; unfold maxAlloc; omega)))]
    rfl
  · rename_i hp
    have : o.parallel = 0 := by simpa using hp
    simp only [ne_eq, not_true_eq_false, if_false]
    rw [← this]

/-- A 148-byte file whose header claims three blocks and whose index has one entry. -/
def badCountFile : Bytes :=
  (newFileHeader 0 3 16384 0).fields.flatten ++ List.replicate 4 0 ++ le32 1 ++
    (newFooterEntry 64 4032 1 1 5 5 5 1).fields.flatten ++ le64 60 ++ le64 0 ++ le64 magicNumber

/-- **C15 is refuted for arbitrary files without a filter**: if the header claims more blocks
than the index has, sequential aggregation returns a result and parallel aggregation panics. -/
theorem C15_refuted : ∃ r : Reader IdSet, newReader badCountFile = .ok r ∧
    aggregateWithOptions inOrder r { parallel := 2 } = .panic ∧
    ∃ res, aggregateWithOptions inOrder r { parallel := 0 } = .ok res := by
  have h1 : ∃ r, newReader (B := IdSet) badCountFile = .ok r := by
    cases h : newReader (B := IdSet) badCountFile with
    | ok r => exact ⟨r, rfl⟩
    | err e =>
      have : (match newReader (B := IdSet) badCountFile with | .ok _ => true | _ => false) = true := by decide +kernel
      rw [h] at this; cases this
    | panic =>
      have : (match newReader (B := IdSet) badCountFile with | .ok _ => true | _ => false) = true := by decide +kernel
      rw [h] at this; cases this
  obtain ⟨r, hr⟩ := h1
  refine ⟨r, hr, ?_, ?_⟩
  · have : (newReader (B := IdSet) badCountFile >>= fun r => aggregateWithOptions inOrder r { parallel := 2 }) = .panic := by
      decide +kernel
    rwa [hr] at this
  · have : ∃ res, (newReader (B := IdSet) badCountFile >>= fun r => aggregateWithOptions inOrder r { parallel := 0 }) = .ok res :=
      ⟨{ count := 1, min := 5, max := 5, sum := 5, avg := .quot 5 1 }, by decide +kernel⟩
    rwa [hr] at this

/-- A 148-byte file whose header claims 2^46 blocks and whose index has one entry. -/
def hugeCountFile : Bytes :=
  (newFileHeader 0 70368744177664 16384 0).fields.flatten ++ List.replicate 4 0 ++ le32 1 ++
    (newFooterEntry 64 4032 1 1 5 5 5 1).fields.flatten ++ le64 60 ++ le64 0 ++ le64 magicNumber

theorem hugeCount_opens : ∃ r : Reader IdSet, newReader hugeCountFile = .ok r ∧ r.blockCount = 70368744177664 ∧
    r.blockIndex = [newFooterEntry 64 4032 1 1 5 5 5 1] := by
  have key : (match newReader (B := IdSet) hugeCountFile with
      | .ok r => decide (r.blockCount = 70368744177664) && decide (r.blockIndex = [newFooterEntry 64 4032 1 1 5 5 5 1])
      | _ => false) = true := by decide +kernel
  cases h : newReader (B := IdSet) hugeCountFile with
  | ok r =>
    rw [h] at key
    simp only [Bool.and_eq_true, decide_eq_true_eq] at key
    exact ⟨r, rfl, key⟩
  | err e => rw [h] at key; cases key
  | panic => rw [h] at key; cases key

/-- **C31 is refuted for aggregates on arbitrary files also where all block sizes are sane**: `NewReader` accepts a file of
148 bytes whose header claims 2^46 blocks, and aggregating with a deny filter panics (`make([]uint64, 2^46)`), with any
number of workers. -/
theorem C31_refuted_count : ∃ r : Reader IdSet, newReader hugeCountFile = .ok r ∧
    (∀ e ∈ r.blockIndex, 80 ≤ e.blockSize.toNat) ∧
    ∀ (sched : Sched) (d : IdSet), sched.Fair → ∀ workers : Int,
      aggregateWithOptions sched r { denyFilter := some d, parallel := workers } = .panic := by
  obtain ⟨r, hr, hc, hi⟩ := hugeCount_opens
  refine ⟨r, hr, by rw [hi]; decide, fun sched d hs workers => ?_⟩
  rw [C15_arbitrary r sched hs _ (.inr (.inl rfl))]
  show aggregateWithFilter r _ = .panic
  unfold aggregateWithFilter filteredBlockIterator firstBlocks
  rw [hc]; rfl

/-- **C15 is refuted for arbitrary files with `SkipPreCalculated`**: on the same file, reading with one worker returns a
result (after trying 2^46 blocks) and reading with two panics. -/
theorem C15_refuted_count : ∃ r : Reader IdSet, newReader hugeCountFile = .ok r ∧
    (∀ sched : Sched, aggregateWithOptions sched r { skipPreCalculated := true, parallel := 2 } = .panic) ∧
    ∀ sched : Sched, ∃ res, aggregateWithOptions sched r { skipPreCalculated := true, parallel := 0 } = .ok res := by
  obtain ⟨r, hr, hc, hi⟩ := hugeCount_opens
  refine ⟨r, hr, fun sched => ?_, fun sched => C31_aggregate_sequential sched r (by rw [hi]; decide) _ rfl (.inr (.inl rfl))⟩
  show aggregateParallel sched r _ = .panic
  have hc' : r.header.blockCount = 70368744177664 := hc
  unfold aggregateParallel firstBlocks
  rw [hc']; rfl

/-! ### C17 -/

/-- **C17.** If no value is selected, count, sum and average are zero, on every path. -/
theorem C17_empty {env : Env} {opts : List WriterOption} {log : Log} {file : Bytes}
    (h : Finalized B env opts log file) (henc : SymEnc (chosenEncoding opts))
    (hn : (acked log).length ≤ maxBlocks) (r : Reader B) (hr : newReader file = .ok r)
    (sched : Sched) (hs : sched.Fair) (o : AggregateOptions B)
    (hsel : selectedValues o.filter o.denyFilter (acked log) = []) :
    ∃ res, aggregateWithOptions sched r o = .ok res ∧ res.count = 0 ∧ res.sum = 0 ∧ res.avg = .zero := by
  by_cases hf : o.filter.isSome ∨ o.denyFilter.isSome
  · obtain ⟨res, h1, h2⟩ := C13_filtered h henc hn r hr sched hs o hf
    rw [hsel] at h2
    exact ⟨res, h1, h2.count, h2.sum, h2.avg⟩
  · have h1 : o.filter = none := by
      cases hh : o.filter with
      | none => rfl
      | some f => exact absurd (.inl (by rw [hh]; rfl)) hf
    have h2 : o.denyFilter = none := by
      cases hh : o.denyFilter with
      | none => rfl
      | some f => exact absurd (.inr (by rw [hh]; rfl)) hf
    rw [h1, h2, selectedValues_none] at hsel
    have H := h.reads henc hn r hr
    have hempty : acked log = [] := by
      cases hb : acked log with
      | nil => rfl
      | cons b bs =>
        have hok := H.ok b (by rw [hb]; simp)
        rw [Reads.flatMap_values _ (fun b hb => (H.ok b hb).2.1), hb] at hsel
        simp only [List.map_cons, List.flatten_cons, List.append_eq_nil_iff] at hsel
        rw [hsel.1] at hok
        exact absurd (List.eq_nil_of_length_eq_zero hok.2.1) hok.1
    rw [H.parallel_eq sched hs]
    refine ⟨_, H.skip _ h1 h2 (.inr hempty), ?_⟩
    rw [hsel]
    exact ⟨rfl, rfl, rfl⟩

/-- A file with no blocks. -/
theorem empty_finalized : ∃ file, Finalized IdSet quietEnv [] [] file :=
  finalized_of_log [] [] [] (by simp) (by decide +kernel) (by unfold NoMismatch; decide) (by decide)

/-- **C17 is refuted for `Min` and `Max`**: on a file without blocks, `Aggregate()` reports the
sentinels `2^63-1` and `-2^63` and a filtered aggregate reports zeros. -/
theorem C17_refuted : ∃ file, ∃ r : Reader IdSet, Finalized IdSet quietEnv [] [] file ∧ newReader file = .ok r ∧
    aggregate inOrder r = .ok ⟨0, 9223372036854775807, -9223372036854775808, 0, .zero⟩ ∧
    aggregateWithOptions inOrder r { filter := some ⟨[1]⟩ } = .ok ⟨0, 0, 0, 0, .zero⟩ := by
  obtain ⟨file, h⟩ := empty_finalized
  obtain ⟨r, h1, _⟩ := C29_accessors h (by decide)
  have H := h.reads (.inl rfl) (by decide) r h1
  refine ⟨file, r, h, h1, H.skip {} rfl rfl (.inr rfl), ?_⟩
  have hidx : r.blockIndex = [] := List.eq_nil_of_length_eq_zero H.index
  show aggregateWithFilter r { filter := some ⟨[1]⟩ } = _
  simp [aggregateWithFilter, filteredBlockIterator, hidx, AggregateResult.zero, Res.ok_bind]

/-- Non-vacuity of C17 with a non-empty file: no pair of the example has ID 4. -/
example : selectedValues (some (⟨[4]⟩ : IdSet)) none (acked exampleLog) = [] := by decide

/-! ### C36 -/

/-- `ps` is what a caller gets by calling `GetPairs` for all blocks in order and concatenating
the results. -/
def AllPairs (r : Reader B) (ps : List (UInt64 × Int64)) : Prop :=
  ∃ blocks : List Block, r.blockCount.toNat = blocks.length ∧
    (∀ (i : Nat) (h : i < blocks.length), getPairs r (UInt64.ofNat i) = .ok blocks[i]) ∧
    ps = blocks.flatMap fun b => b.1.zip b.2

/-- **C36.** Two finalized files with the same sequence of acknowledged pairs, however they are
cut into blocks, and with any two symmetric encodings, block sizes, environments and bitmap
implementations' contents, return the same pairs, and the same aggregates as long as something
contributes. -/
theorem C36_split {env env' : Env} {opts opts' : List WriterOption} {log log' : Log} {file file' : Bytes}
    (h : Finalized B env opts log file) (h' : Finalized B env' opts' log' file')
    (henc : SymEnc (chosenEncoding opts)) (henc' : SymEnc (chosenEncoding opts'))
    (hn : (acked log).length ≤ maxBlocks) (hn' : (acked log').length ≤ maxBlocks)
    (hsame : pairsOf (acked log) = pairsOf (acked log'))
    (r r' : Reader B) (hr : newReader file = .ok r) (hr' : newReader file' = .ok r') :
    (∃ ps, AllPairs r ps ∧ AllPairs r' ps) ∧
    (∀ (sched sched' : Sched), sched.Fair → sched'.Fair → ∀ (o : AggregateOptions B),
      (o.filter.isSome ∨ o.denyFilter.isSome ∨ o.skipPreCalculated = true ∨
        (StatsRepresentable (acked log) ∧ StatsRepresentable (acked log'))) →
      ∃ a a', aggregateWithOptions sched r o = .ok a ∧ aggregateWithOptions sched' r' o = .ok a' ∧
        a.count = a'.count ∧ a.sum = a'.sum ∧ a.avg = a'.avg ∧ (a.count ≠ 0 → a = a')) := by
  have H := h.reads henc hn r hr
  have H' := h'.reads henc' hn' r' hr'
  constructor
  · exact ⟨pairsOf (acked log), ⟨_, H.count_toNat, H.read, rfl⟩, ⟨_, H'.count_toNat, H'.read, hsame⟩⟩
  · intro sched sched' hs hs' o ho
    obtain ⟨a, h1, h2⟩ := C13_general h henc hn r hr sched hs o (by
      rcases ho with ho | ho | ho | ho
      · exact .inl ho
      · exact .inr (.inl ho)
      · exact .inr (.inr (.inl ho))
      · exact .inr (.inr (.inr ho.1)))
    obtain ⟨a', h1', h2'⟩ := C13_general h' henc' hn' r' hr' sched' hs' o (by
      rcases ho with ho | ho | ho | ho
      · exact .inl ho
      · exact .inr (.inl ho)
      · exact .inr (.inr (.inl ho))
      · exact .inr (.inr (.inr ho.2)))
    have hsel : selectedValues o.filter o.denyFilter (acked log') = selectedValues o.filter o.denyFilter (acked log) := by
      unfold selectedValues; rw [hsame]
    rw [hsel] at h2'
    have e1 := h2.count.trans h2'.count.symm
    have e2 := h2.sum.trans h2'.sum.symm
    refine ⟨a, a', h1, h1', e1, e2, by rw [h2.avg, h2'.avg, e1, e2], fun hc => h2.unique h2' ?_⟩
    intro he
    rw [h2.count, he] at hc
    exact hc rfl

/-- The pairs of the history with full blocks, written as one block in another encoding. -/
def oneBlockLog : Log := [(.write [3, 1, 2, 1, 2] [30, -10, 20, -10, 20], .ok ())]

theorem oneBlock_finalized : ∃ file, Finalized IdSet quietEnv [.withEncoding encVarInt] oneBlockLog file :=
  finalized_of_log [.withEncoding encVarInt] [.write [3, 1, 2, 1, 2] [30, -10, 20, -10, 20]] oneBlockLog
    (by decide) (by decide +kernel) (by unfold NoMismatch; decide) (by decide)

/-- Non-vacuity of C36: three blocks in one file, one in the other. -/
example : pairsOf (acked fullLog) = pairsOf (acked oneBlockLog) ∧ (acked fullLog).length = 3 ∧
    (acked oneBlockLog).length = 1 := by decide

end VibeCol
