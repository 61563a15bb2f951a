/-
C70: how much memory parallel aggregation and aggregation over a stack ask for.
-/
import Verif.Props.Memory
namespace VibeCol.Memory
variable {B : Type} [Bitmap B]

theorem workerResultsA_res {workA : List UInt64 → Acc → Alloc Acc} {work : List UInt64 → Acc → Res Acc}
    (h : ∀ is a, (workA is a).res = work is a) (l : List UInt64) (n : Nat) (ws : List Nat) :
    (workerResultsA workA l n ws).res = workerResults work l n ws := by
  induction ws with
  | nil => rfl
  | cons w ws ih =>
    unfold workerResultsA workerResults
    cases workerSlice l n w with
    | nil => exact ih
    | cons i is => simp only [bind_res, h, ih, lift_res]

theorem aggregateParallelWithA_res (sched : Sched) {workA : List UInt64 → Acc → Alloc Acc} {work : List UInt64 → Acc → Res Acc}
    (h : ∀ is a, (workA is a).res = work is a) (l : List UInt64) (n : Nat) :
    (aggregateParallelWithA sched workA l n).res = aggregateParallelWith sched work l n := by
  unfold aggregateParallelWithA aggregateParallelWith
  simp only [bind_res, make_res, Res.ok_bind, workerResultsA_res h, lift_res]

theorem aggregateParallelA_res (sched : Sched) (r : Reader B) (opts : AggregateOptions B) :
    (aggregateParallelA sched r opts).res = aggregateParallel sched r opts := by
  unfold aggregateParallelA aggregateParallel
  dsimp only
  rw [ite_res, aggregateSequentialA_res]
  refine ite_congr rfl (fun _ => rfl) fun _ => ?_
  rw [bind_res, ite_res, filteredBlockIteratorA_res, firstBlocksA_res]
  refine congrArg _ (funext fun l => ?_)
  rw [ite_res, ite_res]
  rw [aggregateParallelWithA_res sched (work := sumEntries r) (fun _ _ => rfl), aggregateParallelWithA_res sched (work := sumBlocks fun i =>
    if opts.filter.isSome ∨ opts.denyFilter.isSome then readBlockFiltered r i.toInt64 opts.filter opts.denyFilter
    else getPairs r i) (fun is a => sumBlocksA_res _ _ (fun i => by rw [ite_res, readBlockFilteredA_res, getPairsA_res]) is a)]
  rfl

theorem aggregateWithOptionsA_res (sched : Sched) (r : Reader B) (opts : AggregateOptions B) :
    (aggregateWithOptionsA sched r opts).res = aggregateWithOptions sched r opts := by
  unfold aggregateWithOptionsA aggregateWithOptions
  rw [ite_res, aggregateParallelA_res, aggregateSequentialA_res]

theorem multiLoopA_res (sched : Sched) (skip : Bool) (filter : Option B) (rs : List (Reader B)) (deny : B) (res : AggregateResult) :
    (multiLoopA sched skip filter rs deny res).res = multiLoop sched skip filter rs deny res := by
  induction rs generalizing deny res with
  | nil => rfl
  | cons r rs ih =>
    unfold multiLoopA multiLoop
    simp only [bind_res, aggregateWithOptionsA_res, getGlobalIDBitmapA_res, ih]

/-- **C70.** The same for all options and for stacks of files. -/
theorem C70_results_all (sched : Sched) (r : Reader B) (opts : AggregateOptions B) (readers : List (Reader B)) (skip : Bool)
    (filter : Option B) : (aggregateWithOptionsA sched r opts).res = aggregateWithOptions sched r opts ∧
    (multiAggregateA sched readers skip filter).res = multiAggregate sched readers skip filter := by
  refine ⟨aggregateWithOptionsA_res sched r opts, ?_⟩
  unfold multiAggregateA multiAggregate
  rw [ite_res, multiLoopA_res]
  rfl

/-! ### How much -/

theorem workerResultsA_le {workA : List UInt64 → Acc → Alloc Acc} {cost : UInt64 → Nat}
    (h : ∀ is a, Le (workA is a) (is.map cost).sum) (l : List UInt64) (n : Nat) (ws : List Nat) :
    Le (workerResultsA workA l n ws) ((ws.map fun w => workerSlice l n w).flatten.map cost).sum := by
  induction ws with
  | nil => exact Le.lift _ _
  | cons w ws ih =>
    rw [List.map_cons, List.flatten_cons, List.map_append, List.sum_append]
    unfold workerResultsA
    cases workerSlice l n w with
    | nil => exact ih.mono (by simp)
    | cons i is =>
      refine Le.bind (h _ _) (fun a _ => ?_) (Nat.le_refl _)
      exact Le.bind ih (fun a _ => Le.lift _ 0) (Nat.le_refl _)

theorem aggregateParallelWithA_le (sched : Sched) {workA : List UInt64 → Acc → Alloc Acc} {cost : UInt64 → Nat}
    (h : ∀ is a, Le (workA is a) (is.map cost).sum) (l : List UInt64) (n : Nat) (hn : 0 < n) :
    Le (aggregateParallelWithA sched workA l n) (40 * n + (l.map cost).sum) := by
  unfold aggregateParallelWithA
  refine Le.bind (m := 40 * n) (Le.make (Nat.le_refl _)) (fun _ _ => ?_) (Nat.le_refl _)
  have := workerResultsA_le h l n (List.range n)
  rw [slices_flatten l n hn] at this
  exact Le.bind this (fun _ _ => Le.lift _ 0) (Nat.le_refl _)

theorem sum_zero (l : List UInt64) : (l.map fun _ => 0).sum = 0 := by
  induction l with
  | nil => rfl
  | cons x l ih => rw [List.map_cons, List.sum_cons, ih]

/-- **C70.** On a finalized file, an aggregation with any options asks for at most eighteen times the length of the file over its whole
run, with any number of workers. -/
theorem C70_parallel [LawfulBitmap B] {env : Env} {wopts : List WriterOption} {log : Log} {file : Bytes} (hfin : Finalized B env wopts log file)
    (hn : (acked log).length ≤ maxBlocks) {r : Reader B} (hr : newReader file = .ok r) (sched : Sched) (opts : AggregateOptions B) :
    (aggregateWithOptionsA sched r opts).total ≤ 18 * file.length := by
  have hseq := (C70_finalized hfin hn hr).2.2.2.2
  show Le (aggregateWithOptionsA sched r opts) (18 * file.length)
  unfold aggregateWithOptionsA
  refine Le.ite (fun _ => ?_) (fun _ => hseq opts)
  obtain ⟨hd, blks, buf, bo, fs, H, rfl, hp, _⟩ := hfin.opened hn r hr
  have hl : blks.length = (acked log).length := by rw [← hp, List.length_map]
  unfold maxBlocks at hn
  have hsum := Laid_sum H.laid
  have hbm := H.bmFits
  have hfs := H.fsLe
  have hmany : 80 * blks.length ≤ (blks.map (Blk.size (chosenEncoding wopts))).sum := by
    generalize blks = l
    induction l with
    | nil => exact Nat.le_refl _
    | cons b l ih =>
      have := Blk.size_ge (chosenEncoding wopts) b
      rw [List.map_cons, List.sum_cons, List.length_cons]
      omega
  have hix : (okReader (B := B) file hd (chosenEncoding wopts) blks).blockIndex.length = blks.length := List.length_map _
  have hcnt : (okReader (B := B) file hd (chosenEncoding wopts) blks).blockCount.toNat = blks.length := by
    show hd.blockCount.toNat = _
    rw [H.count, UInt64.toNat_ofNat']
    omega
  have hcnt' : (okReader (B := B) file hd (chosenEncoding wopts) blks).header.blockCount.toInt64.toInt = (blks.length : Int) := by
    show hd.blockCount.toInt64.toInt = _
    rw [H.count, uint64_ofNat_toInt64, int64_toInt_ofNat _ (by omega)]
  have hfirst : ∀ n, n = blks.length → Le (firstBlocksA n) (8 * blks.length) := by
    intro n hn'
    unfold firstBlocksA
    refine Le.ite (fun _ => Le.lift _ _) (fun _ => ?_)
    exact Le.bind (m := 8 * blks.length) (n := 0) (Le.make (by omega)) (fun _ _ => Le.lift _ _) (Nat.le_refl _)
  have hiter : ∀ filter deny, Le (filteredBlockIteratorA (okReader (B := B) file hd (chosenEncoding wopts) blks) filter deny)
      (8 * blks.length) := by
    intro filter deny
    unfold filteredBlockIteratorA
    cases filter with
    | none => exact hfirst _ hcnt
    | some f => exact Le.lift _ _
  unfold aggregateParallelA
  dsimp only
  rw [hcnt']
  generalize hw : (if (if opts.parallel < 0 then sched.gomaxprocs else opts.parallel) > (blks.length : Int) then (blks.length : Int)
    else (if opts.parallel < 0 then sched.gomaxprocs else opts.parallel)) = n
  have hnle : n ≤ (blks.length : Int) := by rw [← hw]; split <;> omega
  refine Le.ite (fun _ => hseq _) (fun hcond => ?_)
  have hn1 : 1 < n := by
    rcases Int.lt_or_le 1 n with h | h
    · exact h
    · exact absurd (.inl h) hcond
  have hpos : 0 < n.toNat := by omega
  have hto : n.toNat ≤ blks.length := by omega
  have hrange : ∀ is, firstBlocks ((blks.length : Int).toNat) = .ok is → is.Sublist ((List.range blks.length).map UInt64.ofNat) := by
    intro is his
    rw [Int.toNat_natCast] at his
    unfold firstBlocks at his
    split at his
    · cases his
    · obtain rfl := Res.ok.inj his
      exact List.Sublist.refl _
  refine Le.bind (m := 8 * blks.length) (n := 40 * blks.length + 17 * file.length)
    (Le.ite (fun _ => hiter _ _) (fun _ => hfirst _ (by omega))) (fun is his => ?_) (by omega)
  have hsub : is.Sublist ((List.range blks.length).map UInt64.ofNat) := by
    rw [ite_res, filteredBlockIteratorA_res, firstBlocksA_res] at his
    split at his
    · have := iterator_sublist his (by rw [hcnt, hix])
      rwa [hix] at this
    · exact hrange is his
  refine Le.ite (fun _ => Le.lift _ _) (fun _ => ?_)
  refine Le.ite (fun _ => ?_) (fun _ => ?_)
  · refine (aggregateParallelWithA_le sched (cost := fun _ => 0) (fun _ _ => Le.lift _ _) is n.toNat hpos).mono ?_
    rw [sum_zero]
    omega
  · refine (aggregateParallelWithA_le sched (fun is a => sumBlocksA_le _ is a) is n.toNat hpos).mono ?_
    have := blocks_total (B := B) H (by omega) hsub (rd := fun i =>
      if opts.filter.isSome ∨ opts.denyFilter.isSome then readBlockFilteredA (okReader (B := B) file hd (chosenEncoding wopts) blks)
        i.toInt64 opts.filter opts.denyFilter
      else getPairsA (okReader (B := B) file hd (chosenEncoding wopts) blks) i) fun i x hx =>
        Le.ite (fun _ => readBlockFilteredA_le _ _ hx) (fun _ => Le.mono (readBlockA_le hx) (by omega))
    omega

theorem multiLoopA_le (sched : Sched) (skip : Bool) (filter : Option B) (cost : Reader B → Nat) (rs : List (Reader B))
    (h : ∀ r ∈ rs, (∀ opts, (aggregateWithOptionsA sched r opts).total ≤ 18 * cost r) ∧ (getGlobalIDBitmapA r).total ≤ cost r)
    (deny : B) (res : AggregateResult) : Le (multiLoopA sched skip filter rs deny res) (19 * (rs.map cost).sum) := by
  induction rs generalizing deny res with
  | nil => exact Le.lift _ _
  | cons r rs ih =>
    obtain ⟨h1, h2⟩ := h r (List.mem_cons_self ..)
    unfold multiLoopA
    rw [List.map_cons, List.sum_cons]
    refine Le.bind (m := 18 * cost r) (n := cost r + 19 * (rs.map cost).sum) (h1 _) (fun _ _ => ?_) (by omega)
    refine Le.bind (m := cost r) (n := 19 * (rs.map cost).sum) h2 (fun _ _ => ?_) (by omega)
    exact ih (fun r' hr' => h r' (List.mem_cons_of_mem _ hr')) _ _

/-- `r` is a reader opened on the finalized file `file`. -/
def Opened (r : Reader B) (file : Bytes) : Prop :=
  ∃ env wopts log, Finalized B env wopts log file ∧ (acked log).length ≤ maxBlocks ∧ newReader file = .ok r

/-- **C70.** An aggregation over a stack of finalized files asks for at most nineteen times their total length. -/
theorem C70_stack [LawfulBitmap B] (sched : Sched) (readers : List (Reader B)) (files : List Bytes)
    (h : Each Opened readers files) (skip : Bool) (filter : Option B) :
    (multiAggregateA sched readers skip filter).total ≤ 19 * (files.map List.length).sum := by
  have hb : (∀ r ∈ readers, (∀ opts, (aggregateWithOptionsA sched r opts).total ≤ 18 * r.bytes.length) ∧
      (getGlobalIDBitmapA r).total ≤ r.bytes.length) ∧
      (readers.map fun r => r.bytes.length).sum = (files.map List.length).sum := by
    induction h with
    | nil => exact ⟨fun r hr => absurd hr List.not_mem_nil, rfl⟩
    | @cons r file rs fs hd _ ih =>
      obtain ⟨env, wopts, log, hf, hn, hr⟩ := hd
      have hbytes : r.bytes = file := by
        obtain ⟨_, _, _, _, _, _, rfl, _⟩ := hf.opened hn r hr
        rfl
      refine ⟨fun r' hr' => ?_, by rw [List.map_cons, List.sum_cons, List.map_cons, List.sum_cons, ih.2, hbytes]⟩
      rcases List.mem_cons.1 hr' with rfl | hr'
      · rw [hbytes]
        exact ⟨C70_parallel hf hn hr sched, (C70_finalized hf hn hr).2.2.1⟩
      · exact ih.1 r' hr'
  show Le (multiAggregateA sched readers skip filter) _
  unfold multiAggregateA
  refine Le.ite (fun _ => Le.lift _ _) (fun _ => ?_)
  refine (multiLoopA_le sched skip filter (fun r => r.bytes.length) readers.reverse
    (fun r hr => hb.1 r (List.mem_reverse.1 hr)) _ _).mono ?_
  rw [List.map_reverse, List.sum_reverse, hb.2]
  exact Nat.le_refl _

/-- Non-vacuity: four workers on a file, and a stack of this file twice. -/
theorem C70_example_parallel : ∃ (file : Bytes) (r : Reader IdSet), Finalized IdSet quietEnv exampleOpts exampleLog file ∧
    newReader file = .ok r ∧ (aggregateWithOptionsA inOrder r { parallel := 4, skipPreCalculated := true }).total ≤ 18 * file.length ∧
    Each Opened [r, r] [file, file] ∧ (multiAggregateA inOrder [r, r] false none).total ≤ 19 * (file.length + file.length) := by
  obtain ⟨file, hf⟩ := example_finalized
  obtain ⟨r, hr, _⟩ := C29_accessors hf (by decide)
  have ho : Opened r file := ⟨_, _, _, hf, by decide, hr⟩
  refine ⟨file, r, hf, hr, C70_parallel hf (by decide) hr _ _, .cons ho (.cons ho .nil), ?_⟩
  have := C70_stack inOrder [r, r] [file, file] (.cons ho (.cons ho .nil)) false none
  simpa using this

end VibeCol.Memory
