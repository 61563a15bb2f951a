/-
C16: the goroutines of a parallel aggregation.
-/
import Verif.Props.Aggregation
import Verif.Lemmas.Machine
set_option linter.unusedSimpArgs false
namespace VibeCol
variable {B : Type} [Bitmap B]

/-! ### The machine and the functional model compute the same -/

/-- A worker loop and its body. -/
def Agrees (body : UInt64 → Acc → Option Acc) (work : List UInt64 → Acc → Res Acc) : Prop :=
  ∀ l a, work l a = match runBody body l a with
    | some b => .ok b
    | none => .panic

omit [Bitmap B] in
theorem agrees_footer (r : Reader B) : Agrees (footerBody r) (sumEntries r) := by
  intro l
  induction l with
  | nil => intro a; rfl
  | cons i is ih =>
    intro a
    simp only [sumEntries, runBody, footerBody]
    cases r.blockIndex[i.toNat]? with
    | none => rfl
    | some x => exact ih _

theorem agrees_reading (read : UInt64 → Res (List UInt64 × List Int64)) :
    Agrees (readingBody read) (sumBlocks read) := by
  intro l
  induction l with
  | nil => intro a; rfl
  | cons i is ih =>
    intro a
    simp only [sumBlocks, runBody, readingBody]
    cases read i with
    | ok p => exact ih _
    | err e => exact ih _
    | panic => rfl

theorem workerResults_ok (job : Job) (work : List UInt64 → Acc → Res Acc) (ha : Agrees job.body work) (ws : List Nat)
    (h : ∀ w ∈ ws, job.slice w = [] ∨ ∃ r, job.outcome w = some r) :
    workerResults work job.indices job.workers ws = .ok (ws.flatMap fun i => (job.outcome i).toList) := by
  induction ws with
  | nil => rfl
  | cons w ws ih =>
    have ih := ih fun x hx => h x (List.mem_cons_of_mem _ hx)
    have hw := h w List.mem_cons_self
    unfold workerResults
    rw [List.flatMap_cons]
    unfold Job.slice at hw
    cases hsl : workerSlice job.indices job.workers w with
    | nil =>
      simp only [ih]
      rw [show job.outcome w = none by unfold Job.outcome Job.slice; rw [hsl]; rfl]; rfl
    | cons i is =>
      rw [hsl] at hw
      obtain ⟨r, hr⟩ := hw.resolve_left (by simp)
      simp only [ih]
      have ha' := ha (i :: is) Acc.init
      unfold Job.outcome Job.slice at hr
      rw [hsl] at hr
      simp only [List.cons_ne_nil, if_false, reduceCtorEq] at hr
      cases hb : runBody job.body (i :: is) Acc.init with
      | none => rw [hb] at hr; cases hr
      | some a =>
        rw [hb] at ha' hr
        rw [ha']
        rw [show job.outcome w = some a.result by
          unfold Job.outcome Job.slice; rw [hsl, if_neg (by simp), hb]; rfl]
        rfl

theorem workerResults_panic (job : Job) (work : List UInt64 → Acc → Res Acc) (ha : Agrees job.body work) (ws : List Nat)
    (h : ∃ w ∈ ws, job.slice w ≠ [] ∧ runBody job.body (job.slice w) Acc.init = none) :
    workerResults work job.indices job.workers ws = .panic := by
  induction ws with
  | nil => obtain ⟨w, hw, _⟩ := h; cases hw
  | cons x ws ih =>
    unfold workerResults
    cases hsl : workerSlice job.indices job.workers x with
    | nil =>
      refine ih ?_
      obtain ⟨w, hw, h1, h2⟩ := h
      rcases List.mem_cons.1 hw with rfl | hw
      · exact absurd hsl h1
      · exact ⟨w, hw, h1, h2⟩
    | cons i is =>
      simp only
      rw [ha]
      cases hb : runBody job.body (i :: is) Acc.init with
      | none => rfl
      | some a =>
        have : workerResults work job.indices job.workers ws = .panic := by
          refine ih ?_
          obtain ⟨w, hw, h1, h2⟩ := h
          rcases List.mem_cons.1 hw with rfl | hw
          · unfold Job.slice at h2; rw [hsl, hb] at h2; cases h2
          · exact ⟨w, hw, h1, h2⟩
        rw [this]; rfl

/-- The order of arrival that was observed. -/
def observed (gomaxprocs : Int) (sent got : List AggregateResult) : Sched where
  gomaxprocs := gomaxprocs
  order l := if l = sent then got else l

theorem observed_fair (g : Int) (sent got : List AggregateResult) (h : got.Perm sent) :
    (observed g sent got).Fair := by
  intro l
  show (if l = sent then got else l).Perm l
  split
  · rename_i hl; rw [hl]; exact h
  · exact .refl _

theorem machine_result {job : Job} {s : PState} (h : job.Invariant s) {v : AggregateResult} (hv : s.main = .returned v)
    (work : List UInt64 → Acc → Res Acc) (ha : Agrees job.body work) (g : Int) :
    ∃ sched : Sched, sched.gomaxprocs = g ∧ sched.Fair ∧
      aggregateParallelWith sched work job.indices job.workers = .ok v := by
  obtain ⟨recv, hp, hr⟩ := h.recv
  rw [hv] at hr
  obtain ⟨hv', hch⟩ := hr
  rw [hch, List.append_nil] at hp
  have hgone := h.gone (by rw [hv]; trivial)
  have hsent : ((List.range job.workers).flatMap fun i => job.sent i (s.worker i)) =
      (List.range job.workers).flatMap fun i => (job.outcome i).toList := by
    rw [List.flatMap_def, List.flatMap_def]
    congr 1
    refine List.map_congr_left fun i hi => ?_
    rw [hgone i (List.mem_range.1 hi)]; rfl
  rw [hsent] at hp
  have hw := workerResults_ok job work ha (List.range job.workers) (by
    intro w hw
    have := h.pc w
    rw [hgone w (List.mem_range.1 hw)] at this
    exact this)
  refine ⟨observed g _ recv, rfl, observed_fair g _ _ hp, ?_⟩
  unfold aggregateParallelWith
  rw [hw]
  show Res.ok _ = _
  rw [hv']
  show Res.ok (mergeResults (if _ then _ else _)) = _
  rw [if_pos rfl]; rfl

theorem machine_panic {job : Job} {s : PState} (h : job.Invariant s) {c : Crash} (hc : s.crash = some c)
    (work : List UInt64 → Acc → Res Acc) (ha : Agrees job.body work) (sched : Sched) :
    aggregateParallelWith sched work job.indices job.workers = .panic := by
  rcases h.ok with h1 | ⟨_, i, hi, h2, h3⟩
  · rw [h1] at hc; cases hc
  · unfold aggregateParallelWith
    rw [workerResults_panic job work ha _ ⟨i, List.mem_range.2 hi, h2, h3⟩]; rfl

/-- The functional model of `AggregateWithOptions` where it starts goroutines. -/
theorem aggregate_of_job {sched : Sched} {r : Reader B} {o : AggregateOptions B} {job : Job}
    (hj : jobOf sched r o = some job) : 1 < job.workers ∧ ∃ work, Agrees job.body work ∧
      ∀ sched' : Sched, sched'.gomaxprocs = sched.gomaxprocs →
        aggregateWithOptions sched' r o = aggregateParallelWith sched' work job.indices job.workers := by
  unfold jobOf at hj
  split at hj
  · cases hj
  rename_i hp
  split at hj
  · cases hj
  rename_i hn
  cases hx : jobIndices r o with
  | err e => rw [hx] at hj; cases hj
  | panic => rw [hx] at hj; cases hj
  | ok idx =>
  rw [hx] at hj
  dsimp only at hj
  split at hj
  · cases hj
  rename_i hl
  unfold jobIndices at hx
  cases hj
  refine ⟨by simp only; omega, ?_⟩
  by_cases hf : r.blockIndex.length > 0 ∧ o.skipPreCalculated = false ∧ o.filter.isNone ∧ o.denyFilter.isNone
  · refine ⟨sumEntries r, by simp only [if_pos hf]; exact agrees_footer r, ?_⟩
    intro sched' hs
    unfold aggregateWithOptions
    rw [if_pos hp]
    unfold aggregateParallel
    rw [hs]
    simp only [numWorkersOf] at hn ⊢
    rw [if_neg hn, hx, Res.ok_bind, if_neg hl, if_pos hf]
  · refine ⟨_, by simp only [if_neg hf]; exact agrees_reading _, ?_⟩
    intro sched' hs
    unfold aggregateWithOptions
    rw [if_pos hp]
    unfold aggregateParallel
    rw [hs]
    simp only [numWorkersOf] at hn ⊢
    rw [if_neg hn, hx, Res.ok_bind, if_neg hl, if_neg hf]

/-! ### C16 -/

/-- **C16, no deadlock.** In every reachable state in which the process has not crashed and the
caller has not returned, some goroutine can take a step. For any number of workers, blocks and
any loop body. -/
theorem C16_progress {job : Job} {s : PState} (h : Reachable job s) (hc : s.crash = none)
    (hr : ∀ v, s.main ≠ .returned v) : ∃ who s', step job who s = some s' :=
  progress job h.invariant hc hr

/-- **C16, termination.** No schedule is longer than `8·workers + 6 + blocks` steps. -/
theorem C16_finite {job : Job} (hn : 0 < job.workers) {schedule : List Who} {s : PState}
    (h : exec job schedule PState.init = some s) :
    schedule.length ≤ 8 * job.workers + 6 + job.indices.length := by
  have h1 := exec_length job schedule (init_invariant job) h
  rw [measure_init job hn] at h1
  omega

/-- **C16, the channel and the WaitGroup.** In every reachable state: the only way to have
crashed is a panic in a loop body; the WaitGroup is not negative; the channel buffer is never
over-full; a worker about to send finds the channel open with room, so its send neither
blocks nor panics; and once the caller is past `wg.Wait()`, every worker has exited. -/
theorem C16_safe {job : Job} {s : PState} (h : Reachable job s) :
    (∀ c, s.crash = some c → c = .workPanic) ∧ 0 ≤ s.wg ∧ s.chan.length ≤ job.workers ∧
    (∀ i r, s.worker i = .sending r → s.closed = false ∧ s.chan.length < job.workers) ∧
    (s.main = .close ∨ s.closed = true → ∀ i, i < job.workers → s.worker i = .exited) := by
  have H := h.invariant
  refine ⟨?_, ?_, chan_length H, ?_, ?_⟩
  · intro c hc
    rcases H.ok with h1 | ⟨h1, _⟩
    · rw [h1] at hc; cases hc
    · rw [h1] at hc; cases hc; rfl
  · rw [H.wg]
    have : 0 ≤ Job.pending s.main := by cases s.main <;> simp [Job.pending]
    omega
  · intro i r hi
    have hlt : i < job.workers := by
      refine Classical.byContradiction fun hc => ?_
      have hst : job.started s.main ≤ i := by
        have := H.mainOk
        cases hm : s.main <;> rw [hm] at this <;> simp only [Job.started, Job.MainOk] at this ⊢ <;> omega
      have := (H.idle i).2 hst
      rw [hi] at this; cases this
    constructor
    · rw [H.closed]
      cases hm : s.main with
      | merge f => have := H.gone (by rw [hm]; trivial) i hlt; rw [hi] at this; cases this
      | returned v => have := H.gone (by rw [hm]; trivial) i hlt; rw [hi] at this; cases this
      | _ => rfl
    · obtain ⟨recv, hp, _⟩ := H.recv
      have h3 := sent_length_lt job s.worker job.workers i hlt (by rw [hi]; rfl)
      have h4 := hp.length_eq
      rw [List.length_append] at h4
      omega
  · intro hm
    refine H.gone ?_
    rcases hm with hm | hm
    · rw [hm]; trivial
    · rw [H.closed] at hm
      cases h5 : s.main <;> rw [h5] at hm <;> first | trivial | cases hm

/-- **C16, the result.** If `AggregateWithOptions` starts goroutines, then whatever value it
returns under whatever interleaving is one the functional model gives for some order of
arrival; and if the process dies, the functional model panics for every order. For every
reader, corrupt files included. -/
theorem C16_refines {sched : Sched} {r : Reader B} {o : AggregateOptions B} {job : Job}
    (hj : jobOf sched r o = some job) {s : PState} (h : Reachable job s) :
    (∀ v, s.main = .returned v → ∃ sched' : Sched, sched'.Fair ∧ aggregateWithOptions sched' r o = .ok v) ∧
    (∀ c, s.crash = some c → aggregateWithOptions sched r o = .panic) := by
  obtain ⟨_, work, ha, hw⟩ := aggregate_of_job hj
  constructor
  · intro v hv
    obtain ⟨sched', hg, hf, hr⟩ := machine_result h.invariant hv work ha sched.gomaxprocs
    exact ⟨sched', hf, by rw [hw sched' hg]; exact hr⟩
  · intro c hc
    rw [hw sched rfl]
    exact machine_panic h.invariant hc work ha sched

/-- If no goroutines are started, the scheduler's order does not matter. -/
theorem C16_sequential {sched : Sched} {r : Reader B} {o : AggregateOptions B} (hj : jobOf sched r o = none)
    (sched' : Sched) (hg : sched'.gomaxprocs = sched.gomaxprocs) :
    aggregateWithOptions sched' r o = aggregateWithOptions sched r o := by
  unfold jobOf at hj
  unfold aggregateWithOptions
  split at hj
  · rename_i hp; simp [hp]
  rename_i hp
  rw [if_pos hp, if_pos hp]
  unfold aggregateParallel
  rw [hg]
  split at hj
  · rename_i hn
    simp only [numWorkersOf] at hn
    simp only [if_pos hn]
  · rename_i hn
    simp only [numWorkersOf] at hn
    cases hx : jobIndices r o with
    | err e =>
      unfold jobIndices at hx
      simp only [if_neg hn, hx]; rfl
    | panic =>
      unfold jobIndices at hx
      simp only [if_neg hn, hx]; rfl
    | ok idx =>
      rw [hx] at hj
      dsimp only at hj
      unfold jobIndices at hx
      simp only [if_neg hn, hx, Res.ok_bind]
      split at hj
      · rename_i hl
        simp only [if_pos hl]
      · cases hj

variable [LawfulBitmap B]

/-- **C16 on finalized files.** Under every interleaving, on any finalized file in a symmetric
encoding and for all options: the process never crashes; until the caller returns some
goroutine can move, and at most `8·workers + 6 + blocks` steps are possible; and the value returned is the one
the sequential aggregation (`Parallel: 0`) returns. -/
theorem C16_finalized {env : Env} {opts : List WriterOption} {log : Log} {file : Bytes}
    (hfin : Finalized B env opts log file) (henc : SymEnc (chosenEncoding opts))
    (hn : (acked log).length ≤ maxBlocks) (r : Reader B)
    (hr : newReader file = .ok r) {sched : Sched} {o : AggregateOptions B} {job : Job}
    (hj : jobOf sched r o = some job) {schedule : List Who} {s : PState}
    (h : exec job schedule PState.init = some s) :
    s.crash = none ∧
    ((∃ who s', step job who s = some s') ∨
      ∃ v, s.main = .returned v ∧ ∀ any, aggregateWithOptions any r { o with parallel := 0 } = .ok v) ∧
    schedule.length ≤ 8 * job.workers + 6 + job.indices.length := by
  have hw := (aggregate_of_job hj).1
  have hR : Reachable job s := ⟨schedule, h⟩
  have hcr : s.crash = none := by
    cases hc : s.crash with
    | none => rfl
    | some c =>
      exfalso
      obtain ⟨_, work, ha, hwk⟩ := aggregate_of_job hj
      have h1 : ∀ sched' : Sched, sched'.gomaxprocs = sched.gomaxprocs → aggregateWithOptions sched' r o = .panic := by
        intro sched' hg
        rw [hwk sched' hg]
        exact machine_panic hR.invariant hc work ha sched'
      have hs : (observed sched.gomaxprocs [] []).Fair := observed_fair _ _ _ (.refl _)
      have h2 := h1 (observed sched.gomaxprocs [] []) rfl
      by_cases hx : o.filter.isSome ∨ o.denyFilter.isSome ∨ o.skipPreCalculated = true
      · obtain ⟨res, h3, _⟩ := C13_general hfin henc hn r hr _ hs o (by
          rcases hx with hx | hx | hx
          · exact .inl hx
          · exact .inr (.inl hx)
          · exact .inr (.inr (.inl hx)))
        rw [h2] at h3; cases h3
      · rw [C15_parallel hfin hn r hr _ hs] at h2
        have H := hfin.indexed hn r hr
        unfold aggregateWithOptions aggregateSequential at h2
        have hne : ¬ (o.filter.isSome ∨ o.denyFilter.isSome) := fun hc => hx (by
          rcases hc with hc | hc
          · exact .inl hc
          · exact .inr (.inl hc))
        simp only [ne_eq, not_true_eq_false, if_false, hne] at h2
        have hsk : o.skipPreCalculated = false := by
          cases hh : o.skipPreCalculated with
          | false => rfl
          | true => exact absurd (.inr (.inr hh)) hx
        by_cases hix : r.blockIndex.length > 0
        · rw [if_pos ⟨hix, hsk⟩] at h2; cases h2
        · have h0 : r.header.blockCount.toNat = 0 := by rw [H.count_toNat, ← H.index]; omega
          rw [if_neg (by rintro ⟨hc, _⟩; exact hix hc), h0] at h2
          cases h2
  refine ⟨hcr, ?_, C16_finite (by omega) h⟩
  by_cases hret : ∃ v, s.main = .returned v
  · obtain ⟨v, hv⟩ := hret
    refine .inr ⟨v, hv, ?_⟩
    obtain ⟨sched', hs, hres⟩ := (C16_refines hj hR).1 v hv
    rw [C15_parallel hfin hn r hr sched' hs o] at hres
    intro any
    exact hres
  · exact .inl (C16_progress hR hcr fun v hv => hret ⟨v, hv⟩)

/-! ### Non-vacuity -/

omit [LawfulBitmap B] in
theorem exec_append (job : Job) (xs ys : List Who) (s : PState) :
    exec job (xs ++ ys) s = (exec job xs s).bind (exec job ys) := by
  induction xs generalizing s with
  | nil => rfl
  | cons x xs ih =>
    simp only [List.cons_append, exec]
    cases step job x s with
    | none => rfl
    | some s' => exact ih s'

/-- Every execution can be completed: from every reachable state some schedule leads to the
return of the caller or to a crash. -/
theorem C16_completes {job : Job} {s : PState} (h : Reachable job s) :
    ∃ schedule s', exec job schedule s = some s' ∧ (s'.crash ≠ none ∨ ∃ v, s'.main = .returned v) := by
  by_cases hd : s.crash ≠ none ∨ ∃ v, s.main = .returned v
  · exact ⟨[], s, rfl, hd⟩
  · have hc : s.crash = none := Classical.byContradiction fun hc => hd (.inl hc)
    obtain ⟨who, s1, h1⟩ := C16_progress h hc fun v hv => hd (.inr ⟨v, hv⟩)
    have hr : Reachable job s1 := by
      obtain ⟨sch, hs⟩ := h
      refine ⟨sch ++ [who], ?_⟩
      rw [exec_append, hs]
      simp only [Option.bind_some, exec, h1]
    have := step_decreases job h.invariant who h1
    obtain ⟨sch, s2, h2, h3⟩ := C16_completes hr
    exact ⟨who :: sch, s2, by simp only [exec, h1, h2], h3⟩
termination_by job.measure s

/-- Goroutines are started for every finalized file with two blocks and `Parallel ≥ 2`. -/
theorem C16_starts {env : Env} {opts : List WriterOption} {log : Log} {file : Bytes}
    (hfin : Finalized B env opts log file) (hn : (acked log).length ≤ maxBlocks) (r : Reader B)
    (hr : newReader file = .ok r) (h2 : 2 ≤ (acked log).length) (sched : Sched) (p : Int) (hp : 2 ≤ p) :
    ∃ job, jobOf sched r { parallel := p } = some job ∧ job.workers = (min p (acked log).length).toNat ∧
      job.indices = (List.range (acked log).length).map UInt64.ofNat := by
  have H := hfin.indexed hn r hr
  have hb : r.header.blockCount.toInt64.toInt = (acked log).length := by
    rw [H.count, uint64_ofNat_toInt64, show (Int64.ofNat (acked log).length).toInt = _ from Int64.toInt_ofNat]
    unfold maxBlocks at hn
    exact Int.bmod_eq_of_le (by simp only [Int64.size]; omega) (by simp only [Int64.size]; omega)
  have hi : jobIndices r ({ parallel := p } : AggregateOptions B) = .ok ((List.range (acked log).length).map UInt64.ofNat) := by
    unfold jobIndices
    rw [if_neg (by simp), hb]
    unfold maxBlocks at hn
    exact firstBlocks_ok (by unfold maxAlloc; omega)
  have hw : numWorkersOf sched r ({ parallel := p } : AggregateOptions B) = min p (acked log).length := by
    unfold numWorkersOf
    simp only [hb]
    rw [if_neg (show ¬ p < 0 by omega)]
    split <;> omega
  have hj : (jobOf sched r ({ parallel := p } : AggregateOptions B)).isSome := by
    unfold jobOf
    simp only
    rw [if_neg (show ¬ p = 0 by omega), hw, hb, if_neg (by omega), hi]
    dsimp only
    rw [if_neg (by rw [List.length_map, List.length_range]; omega)]
    rfl
  obtain ⟨job, hj⟩ := Option.isSome_iff_exists.1 hj
  refine ⟨job, hj, ?_⟩
  unfold jobOf at hj
  simp only at hj
  rw [if_neg (show ¬ p = 0 by omega), hw, hb, if_neg (by omega), hi] at hj
  dsimp only at hj
  rw [if_neg (by rw [List.length_map, List.length_range]; omega)] at hj
  cases hj
  exact ⟨rfl, rfl⟩

/-- Two workers start on the example file, and there are complete executions. -/
example : ∃ file, ∃ r : Reader IdSet, ∃ job schedule s v, Finalized IdSet quietEnv exampleOpts exampleLog file ∧
    newReader file = .ok r ∧ jobOf inOrder r { parallel := 2 } = some job ∧ job.workers = 2 ∧
    exec job schedule PState.init = some s ∧ s.main = .returned v := by
  obtain ⟨file, h⟩ := example_finalized
  obtain ⟨r, hr, _⟩ := C29_accessors h (by decide)
  obtain ⟨job, hj, hw, _⟩ := C16_starts h (by decide) r hr (by decide) inOrder 2 (by decide)
  obtain ⟨sch, s, h1, h2⟩ := C16_completes (job := job) ⟨[], rfl⟩
  have h3 := (C16_finalized h (by unfold SymEnc; decide) (by decide) r hr hj h1).1
  obtain ⟨v, hv⟩ := h2.resolve_left (by simp [h3])
  exact ⟨file, r, job, sch, s, v, h, hr, hj, hw, h1, hv⟩

end VibeCol
