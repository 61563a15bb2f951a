/-
The invariant of the parallel aggregation machine.
-/
import Verif.Model.Parallel
import Verif.Lemmas.Par
namespace VibeCol

/-- The whole loop of one worker. -/
def runBody (body : UInt64 → Acc → Option Acc) : List UInt64 → Acc → Option Acc
  | [], a => some a
  | i :: is, a => (body i a).bind (runBody body is)

theorem runBody_append (body : UInt64 → Acc → Option Acc) (xs ys : List UInt64) (a : Acc) :
    runBody body (xs ++ ys) a = (runBody body xs a).bind (runBody body ys) := by
  induction xs generalizing a with
  | nil => rfl
  | cons x xs ih =>
    simp only [List.cons_append, runBody]
    cases body x a with
    | none => rfl
    | some b => exact ih b

namespace Job
variable (job : Job)

/-- The indices of worker `i`. -/
def slice (i : Nat) : List UInt64 := workerSlice job.indices job.workers i

/-- The result worker `i` sends, if any. -/
def outcome (i : Nat) : Option AggregateResult :=
  if job.slice i = [] then none else (runBody job.body (job.slice i) Acc.init).map Acc.result

/-- How many workers have been started. -/
def started : MainPC → Nat
  | .loop w => w
  | .spawn w => w
  | _ => job.workers

/-- What worker `i` has sent. -/
def sent (i : Nat) : WorkerPC → List AggregateResult
  | .leaving => (job.outcome i).toList
  | .exited => (job.outcome i).toList
  | _ => []

/-- A started worker counts in the WaitGroup until it has exited. -/
def alive : WorkerPC → List Unit
  | .idle => []
  | .exited => []
  | _ => [()]

/-- Local invariant of worker `i`. -/
def WOk (i : Nat) : WorkerPC → Prop
  | .idle => True
  | .start => True
  | .running todo acc => ∃ done, job.slice i = done ++ todo ∧ job.slice i ≠ [] ∧ runBody job.body done Acc.init = some acc
  | .sending r => job.outcome i = some r
  | .leaving => job.slice i = [] ∨ ∃ r, job.outcome i = some r
  | .exited => job.slice i = [] ∨ ∃ r, job.outcome i = some r

/-- The results received so far, given the state of the calling goroutine. -/
def RecvOk (chan recv : List AggregateResult) : MainPC → Prop
  | .merge f => f = recv.foldl mergeStep .zero
  | .returned v => v = finish (recv.foldl mergeStep .zero) ∧ chan = []
  | _ => recv = []

/-- The calling goroutine is past `wg.Wait()`. -/
def past : MainPC → Prop
  | .close => True
  | .merge _ => True
  | .returned _ => True
  | _ => False

/-- The channel is closed. -/
def isClosed : MainPC → Bool
  | .merge _ => true
  | .returned _ => true
  | _ => false

/-- One more started worker than live ones, between `wg.Add` and `go`. -/
def pending : MainPC → Int
  | .spawn _ => 1
  | _ => 0

/-- Loop variable in range. -/
def MainOk : MainPC → Prop
  | .loop w => w ≤ job.workers
  | .spawn w => w < job.workers
  | _ => True

structure Invariant (s : PState) : Prop where
  ok : s.crash = none ∨ (s.crash = some .workPanic ∧
    ∃ i, i < job.workers ∧ job.slice i ≠ [] ∧ runBody job.body (job.slice i) Acc.init = none)
  mainOk : job.MainOk s.main
  idle : ∀ i, s.worker i = .idle ↔ job.started s.main ≤ i
  wg : s.wg = (((List.range job.workers).flatMap fun i => alive (s.worker i)).length : Int) + pending s.main
  pc : ∀ i, job.WOk i (s.worker i)
  closed : s.closed = isClosed s.main
  gone : past s.main → ∀ i, i < job.workers → s.worker i = .exited
  recv : ∃ recv, (recv ++ s.chan).Perm ((List.range job.workers).flatMap fun i => job.sent i (s.worker i)) ∧
    RecvOk s.chan recv s.main
end Job

/-- Changing one summand. -/
theorem flatMap_range_update {α : Type} (g g' : Nat → List α) (n i : Nat) (hi : i < n)
    (h : ∀ j, j ≠ i → g' j = g j) :
    ((List.range n).flatMap g' ++ g i).Perm ((List.range n).flatMap g ++ g' i) := by
  induction n with
  | zero => omega
  | succ n ih =>
    rw [List.range_succ, List.flatMap_append, List.flatMap_append]
    simp only [List.flatMap_cons, List.flatMap_nil, List.append_nil]
    by_cases hin : i = n
    · subst hin
      have : (List.range i).flatMap g' = (List.range i).flatMap g := by
        rw [List.flatMap_def, List.flatMap_def]
        congr 1
        apply List.map_congr_left
        intro j hj
        exact h j (by have := List.mem_range.1 hj; omega)
      rw [this, List.append_assoc, List.append_assoc]
      exact List.Perm.append_left _ List.perm_append_comm
    · have h1 := ih (by omega)
      rw [h n (fun hc => hin hc.symm)]
      have e1 : ((List.range n).flatMap g' ++ g n ++ g i).Perm ((List.range n).flatMap g' ++ g i ++ g n) := by
        rw [List.append_assoc, List.append_assoc]
        exact List.Perm.append_left _ List.perm_append_comm
      have e2 : ((List.range n).flatMap g ++ g' i ++ g n).Perm ((List.range n).flatMap g ++ g n ++ g' i) := by
        rw [List.append_assoc, List.append_assoc]
        exact List.Perm.append_left _ List.perm_append_comm
      exact e1.trans ((h1.append_right _).trans e2)

theorem setWorker_self (f : Nat → WorkerPC) (i : Nat) (p : WorkerPC) : setWorker f i p i = p := by
  simp [setWorker]

theorem setWorker_ne (f : Nat → WorkerPC) (i j : Nat) (p : WorkerPC) (h : j ≠ i) : setWorker f i p j = f j := by
  simp [setWorker, h]

/-- The WaitGroup count after one worker has moved. -/
theorem alive_update (f : Nat → WorkerPC) (n i : Nat) (p : WorkerPC) (hi : i < n) :
    ((List.range n).flatMap fun j => Job.alive (setWorker f i p j)).length + (Job.alive (f i)).length =
      ((List.range n).flatMap fun j => Job.alive (f j)).length + (Job.alive p).length := by
  have h := (flatMap_range_update (fun j => Job.alive (f j)) (fun j => Job.alive (setWorker f i p j)) n i hi
    (fun j hj => by rw [setWorker_ne _ _ _ _ hj])).length_eq
  simp only [List.length_append, setWorker_self] at h
  exact h

/-- What has been sent after one worker has moved. -/
theorem sent_update (job : Job) (f : Nat → WorkerPC) (n i : Nat) (p : WorkerPC) (hi : i < n) :
    (((List.range n).flatMap fun j => job.sent j (setWorker f i p j)) ++ job.sent i (f i)).Perm
      (((List.range n).flatMap fun j => job.sent j (f j)) ++ job.sent i p) := by
  have h := flatMap_range_update (fun j => job.sent j (f j)) (fun j => job.sent j (setWorker f i p j)) n i hi
    (fun j hj => by rw [setWorker_ne _ _ _ _ hj])
  simp only [setWorker_self] at h
  exact h

/-- No more results than workers. -/
theorem outcome_length (job : Job) (p : WorkerPC) (i : Nat) : (job.sent i p).length ≤ 1 := by
  unfold Job.sent
  split
  · cases job.outcome i <;> simp
  · cases job.outcome i <;> simp
  · simp

theorem sent_length (job : Job) (f : Nat → WorkerPC) (n : Nat) :
    ((List.range n).flatMap fun j => job.sent j (f j)).length ≤ n := by
  induction n with
  | zero => simp
  | succ n ih =>
    rw [List.range_succ, List.flatMap_append, List.length_append]
    simp only [List.flatMap_cons, List.flatMap_nil, List.append_nil]
    have := outcome_length job (f n) n
    omega

/-- A worker that has not sent leaves room. -/
theorem sent_length_lt (job : Job) (f : Nat → WorkerPC) (n i : Nat) (hi : i < n) (h : job.sent i (f i) = []) :
    ((List.range n).flatMap fun j => job.sent j (f j)).length < n := by
  induction n with
  | zero => omega
  | succ n ih =>
    rw [List.range_succ, List.flatMap_append, List.length_append]
    simp only [List.flatMap_cons, List.flatMap_nil, List.append_nil]
    by_cases hin : i = n
    · subst hin
      have := sent_length job f i
      rw [h, List.length_nil]; omega
    · have := ih (by omega)
      have := outcome_length job (f n) n
      omega

theorem init_invariant (job : Job) : job.Invariant PState.init := by
  refine ⟨.inl rfl, Nat.zero_le _, fun i => ?_, ?_, fun i => trivial, rfl, fun h => h.elim, [], ?_, rfl⟩
  · exact ⟨fun _ => Nat.zero_le _, fun _ => rfl⟩
  · show (0 : Int) = ((((List.range job.workers).flatMap fun _ => ([] : List Unit)).length : Nat) : Int) + 0
    rw [List.flatMap_eq_nil_iff.2 (fun _ _ => rfl)]; rfl
  · show (([] : List AggregateResult) ++ []).Perm ((List.range job.workers).flatMap fun _ => [])
    simp

/-- A worker moves without sending. -/
theorem worker_quiet (job : Job) {s : PState} (h : job.Invariant s) (i : Nat) (p : WorkerPC)
    (hi : s.worker i ≠ .idle) (hp : p ≠ .idle) (hne : s.worker i ≠ .exited) (hok : job.WOk i p)
    (hsent : job.sent i p = job.sent i (s.worker i)) (wg : Int)
    (hwg : wg = s.wg - (Job.alive (s.worker i)).length + (Job.alive p).length) :
    job.Invariant { s with worker := setWorker s.worker i p, wg := wg } := by
  have hlt : i < job.workers := by
    have h1 : ¬ job.started s.main ≤ i := fun hc => hi ((h.idle i).2 hc)
    have h2 := h.mainOk
    cases hm : s.main <;> rw [hm] at h1 h2 <;> simp only [Job.started, Job.MainOk] at h1 h2 <;> omega
  have hnp : ¬ Job.past s.main := fun hc => hne (h.gone hc i hlt)
  refine ⟨h.ok, h.mainOk, fun j => ?_, ?_, fun j => ?_, h.closed, fun hc => absurd hc hnp, ?_⟩
  · by_cases hj : j = i
    · subst hj
      simp only [setWorker_self]
      exact ⟨fun hc => absurd hc hp, fun hc => absurd ((h.idle j).2 hc) hi⟩
    · simp only [setWorker_ne _ _ _ _ hj]; exact h.idle j
  · have := alive_update s.worker job.workers i p hlt
    have h2 := h.wg
    simp only
    omega
  · by_cases hj : j = i
    · subst hj; simp only [setWorker_self]; exact hok
    · simp only [setWorker_ne _ _ _ _ hj]; exact h.pc j
  · obtain ⟨recv, hp1, hp2⟩ := h.recv
    refine ⟨recv, ?_, hp2⟩
    have := sent_update job s.worker job.workers i p hlt
    rw [hsent] at this
    exact hp1.trans ((List.perm_append_right_iff _).1 this).symm

theorem stepWorker_invariant (job : Job) {s s' : PState} (h : job.Invariant s) (i : Nat)
    (hs : stepWorker job i s = some s') : job.Invariant s' := by
  have hlt : s.worker i ≠ .idle → i < job.workers := by
    intro hi
    have h1 : ¬ job.started s.main ≤ i := fun hc => hi ((h.idle i).2 hc)
    have h2 := h.mainOk
    cases hm : s.main <;> rw [hm] at h1 h2 <;> simp only [Job.started, Job.MainOk] at h1 h2 <;> omega
  have hpc := h.pc i
  unfold stepWorker at hs
  cases hw : s.worker i with
  | idle => rw [hw] at hs; cases hs
  | exited => rw [hw] at hs; cases hs
  | start =>
    rw [hw] at hs
    simp only at hs
    cases hsl : workerSlice job.indices job.workers i with
    | nil =>
      rw [hsl] at hs; cases hs
      exact worker_quiet job h i .leaving (by rw [hw]; simp) (by simp) (by rw [hw]; simp) (.inl hsl)
        (by rw [hw]; simp [Job.sent, Job.outcome, Job.slice, hsl]) s.wg (by rw [hw]; simp [Job.alive])
    | cons b bs =>
      rw [hsl] at hs; cases hs
      refine worker_quiet job h i (.running (b :: bs) Acc.init) (by rw [hw]; simp) (by simp) (by rw [hw]; simp) ?_
        (by rw [hw]; simp [Job.sent]) s.wg (by rw [hw]; simp [Job.alive])
      exact ⟨[], hsl, by rw [Job.slice, hsl]; simp, rfl⟩
  | running todo acc =>
    rw [hw] at hs hpc
    obtain ⟨done, hd1, hd2, hd3⟩ := hpc
    cases todo with
    | nil =>
      cases hs
      refine worker_quiet job h i (.sending acc.result) (by rw [hw]; simp) (by simp) (by rw [hw]; simp) ?_
        (by rw [hw]; simp [Job.sent]) s.wg (by rw [hw]; simp [Job.alive])
      rw [List.append_nil] at hd1
      show job.outcome i = _
      unfold Job.outcome
      rw [if_neg hd2, hd1, hd3]; rfl
    | cons b bs =>
      simp only at hs
      cases hb : job.body b acc with
      | some acc' =>
        rw [hb] at hs; cases hs
        refine worker_quiet job h i (.running bs acc') (by rw [hw]; simp) (by simp) (by rw [hw]; simp) ?_
          (by rw [hw]; simp [Job.sent]) s.wg (by rw [hw]; simp [Job.alive])
        refine ⟨done ++ [b], by rw [hd1]; simp, hd2, ?_⟩
        rw [runBody_append, hd3]
        simp [runBody, hb]
      | none =>
        rw [hb] at hs; cases hs
        refine ⟨.inr ⟨rfl, i, hlt (by rw [hw]; simp), hd2, ?_⟩, h.mainOk, h.idle, h.wg, h.pc, h.closed, h.gone, h.recv⟩
        rw [hd1, runBody_append, hd3]
        simp [runBody, hb]
  | sending r =>
    rw [hw] at hs hpc
    simp only at hs
    have hi := hlt (by rw [hw]; simp)
    have hnp : ¬ Job.past s.main := fun hc => by have := h.gone hc i hi; rw [hw] at this; cases this
    have hcl : s.closed = false := by
      rw [h.closed]
      cases hm : s.main <;> rw [hm] at hnp <;> simp [Job.past, Job.isClosed] at hnp ⊢
    rw [hcl] at hs
    simp only [Bool.false_eq_true, if_false] at hs
    split at hs
    · cases hs
      refine ⟨h.ok, h.mainOk, fun j => ?_, ?_, fun j => ?_, hcl.symm.trans h.closed, fun hc => absurd hc hnp, ?_⟩
      · by_cases hj : j = i
        · subst hj
          simp only [setWorker_self]
          exact ⟨fun hc => (by cases hc), fun hc => by have := (h.idle j).2 hc; rw [hw] at this; cases this⟩
        · simp only [setWorker_ne _ _ _ _ hj]; exact h.idle j
      · have := alive_update s.worker job.workers i .leaving hi
        have h2 := h.wg
        rw [hw, show (Job.alive (.sending r)).length = 1 from rfl, show (Job.alive .leaving).length = 1 from rfl] at this
        simp only
        omega
      · by_cases hj : j = i
        · subst hj; simp only [setWorker_self]; exact .inr ⟨r, hpc⟩
        · simp only [setWorker_ne _ _ _ _ hj]; exact h.pc j
      · obtain ⟨recv, hp1, hp2⟩ := h.recv
        refine ⟨recv, ?_, ?_⟩
        · have := sent_update job s.worker job.workers i .leaving hi
          rw [hw, show job.sent i (.sending r) = [] from rfl, List.append_nil,
            show job.sent i .leaving = [r] by simp only [Job.sent]; rw [hpc]; rfl] at this
          simp only
          rw [← List.append_assoc]
          exact (hp1.append_right _).trans this.symm
        · cases hm : s.main <;> rw [hm] at hp2 hnp <;> first | exact hp2 | exact absurd trivial hnp
    · cases hs
  | leaving =>
    rw [hw] at hs hpc
    simp only at hs
    have hi := hlt (by rw [hw]; simp)
    split at hs
    · exfalso
      rename_i hneg
      have h2 := h.wg
      have h3 : 1 ≤ ((List.range job.workers).flatMap fun i => Job.alive (s.worker i)).length := by
        have : () ∈ (List.range job.workers).flatMap fun i => Job.alive (s.worker i) :=
          List.mem_flatMap.2 ⟨i, List.mem_range.2 hi, by rw [hw]; simp [Job.alive]⟩
        exact List.length_pos_of_mem this
      have h4 : 0 ≤ Job.pending s.main := by unfold Job.pending; split <;> omega
      omega
    · cases hs
      exact worker_quiet job h i .exited (by rw [hw]; simp) (by simp) (by rw [hw]; simp) hpc
        (by rw [hw]; rfl) _ (by rw [hw]; simp [Job.alive])

theorem stepMain_invariant (job : Job) {s s' : PState} (h : job.Invariant s)
    (hs : stepMain job s = some s') : job.Invariant s' := by
  have hmain := h.mainOk
  have hwg := h.wg
  have hcl := h.closed
  obtain ⟨recv, hp1, hp2⟩ := h.recv
  have hidle := h.idle
  have hgone := h.gone
  unfold stepMain at hs
  cases hm : s.main with
  | loop w =>
    rw [hm] at hs hmain hwg hcl hp2 hidle
    simp only at hs
    split at hs
    · rename_i hw
      cases hs
      refine ⟨h.ok, hw, hidle, ?_, h.pc, hcl, fun hc => hc.elim, recv, hp1, hp2⟩
      simp only [Job.pending] at hwg ⊢
      omega
    · rename_i hw
      have hmain' : w ≤ job.workers := hmain
      have hwn : w = job.workers := by omega
      subst hwn
      cases hs
      exact ⟨h.ok, trivial, hidle, hwg, h.pc, hcl, fun hc => hc.elim, recv, hp1, hp2⟩
  | spawn w =>
    rw [hm] at hs hmain hwg hcl hp2 hidle
    simp only at hs
    cases hs
    have hw : s.worker w = .idle := (hidle w).2 (Nat.le_refl _)
    have hmain' : w < job.workers := hmain
    refine ⟨h.ok, hmain', fun j => ?_, ?_, fun j => ?_, hcl, fun hc => hc.elim, recv, ?_, hp2⟩
    · simp only [Job.started]
      by_cases hj : j = w
      · subst hj
        simp only [setWorker_self]
        exact ⟨fun hc => (by cases hc), fun hc => by omega⟩
      · simp only [setWorker_ne _ _ _ _ hj]
        rw [hidle j]
        simp only [Job.started]; omega
    · have := alive_update s.worker job.workers w .start hmain'
      rw [hw] at this
      simp only [Job.alive, Job.pending, List.length_nil, List.length_cons] at this hwg ⊢
      omega
    · by_cases hj : j = w
      · subst hj; simp only [setWorker_self]; trivial
      · simp only [setWorker_ne _ _ _ _ hj]; exact h.pc j
    · have := sent_update job s.worker job.workers w .start hmain'
      rw [hw, show job.sent w .idle = [] from rfl, show job.sent w .start = [] from rfl, List.append_nil,
        List.append_nil] at this
      exact hp1.trans this.symm
  | wait =>
    rw [hm] at hs hmain hwg hcl hp2 hidle
    simp only at hs
    split at hs
    · rename_i h0
      cases hs
      refine ⟨h.ok, trivial, hidle, hwg, h.pc, hcl, fun _ i hi => ?_, recv, hp1, hp2⟩
      simp only [Job.pending] at hwg
      have h3 : ((List.range job.workers).flatMap fun i => Job.alive (s.worker i)) = [] :=
        List.eq_nil_of_length_eq_zero (by omega)
      have h4 := List.flatMap_eq_nil_iff.1 h3 i (List.mem_range.2 hi)
      have h5 : s.worker i ≠ .idle := fun hc => by
        have := (hidle i).1 hc
        simp only [Job.started] at this; omega
      show s.worker i = .exited
      cases hw : s.worker i <;> rw [hw] at h4 h5 <;> simp [Job.alive] at h4 h5
    · cases hs
  | close =>
    rw [hm] at hs hmain hwg hcl hp2 hidle hgone
    simp only at hs
    rw [hcl] at hs
    simp only [Job.isClosed, Bool.false_eq_true, if_false] at hs
    cases hs
    have hr : recv = [] := hp2
    subst hr
    exact ⟨h.ok, trivial, hidle, hwg, h.pc, rfl, fun _ => hgone trivial, [], hp1, rfl⟩
  | merge f =>
    rw [hm] at hs hmain hwg hcl hp2 hidle hgone
    simp only at hs
    cases hch : s.chan with
    | nil =>
      rw [hch, hcl] at hs
      simp only [Job.isClosed, if_true] at hs
      cases hs
      have hf : f = recv.foldl mergeStep .zero := hp2
      exact ⟨h.ok, trivial, hidle, hwg, h.pc, rfl, fun _ => hgone trivial, recv, hch ▸ hp1, by rw [hf], rfl⟩
    | cons r rest =>
      rw [hch] at hs hp1
      simp only at hs
      cases hs
      have hf : f = recv.foldl mergeStep .zero := hp2
      refine ⟨h.ok, trivial, hidle, hwg, h.pc, hcl, fun _ => hgone trivial, recv ++ [r], ?_, ?_⟩
      · simp only [List.append_assoc, List.singleton_append]; exact hp1
      · show mergeStep f r = _
        rw [hf, List.foldl_append]; rfl
  | returned v => rw [hm] at hs; cases hs

theorem step_invariant (job : Job) {s s' : PState} (h : job.Invariant s) (who : Who)
    (hs : step job who s = some s') : job.Invariant s' ∧ s.crash = none := by
  unfold step at hs
  cases hcr : s.crash with
  | some c => rw [hcr] at hs; cases hs
  | none =>
    rw [hcr] at hs
    cases who with
    | main => exact ⟨stepMain_invariant job h hs, rfl⟩
    | worker i => exact ⟨stepWorker_invariant job h i hs, rfl⟩

theorem exec_invariant (job : Job) (schedule : List Who) {s s' : PState} (h : job.Invariant s)
    (hs : exec job schedule s = some s') : job.Invariant s' := by
  induction schedule generalizing s with
  | nil => cases hs; exact h
  | cons who rest ih =>
    unfold exec at hs
    cases h1 : step job who s with
    | none => rw [h1] at hs; cases hs
    | some s1 => rw [h1] at hs; exact ih (step_invariant job h who h1).1 hs

theorem Reachable.invariant {job : Job} {s : PState} (h : Reachable job s) : job.Invariant s := by
  obtain ⟨schedule, h⟩ := h
  exact exec_invariant job schedule (init_invariant job) h

/-! ### Every execution ends -/

namespace Job
variable (job : Job)

/-- Steps a worker still has to make. -/
def left (i : Nat) : WorkerPC → Nat
  | .idle => (job.slice i).length + 5
  | .start => (job.slice i).length + 4
  | .running todo _ => todo.length + 3
  | .sending _ => 2
  | .leaving => 1
  | .exited => 0

/-- Steps the calling goroutine still has to make. -/
def mainLeft (chan : List AggregateResult) : MainPC → Nat
  | .loop w => 2 * (job.workers - w) + job.workers + 5
  | .spawn w => 2 * (job.workers - w) + job.workers + 4
  | .wait => job.workers + 4
  | .close => job.workers + 3
  | .merge _ => chan.length + 1
  | .returned _ => 0

/-- All steps still to be made; a crash is one more step. -/
def measure (s : PState) : Nat :=
  job.mainLeft s.chan s.main + ((List.range job.workers).flatMap fun i => List.replicate (job.left i (s.worker i)) ()).length +
    (if s.crash = none then 1 else 0)
end Job

theorem left_update (job : Job) (f : Nat → WorkerPC) (n i : Nat) (p : WorkerPC) (hi : i < n) :
    ((List.range n).flatMap fun j => List.replicate (job.left j (setWorker f i p j)) ()).length + job.left i (f i) =
      ((List.range n).flatMap fun j => List.replicate (job.left j (f j)) ()).length + job.left i p := by
  have h := (flatMap_range_update (fun j => List.replicate (job.left j (f j)) ())
    (fun j => List.replicate (job.left j (setWorker f i p j)) ()) n i hi
    (fun j hj => by rw [setWorker_ne _ _ _ _ hj])).length_eq
  simp only [List.length_append, setWorker_self, List.length_replicate] at h
  exact h

theorem chan_length {job : Job} {s : PState} (h : job.Invariant s) : s.chan.length ≤ job.workers := by
  obtain ⟨recv, hp, _⟩ := h.recv
  have h1 := hp.length_eq
  have h2 := sent_length job s.worker job.workers
  rw [List.length_append] at h1
  omega

theorem step_decreases (job : Job) {s s' : PState} (h : job.Invariant s) (who : Who)
    (hs : step job who s = some s') : job.measure s' < job.measure s := by
  have hinv := (step_invariant job h who hs).1
  unfold step at hs
  cases hcr : s.crash with
  | some c => rw [hcr] at hs; cases hs
  | none =>
    rw [hcr] at hs
    have hlt : ∀ i, s.worker i ≠ .idle → i < job.workers := by
      intro i hi
      have h1 : ¬ job.started s.main ≤ i := fun hc => hi ((h.idle i).2 hc)
      have h2 := h.mainOk
      cases hm : s.main <;> rw [hm] at h1 h2 <;> simp only [Job.started, Job.MainOk] at h1 h2 <;> omega
    unfold Job.measure
    rw [hcr]
    cases who with
    | main =>
      simp only at hs
      unfold stepMain at hs
      have hmain := h.mainOk
      cases hm : s.main with
      | loop w =>
        rw [hm] at hs hmain
        simp only at hs
        split at hs
        · cases hs; simp only [Job.mainLeft, hcr]; omega
        · cases hs; simp only [Job.mainLeft, hcr]; omega
      | spawn w =>
        rw [hm] at hs hmain
        simp only at hs
        cases hs
        have hmain' : w < job.workers := hmain
        have hw : s.worker w = .idle := (h.idle w).2 (by rw [hm]; exact Nat.le_refl _)
        have := left_update job s.worker job.workers w .start hmain'
        rw [hw] at this
        simp only [Job.mainLeft, Job.left, hcr] at this ⊢
        omega
      | wait =>
        rw [hm] at hs
        simp only at hs
        split at hs
        · cases hs; simp only [Job.mainLeft, hcr]; omega
        · cases hs
      | close =>
        rw [hm] at hs
        simp only at hs
        have := chan_length h
        split at hs
        · cases hs; simp
        · cases hs; simp only [Job.mainLeft, hcr]; omega
      | merge f =>
        rw [hm] at hs
        simp only at hs
        cases hch : s.chan with
        | nil =>
          rw [hch] at hs
          simp only at hs
          split at hs
          · cases hs; simp only [Job.mainLeft, hcr]; omega
          · cases hs
        | cons r rest =>
          rw [hch] at hs
          cases hs; simp only [Job.mainLeft, hcr, List.length_cons]; omega
      | returned v => rw [hm] at hs; cases hs
    | worker i =>
      simp only at hs
      unfold stepWorker at hs
      have hpast : s.worker i ≠ .idle → s.worker i ≠ .exited → ∀ c, job.mainLeft c s.main = job.mainLeft s.chan s.main := by
        intro h1 h2 c
        have : ¬ Job.past s.main := fun hc => h2 (h.gone hc i (hlt i h1))
        cases hm : s.main <;> rw [hm] at this <;> first | rfl | exact absurd trivial this
      cases hw : s.worker i with
      | idle => rw [hw] at hs; cases hs
      | exited => rw [hw] at hs; cases hs
      | start =>
        rw [hw] at hs
        simp only at hs
        have hi := hlt i (by rw [hw]; simp)
        cases hsl : workerSlice job.indices job.workers i with
        | nil =>
          rw [hsl] at hs; cases hs
          have := left_update job s.worker job.workers i .leaving hi
          rw [hw] at this
          simp only [Job.left, Job.slice, hcr] at this ⊢
          omega
        | cons b bs =>
          rw [hsl] at hs; cases hs
          have := left_update job s.worker job.workers i (.running (b :: bs) Acc.init) hi
          rw [hw] at this
          simp only [Job.left, Job.slice, hcr, hsl] at this ⊢
          omega
      | running todo acc =>
        rw [hw] at hs
        have hi := hlt i (by rw [hw]; simp)
        cases todo with
        | nil =>
          cases hs
          have := left_update job s.worker job.workers i (.sending acc.result) hi
          rw [hw] at this
          simp only [Job.left, hcr] at this ⊢
          omega
        | cons b bs =>
          simp only at hs
          cases hb : job.body b acc with
          | some acc' =>
            rw [hb] at hs; cases hs
            have := left_update job s.worker job.workers i (.running bs acc') hi
            rw [hw] at this
            simp only [Job.left, hcr, List.length_cons] at this ⊢
            omega
          | none => rw [hb] at hs; cases hs; simp
      | sending r =>
        rw [hw] at hs
        simp only at hs
        have hi := hlt i (by rw [hw]; simp)
        have hp := hpast (by rw [hw]; simp) (by rw [hw]; simp)
        split at hs
        · cases hs; simp
        · split at hs
          · cases hs
            have := left_update job s.worker job.workers i .leaving hi
            rw [hw] at this
            simp only [Job.left, hcr, hp (s.chan ++ [r])] at this ⊢
            omega
          · cases hs
      | leaving =>
        rw [hw] at hs
        simp only at hs
        have hi := hlt i (by rw [hw]; simp)
        split at hs
        · cases hs; simp
        · cases hs
          have := left_update job s.worker job.workers i .exited hi
          rw [hw] at this
          simp only [Job.left, hcr] at this ⊢
          omega

theorem exec_length (job : Job) (schedule : List Who) {s s' : PState} (h : job.Invariant s)
    (hs : exec job schedule s = some s') : schedule.length + job.measure s' ≤ job.measure s := by
  induction schedule generalizing s with
  | nil => cases hs; simp
  | cons who rest ih =>
    unfold exec at hs
    cases h1 : step job who s with
    | none => rw [h1] at hs; cases hs
    | some s1 =>
      rw [h1] at hs
      have := ih (step_invariant job h who h1).1 hs
      have := step_decreases job h who h1
      rw [List.length_cons]; omega

theorem measure_init (job : Job) (hn : 0 < job.workers) :
    job.measure PState.init = 8 * job.workers + 6 + job.indices.length := by
  have h1 : ∀ n, ((List.range n).flatMap fun i => List.replicate (job.left i .idle) ()).length =
      ((List.range n).map fun w => workerSlice job.indices job.workers w).flatten.length + 5 * n := by
    intro n
    induction n with
    | zero => simp
    | succ n ih =>
      rw [List.range_succ, List.flatMap_append, List.length_append, ih, List.map_append, List.flatten_append,
        List.length_append]
      simp only [List.flatMap_cons, List.flatMap_nil, List.append_nil, List.length_replicate, Job.left, Job.slice,
        List.map_cons, List.map_nil, List.flatten_cons, List.flatten_nil]
      omega
  unfold Job.measure
  show 2 * (job.workers - 0) + job.workers + 5 + ((List.range job.workers).flatMap fun i => List.replicate (job.left i .idle) ()).length + 1 = _
  rw [h1, slices_flatten _ _ hn]
  omega

/-! ### Some goroutine can always move -/

theorem progress (job : Job) {s : PState} (h : job.Invariant s) (hcr : s.crash = none)
    (hret : ∀ v, s.main ≠ .returned v) : ∃ who s', step job who s = some s' := by
  have hw : ∀ i, i < job.workers → s.worker i ≠ .idle → s.worker i ≠ .exited → ∃ who s', step job who s = some s' := by
    intro i hi h1 h2
    refine ⟨.worker i, ?_⟩
    unfold step
    rw [hcr]
    simp only
    unfold stepWorker
    cases hws : s.worker i with
    | idle => exact absurd hws h1
    | exited => exact absurd hws h2
    | start => simp only; split <;> exact ⟨_, rfl⟩
    | running todo acc =>
      cases todo with
      | nil => exact ⟨_, rfl⟩
      | cons b bs => simp only; split <;> exact ⟨_, rfl⟩
    | sending r =>
      simp only
      obtain ⟨recv, hp, _⟩ := h.recv
      have h3 := sent_length_lt job s.worker job.workers i hi (by rw [hws]; rfl)
      have h4 := hp.length_eq
      rw [List.length_append] at h4
      split
      · exact ⟨_, rfl⟩
      · rw [if_pos (by omega)]; exact ⟨_, rfl⟩
    | leaving => simp only; split <;> exact ⟨_, rfl⟩
  have hmainStep : (∃ s', stepMain job s = some s') → ∃ who s', step job who s = some s' := by
    rintro ⟨s', h'⟩
    refine ⟨.main, s', ?_⟩
    unfold step
    rw [hcr]; exact h'
  cases hm : s.main with
  | loop w => apply hmainStep; unfold stepMain; rw [hm]; simp only; split <;> exact ⟨_, rfl⟩
  | spawn w => apply hmainStep; unfold stepMain; rw [hm]; exact ⟨_, rfl⟩
  | wait =>
    by_cases h0 : s.wg = 0
    · apply hmainStep; unfold stepMain; rw [hm]; simp only; rw [if_pos h0]; exact ⟨_, rfl⟩
    · have hwg := h.wg
      rw [hm] at hwg
      simp only [Job.pending] at hwg
      have h3 : ((List.range job.workers).flatMap fun i => Job.alive (s.worker i)) ≠ [] := by
        intro hc; rw [hc] at hwg; simp at hwg; omega
      obtain ⟨u, hu⟩ := List.exists_mem_of_ne_nil _ h3
      obtain ⟨i, hi, hu⟩ := List.mem_flatMap.1 hu
      refine hw i (List.mem_range.1 hi) ?_ ?_
      · intro hc; rw [hc] at hu; cases hu
      · intro hc; rw [hc] at hu; cases hu
  | close => apply hmainStep; unfold stepMain; rw [hm]; simp only; split <;> exact ⟨_, rfl⟩
  | merge f =>
    apply hmainStep; unfold stepMain; rw [hm]; simp only
    have hcl := h.closed
    rw [hm] at hcl
    cases s.chan with
    | nil => simp only; rw [hcl]; exact ⟨_, rfl⟩
    | cons r rest => exact ⟨_, rfl⟩
  | returned v => exact absurd hm (hret v)

end VibeCol
