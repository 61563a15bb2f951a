/-
The goroutines, channel and WaitGroup of `aggregateParallelWithFooter` and
`aggregateParallelWithReading` (pkg/col/reader_aggregate.go:326-427 and 430-543) as a state
machine. One step is one operation of one goroutine; the scheduler picks the goroutine.

Go's primitives: `wg.Add(1)`/`wg.Done()` change a counter, and a negative counter panics;
`wg.Wait()` blocks until the counter is zero; a send on a channel with capacity `numWorkers`
blocks while the buffer is full and panics if the channel is closed; a receive blocks while the
buffer is empty and the channel open. A panic in any goroutine ends the process.
-/
import Verif.Model.Aggregate
namespace VibeCol

/-- What one parallel aggregation works on: `numWorkers`, `blockIndices` and the body of the
worker's loop (`none`: it panics). -/
structure Job where
  workers : Nat
  indices : List UInt64
  body : UInt64 → Acc → Option Acc

/-- Where a worker goroutine is. -/
inductive WorkerPC where
  /-- not yet started by the `go` statement -/
  | idle
  /-- started; next it computes its range (reader_aggregate.go:340-350, 444-454) -/
  | start
  /-- in the loop, with the block indices still to do (358-376, 462-492) -/
  | running (todo : List UInt64) (acc : Acc)
  /-- about to send its result (385-391, 501-507) -/
  | sending (result : AggregateResult)
  /-- returning; about to run the deferred `wg.Done()` (338, 442) -/
  | leaving
  /-- gone -/
  | exited
deriving DecidableEq

/-- Where the calling goroutine is. -/
inductive MainPC where
  /-- top of the start loop with `w` (336, 440): next `wg.Add(1)`, or past the loop -/
  | loop (w : Nat)
  /-- about to execute `go func(w)` (337, 441) -/
  | spawn (w : Nat)
  /-- at `wg.Wait()` (396, 512) -/
  | wait
  /-- at `close(resultChan)` (397, 513) -/
  | close
  /-- in `for result := range resultChan` (404-417, 520-533), with `finalResult` so far -/
  | merge (final : AggregateResult)
  /-- returned -/
  | returned (result : AggregateResult)
deriving DecidableEq

/-- Ways in which the process can die. -/
inductive Crash where
  | workPanic
  | sendOnClosed
  | negativeWaitGroup
  | closeOfClosed
deriving DecidableEq

/-- The state of all goroutines and of the shared channel and WaitGroup. -/
structure PState where
  main : MainPC
  worker : Nat → WorkerPC
  wg : Int
  chan : List AggregateResult
  closed : Bool
  crash : Option Crash

/-- Before the start loop (328-336, 432-440). -/
def PState.init : PState where
  main := .loop 0
  worker _ := .idle
  wg := 0
  chan := []
  closed := false
  crash := none

/-- Change the state of worker `i`. -/
def setWorker (f : Nat → WorkerPC) (i : Nat) (p : WorkerPC) : Nat → WorkerPC :=
  fun j => if j = i then p else f j

/-- Which goroutine moves. -/
inductive Who where
  | main
  | worker (i : Nat)

/-- Computing the average and the result of the merge (419-426, 535-542). -/
def finish (final : AggregateResult) : AggregateResult :=
  { final with avg := if final.count > 0 then .quot final.sum final.count else .zero }

/-- One step of the calling goroutine; `none` if it is blocked or has returned. -/
def stepMain (job : Job) (s : PState) : Option PState :=
  match s.main with
  | .loop w =>
    if w < job.workers then some { s with main := .spawn w, wg := s.wg + 1 }
    else some { s with main := .wait }
  | .spawn w => some { s with main := .loop (w + 1), worker := setWorker s.worker w .start }
  | .wait => if s.wg = 0 then some { s with main := .close } else none
  | .close =>
    if s.closed then some { s with crash := some .closeOfClosed }
    else some { s with main := .merge .zero, closed := true }
  | .merge final =>
    match s.chan with
    | r :: rest => some { s with main := .merge (mergeStep final r), chan := rest }
    | [] => if s.closed then some { s with main := .returned (finish final) } else none
  | .returned _ => none

/-- One step of worker `i`; `none` if it is blocked, not started or gone. -/
def stepWorker (job : Job) (i : Nat) (s : PState) : Option PState :=
  match s.worker i with
  | .idle => none
  | .start =>
    match workerSlice job.indices job.workers i with
    | [] => some { s with worker := setWorker s.worker i .leaving }
    | b :: bs => some { s with worker := setWorker s.worker i (.running (b :: bs) Acc.init) }
  | .running [] acc => some { s with worker := setWorker s.worker i (.sending acc.result) }
  | .running (b :: bs) acc =>
    match job.body b acc with
    | some acc' => some { s with worker := setWorker s.worker i (.running bs acc') }
    | none => some { s with crash := some .workPanic }
  | .sending r =>
    if s.closed then some { s with crash := some .sendOnClosed }
    else if s.chan.length < job.workers then
      some { s with worker := setWorker s.worker i .leaving, chan := s.chan ++ [r] }
    else none
  | .leaving =>
    if s.wg - 1 < 0 then some { s with crash := some .negativeWaitGroup }
    else some { s with worker := setWorker s.worker i .exited, wg := s.wg - 1 }
  | .exited => none

/-- One step of the process: nothing moves after a crash. -/
def step (job : Job) (who : Who) (s : PState) : Option PState :=
  match s.crash with
  | some _ => none
  | none =>
    match who with
    | .main => stepMain job s
    | .worker i => stepWorker job i s

/-- A sequence of steps, one after the other, chosen by the scheduler. -/
def exec (job : Job) : List Who → PState → Option PState
  | [], s => some s
  | who :: rest, s =>
    match step job who s with
    | some s' => exec job rest s'
    | none => none

/-- The states some scheduler can bring about. -/
def Reachable (job : Job) (s : PState) : Prop := ∃ schedule, exec job schedule PState.init = some s

section
variable {B : Type} [Bitmap B]

/-- The loop body with the index (reader_aggregate.go:359-375): `r.blockIndex[blockIdx]`
panics when out of range. -/
def footerBody (r : Reader B) (i : UInt64) (a : Acc) : Option Acc :=
  (r.blockIndex[i.toNat]?).map a.addEntry

/-- The loop body with reading (reader_aggregate.go:463-491): a block with an error is
skipped. -/
def readingBody (read : UInt64 → Res (List UInt64 × List Int64)) (i : UInt64) (a : Acc) : Option Acc :=
  match read i with
  | .ok (_, values) => some (a.addValues values)
  | .err _ => some a
  | .panic => none

/-- The number of workers (reader_aggregate.go:272-282). -/
def numWorkersOf (sched : Sched) (r : Reader B) (o : AggregateOptions B) : Int :=
  let numWorkers := if o.parallel < 0 then sched.gomaxprocs else o.parallel
  let blockCount := r.header.blockCount.toInt64.toInt
  if numWorkers > blockCount then blockCount else numWorkers

/-- The block numbers to process (reader_aggregate.go:292-302). -/
def jobIndices (r : Reader B) (o : AggregateOptions B) : Res (List UInt64) :=
  if o.filter.isSome ∨ o.denyFilter.isSome then filteredBlockIterator r o.filter o.denyFilter
  else firstBlocks r.header.blockCount.toInt64.toInt.toNat

/-- The parallel job that `AggregateWithOptions` starts, if it starts one
(reader_aggregate.go:46-48 and 270-323): `none` means that the caller's
goroutine does everything itself. -/
def jobOf (sched : Sched) (r : Reader B) (o : AggregateOptions B) : Option Job :=
  if o.parallel = 0 then none
  else if numWorkersOf sched r o ≤ 1 ∨ r.header.blockCount.toInt64.toInt ≤ 1 then none
  else match jobIndices r o with
    | .ok indices =>
      if indices.length = 0 then none
      else some
        { workers := (numWorkersOf sched r o).toNat
          indices := indices
          body :=
            if r.blockIndex.length > 0 ∧ o.skipPreCalculated = false ∧ o.filter.isNone ∧ o.denyFilter.isNone then
              footerBody r
            else readingBody fun i =>
              if o.filter.isSome ∨ o.denyFilter.isSome then readBlockFiltered r i.toInt64 o.filter o.denyFilter
              else getPairs r i }
    | _ => none

end
end VibeCol
