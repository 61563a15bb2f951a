/-
pkg/col/reader_aggregate.go. Results are `Res` values because reading a block may panic on
a corrupt index. `Count` is a `Nat` instead of an `int`; `Avg` is kept symbolic.
-/
import Verif.Model.Reader
namespace VibeCol

/-- `float64(sum) / float64(count)`, unevaluated; `zero` is the literal 0. -/
inductive Avg where
  | zero
  | quot (sum : Int64) (count : Nat)
deriving DecidableEq, Repr

/-- `AggregateResult` (format.go:91-97). -/
structure AggregateResult where
  count : Nat
  min : Int64
  max : Int64
  sum : Int64
  avg : Avg
deriving DecidableEq, Repr

/-- The zero value of `AggregateResult`, also the explicit literal at
reader_aggregate.go:219-225 and 306-312. -/
def AggregateResult.zero : AggregateResult := { count := 0, min := 0, max := 0, sum := 0, avg := .zero }

/-- `AggregateOptions` (reader_aggregate.go:11-27); `nil` bitmaps are `none`. -/
structure AggregateOptions (B : Type) where
  skipPreCalculated : Bool := false
  filter : Option B := none
  denyFilter : Option B := none
  parallel : Int := 0

/-- The four local variables `count, min, max, sum` of the aggregation loops. -/
structure Acc where
  count : Nat
  min : Int64
  max : Int64
  sum : Int64
deriving DecidableEq, Repr

/-- Initial values (reader_aggregate.go:58-61, 96-99, 229-232, 353-356, 457-460). -/
def Acc.init : Acc :=
  { count := 0, min := 9223372036854775807, max := -9223372036854775808, sum := 0 }

/-- Loop body over values (reader_aggregate.go:109-117 and 243-251, 483-491). -/
def Acc.addValue (a : Acc) (v : Int64) : Acc :=
  { a with
    min := if v < a.min then v else a.min
    max := if v > a.max then v else a.max
    sum := a.sum + v }

/-- One block's values (reader_aggregate.go:108-117). -/
def Acc.addValues (a : Acc) (values : List Int64) : Acc :=
  values.foldl Acc.addValue { a with count := a.count + values.length }

/-- One footer entry (reader_aggregate.go:63-78, 362-375). -/
def Acc.addEntry (a : Acc) (entry : FooterEntry) : Acc :=
  let minValue := uint64ToInt64 entry.minValue
  let maxValue := uint64ToInt64 entry.maxValue
  let blockSum := uint64ToInt64 entry.sum
  { count := a.count + entry.count.toNat
    min := if minValue < a.min then minValue else a.min
    max := if maxValue > a.max then maxValue else a.max
    sum := a.sum + blockSum }

/-- Building the result with its average (reader_aggregate.go:80-92 and repetitions). -/
def Acc.result (a : Acc) : AggregateResult :=
  { count := a.count, min := a.min, max := a.max, sum := a.sum
    avg := if a.count > 0 then .quot a.sum a.count else .zero }

section A
variable {B : Type} [Bitmap B]

/-- Whether a pair passes both filters (reader_aggregate.go:196-203). -/
def passes (filter denyFilter : Option B) (id : UInt64) : Bool :=
  let isAllowed := match filter with
    | none => true
    | some f => Bitmap.contains f id
  let isDenied := match denyFilter with
    | none => false
    | some d => Bitmap.contains d id
  isAllowed && !isDenied

/-- The filtering loop (reader_aggregate.go:195-207): `allValues[i]` panics if there are
fewer values than IDs. -/
def filterPairs (filter denyFilter : Option B) :
    List UInt64 → List Int64 → Res (List UInt64 × List Int64)
  | [], _ => .ok ([], [])
  | id :: ids, vals =>
    if passes filter denyFilter id then
      match vals with
      | [] => .panic
      | v :: vs => do
        let (is, ws) ← filterPairs filter denyFilter ids vs
        .ok (id :: is, v :: ws)
    else filterPairs filter denyFilter ids vals.tail

/-- `readBlockFiltered` (reader_aggregate.go:179-210). -/
def readBlockFiltered (r : Reader B) (blockIndex : Int64) (filter denyFilter : Option B) :
    Res (List UInt64 × List Int64) := do
  let (allIDs, allValues) ← readBlock r blockIndex
  if filter.isNone ∧ denyFilter.isNone then .ok (allIDs, allValues)
  else filterPairs filter denyFilter allIDs allValues

/-- The most bytes that `make` can be asked for: beyond this it panics (`runtime.maxAlloc` on linux/amd64). All other
`make` calls of the reader have sizes that come from 32-bit numbers and stay below it. -/
def maxAlloc : Nat := 2 ^ 48

/-- `make([]uint64, n)`, filled with 0, 1, 2, … (reader_aggregate.go:139-142, 151-154, 298-301). -/
def firstBlocks (n : Nat) : Res (List UInt64) :=
  if maxAlloc < 8 * n then .panic else .ok ((List.range n).map UInt64.ofNat)

/-- `FilteredBlockIterator` (reader_aggregate.go:136-176). -/
def filteredBlockIterator (r : Reader B) (filter _denyFilter : Option B) : Res (List UInt64) :=
  match filter with
  | none => firstBlocks r.blockCount.toNat
  | some f =>
    let filterMin := Bitmap.minimum f
    let filterMax := Bitmap.maximum f
    .ok ((r.blockIndex.zipIdx).filterMap fun (entry, i) =>
      if entry.maxID < filterMin ∨ entry.minID > filterMax then none else some (UInt64.ofNat i))

/-- A loop over blocks that adds each block's values and skips blocks with errors
(reader_aggregate.go:101-118, 234-252, 462-492). -/
def sumBlocks (read : UInt64 → Res (List UInt64 × List Int64)) : List UInt64 → Acc → Res Acc
  | [], a => .ok a
  | i :: is, a =>
    match read i with
    | .ok (_, values) => sumBlocks read is (a.addValues values)
    | .err _ => sumBlocks read is a
    | .panic => .panic

/-- `aggregateWithFilter` (reader_aggregate.go:213-267). -/
def aggregateWithFilter (r : Reader B) (opts : AggregateOptions B) : Res AggregateResult :=
  filteredBlockIterator r opts.filter opts.denyFilter >>= fun matchingBlocks =>
  if matchingBlocks.length = 0 then .ok .zero
  else do
    let a ← sumBlocks
      (fun i => readBlockFiltered r i.toInt64 opts.filter opts.denyFilter) matchingBlocks Acc.init
    .ok a.result

/-- `AggregateWithOptions` with `Parallel = 0` (reader_aggregate.go:51-133). -/
def aggregateSequential (r : Reader B) (opts : AggregateOptions B) : Res AggregateResult :=
  if opts.filter.isSome ∨ opts.denyFilter.isSome then aggregateWithFilter r opts
  else if r.blockIndex.length > 0 ∧ opts.skipPreCalculated = false then
    .ok (r.blockIndex.foldl Acc.addEntry Acc.init).result
  else do
    let a ← sumBlocks (getPairs r) ((List.range r.header.blockCount.toNat).map UInt64.ofNat) Acc.init
    .ok a.result

/-- The slice of block indices worker `w` processes (reader_aggregate.go:331-350, 435-454). -/
def workerSlice (blockIndices : List UInt64) (numWorkers w : Nat) : List UInt64 :=
  let blocksPerWorker := (blockIndices.length + numWorkers - 1) / numWorkers
  let startIdx := w * blocksPerWorker
  let endIdx := min ((w + 1) * blocksPerWorker) blockIndices.length
  if startIdx ≥ endIdx then [] else (blockIndices.drop startIdx).take (endIdx - startIdx)

/-- The footer loop of one worker (reader_aggregate.go:358-376): `r.blockIndex[blockIdx]`
panics when out of range. -/
def sumEntries (r : Reader B) : List UInt64 → Acc → Res Acc
  | [], a => .ok a
  | i :: is, a =>
    match r.blockIndex[i.toNat]? with
    | some entry => sumEntries r is (a.addEntry entry)
    | none => .panic

/-- What worker goroutines send: nothing for an empty slice (reader_aggregate.go:347-350),
else their partial result. `work` is the loop of one worker. -/
def workerResults (work : List UInt64 → Acc → Res Acc) (blockIndices : List UInt64)
    (numWorkers : Nat) : List Nat → Res (List AggregateResult)
  | [] => .ok []
  | w :: ws =>
    match workerSlice blockIndices numWorkers w with
    | [] => workerResults work blockIndices numWorkers ws
    | i :: is => do
      let a ← work (i :: is) Acc.init
      let rest ← workerResults work blockIndices numWorkers ws
      .ok (a.result :: rest)

/-- One iteration of the merge loop (reader_aggregate.go:404-417, 520-533). The state is
`finalResult` with `totalSum` kept in its `sum` field; `totalCount` always equals
`finalResult.Count`. -/
def mergeStep (final result : AggregateResult) : AggregateResult :=
  { final with
    min := if result.min < final.min ∨ final.count = 0 then result.min else final.min
    max := if result.max > final.max ∨ final.count = 0 then result.max else final.max
    count := final.count + result.count
    sum := final.sum + result.sum }

/-- The merge of the results in channel order (reader_aggregate.go:399-426, 515-542). -/
def mergeResults (results : List AggregateResult) : AggregateResult :=
  let final := results.foldl mergeStep AggregateResult.zero
  { final with avg := if final.count > 0 then .quot final.sum final.count else .zero }

/-- What the scheduler and runtime decide for one parallel aggregation: `GOMAXPROCS`, and the
order in which the results are received from the channel. -/
structure Sched where
  gomaxprocs : Int
  order : List AggregateResult → List AggregateResult

/-- Any arrival order is possible, but nothing is lost or duplicated. That this is what the
channel and WaitGroup provide is proved in `Verif/Props/Parallel.lean`. -/
def Sched.Fair (s : Sched) : Prop := ∀ l, (s.order l).Perm l

/-- Both `aggregateParallelWith...` functions (reader_aggregate.go:326-427, 430-543), which
differ only in the worker loop. Left out: the channel of capacity `numWorkers` makes `make` panic beyond 2^42 workers. -/
def aggregateParallelWith (sched : Sched) (work : List UInt64 → Acc → Res Acc)
    (blockIndices : List UInt64) (numWorkers : Nat) : Res AggregateResult := do
  let results ← workerResults work blockIndices numWorkers (List.range numWorkers)
  .ok (mergeResults (sched.order results))

/-- `aggregateParallel` (reader_aggregate.go:270-323). -/
def aggregateParallel (sched : Sched) (r : Reader B) (opts : AggregateOptions B) :
    Res AggregateResult :=
  let numWorkers := if opts.parallel < 0 then sched.gomaxprocs else opts.parallel
  let blockCount := r.header.blockCount.toInt64.toInt
  let numWorkers := if numWorkers > blockCount then blockCount else numWorkers
  if numWorkers ≤ 1 ∨ blockCount ≤ 1 then aggregateSequential r { opts with parallel := 0 }
  else
    (if opts.filter.isSome ∨ opts.denyFilter.isSome then
        filteredBlockIterator r opts.filter opts.denyFilter
      else firstBlocks blockCount.toNat) >>= fun blockIndices =>
    if blockIndices.length = 0 then .ok .zero
    else if r.blockIndex.length > 0 ∧ opts.skipPreCalculated = false ∧ opts.filter.isNone ∧
        opts.denyFilter.isNone then
      aggregateParallelWith sched (sumEntries r) blockIndices numWorkers.toNat
    else
      let read : UInt64 → Res (List UInt64 × List Int64) := fun i =>
        if opts.filter.isSome ∨ opts.denyFilter.isSome then
          readBlockFiltered r i.toInt64 opts.filter opts.denyFilter
        else getPairs r i
      aggregateParallelWith sched (sumBlocks read) blockIndices numWorkers.toNat

/-- `AggregateWithOptions` (reader_aggregate.go:45-133). -/
def aggregateWithOptions (sched : Sched) (r : Reader B) (opts : AggregateOptions B) :
    Res AggregateResult :=
  if opts.parallel ≠ 0 then aggregateParallel sched r opts
  else aggregateSequential r opts

/-- `Aggregate` (reader_aggregate.go:40-42) with `DefaultAggregateOptions` (30-37). -/
def aggregate (sched : Sched) (r : Reader B) : Res AggregateResult :=
  aggregateWithOptions sched r {}

end A
end VibeCol
