/-
Any number of goroutines using the same readers (pkg/col/reader.go, reader_io.go, reader_block.go, reader_aggregate.go,
pkg/multicol/aggregate.go; the use in pkg/col/concurrent_test.go). The reader has no lock. What the goroutines share is, for
each reader, its file and the fields `globalIDs` and `cacheGlobalIDs`; the other fields of a `Reader` are only written by
`NewReader`. A call is here a program whose accesses to what is shared are explicit, and the scheduler interleaves the accesses
of all goroutines. The workers of a parallel aggregation are goroutines too: which of them goes on is the scheduler's choice at
every block.

Accesses to the two fields are taken to be atomic and sequentially consistent, which is more than Go promises for
unsynchronised accesses. A panic ends the call only; in Go it ends the process, so that there are fewer executions, not more.
`Verif/Model/ReaderIO.lean` and `Verif/Model/MultiIO.lean` have the same calls made one at a time.
-/
import Verif.Model.MultiIO
namespace VibeCol.Goroutines

/-- A program: what it does with what is shared, one access after the other, until it returns. `k` is the number of a reader. -/
inductive Prog (B : Type) (α : Type) where
  /-- returns -/
  | ret (a : α)
  /-- `r.file.ReadAt(buf, offset)` with a buffer of `size` bytes (reader_io.go:13) -/
  | readAt (k : Nat) (offset size : Int64) (next : Res Bytes → Prog B α)
  /-- the field `r.globalIDs` is read -/
  | loadIDs (k : Nat) (next : Option B → Prog B α)
  /-- the field `r.globalIDs` is written -/
  | storeIDs (k : Nat) (v : Option B) (next : Prog B α)
  /-- the field `r.cacheGlobalIDs` is read -/
  | loadFlag (k : Nat) (next : Bool → Prog B α)
  /-- the field `r.cacheGlobalIDs` is written -/
  | storeFlag (k : Nat) (v : Bool) (next : Prog B α)
  /-- `r.file.Close()` -/
  | closeFile (k : Nat) (next : Except Err Unit → Prog B α)
  /-- the scheduler decides which worker goes on -/
  | choose (next : Nat → Prog B α)

/-- One program after another. -/
def Prog.andThen {B α β : Type} : Prog B α → (α → Prog B β) → Prog B β
  | .ret a, f => f a
  | .readAt k o s next, f => .readAt k o s fun x => (next x).andThen f
  | .loadIDs k next, f => .loadIDs k fun x => (next x).andThen f
  | .storeIDs k v next, f => .storeIDs k v (next.andThen f)
  | .loadFlag k next, f => .loadFlag k fun x => (next x).andThen f
  | .storeFlag k v next, f => .storeFlag k v (next.andThen f)
  | .closeFile k next, f => .closeFile k fun x => (next x).andThen f
  | .choose next, f => .choose fun x => (next x).andThen f

/-- What comes after an error or a panic is not run. -/
def Prog.onOk {B α β : Type} (p : Prog B (Res α)) (f : α → Prog B (Res β)) : Prog B (Res β) :=
  p.andThen fun
    | .ok a => f a
    | .err e => .ret (.err e)
    | .panic => .ret .panic

section G
variable {B : Type} [Bitmap B]

/-- `readBytesAt` (reader_io.go:10-20): `make` panics before the read if the length is negative. -/
def readBytesAtG (k : Nat) (offset size : Int64) : Prog B (Res Bytes) :=
  if size < 0 then .ret .panic else .readAt k offset size .ret

/-- The part of `readBlock` after the read (reader_block.go:31-69). -/
def decodeBlock (encodingType : UInt32) (count : Nat) (blockData : Bytes) : Res (List UInt64 × List Int64) := do
  let _ ← goSlice blockData 0 4
  let _ ← goSlice blockData 4 8
  let _ ← goSlice blockData 8 12
  let _ ← goSlice blockData 12 16
  let idSectionOffset := rd32 blockData 0
  let idSectionSize := rd32 blockData 4
  let valueSectionOffset := rd32 blockData 8
  let valueSectionSize := rd32 blockData 12
  if idSectionSize = 0 then .err .zeroSection else
  if valueSectionSize = 0 then .err .zeroSection else do
  let idStart := 16 + idSectionOffset.toNat
  let idEnd := idStart + idSectionSize.toNat
  let valueStart := 16 + valueSectionOffset.toNat
  let valueEnd := valueStart + valueSectionSize.toNat
  if idEnd > blockData.length ∨ valueEnd > blockData.length then .err .sectionBounds else do
  let idBytes ← goSlice blockData idStart idEnd
  let valueBytes ← goSlice blockData valueStart valueEnd
  decodeBlockData idBytes valueBytes count encodingType

/-- `readBlock` (reader_block.go:9-69). Of `r` only the fields written by `NewReader` are used, not its bytes. -/
def readBlockG (k : Nat) (r : Reader B) (blockIndex : Int64) : Prog B (Res (List UInt64 × List Int64)) :=
  if blockIndex < 0 then .ret (.err .badBlockIndex) else
  match r.blockIndex[blockIndex.toInt.toNat]? with
  | none => .ret (.err .badBlockIndex)
  | some entry =>
    (readBytesAtG k (entry.blockOffset.toInt64 + 64) (Int64.ofNat entry.blockSize.toNat - 64)).onOk fun blockData =>
    .ret (decodeBlock r.header.encodingType entry.count.toNat blockData)

/-- `GetPairs` (reader.go:59-61). -/
def getPairsG (k : Nat) (r : Reader B) (blockIdx : UInt64) : Prog B (Res (List UInt64 × List Int64)) :=
  readBlockG k r blockIdx.toInt64

/-- The end of `GetGlobalIDBitmap` (reader.go:150-154, 173-178). -/
def rememberG (k : Nat) (bitmap : B) : Prog B (Res (Option B)) :=
  .loadFlag k fun cacheGlobalIDs =>
  if cacheGlobalIDs then .storeIDs k (some bitmap) (.ret (.ok (some bitmap))) else .ret (.ok (some bitmap))

/-- `GetGlobalIDBitmap` from line 147 on (reader.go:147-179). -/
def loadBitmapG (k : Nat) (r : Reader B) : Prog B (Res (Option B)) :=
  if r.header.bitmapOffset = 0 ∨ r.header.bitmapSize = 0 then rememberG k Bitmap.empty
  else
    (readBytesAtG k r.header.bitmapOffset.toInt64 4).onOk fun sizeBuf =>
    (readBytesAtG k (r.header.bitmapOffset.toInt64 + 4) (Int64.ofNat (rd32 sizeBuf 0).toNat)).onOk fun bitmapBuf =>
    rememberG k (Bitmap.fromBuffer bitmapBuf)

/-- `GetGlobalIDBitmap` (reader.go:141-179): `r.globalIDs` is read twice if it is to be returned. The result is a pointer,
`none` for nil. -/
def getGlobalIDBitmapG (k : Nat) (r : Reader B) : Prog B (Res (Option B)) :=
  .loadIDs k fun
    | none => loadBitmapG k r
    | some _ => .loadFlag k fun cacheGlobalIDs =>
      if cacheGlobalIDs then .loadIDs k fun globalIDs => .ret (.ok globalIDs) else loadBitmapG k r

/-- `readBlockFiltered` (reader_aggregate.go:179-210). -/
def readBlockFilteredG (k : Nat) (r : Reader B) (blockIndex : Int64) (filter denyFilter : Option B) :
    Prog B (Res (List UInt64 × List Int64)) :=
  (readBlockG k r blockIndex).onOk fun (allIDs, allValues) =>
  if filter.isNone ∧ denyFilter.isNone then .ret (.ok (allIDs, allValues))
  else .ret (filterPairs filter denyFilter allIDs allValues)

/-- One block in a loop that skips blocks with errors (reader_aggregate.go:101-118, 234-252, 462-492). -/
def addBlockG (read : UInt64 → Prog B (Res (List UInt64 × List Int64))) (i : UInt64) (a : Acc) : Prog B (Res Acc) :=
  (read i).andThen fun
    | .ok (_, values) => .ret (.ok (a.addValues values))
    | .err _ => .ret (.ok a)
    | .panic => .ret .panic

/-- One block in the loop over the index (reader_aggregate.go:358-376). -/
def addEntryG (r : Reader B) (i : UInt64) (a : Acc) : Prog B (Res Acc) :=
  match r.blockIndex[i.toNat]? with
  | some entry => .ret (.ok (a.addEntry entry))
  | none => .ret .panic

/-- A loop over blocks in one goroutine. -/
def sumBlocksG (add : UInt64 → Acc → Prog B (Res Acc)) : List UInt64 → Acc → Prog B (Res Acc)
  | [], a => .ret (.ok a)
  | i :: is, a => (add i a).onOk fun a' => sumBlocksG add is a'

/-- `AggregateWithOptions` with `Parallel = 0`, and `aggregateWithFilter` (reader_aggregate.go:51-133, 213-267). -/
def aggregateSequentialG (k : Nat) (r : Reader B) (opts : AggregateOptions B) : Prog B (Res AggregateResult) :=
  if opts.filter.isSome ∨ opts.denyFilter.isSome then
    (Prog.ret (filteredBlockIterator r opts.filter opts.denyFilter)).onOk fun matchingBlocks =>
    if matchingBlocks.length = 0 then .ret (.ok .zero)
    else
      (sumBlocksG (addBlockG fun i => readBlockFilteredG k r i.toInt64 opts.filter opts.denyFilter) matchingBlocks Acc.init).onOk
        fun a => .ret (.ok a.result)
  else if r.blockIndex.length > 0 ∧ opts.skipPreCalculated = false then
    .ret (.ok (r.blockIndex.foldl Acc.addEntry Acc.init).result)
  else
    (sumBlocksG (addBlockG (getPairsG k r)) ((List.range r.header.blockCount.toNat).map UInt64.ofNat) Acc.init).onOk
      fun a => .ret (.ok a.result)

/-- The workers of a parallel aggregation (reader_aggregate.go:331-396, 435-512). `live` are the workers that have not sent
their result, each with the blocks left to it; `sent` are the results in the channel, in the order in which they were sent.
The first argument bounds the number of steps and is chosen large enough. -/
def workersG (add : UInt64 → Acc → Prog B (Res Acc)) :
    Nat → (live : List (List UInt64 × Acc)) → (sent : List AggregateResult) → Prog B (Res (List AggregateResult))
  | 0, _, sent => .ret (.ok sent)
  | n + 1, live, sent =>
    if live.length = 0 then .ret (.ok sent)
    else .choose fun c =>
      match live[c % live.length]? with
      | none => .ret (.ok sent)
      | some ([], a) => workersG add n (live.eraseIdx (c % live.length)) (sent ++ [a.result])
      | some (i :: is, a) => (add i a).onOk fun a' => workersG add n (live.set (c % live.length) (is, a')) sent

/-- The workers that are started: those with a non-empty slice (reader_aggregate.go:331-350, 435-454). -/
def startedWorkers (blockIndices : List UInt64) (numWorkers : Nat) : List (List UInt64 × Acc) :=
  (List.range numWorkers).filterMap fun w =>
    match workerSlice blockIndices numWorkers w with
    | [] => none
    | i :: is => some (i :: is, Acc.init)

/-- Both `aggregateParallelWith...` functions (reader_aggregate.go:326-427, 430-543). -/
def aggregateParallelWithG (add : UInt64 → Acc → Prog B (Res Acc)) (blockIndices : List UInt64) (numWorkers : Nat) :
    Prog B (Res AggregateResult) :=
  let live := startedWorkers blockIndices numWorkers
  (workersG add (live.map fun w => w.1.length + 1).sum live []).onOk fun results => .ret (.ok (mergeResults results))

/-- `aggregateParallel` (reader_aggregate.go:270-323). -/
def aggregateParallelG (gomaxprocs : Int) (k : Nat) (r : Reader B) (opts : AggregateOptions B) : Prog B (Res AggregateResult) :=
  let numWorkers := if opts.parallel < 0 then gomaxprocs else opts.parallel
  let blockCount := r.header.blockCount.toInt64.toInt
  let numWorkers := if numWorkers > blockCount then blockCount else numWorkers
  if numWorkers ≤ 1 ∨ blockCount ≤ 1 then aggregateSequentialG k r { opts with parallel := 0 }
  else
    (Prog.ret (if opts.filter.isSome ∨ opts.denyFilter.isSome then
        filteredBlockIterator r opts.filter opts.denyFilter
      else firstBlocks blockCount.toNat)).onOk fun blockIndices =>
    if blockIndices.length = 0 then .ret (.ok .zero)
    else if r.blockIndex.length > 0 ∧ opts.skipPreCalculated = false ∧ opts.filter.isNone ∧ opts.denyFilter.isNone then
      aggregateParallelWithG (addEntryG r) blockIndices numWorkers.toNat
    else
      let read : UInt64 → Prog B (Res (List UInt64 × List Int64)) := fun i =>
        if opts.filter.isSome ∨ opts.denyFilter.isSome then
          readBlockFilteredG k r i.toInt64 opts.filter opts.denyFilter
        else getPairsG k r i
      aggregateParallelWithG (addBlockG read) blockIndices numWorkers.toNat

/-- `AggregateWithOptions` (reader_aggregate.go:45-133). -/
def aggregateWithOptionsG (gomaxprocs : Int) (k : Nat) (r : Reader B) (opts : AggregateOptions B) :
    Prog B (Res AggregateResult) :=
  if opts.parallel ≠ 0 then aggregateParallelG gomaxprocs k r opts
  else aggregateSequentialG k r opts

/-- The loop of `MultiReader.Aggregate` (multicol/aggregate.go:62-92) over the readers from newest to oldest. `Or` with a nil
bitmap is taken to panic; it does not happen unless a goroutine calls `DisableGlobalIDBitmapCaching`. -/
def multiLoopG (gomaxprocs : Int) (skipPreCalculated : Bool) (filter : Option B) :
    List (Nat × Reader B) → (denyBitmap : B) → (result : AggregateResult) → Prog B (Res AggregateResult)
  | [], _, result => .ret (.ok result)
  | (k, r) :: rest, denyBitmap, result =>
    (aggregateWithOptionsG gomaxprocs k r
      { skipPreCalculated := skipPreCalculated, filter := filter, denyFilter := some denyBitmap }).onOk fun readerResult =>
    (getGlobalIDBitmapG k r).onOk fun
      | none => .ret .panic
      | some globalIDs =>
        multiLoopG gomaxprocs skipPreCalculated filter rest (Bitmap.or denyBitmap globalIDs)
          (if result.count = 0 then readerResult else mergeAggregateResults result readerResult)

/-- `MultiReader.Aggregate` (multicol/aggregate.go:50-95); `readers` is ordered from oldest to newest. -/
def multiAggregateG (gomaxprocs : Int) (readers : List (Nat × Reader B)) (skipPreCalculated : Bool) (filter : Option B) :
    Prog B (Res AggregateResult) :=
  if readers.length = 0 then .ret (.ok .zero)
  else multiLoopG gomaxprocs skipPreCalculated filter readers.reverse Bitmap.empty .zero

/-- The calls of a goroutine; readers are given by their numbers. `MultiReader.Close` is one `close` after the other. -/
inductive Call (B : Type) where
  | getPairs (k : Nat) (i : UInt64)
  | aggregate (k : Nat) (o : AggregateOptions B)
  | getBitmap (k : Nat)
  | enable (k : Nat)
  | multi (ks : List Nat) (skipPreCalculated : Bool) (filter : Option B)
  | close (k : Nat)

/-- What a call returns. A bitmap is a pointer, `none` for nil. -/
inductive Out (B : Type) where
  | pairs (p : Res (List UInt64 × List Int64))
  | result (a : Res AggregateResult)
  | bitmap (b : Res (Option B))
  | done
  | closed (e : Except Err Unit)

/-- The program of a call. `reader k` has the fields that `NewReader` gave to reader `k`. -/
def Call.prog (gomaxprocs : Int) (reader : Nat → Reader B) : Call B → Prog B (Out B)
  | .getPairs k i => (getPairsG k (reader k) i).andThen fun p => .ret (.pairs p)
  | .aggregate k o => (aggregateWithOptionsG gomaxprocs k (reader k) o).andThen fun a => .ret (.result a)
  | .getBitmap k => (getGlobalIDBitmapG k (reader k)).andThen fun b => .ret (.bitmap b)
  | .enable k => .storeFlag k true (.ret .done)
  | .multi ks skip filter =>
    (multiAggregateG gomaxprocs (ks.map fun k => (k, reader k)) skip filter).andThen fun a => .ret (.result a)
  | .close k => .closeFile k fun e => .ret (.closed e)

/-- What the goroutines share. -/
structure Shared (B : Type) where
  bytes : Nat → Bytes
  isOpen : Nat → Bool
  globalIDs : Nat → Option B
  cacheGlobalIDs : Nat → Bool

/-- A goroutine: the rest of its current call, the calls after that, and what its calls have returned so far. -/
structure Goroutine (B : Type) where
  current : Option (Prog B (Out B))
  todo : List (Call B)
  outs : List (Out B)

/-- All goroutines and what they share. -/
structure State (B : Type) where
  shared : Shared B
  go : Nat → Goroutine B

/-- What the scheduler and the operating system decide for one step: which goroutine goes on, whether the access fails if it is
to the file, and a number for the choice between workers. -/
structure Choice where
  thread : Nat
  fails : Bool
  pick : Nat

/-- Update at one place. -/
def upd {α : Type} (f : Nat → α) (k : Nat) (a : α) : Nat → α := fun j => if j = k then a else f j

/-- The next access of a program that has not returned. -/
def Prog.step (c : Choice) (s : Shared B) : Prog B (Out B) → Shared B × Prog B (Out B)
  | .ret a => (s, .ret a)
  | .readAt k o n next => (s, next (readBytesAtIO (!s.isOpen k || c.fails) (s.bytes k) o n))
  | .loadIDs k next => (s, next (s.globalIDs k))
  | .storeIDs k v next => ({ s with globalIDs := upd s.globalIDs k v }, next)
  | .loadFlag k next => (s, next (s.cacheGlobalIDs k))
  | .storeFlag k v next => ({ s with cacheGlobalIDs := upd s.cacheGlobalIDs k v }, next)
  | .closeFile k next =>
    ({ s with isOpen := upd s.isOpen k false }, next (if s.isOpen k ∧ c.fails = false then .ok () else .error .io))
  | .choose next => (s, next c.pick)

/-- One step of the goroutine that the scheduler has chosen: it begins its next call, goes on with it, or leaves it with what it
returns. A goroutine that has made all its calls does nothing. -/
def State.step (gomaxprocs : Int) (reader : Nat → Reader B) (c : Choice) (st : State B) : State B :=
  let g := st.go c.thread
  match g.current with
  | none =>
    match g.todo with
    | [] => st
    | call :: rest =>
      { st with go := upd st.go c.thread { g with current := some (call.prog gomaxprocs reader), todo := rest } }
  | some (.ret out) => { st with go := upd st.go c.thread { g with current := none, outs := g.outs ++ [out] } }
  | some p =>
    let (shared, p') := p.step c st.shared
    { shared := shared, go := upd st.go c.thread { g with current := some p' } }

/-- Steps in the order chosen by the scheduler. -/
def State.run (gomaxprocs : Int) (reader : Nat → Reader B) (cs : List Choice) (st : State B) : State B :=
  cs.foldl (fun st c => st.step gomaxprocs reader c) st

/-- Readers as `NewReader` returned them, and goroutines about to make the given calls. -/
def State.start (reader : Nat → Reader B) (calls : Nat → List (Call B)) : State B where
  shared :=
    { bytes := fun k => (reader k).bytes
      isOpen := fun _ => true
      globalIDs := fun k => (reader k).globalIDs
      cacheGlobalIDs := fun k => (reader k).cacheGlobalIDs }
  go i := { current := none, todo := calls i, outs := [] }

end G
end VibeCol.Goroutines
