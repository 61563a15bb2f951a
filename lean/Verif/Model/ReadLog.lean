/-
The reader again (reader.go, reader_io.go, reader_header.go, reader_block.go, reader_aggregate.go, and multicol/aggregate.go), recording which parts of the
file it reads. `Verif/Props/ReadLog.lean` proves that the results are those of `Verif/Model/Reader.lean`,
`Verif/Model/Aggregate.lean` and `Verif/Model/MultiCol.lean`.
-/
import Verif.Model.MultiCol
namespace VibeCol.ReadLog

/-- A computation together with the reads it makes: offset and length passed to `ReadAt`, in order. -/
structure Rd (α : Type) where
  reads : List (Int64 × Int64)
  res : Res α

namespace Rd
/-- What comes after an error or a panic is not run. -/
def bind {α β : Type} (x : Rd α) (f : α → Rd β) : Rd β :=
  match x.res with
  | .ok a => ⟨x.reads ++ (f a).reads, (f a).res⟩
  | .err e => ⟨x.reads, .err e⟩
  | .panic => ⟨x.reads, .panic⟩

instance : Monad Rd where
  pure a := ⟨[], .ok a⟩
  bind := bind
end Rd

/-- A step that reads nothing. -/
def lift {α : Type} (x : Res α) : Rd α := ⟨[], x⟩

/-- `readBytesAt` (reader_io.go:10-20): `make` panics before the read if the length is negative. -/
def readBytesAtR (file : Bytes) (offset size : Int64) : Rd Bytes :=
  if size < 0 then ⟨[], .panic⟩ else ⟨[(offset, size)], readBytesAt file offset size⟩

/-- `readHeader` (reader_header.go:9-67). -/
def readHeaderR (file : Bytes) : Rd FileHeader := do
  let headerBuf ← readBytesAtR file 0 (Int64.ofNat headerSize)
  let h := parseHeader headerBuf
  if h.magic ≠ magicNumber then lift (.err .badMagic)
  else if h.version ≠ version then lift (.err .badVersion)
  else lift (.ok h)

/-- `readFooter` (reader_header.go:70-142). -/
def readFooterR (file : Bytes) (header : FileHeader) : Rd (FileHeader × FooterMetadata × List FooterEntry) := do
  let fileSize := Int64.ofNat file.length
  if fileSize < 24 then lift (.err .fileTooSmall) else do
  let footerMetaOffset := fileSize - 24
  let footerMetaBuf ← readBytesAtR file footerMetaOffset 24
  let footerMeta : FooterMetadata :=
    { footerSize := rd64 footerMetaBuf 0
      checksum := rd64 footerMetaBuf 8
      magic := rd64 footerMetaBuf 16 }
  if footerMeta.magic ≠ magicNumber then lift (.err .badFooterMagic) else do
  let footerStart := footerMetaOffset - footerMeta.footerSize.toInt64
  if footerStart < 64 then lift (.err .badFooterSize) else do
  let blockIndexCountBuf ← readBytesAtR file footerStart 4
  let blockIndexCount := rd32 blockIndexCountBuf 0
  let header :=
    if blockIndexCount.toUInt64 ≠ header.blockCount then
      if blockIndexCount.toUInt64 > header.blockCount then
        { header with blockCount := blockIndexCount.toUInt64 }
      else header
    else header
  let blockIndexSize := Int64.ofNat (blockIndexCount.toNat * 56)
  let blockIndexBuf ← readBytesAtR file (footerStart + 4) blockIndexSize
  let blockIndex := (List.range blockIndexCount.toNat).map
    (fun i => parseEntry blockIndexBuf (UInt32.ofNat i))
  lift (.ok (header, footerMeta, blockIndex))

section R
variable {B : Type} [Bitmap B]

/-- `NewReader` (reader.go:23-56). -/
def newReaderR (file : Bytes) : Rd (Reader B) := do
  let header ← readHeaderR file
  let (header, footerMeta, blockIndex) ← readFooterR file header
  lift (.ok { bytes := file, header := header, footerMeta := footerMeta, blockIndex := blockIndex,
              globalIDs := none, cacheGlobalIDs := false })

/-- `readBlock` (reader_block.go:9-69). -/
def readBlockR (r : Reader B) (blockIndex : Int64) : Rd (List UInt64 × List Int64) :=
  if blockIndex < 0 then lift (.err .badBlockIndex) else
  match r.blockIndex[blockIndex.toInt.toNat]? with
  | none => lift (.err .badBlockIndex)
  | some entry => do
    let blockOffset := entry.blockOffset.toInt64
    let count := entry.count.toNat
    let dataOffset := blockOffset + 64
    let dataSize := Int64.ofNat entry.blockSize.toNat - 64
    let blockData ← readBytesAtR r.bytes dataOffset dataSize
    let _ ← lift (goSlice blockData 0 4)
    let _ ← lift (goSlice blockData 4 8)
    let _ ← lift (goSlice blockData 8 12)
    let _ ← lift (goSlice blockData 12 16)
    let idSectionOffset := rd32 blockData 0
    let idSectionSize := rd32 blockData 4
    let valueSectionOffset := rd32 blockData 8
    let valueSectionSize := rd32 blockData 12
    if idSectionSize = 0 then lift (.err .zeroSection) else
    if valueSectionSize = 0 then lift (.err .zeroSection) else do
    let idStart := 16 + idSectionOffset.toNat
    let idEnd := idStart + idSectionSize.toNat
    let valueStart := 16 + valueSectionOffset.toNat
    let valueEnd := valueStart + valueSectionSize.toNat
    if idEnd > blockData.length ∨ valueEnd > blockData.length then lift (.err .sectionBounds) else do
    let idBytes ← lift (goSlice blockData idStart idEnd)
    let valueBytes ← lift (goSlice blockData valueStart valueEnd)
    lift (decodeBlockData idBytes valueBytes count r.header.encodingType)

/-- `GetPairs` (reader.go:59-61). -/
def getPairsR (r : Reader B) (blockIdx : UInt64) : Rd (List UInt64 × List Int64) :=
  readBlockR r blockIdx.toInt64

/-- `GetGlobalIDBitmap` (reader.go:141-179), without the effect on the reader's cache. -/
def getGlobalIDBitmapR (r : Reader B) : Rd B :=
  match r.globalIDs, r.cacheGlobalIDs with
  | some b, true => lift (.ok b)
  | _, _ =>
    if r.header.bitmapOffset = 0 ∨ r.header.bitmapSize = 0 then lift (.ok Bitmap.empty)
    else do
      let sizeBuf ← readBytesAtR r.bytes r.header.bitmapOffset.toInt64 4
      let bitmapSize := rd32 sizeBuf 0
      let bitmapBuf ← readBytesAtR r.bytes (r.header.bitmapOffset.toInt64 + 4) (Int64.ofNat bitmapSize.toNat)
      lift (.ok (Bitmap.fromBuffer bitmapBuf))

/-- `readBlockFiltered` (reader_aggregate.go:179-210). -/
def readBlockFilteredR (r : Reader B) (blockIndex : Int64) (filter denyFilter : Option B) : Rd (List UInt64 × List Int64) := do
  let (allIDs, allValues) ← readBlockR r blockIndex
  if filter.isNone ∧ denyFilter.isNone then lift (.ok (allIDs, allValues))
  else lift (filterPairs filter denyFilter allIDs allValues)

/-- A loop over blocks that skips blocks with errors (reader_aggregate.go:101-118, 234-252). -/
def sumBlocksR (read : UInt64 → Rd (List UInt64 × List Int64)) : List UInt64 → Acc → Rd Acc
  | [], a => lift (.ok a)
  | i :: is, a =>
    match (read i).res with
    | .ok (_, values) => ⟨(read i).reads ++ (sumBlocksR read is (a.addValues values)).reads, (sumBlocksR read is (a.addValues values)).res⟩
    | .err _ => ⟨(read i).reads ++ (sumBlocksR read is a).reads, (sumBlocksR read is a).res⟩
    | .panic => ⟨(read i).reads, .panic⟩

/-- `AggregateWithOptions` with `Parallel = 0` (reader_aggregate.go:51-133, 213-267). -/
def aggregateSequentialR (r : Reader B) (opts : AggregateOptions B) : Rd AggregateResult :=
  if opts.filter.isSome ∨ opts.denyFilter.isSome then do
    let matchingBlocks ← lift (filteredBlockIterator r opts.filter opts.denyFilter)
    if matchingBlocks.length = 0 then lift (.ok .zero)
    else do
      let a ← sumBlocksR (fun i => readBlockFilteredR r i.toInt64 opts.filter opts.denyFilter) matchingBlocks Acc.init
      lift (.ok a.result)
  else if r.blockIndex.length > 0 ∧ opts.skipPreCalculated = false then
    lift (.ok (r.blockIndex.foldl Acc.addEntry Acc.init).result)
  else do
    let a ← sumBlocksR (getPairsR r) ((List.range r.header.blockCount.toNat).map UInt64.ofNat) Acc.init
    lift (.ok a.result)

/-- The workers of a parallel aggregation (reader_aggregate.go:331-396, 435-512), their reads listed worker by worker. In which
order the reads of different workers happen is up to the scheduler. -/
def workerResultsR (work : List UInt64 → Acc → Rd Acc) (blockIndices : List UInt64) (numWorkers : Nat) :
    List Nat → Rd (List AggregateResult)
  | [] => lift (.ok [])
  | w :: ws =>
    match workerSlice blockIndices numWorkers w with
    | [] => workerResultsR work blockIndices numWorkers ws
    | i :: is => do
      let a ← work (i :: is) Acc.init
      let rest ← workerResultsR work blockIndices numWorkers ws
      lift (.ok (a.result :: rest))

/-- Both `aggregateParallelWith...` functions (reader_aggregate.go:326-427, 430-543). -/
def aggregateParallelWithR (sched : Sched) (work : List UInt64 → Acc → Rd Acc) (blockIndices : List UInt64) (numWorkers : Nat) :
    Rd AggregateResult := do
  let results ← workerResultsR work blockIndices numWorkers (List.range numWorkers)
  lift (.ok (mergeResults (sched.order results)))

/-- `aggregateParallel` (reader_aggregate.go:270-323). -/
def aggregateParallelR (sched : Sched) (r : Reader B) (opts : AggregateOptions B) : Rd AggregateResult :=
  let numWorkers := if opts.parallel < 0 then sched.gomaxprocs else opts.parallel
  let blockCount := r.header.blockCount.toInt64.toInt
  let numWorkers := if numWorkers > blockCount then blockCount else numWorkers
  if numWorkers ≤ 1 ∨ blockCount ≤ 1 then aggregateSequentialR r { opts with parallel := 0 }
  else
    lift (if opts.filter.isSome ∨ opts.denyFilter.isSome then
        filteredBlockIterator r opts.filter opts.denyFilter
      else firstBlocks blockCount.toNat) >>= fun blockIndices =>
    if blockIndices.length = 0 then lift (.ok .zero)
    else if r.blockIndex.length > 0 ∧ opts.skipPreCalculated = false ∧ opts.filter.isNone ∧
        opts.denyFilter.isNone then
      aggregateParallelWithR sched (fun is a => lift (sumEntries r is a)) blockIndices numWorkers.toNat
    else
      let read : UInt64 → Rd (List UInt64 × List Int64) := fun i =>
        if opts.filter.isSome ∨ opts.denyFilter.isSome then
          readBlockFilteredR r i.toInt64 opts.filter opts.denyFilter
        else getPairsR r i
      aggregateParallelWithR sched (sumBlocksR read) blockIndices numWorkers.toNat

/-- `AggregateWithOptions` (reader_aggregate.go:45-133). -/
def aggregateWithOptionsR (sched : Sched) (r : Reader B) (opts : AggregateOptions B) : Rd AggregateResult :=
  if opts.parallel ≠ 0 then aggregateParallelR sched r opts
  else aggregateSequentialR r opts

/-- The loop of `MultiReader.Aggregate` (multicol/aggregate.go:62-92), with the reads of each file, newest file first. -/
def multiLoopR (sched : Sched) (skipPreCalculated : Bool) (filter : Option B) :
    List (Reader B) → B → AggregateResult → List (List (Int64 × Int64)) × Res AggregateResult
  | [], _, result => ([], .ok result)
  | r :: rest, denyBitmap, result =>
    let agg := aggregateWithOptionsR sched r
      { skipPreCalculated := skipPreCalculated, filter := filter, denyFilter := some denyBitmap }
    match agg.res with
    | .err e => ([agg.reads], .err e)
    | .panic => ([agg.reads], .panic)
    | .ok readerResult =>
      let ids := getGlobalIDBitmapR r
      match ids.res with
      | .err e => ([agg.reads ++ ids.reads], .err e)
      | .panic => ([agg.reads ++ ids.reads], .panic)
      | .ok globalIDs =>
        let result := if result.count = 0 then readerResult else mergeAggregateResults result readerResult
        let (reads, res) := multiLoopR sched skipPreCalculated filter rest (Bitmap.or denyBitmap globalIDs) result
        ((agg.reads ++ ids.reads) :: reads, res)

/-- `MultiReader.Aggregate` (multicol/aggregate.go:50-95). -/
def multiAggregateR (sched : Sched) (readers : List (Reader B)) (skipPreCalculated : Bool) (filter : Option B) :
    List (List (Int64 × Int64)) × Res AggregateResult :=
  if readers.length = 0 then ([], .ok .zero)
  else multiLoopR sched skipPreCalculated filter readers.reverse Bitmap.empty .zero

end R
end VibeCol.ReadLog
