/-
The reader again (reader.go, reader_io.go, reader_header.go, reader_block.go, reader_decode.go, reader_aggregate.go), recording how
many bytes each `make` asks for. `Verif/Props/Memory.lean` proves that the results are those of `Verif/Model/Reader.lean` and
`Verif/Model/Aggregate.lean`.

Not counted: small fixed-size objects (the `Reader` itself, errors, goroutines), the growth of `matchingBlocks` by
`append` (reader_aggregate.go:171), and what the bitmap library allocates.
-/
import Verif.Model.MultiCol
namespace VibeCol.Memory

/-- A computation together with the sizes in bytes passed to `make`, in order. -/
structure Alloc (α : Type) where
  req : List Nat
  res : Res α

namespace Alloc
/-- What comes after an error or a panic is not run. -/
def bind {α β : Type} (x : Alloc α) (f : α → Alloc β) : Alloc β :=
  match x.res with
  | .ok a => ⟨x.req ++ (f a).req, (f a).res⟩
  | .err e => ⟨x.req, .err e⟩
  | .panic => ⟨x.req, .panic⟩

instance : Monad Alloc where
  pure a := ⟨[], .ok a⟩
  bind := bind

/-- All bytes asked for. -/
def total {α : Type} (x : Alloc α) : Nat := x.req.sum
end Alloc

/-- `make` of this many bytes. -/
def make (n : Nat) : Alloc Unit := ⟨[n], .ok ()⟩

/-- A step that allocates nothing. -/
def lift {α : Type} (x : Res α) : Alloc α := ⟨[], x⟩

/-- `readBytesAt` (reader_io.go:10-20). -/
def readBytesAtA (file : Bytes) (offset size : Int64) : Alloc Bytes :=
  if size < 0 then ⟨[], .panic⟩ else do
  make size.toInt.toNat
  lift (readBytesAt file offset size)

/-- `readHeader` (reader_header.go:9-67). -/
def readHeaderA (file : Bytes) : Alloc FileHeader := do
  let headerBuf ← readBytesAtA file 0 (Int64.ofNat headerSize)
  let h := parseHeader headerBuf
  if h.magic ≠ magicNumber then lift (.err .badMagic)
  else if h.version ≠ version then lift (.err .badVersion)
  else lift (.ok h)

/-- `readFooter` (reader_header.go:70-142). A `FooterEntry` (format.go:72-81) takes 64 bytes of memory: two of its fields are
`uint32` and are padded. -/
def readFooterA (file : Bytes) (header : FileHeader) : Alloc (FileHeader × FooterMetadata × List FooterEntry) := do
  let fileSize := Int64.ofNat file.length
  if fileSize < 24 then lift (.err .fileTooSmall) else do
  let footerMetaOffset := fileSize - 24
  let footerMetaBuf ← readBytesAtA file footerMetaOffset 24
  let footerMeta : FooterMetadata :=
    { footerSize := rd64 footerMetaBuf 0
      checksum := rd64 footerMetaBuf 8
      magic := rd64 footerMetaBuf 16 }
  if footerMeta.magic ≠ magicNumber then lift (.err .badFooterMagic) else do
  let footerStart := footerMetaOffset - footerMeta.footerSize.toInt64
  if footerStart < 64 then lift (.err .badFooterSize) else do
  let blockIndexCountBuf ← readBytesAtA file footerStart 4
  let blockIndexCount := rd32 blockIndexCountBuf 0
  let header :=
    if blockIndexCount.toUInt64 ≠ header.blockCount then
      if blockIndexCount.toUInt64 > header.blockCount then
        { header with blockCount := blockIndexCount.toUInt64 }
      else header
    else header
  let blockIndexSize := Int64.ofNat (blockIndexCount.toNat * 56)
  let blockIndexBuf ← readBytesAtA file (footerStart + 4) blockIndexSize
  make (64 * blockIndexCount.toNat)
  let blockIndex := (List.range blockIndexCount.toNat).map
    (fun i => parseEntry blockIndexBuf (UInt32.ofNat i))
  lift (.ok (header, footerMeta, blockIndex))

section R
variable {B : Type} [Bitmap B]

/-- `NewReader` (reader.go:23-56). -/
def newReaderA (file : Bytes) : Alloc (Reader B) := do
  let header ← readHeaderA file
  let (header, footerMeta, blockIndex) ← readFooterA file header
  lift (.ok { bytes := file, header := header, footerMeta := footerMeta, blockIndex := blockIndex,
              globalIDs := none, cacheGlobalIDs := false })

/-- `decodeUVarInts` (reader_decode.go:115-150): the slice has capacity `count` from the start. -/
def decodeUVarIntsA (buf : Bytes) (count : Nat) : Alloc (List UInt64) := do
  make (8 * count)
  lift (decodeUVarInts buf count)

/-- `decodeBlockData` (reader_decode.go:9-112). Delta decoding is done in place. -/
def decodeBlockDataA (idBytes valueBytes : Bytes) (count : Nat) (encodingType : UInt32) : Alloc (List UInt64 × List Int64) := do
  let (ids, values) ←
    if isVarIntEnc encodingType then do
      let ids ← decodeUVarIntsA idBytes count
      make (8 * count)
      lift (Res.ok (ids, decodeValuesLoop count 0 valueBytes))
    else do
      let maxCount := idBytes.length / 8
      let count := if count > maxCount then maxCount else count
      make (8 * count)
      let ids := decodeFixedIDs idBytes count
      let maxCountV := valueBytes.length / 8
      let countV := if count > maxCountV then maxCountV else count
      let ids := if count > maxCountV then
          (if ids.length > countV then ids.take countV else ids) else ids
      make (8 * countV)
      lift (Res.ok (ids, decodeFixedValues valueBytes countV))
  if encodingType = encDeltaBoth ∨ encodingType = encVarIntBoth then
    lift (Res.ok (deltaDecode ids, deltaDecodeInt64 values))
  else if encodingType = encDeltaID ∨ encodingType = encVarIntID then
    lift (Res.ok (deltaDecode ids, values))
  else if encodingType = encDeltaValue ∨ encodingType = encVarIntValue then
    lift (Res.ok (ids, deltaDecodeInt64 values))
  else lift (Res.ok (ids, values))

/-- `readBlock` (reader_block.go:9-69). -/
def readBlockA (r : Reader B) (blockIndex : Int64) : Alloc (List UInt64 × List Int64) :=
  if blockIndex < 0 then lift (.err .badBlockIndex) else
  match r.blockIndex[blockIndex.toInt.toNat]? with
  | none => lift (.err .badBlockIndex)
  | some entry => do
    let blockOffset := entry.blockOffset.toInt64
    let count := entry.count.toNat
    let dataOffset := blockOffset + 64
    let dataSize := Int64.ofNat entry.blockSize.toNat - 64
    let blockData ← readBytesAtA r.bytes dataOffset dataSize
    let _ ← lift (goSlice blockData 0 4)
    let _ ← lift (goSlice blockData 4 8)
    let _ ← lift (goSlice blockData 8 12)
    let _ ← lift (goSlice blockData 12 16)
    let idSectionOffset := rd32 blockData 0
    let idSectionSize := rd32 blockData 4
    let valueSectionOffset := rd32 blockData 8
    let valueSectionSize := rd32 blockData 12
    if idSectionSize = 0 then lift (.err .zeroSection) else
    if valueSectionSize = 0 then lift (.err .zeroSection) else do
    let idStart := 16 + idSectionOffset.toNat
    let idEnd := idStart + idSectionSize.toNat
    let valueStart := 16 + valueSectionOffset.toNat
    let valueEnd := valueStart + valueSectionSize.toNat
    if idEnd > blockData.length ∨ valueEnd > blockData.length then lift (.err .sectionBounds) else do
    let idBytes ← lift (goSlice blockData idStart idEnd)
    let valueBytes ← lift (goSlice blockData valueStart valueEnd)
    decodeBlockDataA idBytes valueBytes count r.header.encodingType

/-- `GetPairs` (reader.go:59-61). -/
def getPairsA (r : Reader B) (blockIdx : UInt64) : Alloc (List UInt64 × List Int64) :=
  readBlockA r blockIdx.toInt64

/-- `GetGlobalIDBitmap` (reader.go:141-179), without the effect on the reader's cache. -/
def getGlobalIDBitmapA (r : Reader B) : Alloc B :=
  match r.globalIDs, r.cacheGlobalIDs with
  | some b, true => lift (.ok b)
  | _, _ =>
    if r.header.bitmapOffset = 0 ∨ r.header.bitmapSize = 0 then lift (.ok Bitmap.empty)
    else do
      let sizeBuf ← readBytesAtA r.bytes r.header.bitmapOffset.toInt64 4
      let bitmapSize := rd32 sizeBuf 0
      let bitmapBuf ← readBytesAtA r.bytes (r.header.bitmapOffset.toInt64 + 4) (Int64.ofNat bitmapSize.toNat)
      lift (.ok (Bitmap.fromBuffer bitmapBuf))

/-- `readBlockFiltered` (reader_aggregate.go:179-210). -/
def readBlockFilteredA (r : Reader B) (blockIndex : Int64) (filter denyFilter : Option B) : Alloc (List UInt64 × List Int64) := do
  let (allIDs, allValues) ← readBlockA r blockIndex
  if filter.isNone ∧ denyFilter.isNone then lift (.ok (allIDs, allValues))
  else do
    make (8 * allIDs.length)
    make (8 * allValues.length)
    lift (filterPairs filter denyFilter allIDs allValues)

/-- `make([]uint64, n)` (reader_aggregate.go:139, 151); it panics when more than `maxAlloc` bytes are asked for. -/
def firstBlocksA (n : Nat) : Alloc (List UInt64) :=
  if maxAlloc < 8 * n then lift .panic else do
  make (8 * n)
  lift (firstBlocks n)

/-- `FilteredBlockIterator` (reader_aggregate.go:136-176). -/
def filteredBlockIteratorA (r : Reader B) (filter denyFilter : Option B) : Alloc (List UInt64) :=
  match filter with
  | none => firstBlocksA r.blockCount.toNat
  | some f => lift (filteredBlockIterator r (some f) denyFilter)

/-- A loop over blocks that skips blocks with errors (reader_aggregate.go:101-118, 234-252). -/
def sumBlocksA (read : UInt64 → Alloc (List UInt64 × List Int64)) : List UInt64 → Acc → Alloc Acc
  | [], a => lift (.ok a)
  | i :: is, a =>
    match (read i).res with
    | .ok (_, values) => ⟨(read i).req ++ (sumBlocksA read is (a.addValues values)).req, (sumBlocksA read is (a.addValues values)).res⟩
    | .err _ => ⟨(read i).req ++ (sumBlocksA read is a).req, (sumBlocksA read is a).res⟩
    | .panic => ⟨(read i).req, .panic⟩

/-- `AggregateWithOptions` with `Parallel = 0` (reader_aggregate.go:51-133, 213-267). -/
def aggregateSequentialA (r : Reader B) (opts : AggregateOptions B) : Alloc AggregateResult :=
  if opts.filter.isSome ∨ opts.denyFilter.isSome then do
    let matchingBlocks ← filteredBlockIteratorA r opts.filter opts.denyFilter
    if matchingBlocks.length = 0 then lift (.ok .zero)
    else do
      let a ← sumBlocksA (fun i => readBlockFilteredA r i.toInt64 opts.filter opts.denyFilter) matchingBlocks Acc.init
      lift (.ok a.result)
  else if r.blockIndex.length > 0 ∧ opts.skipPreCalculated = false then
    lift (.ok (r.blockIndex.foldl Acc.addEntry Acc.init).result)
  else do
    let a ← sumBlocksA (getPairsA r) ((List.range r.header.blockCount.toNat).map UInt64.ofNat) Acc.init
    lift (.ok a.result)

/-- What the workers ask for and send (as `workerResults`). The requests of all workers are put one after the other, in the order of
the workers; when they run at the same time only the order differs. -/
def workerResultsA (work : List UInt64 → Acc → Alloc Acc) (blockIndices : List UInt64) (numWorkers : Nat) :
    List Nat → Alloc (List AggregateResult)
  | [] => lift (.ok [])
  | w :: ws =>
    match workerSlice blockIndices numWorkers w with
    | [] => workerResultsA work blockIndices numWorkers ws
    | i :: is => do
      let a ← work (i :: is) Acc.init
      let rest ← workerResultsA work blockIndices numWorkers ws
      lift (.ok (a.result :: rest))

/-- Both `aggregateParallelWith...` functions (reader_aggregate.go:326-427, 430-543). The channel has room for one `AggregateResult`
(five fields of 8 bytes, types.go) per worker. -/
def aggregateParallelWithA (sched : Sched) (work : List UInt64 → Acc → Alloc Acc) (blockIndices : List UInt64) (numWorkers : Nat) :
    Alloc AggregateResult := do
  make (40 * numWorkers)
  let results ← workerResultsA work blockIndices numWorkers (List.range numWorkers)
  lift (.ok (mergeResults (sched.order results)))

/-- `aggregateParallel` (reader_aggregate.go:270-323). -/
def aggregateParallelA (sched : Sched) (r : Reader B) (opts : AggregateOptions B) : Alloc AggregateResult :=
  let numWorkers := if opts.parallel < 0 then sched.gomaxprocs else opts.parallel
  let blockCount := r.header.blockCount.toInt64.toInt
  let numWorkers := if numWorkers > blockCount then blockCount else numWorkers
  if numWorkers ≤ 1 ∨ blockCount ≤ 1 then aggregateSequentialA r { opts with parallel := 0 }
  else
    (if opts.filter.isSome ∨ opts.denyFilter.isSome then filteredBlockIteratorA r opts.filter opts.denyFilter
      else firstBlocksA blockCount.toNat) >>= fun blockIndices =>
    if blockIndices.length = 0 then lift (.ok .zero)
    else if r.blockIndex.length > 0 ∧ opts.skipPreCalculated = false ∧ opts.filter.isNone ∧ opts.denyFilter.isNone then
      aggregateParallelWithA sched (fun is a => lift (sumEntries r is a)) blockIndices numWorkers.toNat
    else
      aggregateParallelWithA sched (sumBlocksA fun i =>
        if opts.filter.isSome ∨ opts.denyFilter.isSome then readBlockFilteredA r i.toInt64 opts.filter opts.denyFilter
        else getPairsA r i) blockIndices numWorkers.toNat

/-- `AggregateWithOptions` (reader_aggregate.go:45-133). -/
def aggregateWithOptionsA (sched : Sched) (r : Reader B) (opts : AggregateOptions B) : Alloc AggregateResult :=
  if opts.parallel ≠ 0 then aggregateParallelA sched r opts else aggregateSequentialA r opts

/-- The loop of `MultiReader.Aggregate` (multicol/aggregate.go:62-92). -/
def multiLoopA (sched : Sched) (skipPreCalculated : Bool) (filter : Option B) :
    List (Reader B) → (denyBitmap : B) → (result : AggregateResult) → Alloc AggregateResult
  | [], _, result => lift (.ok result)
  | r :: rest, denyBitmap, result => do
    let readerResult ← aggregateWithOptionsA sched r
      { skipPreCalculated := skipPreCalculated, filter := filter, denyFilter := some denyBitmap }
    let globalIDs ← getGlobalIDBitmapA r
    let result := if result.count = 0 then readerResult else mergeAggregateResults result readerResult
    multiLoopA sched skipPreCalculated filter rest (Bitmap.or denyBitmap globalIDs) result

/-- `MultiReader.Aggregate` (multicol/aggregate.go:50-95). -/
def multiAggregateA (sched : Sched) (readers : List (Reader B)) (skipPreCalculated : Bool) (filter : Option B) :
    Alloc AggregateResult :=
  if readers.length = 0 then lift (.ok .zero)
  else multiLoopA sched skipPreCalculated filter readers.reverse Bitmap.empty .zero

end R
end VibeCol.Memory
