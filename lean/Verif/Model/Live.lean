/-
The reader again (reader.go, reader_header.go, reader_block.go, reader_aggregate.go), of a file
that another descriptor goes on writing to. `Verif/Model/Reader.lean` and
`Verif/Model/Aggregate.lean` are the case in which the file does not change (proved in
`Verif/Props/Live.lean`).

The operating system is asked for the size of the file once, in `NewReader`; every `ReadAt`
sees what the file holds at that moment. So each call gets a `view`: `view n` is what the file
holds at the `n`-th access of that call; for aggregations, which read each block at most once
and possibly concurrently, `view i` is what it holds when block `i` is read. The `bytes` of a
`Reader` are not looked at.
-/
import Verif.Model.Aggregate
namespace VibeCol

/-- `readFooter` (reader_header.go:70-142): three reads; `fileSize` was determined before. -/
def readFooterLive (view : Nat → Bytes) (fileSize : Int64) (header : FileHeader) :
    Res (FileHeader × FooterMetadata × List FooterEntry) := do
  if fileSize < 24 then .err .fileTooSmall else do
  let footerMetaOffset := fileSize - 24
  let footerMetaBuf ← readBytesAt (view 0) footerMetaOffset 24
  let footerMeta : FooterMetadata :=
    { footerSize := rd64 footerMetaBuf 0
      checksum := rd64 footerMetaBuf 8
      magic := rd64 footerMetaBuf 16 }
  if footerMeta.magic ≠ magicNumber then .err .badFooterMagic else do
  let footerStart := footerMetaOffset - footerMeta.footerSize.toInt64
  if footerStart < 64 then .err .badFooterSize else do
  let blockIndexCountBuf ← readBytesAt (view 1) footerStart 4
  let blockIndexCount := rd32 blockIndexCountBuf 0
  let header :=
    if blockIndexCount.toUInt64 ≠ header.blockCount then
      if blockIndexCount.toUInt64 > header.blockCount then
        { header with blockCount := blockIndexCount.toUInt64 }
      else header
    else header
  let blockIndexSize := Int64.ofNat (blockIndexCount.toNat * 56)
  let blockIndexBuf ← readBytesAt (view 2) (footerStart + 4) blockIndexSize
  let blockIndex := (List.range blockIndexCount.toNat).map
    (fun i => parseEntry blockIndexBuf (UInt32.ofNat i))
  .ok (header, footerMeta, blockIndex)

section R
variable {B : Type} [Bitmap B]

/-- `NewReader` (reader.go:23-56): `Stat` (line 30) is access 0, the header access 1, the footer
accesses 2 to 4. -/
def newReaderLive (view : Nat → Bytes) : Res (Reader B) := do
  let fileSize := Int64.ofNat (view 0).length
  let header ← readHeader (view 1)
  let (header, footerMeta, blockIndex) ← readFooterLive (fun n => view (n + 2)) fileSize header
  .ok { bytes := view 0, header := header, footerMeta := footerMeta, blockIndex := blockIndex,
        globalIDs := none, cacheGlobalIDs := false }

/-- `readBlock` (reader_block.go:9-69), whose only read (line 26) finds the file holding `now`. -/
def readBlockLive (now : Bytes) (r : Reader B) (blockIndex : Int64) : Res (List UInt64 × List Int64) :=
  readBlock { r with bytes := now } blockIndex

/-- `GetPairs` (reader.go:59-61). -/
def getPairsLive (now : Bytes) (r : Reader B) (blockIdx : UInt64) : Res (List UInt64 × List Int64) :=
  readBlockLive now r blockIdx.toInt64

/-- `GetGlobalIDBitmap` (reader.go:141-179): at most two reads. -/
def getGlobalIDBitmapLive (view : Nat → Bytes) (r : Reader B) : Res B × Reader B :=
  match r.globalIDs, r.cacheGlobalIDs with
  | some b, true => (.ok b, r)
  | _, _ =>
    let remember (b : B) : Reader B :=
      if r.cacheGlobalIDs then { r with globalIDs := some b } else r
    if r.header.bitmapOffset = 0 ∨ r.header.bitmapSize = 0 then
      (.ok Bitmap.empty, remember Bitmap.empty)
    else
      match readBytesAt (view 0) r.header.bitmapOffset.toInt64 4 with
      | .err e => (.err e, r)
      | .panic => (.panic, r)
      | .ok sizeBuf =>
        let bitmapSize := rd32 sizeBuf 0
        match readBytesAt (view 1) (r.header.bitmapOffset.toInt64 + 4)
            (Int64.ofNat bitmapSize.toNat) with
        | .err e => (.err e, r)
        | .panic => (.panic, r)
        | .ok bitmapBuf =>
          let bitmap : B := Bitmap.fromBuffer bitmapBuf
          (.ok bitmap, remember bitmap)

/-- `readBlockFiltered` (reader_aggregate.go:179-210). -/
def readBlockFilteredLive (now : Bytes) (r : Reader B) (blockIndex : Int64) (filter denyFilter : Option B) :
    Res (List UInt64 × List Int64) := do
  let (allIDs, allValues) ← readBlockLive now r blockIndex
  if filter.isNone ∧ denyFilter.isNone then .ok (allIDs, allValues)
  else filterPairs filter denyFilter allIDs allValues

/-- `AggregateWithOptions` with `Parallel = 0`, and `aggregateWithFilter`
(reader_aggregate.go:51-133, 213-267). -/
def aggregateSequentialLive (view : UInt64 → Bytes) (r : Reader B) (opts : AggregateOptions B) :
    Res AggregateResult :=
  if opts.filter.isSome ∨ opts.denyFilter.isSome then
    filteredBlockIterator r opts.filter opts.denyFilter >>= fun matchingBlocks =>
    if matchingBlocks.length = 0 then .ok .zero
    else do
      let a ← sumBlocks
        (fun i => readBlockFilteredLive (view i) r i.toInt64 opts.filter opts.denyFilter) matchingBlocks Acc.init
      .ok a.result
  else if r.blockIndex.length > 0 ∧ opts.skipPreCalculated = false then
    .ok (r.blockIndex.foldl Acc.addEntry Acc.init).result
  else do
    let a ← sumBlocks (fun i => getPairsLive (view i) r i)
      ((List.range r.header.blockCount.toNat).map UInt64.ofNat) Acc.init
    .ok a.result

/-- `aggregateParallel` (reader_aggregate.go:270-323, 326-543). -/
def aggregateParallelLive (view : UInt64 → Bytes) (sched : Sched) (r : Reader B) (opts : AggregateOptions B) :
    Res AggregateResult :=
  let numWorkers := if opts.parallel < 0 then sched.gomaxprocs else opts.parallel
  let blockCount := r.header.blockCount.toInt64.toInt
  let numWorkers := if numWorkers > blockCount then blockCount else numWorkers
  if numWorkers ≤ 1 ∨ blockCount ≤ 1 then aggregateSequentialLive view r { opts with parallel := 0 }
  else
    (if opts.filter.isSome ∨ opts.denyFilter.isSome then
        filteredBlockIterator r opts.filter opts.denyFilter
      else firstBlocks blockCount.toNat) >>= fun blockIndices =>
    if blockIndices.length = 0 then .ok .zero
    else if r.blockIndex.length > 0 ∧ opts.skipPreCalculated = false ∧ opts.filter.isNone ∧
        opts.denyFilter.isNone then
      aggregateParallelWith sched (sumEntries r) blockIndices numWorkers.toNat
    else
      let read : UInt64 → Res (List UInt64 × List Int64) := fun i =>
        if opts.filter.isSome ∨ opts.denyFilter.isSome then
          readBlockFilteredLive (view i) r i.toInt64 opts.filter opts.denyFilter
        else getPairsLive (view i) r i
      aggregateParallelWith sched (sumBlocks read) blockIndices numWorkers.toNat

/-- `AggregateWithOptions` (reader_aggregate.go:45-133). -/
def aggregateWithOptionsLive (view : UInt64 → Bytes) (sched : Sched) (r : Reader B) (opts : AggregateOptions B) :
    Res AggregateResult :=
  if opts.parallel ≠ 0 then aggregateParallelLive view sched r opts
  else aggregateSequentialLive view r opts

end R
end VibeCol
