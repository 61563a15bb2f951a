/-
The reader again (reader.go, reader_io.go, reader_header.go, reader_block.go,
reader_aggregate.go, multicol/aggregate.go), with reads that may fail and a file that may have
been closed. `Verif/Model/Reader.lean` and `Verif/Model/Aggregate.lean` are the case in which
nothing fails (proved in `Verif/Props/ReadFaults.lean`).

Each call gets its own fault oracle: `fail n` says that the `n`-th read of that call fails; for
aggregations, which read each block at most once and possibly concurrently, `fail i` says that
the read of block `i` fails. A closed file makes all reads fail.
-/
import Verif.Model.Aggregate
import Verif.Model.MultiCol
namespace VibeCol

/-- `readBytesAt` (reader_io.go:10-20). `os.File.ReadAt` refuses negative offsets first, and reads
nothing, so that nothing can fail, if the buffer is empty. -/
def readBytesAtIO (fail : Bool) (file : Bytes) (offset : Int64) (size : Int64) : Res Bytes :=
  if size < 0 then .panic
  else if offset < 0 then .err .negativeOffset
  else if size = 0 then .ok []
  else if fail then .err .io
  else readBytesAt file offset size

/-- `readHeader` (reader_header.go:9-67). -/
def readHeaderIO (fail : Bool) (file : Bytes) : Res FileHeader := do
  let headerBuf ← readBytesAtIO fail file 0 (Int64.ofNat headerSize)
  let h := parseHeader headerBuf
  if h.magic ≠ magicNumber then .err .badMagic
  else if h.version ≠ version then .err .badVersion
  else .ok h

/-- `readFooter` (reader_header.go:70-142): three reads. -/
def readFooterIO (fail : Nat → Bool) (file : Bytes) (header : FileHeader) :
    Res (FileHeader × FooterMetadata × List FooterEntry) := do
  let fileSize := Int64.ofNat file.length
  if fileSize < 24 then .err .fileTooSmall else do
  let footerMetaOffset := fileSize - 24
  let footerMetaBuf ← readBytesAtIO (fail 0) file footerMetaOffset 24
  let footerMeta : FooterMetadata :=
    { footerSize := rd64 footerMetaBuf 0
      checksum := rd64 footerMetaBuf 8
      magic := rd64 footerMetaBuf 16 }
  if footerMeta.magic ≠ magicNumber then .err .badFooterMagic else do
  let footerStart := footerMetaOffset - footerMeta.footerSize.toInt64
  if footerStart < 64 then .err .badFooterSize else do
  let blockIndexCountBuf ← readBytesAtIO (fail 1) file footerStart 4
  let blockIndexCount := rd32 blockIndexCountBuf 0
  let header :=
    if blockIndexCount.toUInt64 ≠ header.blockCount then
      if blockIndexCount.toUInt64 > header.blockCount then
        { header with blockCount := blockIndexCount.toUInt64 }
      else header
    else header
  let blockIndexSize := Int64.ofNat (blockIndexCount.toNat * 56)
  let blockIndexBuf ← readBytesAtIO (fail 2) file (footerStart + 4) blockIndexSize
  let blockIndex := (List.range blockIndexCount.toNat).map
    (fun i => parseEntry blockIndexBuf (UInt32.ofNat i))
  .ok (header, footerMeta, blockIndex)

section R
variable {B : Type} [Bitmap B]

/-- `NewReader` (reader.go:23-56): `os.Open` and `Stat` are operations 0 and 1, the reads 2 to 5. -/
def newReaderIO (fail : Nat → Bool) (file : Bytes) : Res (Reader B) :=
  if fail 0 then .err .io else
  if fail 1 then .err .io else do
  let header ← readHeaderIO (fail 2) file
  let (header, footerMeta, blockIndex) ← readFooterIO (fun n => fail (n + 3)) file header
  .ok { bytes := file, header := header, footerMeta := footerMeta, blockIndex := blockIndex,
        globalIDs := none, cacheGlobalIDs := false }

/-- `readBlock` (reader_block.go:9-69): one read. -/
def readBlockIO (fail : Bool) (r : Reader B) (blockIndex : Int64) : Res (List UInt64 × List Int64) :=
  if blockIndex < 0 then .err .badBlockIndex else
  match r.blockIndex[blockIndex.toInt.toNat]? with
  | none => .err .badBlockIndex
  | some entry => do
    let blockOffset := entry.blockOffset.toInt64
    let count := entry.count.toNat
    let dataOffset := blockOffset + 64
    let dataSize := Int64.ofNat entry.blockSize.toNat - 64
    let blockData ← readBytesAtIO fail r.bytes dataOffset dataSize
    let _ ← goSlice blockData 0 4
    let _ ← goSlice blockData 4 8
    let _ ← goSlice blockData 8 12
    let _ ← goSlice blockData 12 16
    let idSectionOffset := rd32 blockData 0
    let idSectionSize := rd32 blockData 4
    let valueSectionOffset := rd32 blockData 8
    let valueSectionSize := rd32 blockData 12
    if idSectionSize = 0 then .err .zeroSection else
    if valueSectionSize = 0 then .err .zeroSection else do
    let idStart := 16 + idSectionOffset.toNat
    let idEnd := idStart + idSectionSize.toNat
    let valueStart := 16 + valueSectionOffset.toNat
    let valueEnd := valueStart + valueSectionSize.toNat
    if idEnd > blockData.length ∨ valueEnd > blockData.length then .err .sectionBounds else do
    let idBytes ← goSlice blockData idStart idEnd
    let valueBytes ← goSlice blockData valueStart valueEnd
    decodeBlockData idBytes valueBytes count r.header.encodingType

/-- `GetPairs` (reader.go:59-61). -/
def getPairsIO (fail : Bool) (r : Reader B) (blockIdx : UInt64) : Res (List UInt64 × List Int64) :=
  readBlockIO fail r blockIdx.toInt64

/-- `GetGlobalIDBitmap` (reader.go:141-179): at most two reads. -/
def getGlobalIDBitmapIO (fail : Nat → Bool) (r : Reader B) : Res B × Reader B :=
  match r.globalIDs, r.cacheGlobalIDs with
  | some b, true => (.ok b, r)
  | _, _ =>
    let remember (b : B) : Reader B :=
      if r.cacheGlobalIDs then { r with globalIDs := some b } else r
    if r.header.bitmapOffset = 0 ∨ r.header.bitmapSize = 0 then
      (.ok Bitmap.empty, remember Bitmap.empty)
    else
      match readBytesAtIO (fail 0) r.bytes r.header.bitmapOffset.toInt64 4 with
      | .err e => (.err e, r)
      | .panic => (.panic, r)
      | .ok sizeBuf =>
        let bitmapSize := rd32 sizeBuf 0
        match readBytesAtIO (fail 1) r.bytes (r.header.bitmapOffset.toInt64 + 4)
            (Int64.ofNat bitmapSize.toNat) with
        | .err e => (.err e, r)
        | .panic => (.panic, r)
        | .ok bitmapBuf =>
          let bitmap : B := Bitmap.fromBuffer bitmapBuf
          (.ok bitmap, remember bitmap)

/-- `readBlockFiltered` (reader_aggregate.go:179-210). -/
def readBlockFilteredIO (fail : Bool) (r : Reader B) (blockIndex : Int64) (filter denyFilter : Option B) :
    Res (List UInt64 × List Int64) := do
  let (allIDs, allValues) ← readBlockIO fail r blockIndex
  if filter.isNone ∧ denyFilter.isNone then .ok (allIDs, allValues)
  else filterPairs filter denyFilter allIDs allValues

/-- `AggregateWithOptions` with `Parallel = 0`, and `aggregateWithFilter`
(reader_aggregate.go:51-133, 213-267). -/
def aggregateSequentialIO (fail : UInt64 → Bool) (r : Reader B) (opts : AggregateOptions B) : Res AggregateResult :=
  if opts.filter.isSome ∨ opts.denyFilter.isSome then
    filteredBlockIterator r opts.filter opts.denyFilter >>= fun matchingBlocks =>
    if matchingBlocks.length = 0 then .ok .zero
    else do
      let a ← sumBlocks
        (fun i => readBlockFilteredIO (fail i) r i.toInt64 opts.filter opts.denyFilter) matchingBlocks Acc.init
      .ok a.result
  else if r.blockIndex.length > 0 ∧ opts.skipPreCalculated = false then
    .ok (r.blockIndex.foldl Acc.addEntry Acc.init).result
  else do
    let a ← sumBlocks (fun i => getPairsIO (fail i) r i)
      ((List.range r.header.blockCount.toNat).map UInt64.ofNat) Acc.init
    .ok a.result

/-- `aggregateParallel` (reader_aggregate.go:270-323, 326-543). -/
def aggregateParallelIO (fail : UInt64 → Bool) (sched : Sched) (r : Reader B) (opts : AggregateOptions B) :
    Res AggregateResult :=
  let numWorkers := if opts.parallel < 0 then sched.gomaxprocs else opts.parallel
  let blockCount := r.header.blockCount.toInt64.toInt
  let numWorkers := if numWorkers > blockCount then blockCount else numWorkers
  if numWorkers ≤ 1 ∨ blockCount ≤ 1 then aggregateSequentialIO fail r { opts with parallel := 0 }
  else
    (if opts.filter.isSome ∨ opts.denyFilter.isSome then
        filteredBlockIterator r opts.filter opts.denyFilter
      else firstBlocks blockCount.toNat) >>= fun blockIndices =>
    if blockIndices.length = 0 then .ok .zero
    else if r.blockIndex.length > 0 ∧ opts.skipPreCalculated = false ∧ opts.filter.isNone ∧
        opts.denyFilter.isNone then
      aggregateParallelWith sched (sumEntries r) blockIndices numWorkers.toNat
    else
      let read : UInt64 → Res (List UInt64 × List Int64) := fun i =>
        if opts.filter.isSome ∨ opts.denyFilter.isSome then
          readBlockFilteredIO (fail i) r i.toInt64 opts.filter opts.denyFilter
        else getPairsIO (fail i) r i
      aggregateParallelWith sched (sumBlocks read) blockIndices numWorkers.toNat

/-- `AggregateWithOptions` (reader_aggregate.go:45-133). -/
def aggregateWithOptionsIO (fail : UInt64 → Bool) (sched : Sched) (r : Reader B) (opts : AggregateOptions B) :
    Res AggregateResult :=
  if opts.parallel ≠ 0 then aggregateParallelIO fail sched r opts
  else aggregateSequentialIO fail r opts

/-! ### Open and closed readers -/

/-- A `Reader` together with whether its file is still open. -/
structure OpenReader (B : Type) where
  reader : Reader B
  isOpen : Bool

/-- The calls on a `Reader` that read or close the file or concern the bitmap cache, each with the
reads that fail during it. For `close`, `failing` says whether the operating system reports an
error. -/
inductive IOCall (B : Type) where
  | enable
  | disable
  | getBitmap (fail : Nat → Bool)
  | getPairs (fail : Bool) (i : UInt64)
  | aggregate (fail : UInt64 → Bool) (sched : Sched) (o : AggregateOptions B)
  | close (failing : Bool)

/-- What a call returns. -/
inductive IOOut (B : Type) where
  | done
  | bitmap (b : Res B)
  | pairs (p : Res (List UInt64 × List Int64))
  | result (a : Res AggregateResult)
  | closed (e : Except Err Unit)

/-- `Close` (reader.go:94-96): the descriptor is gone whatever is returned; closing again is an
error. -/
def closeReader (failing : Bool) (s : OpenReader B) : Except Err Unit × OpenReader B :=
  (if s.isOpen ∧ failing = false then .ok () else .error .io, { s with isOpen := false })

/-- Run one call. -/
def IOCall.run : IOCall B → OpenReader B → IOOut B × OpenReader B
  | .enable, s => (.done, { s with reader := enableCaching s.reader })
  | .disable, s => (.done, { s with reader := disableCaching s.reader })
  | .getBitmap fail, s =>
    let (b, r) := getGlobalIDBitmapIO (fun n => !s.isOpen || fail n) s.reader
    (.bitmap b, { s with reader := r })
  | .getPairs fail i, s => (.pairs (getPairsIO (!s.isOpen || fail) s.reader i), s)
  | .aggregate fail sched o, s =>
    (.result (aggregateWithOptionsIO (fun i => !s.isOpen || fail i) sched s.reader o), s)
  | .close failing, s =>
    let (e, s') := closeReader failing s
    (.closed e, s')

/-- Run calls one after the other. -/
def runIO : List (IOCall B) → OpenReader B → List (IOOut B) × OpenReader B
  | [], s => ([], s)
  | c :: cs, s =>
    let (o, s') := c.run s
    let (os, s'') := runIO cs s'
    (o :: os, s'')

/-- `MultiReader.Close` (multicol/aggregate.go:27-35): all readers are closed, the last error is
returned. -/
def closeAll : List (Bool × OpenReader B) → Except Err Unit → Except Err Unit × List (OpenReader B)
  | [], lastErr => (lastErr, [])
  | (failing, s) :: rest, lastErr =>
    let (e, s') := closeReader failing s
    let lastErr := match e with
      | .ok _ => lastErr
      | .error e => .error e
    let (res, ss) := closeAll rest lastErr
    (res, s' :: ss)

end R
end VibeCol
