/-
pkg/col/writer.go, writer_options.go, writer_header.go, writer_encoding.go, writer_block.go,
writer_block_io.go, writer_finalize.go, types.go and the constructors of format.go.
-/
import Verif.Model.Bitmap
import Verif.Model.Encoding
namespace VibeCol

/-- `BlockStats` (types.go:4-11). -/
structure BlockStats where
  minID : UInt64
  maxID : UInt64
  minValue : Int64
  maxValue : Int64
  sum : Int64
  count : UInt32
deriving DecidableEq, Repr

/-- What is known about the storage device: the contents at the last successful `Sync`, and the
writes (offset and bytes) made since, of which any part may have reached the device. -/
structure Disk where
  synced : Bytes
  unsynced : List (Nat × Bytes)

/-- `Writer` (writer.go:19-28). `file` is the open `os.File`; `fileOpen` says whether it has
been closed. Two fields are not in the Go struct but belong to the world: `opNo` counts the
file operations made so far (it only indexes the fault oracle and the clock), and `disk` is
what is known about the storage below the operating system's cache; no code reads it. `blockCount` is a `Nat` instead of a `uint64`. -/
structure Writer (B : Type) where
  file : File
  fileOpen : Bool
  opNo : Nat
  disk : Disk
  blockCount : Nat
  encodingType : UInt32
  blockSizeTarget : UInt32
  blockPositions : List UInt64
  blockSizes : List UInt32
  blockStats : List BlockStats
  globalIDs : B

/-- A method on `*Writer`: it returns a value or an error and, in both cases, leaves the
mutated writer behind. -/
def WM (B α : Type) : Type := Env → Writer B → Except Err α × Writer B

namespace WM
variable {B α β : Type}

/-- `if err != nil { return err }` between two calls: an error skips the rest, the
mutations made so far stay. -/
@[inline] def bind (m : WM B α) (f : α → WM B β) : WM B β := fun env w =>
  match m env w with
  | (.ok a, w') => f a env w'
  | (.error e, w') => (.error e, w')

instance : Monad (WM B) where
  pure a := fun _ w => (.ok a, w)
  bind := WM.bind

/-- Return an error. -/
def throw (e : Err) : WM B α := fun _ w => (.error e, w)

/-- Read the writer struct. -/
def get : WM B (Writer B) := fun _ w => (.ok w, w)

/-- Update fields of the writer struct. -/
def modify (f : Writer B → Writer B) : WM B Unit := fun _ w => (.ok (), f w)

/-- Propagate the result of a pure Go function with an error result. -/
def lift (r : Except Err α) : WM B α := fun _ w =>
  match r with
  | .ok a => (.ok a, w)
  | .error e => (.error e, w)

/-- One `os.File` method call other than `Write`: it fails if the file was closed or the
oracle says so, else applies `f` to the file. -/
def fileOp (f : File → Except Err (α × File)) : WM B α := fun env w =>
  let w' := { w with opNo := w.opNo + 1 }
  if w.fileOpen = false then (.error .io, w')
  else match env.fault w.opNo with
    | some _ => (.error .io, w')
    | none => match f w.file with
      | .ok (a, file) => (.ok a, { w' with file := file })
      | .error e => (.error e, w')

end WM

section Ops
variable {B : Type}

/-- `w.file.Seek(0, io.SeekCurrent)`. -/
def seekCur : WM B Nat := WM.fileOp fun f => .ok (f.pos, f)

/-- `w.file.Seek(off, io.SeekCurrent)`: a negative resulting offset is an error (EINVAL). -/
def seekRel (off : Int) : WM B Nat := WM.fileOp fun f =>
  let p := (f.pos : Int) + off
  if p < 0 then .error .io else .ok (p.toNat, { f with pos := p.toNat })

/-- `w.file.Seek(0, io.SeekStart)`. -/
def seekStart : WM B Nat := WM.fileOp fun f => .ok (0, { f with pos := 0 })

/-- `w.file.Seek(0, io.SeekEnd)`. -/
def seekEnd : WM B Nat := WM.fileOp fun f =>
  .ok (f.bytes.length, { f with pos := f.bytes.length })

/-- `w.file.Sync()`: on success all of the file's contents are on disk. On failure nothing is
known to have reached it. -/
def fsync : WM B Unit := fun env w =>
  let w' := { w with opNo := w.opNo + 1 }
  if w.fileOpen = false then (.error .io, w')
  else match env.fault w.opNo with
    | some _ => (.error .io, w')
    | none => (.ok (), { w' with disk := { synced := w.file.bytes, unsynced := [] } })

/-- `w.file.Write(d)`, also `binary.Write(w.file, binary.LittleEndian, x)` with `d` the
encoding of `x` (one `Write` call). On a fault a prefix of `d` reaches the file and the
offset advances over it. Returns the number of bytes written. -/
def fwrite (d : Bytes) : WM B Nat := fun env w =>
  let w' := { w with opNo := w.opNo + 1 }
  if w.fileOpen = false then (.error .io, w')
  else match env.fault w.opNo with
    | some k =>
      let d' := d.take k
      (.error .io, { w' with
        file := { bytes := writeAt w.file.bytes w.file.pos d', pos := w.file.pos + d'.length }
        disk := { w.disk with unsynced := w.disk.unsynced ++ [(w.file.pos, d')] } })
    | none =>
      (.ok d.length, { w' with
        file := { bytes := writeAt w.file.bytes w.file.pos d, pos := w.file.pos + d.length }
        disk := { w.disk with unsynced := w.disk.unsynced ++ [(w.file.pos, d)] } })

/-- `w.file.Close()`: whatever it returns, the descriptor is gone. -/
def fclose : WM B Unit := fun env w =>
  let w' := { w with opNo := w.opNo + 1, fileOpen := false }
  if w.fileOpen = false then (.error .io, w')
  else match env.fault w.opNo with
    | some _ => (.error .io, w')
    | none => (.ok (), w')

/-- A sequence of `Write`/`binary.Write` calls, each checked for an error; returns the total
number of bytes written. -/
def fwriteAll : List Bytes → WM B Nat
  | [] => pure 0
  | d :: ds => do
    let n ← fwrite d
    let m ← fwriteAll ds
    pure (n + m)

end Ops

/-! ### File header -/

/-- `FileHeader` (format.go:33-45). -/
structure FileHeader where
  magic : UInt64
  version : UInt32
  columnType : UInt32
  blockCount : UInt64
  blockSizeTarget : UInt32
  compressionType : UInt32
  encodingType : UInt32
  creationTime : UInt64
  bitmapOffset : UInt64
  bitmapSize : UInt64
deriving DecidableEq, Repr

/-- `NewFileHeader` (format.go:100-113); `now` is `uint64(time.Now().Unix())`. -/
def newFileHeader (now : UInt64) (blockCount : UInt64) (blockSizeTarget encodingType : UInt32) :
    FileHeader where
  magic := magicNumber
  version := version
  columnType := dataTypeInt64
  blockCount := blockCount
  blockSizeTarget := blockSizeTarget
  compressionType := compressionNone
  encodingType := encodingType
  creationTime := now
  bitmapOffset := 0
  bitmapSize := 0

/-- The field list written one by one (writer_header.go:21-32, writer_finalize.go:70-81). -/
def FileHeader.fields (h : FileHeader) : List Bytes :=
  [le64 h.magic, le32 h.version, le32 h.columnType, le64 h.blockCount, le32 h.blockSizeTarget,
   le32 h.compressionType, le32 h.encodingType, le64 h.creationTime, le64 h.bitmapOffset,
   le64 h.bitmapSize]

section W
variable {B : Type} [Bitmap B]

/-- `time.Now().Unix()` as seen by the next header construction. -/
def now : WM B UInt64 := fun env w => (.ok (env.clock w.opNo), w)

/-- `writeHeader` (writer_header.go:10-67). -/
def writeHeader : WM B Unit := do
  let headerStart ← seekCur
  let t ← now
  let w ← WM.get
  let header := newFileHeader t 0 w.blockSizeTarget w.encodingType
  let _ ← fwriteAll header.fields
  let reservedSize := headerSize - (8 + 4 + 4 + 8 + 4 + 4 + 4 + 8 + 8 + 8)
  let _ ← fwrite (List.replicate reservedSize 0)
  let headerEnd ← seekCur
  if headerEnd - headerStart ≠ headerSize then WM.throw .headerSizeMismatch
  else pure ()

/-- `WriterOption` (writer_options.go:4-18): the two options there are. -/
inductive WriterOption where
  | withEncoding (encodingType : UInt32)
  | withBlockSize (blockSize : UInt32)

/-- Applying one option (writer_options.go:7-18). -/
def WriterOption.apply (o : WriterOption) (w : Writer B) : Writer B :=
  match o with
  | .withEncoding e => { w with encodingType := e }
  | .withBlockSize s => { w with blockSizeTarget := s }

/-- The struct built at writer.go:37-46 after `os.Create` (an empty, truncated file). -/
def initWriter : Writer B where
  disk := { synced := [], unsynced := [] }
  file := { bytes := [], pos := 0 }
  fileOpen := true
  opNo := 0
  blockCount := 0
  encodingType := encRaw
  blockSizeTarget := defaultBlockSize
  blockPositions := []
  blockSizes := []
  blockStats := []
  globalIDs := Bitmap.empty

/-- `NewWriter` (writer.go:31-60), from a successful `os.Create` on: applies the options in
order, then writes the header. -/
def newWriter (options : List WriterOption) (env : Env) : Except Err Unit × Writer B :=
  writeHeader env (options.foldl (fun w o => o.apply w) initWriter)

/-! ### Encoding a section -/

/-- The size loop of `encodeData` (writer_encoding.go:33-40): returns the encoded byte
strings and the `uint32` sum of their lengths. -/
def encodeVarLoop {T : Type} (enc : T → Bytes) : List T → UInt32 → Except Err (List Bytes × UInt32)
  | [], sectionSize => .ok ([], sectionSize)
  | d :: ds, sectionSize =>
    let bs := enc d
    let dataSize := UInt32.ofNat bs.length
    if dataSize = 0 then .error .zeroEncodedSize
    else match encodeVarLoop enc ds (sectionSize + dataSize) with
      | .ok (rest, total) => .ok (bs :: rest, total)
      | .error e => .error e

/-- `encodeData` (writer_encoding.go:8-49). Both `switch` statements look only at the
encoding type, so IDs and values are treated alike. -/
def encodeData {T : Type} (encodingType : UInt32) (data : List T)
    (deltaEncodeFunc : List T → List T) (encodeVarIntFunc : T → Bytes) :
    Except Err (List T × List Bytes × UInt32) :=
  let encoded : Except Err (List T) :=
    if encodingType = encRaw ∨ encodingType = encVarInt ∨ encodingType = encVarIntID then
      .ok data
    else if encodingType = encDeltaID ∨ encodingType = encDeltaValue ∨
        encodingType = encDeltaBoth ∨ encodingType = encVarIntValue ∨
        encodingType = encVarIntBoth then
      .ok (deltaEncodeFunc data)
    else .error .unsupportedEncoding
  match encoded with
  | .error e => .error e
  | .ok encodedData =>
    if encodingType = encRaw ∨ encodingType = encDeltaID ∨ encodingType = encDeltaValue ∨
        encodingType = encDeltaBoth then
      .ok (encodedData, [], UInt32.ofNat (encodedData.length * 8))
    else
      match encodeVarLoop encodeVarIntFunc encodedData 0 with
      | .error e => .error e
      | .ok (bytes, sectionSize) =>
        if sectionSize = 0 ∧ encodedData.length > 0 then .error .zeroSection
        else .ok (encodedData, bytes, sectionSize)

/-- `encodeIDs` (writer_block.go:147-149). -/
def encodeIDs (encodingType : UInt32) (ids : List UInt64) :
    Except Err (List UInt64 × List Bytes × UInt32) :=
  encodeData encodingType ids deltaEncode encodeVarInt

/-- `encodeValues` (writer_block.go:152-154). -/
def encodeValues (encodingType : UInt32) (values : List Int64) :
    Except Err (List Int64 × List Bytes × UInt32) :=
  encodeData encodingType values deltaEncodeInt64 encodeSignedVarInt

/-- `useVarIntForIDs` (writer_block_io.go:79-81). -/
def useVarIntForIDs (e : UInt32) : Bool :=
  e == encVarInt || e == encVarIntID || e == encVarIntBoth

/-- `useVarIntForValues` (writer_block_io.go:82-84). -/
def useVarIntForValues (e : UInt32) : Bool :=
  e == encVarInt || e == encVarIntValue || e == encVarIntBoth

/-! ### Writing a block -/

/-- `writeBlockHeader` (writer_block.go:10-76): the first 52 bytes of the block header. -/
def writeBlockHeader (minID maxID minValueU64 maxValueU64 sumU64 : UInt64) (count : UInt32) :
    WM B Nat := do
  let headerStart ← seekCur
  let w ← WM.get
  let _ ← fwriteAll [le64 minID, le64 maxID, le64 minValueU64, le64 maxValueU64, le64 sumU64,
    le32 count, le32 w.encodingType, le32 compressionNone]
  let currentPos ← seekCur
  let writtenSoFar := currentPos - headerStart
  if writtenSoFar ≠ 52 then WM.throw .headerSizeMismatch
  else pure writtenSoFar

/-- `writeBlockInternal` (writer_block_io.go:72-324). Sizes and positions are `Nat`, the
`uint32(...)` conversions are explicit. The checksum, compressed and uncompressed sizes are
the constant zeros the code writes; `reserved` is `64 - 68 = -4`, so the `Seek` goes
backwards over half of the checksum, as in the code. -/
def writeBlockInternal (ids : List UInt64) (values : List Int64) : WM B Unit := do
  WM.modify fun w => { w with globalIDs := ids.foldl Bitmap.set w.globalIDs }
  let w ← WM.get
  let (encodedIDs, encodedIdBytes, idSectionSize) ← WM.lift (encodeIDs w.encodingType ids)
  let (encodedValues, encodedValueBytes, valueSectionSize) ←
    WM.lift (encodeValues w.encodingType values)
  let (minID, maxID) := calculateMinMaxUint64 ids
  let (minValue, maxValue) := calculateMinMaxInt64 values
  let sum := calculateSumInt64 values
  let count := UInt32.ofNat ids.length
  let blockStart ← seekCur
  WM.modify fun w => { w with blockPositions := w.blockPositions ++ [UInt64.ofNat blockStart] }
  let headerWritten ← writeBlockHeader minID maxID (int64ToUint64 minValue)
    (int64ToUint64 maxValue) (int64ToUint64 sum) count
  let _ ← fwrite (le32 0)
  let headerWritten := headerWritten + 4
  let _ ← fwrite (le32 0)
  let headerWritten := headerWritten + 4
  let _ ← seekCur
  let _ ← fwrite (le64 0)
  let headerWritten := headerWritten + 8
  let reserved : Int := (blockHeaderSize : Int) - (headerWritten : Int)
  let _ ← seekRel reserved
  let headerWritten : Int := (headerWritten : Int) + reserved
  if headerWritten ≠ blockHeaderSize then WM.throw .headerSizeMismatch else
  if idSectionSize = 0 then WM.throw .zeroSection else
  if valueSectionSize = 0 then WM.throw .zeroSection else do
  let _ ← fwrite (le32 0 ++ le32 idSectionSize ++ le32 idSectionSize ++ le32 valueSectionSize)
  let _ ← seekCur
  let actualIdSectionSize ← fwriteAll
    (if useVarIntForIDs w.encodingType then encodedIdBytes else encodedIDs.map le64)
  if UInt32.ofNat actualIdSectionSize ≠ idSectionSize then WM.throw .sectionSizeMismatch else do
  let actualValueSectionSize ← fwriteAll
    (if useVarIntForValues w.encodingType then encodedValueBytes else encodedValues.map leI64)
  if UInt32.ofNat actualValueSectionSize ≠ valueSectionSize then
    WM.throw .sectionSizeMismatch else do
  let blockEnd ← seekCur
  let padding := calculatePadding blockEnd pageSize
  if padding > 0 then
    let _ ← fwrite (List.replicate padding 0)
  let blockSize := (blockEnd - blockStart) + padding
  let expectedBlockSize := blockHeaderSize + blockLayoutSize + idSectionSize.toNat +
    valueSectionSize.toNat
  if blockSize - padding ≠ expectedBlockSize then WM.throw .blockSizeMismatch else do
  WM.modify fun w => { w with
    blockSizes := w.blockSizes ++ [UInt32.ofNat blockSize]
    blockStats := w.blockStats ++ [{
      minID := minID, maxID := maxID, minValue := minValue, maxValue := maxValue,
      sum := sum, count := count }]
    blockCount := w.blockCount + 1 }
  fsync

/-- `EstimateBlockSize` (writer_block_io.go:328-368). The sum at line 350 is computed in
`uint32` before the conversion to `uint64`. -/
def estimateBlockSize (ids : List UInt64) (values : List Int64) : WM B Nat := do
  if ids.length ≠ values.length then WM.throw .lengthMismatch else
  if ids.length = 0 then WM.throw .emptyBlock else do
  let w ← WM.get
  let (_, _, idSectionSize) ← WM.lift (encodeIDs w.encodingType ids)
  let (_, _, valueSectionSize) ← WM.lift (encodeValues w.encodingType values)
  let totalSize := (UInt32.ofNat (blockHeaderSize + blockLayoutSize) + idSectionSize +
    valueSectionSize).toNat
  let currentPos ← seekCur
  let blockEnd := currentPos + totalSize
  let padding := calculatePadding blockEnd pageSize
  pure (if padding > 0 then totalSize + padding else totalSize)

/-- The search loop of `WriteBlock` (writer_block_io.go:43-55): `i` runs from its current
value while `i < len(ids)` (`fuel = len(ids) - i`); an error in the estimate or a size
above the target stops it. -/
def findOptimal (ids : List UInt64) (values : List Int64) :
    (fuel : Nat) → (i : Nat) → (optimal : Nat) → WM B Nat
  | 0, _, optimal => pure optimal
  | fuel + 1, i, optimal => fun env w =>
    match estimateBlockSize (ids.take i) (values.take i) env w with
    | (.error _, w') => (.ok optimal, w')
    | (.ok size, w') =>
      if size ≤ w.blockSizeTarget.toNat then findOptimal ids values fuel (i + 1) i env w'
      else (.ok optimal, w')

/-- `WriteBlock` (writer_block_io.go:21-68). -/
def writeBlock (ids : List UInt64) (values : List Int64) : WM B Unit := do
  if ids.length ≠ values.length then WM.throw .lengthMismatch else
  if ids.length = 0 then WM.throw .emptyBlock else do
  let estimatedSize ← estimateBlockSize ids values
  let w ← WM.get
  if estimatedSize > w.blockSizeTarget.toNat ∧ ids.length > 1 then do
    let optimal ← findOptimal ids values (ids.length - 1) 1 1
    writeBlockInternal (ids.take optimal) (values.take optimal)
    WM.throw (.blockFull optimal)
  else
    writeBlockInternal ids values

/-! ### Finalizing -/

/-- `writeGlobalIDBitmap` (writer_finalize.go:10-41). -/
def writeGlobalIDBitmap : WM B (Nat × Nat) := do
  let bitmapOffset ← seekCur
  let w ← WM.get
  let buf := Bitmap.toBuffer w.globalIDs
  let _ ← fwrite (le32 (UInt32.ofNat buf.length))
  let _ ← fwrite buf
  let currentPos ← seekCur
  pure (bitmapOffset, currentPos - bitmapOffset)

/-- `FooterEntry` (format.go:72-81). -/
structure FooterEntry where
  blockOffset : UInt64
  blockSize : UInt32
  minID : UInt64
  maxID : UInt64
  minValue : UInt64
  maxValue : UInt64
  sum : UInt64
  count : UInt32
deriving DecidableEq, Repr

/-- `NewFooterEntry` (format.go:143-165). -/
def newFooterEntry (blockOffset : UInt64) (blockSize : UInt32) (minID maxID : UInt64)
    (minValue maxValue sum : Int64) (count : UInt32) : FooterEntry where
  blockOffset := blockOffset
  blockSize := blockSize
  minID := minID
  maxID := maxID
  minValue := int64ToUint64 minValue
  maxValue := int64ToUint64 maxValue
  sum := int64ToUint64 sum
  count := count

/-- The fields in the order written (writer_block.go:94-117). -/
def FooterEntry.fields (e : FooterEntry) : List Bytes :=
  [le64 e.blockOffset, le32 e.blockSize, le64 e.minID, le64 e.maxID, le64 e.minValue,
   le64 e.maxValue, le64 e.sum, le32 e.count]

/-- The index entry for one block (writer_finalize.go:135-148, writer_block.go:86-92). -/
def entryOf (p : UInt64 × UInt32 × BlockStats) : FooterEntry :=
  newFooterEntry p.1 p.2.1 p.2.2.minID p.2.2.maxID p.2.2.minValue p.2.2.maxValue p.2.2.sum
    p.2.2.count

/-- `writeBlockFooter` (writer_block.go:79-144). -/
def writeBlockFooter (entry : FooterEntry) : WM B Unit := do
  let footerEntryStart ← seekCur
  let _ ← fwriteAll entry.fields
  let footerEntryEnd ← seekCur
  if footerEntryEnd - footerEntryStart ≠ 56 then WM.throw .footerSizeMismatch
  else pure ()

/-- The loop at writer_finalize.go:134-151. -/
def writeBlockFooters : List FooterEntry → WM B Unit
  | [] => pure ()
  | e :: es => do
    writeBlockFooter e
    writeBlockFooters es

/-- The per-block data the loop at writer_finalize.go:134-151 walks over. The three slices
are indexed by the same `blockIdx`; `blockSizes` and `blockStats` always have exactly
`blockCount` elements (see `Inv` in Lemmas/Inv.lean), so zipping is the same as indexing. -/
def Writer.entries (w : Writer B) : List FooterEntry :=
  (w.blockPositions.zip (w.blockSizes.zip w.blockStats)).map entryOf

/-- `Finalize` (writer_finalize.go:52-204). -/
def finalize : WM B Unit := do
  let (bitmapOffset, bitmapSize) ← writeGlobalIDBitmap
  let _ ← seekStart
  let t ← now
  let w ← WM.get
  let header := { newFileHeader t (UInt64.ofNat w.blockCount) w.blockSizeTarget w.encodingType with
    bitmapOffset := UInt64.ofNat bitmapOffset
    bitmapSize := UInt64.ofNat bitmapSize }
  let _ ← fwriteAll header.fields
  let _ ← seekEnd
  let currentPos ← seekCur
  let padding := calculatePadding currentPos pageSize
  if padding > 0 then
    let _ ← fwrite (List.replicate padding 0)
  let footerStart ← seekCur
  let _ ← fwrite (le32 (UInt32.ofNat w.blockCount))
  if w.blockCount > 0 then
    if w.blockPositions.length ≠ w.blockCount then WM.throw .positionTracking
    else writeBlockFooters w.entries
  let footerEnd ← seekCur
  let footerSize := footerEnd - footerStart
  let _ ← fwriteAll [le64 (UInt64.ofNat footerSize), le64 0, le64 magicNumber]
  let footerMetaEnd ← seekCur
  if footerMetaEnd - footerEnd ≠ 24 then WM.throw .footerSizeMismatch else
  if footerMetaEnd - footerStart ≠ footerSize + 24 then WM.throw .footerSizeMismatch else
  fsync

/-- `FinalizeAndClose` (writer_finalize.go:44-49). -/
def finalizeAndClose : WM B Unit := do
  finalize
  fclose

end W
end VibeCol
