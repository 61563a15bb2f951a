/-
pkg/col/reader.go, reader_io.go, reader_header.go, reader_block.go, reader_decode.go.

The file being read does not change while it is open (but see Live.lean): the reader is a pure function of the
file's bytes. Memory allocation always succeeds (but `make` panics on a negative length).
-/
import Verif.Model.Writer
namespace VibeCol

/-- `readBytesAt` (reader_io.go:10-20): `make` panics on a negative size, `ReadAt` refuses a
negative offset, and a read past the end of the file is *not* an error (`io.EOF` is
ignored): the missing bytes stay zero. -/
def readBytesAt (file : Bytes) (offset : Int64) (size : Int64) : Res Bytes :=
  if size < 0 then .panic
  else if offset < 0 then .err .negativeOffset
  else
    let got := (file.drop offset.toInt.toNat).take size.toInt.toNat
    .ok (got ++ List.replicate (size.toInt.toNat - got.length) 0)

/-- `FooterMetadata` (format.go:84-88). -/
structure FooterMetadata where
  footerSize : UInt64
  checksum : UInt64
  magic : UInt64
deriving DecidableEq, Repr

/-- `Reader` (reader.go:12-20). `bytes` stands for the open file, `fileSize` is its length. -/
structure Reader (B : Type) where
  bytes : Bytes
  header : FileHeader
  footerMeta : FooterMetadata
  blockIndex : List FooterEntry
  globalIDs : Option B
  cacheGlobalIDs : Bool

/-- The field extraction of `readHeader` (reader_header.go:16-56); `headerBuf` has 64 bytes. -/
def parseHeader (headerBuf : Bytes) : FileHeader where
  magic := rd64 headerBuf 0
  version := rd32 headerBuf 8
  columnType := rd32 headerBuf 12
  blockCount := rd64 headerBuf 16
  blockSizeTarget := rd32 headerBuf 24
  compressionType := rd32 headerBuf 28
  encodingType := rd32 headerBuf 32
  creationTime := rd64 headerBuf 36
  bitmapOffset := rd64 headerBuf 44
  bitmapSize := rd64 headerBuf 52

/-- `readHeader` (reader_header.go:9-67). -/
def readHeader (file : Bytes) : Res FileHeader := do
  let headerBuf ← readBytesAt file 0 (Int64.ofNat headerSize)
  let h := parseHeader headerBuf
  if h.magic ≠ magicNumber then .err .badMagic
  else if h.version ≠ version then .err .badVersion
  else .ok h

/-- One index entry (reader_header.go:126-138). `entryOffset` and the sums `entryOffset+k`
are `uint32`; the buffer holds `blockIndexCount*56` bytes, so every access is in range. -/
def parseEntry (buf : Bytes) (i : UInt32) : FooterEntry :=
  let entryOffset := i * 56
  { blockOffset := rd64 buf entryOffset.toNat
    blockSize := rd32 buf (entryOffset + 8).toNat
    minID := rd64 buf (entryOffset + 12).toNat
    maxID := rd64 buf (entryOffset + 20).toNat
    minValue := rd64 buf (entryOffset + 28).toNat
    maxValue := rd64 buf (entryOffset + 36).toNat
    sum := rd64 buf (entryOffset + 44).toNat
    count := rd32 buf (entryOffset + 52).toNat }

/-- `readFooter` (reader_header.go:70-142): returns the (possibly corrected) header, the
footer metadata and the block index. `fileSize` is an `int64`. -/
def readFooter (file : Bytes) (header : FileHeader) :
    Res (FileHeader × FooterMetadata × List FooterEntry) := do
  let fileSize := Int64.ofNat file.length
  if fileSize < 24 then .err .fileTooSmall else do
  let footerMetaOffset := fileSize - 24
  let footerMetaBuf ← readBytesAt file footerMetaOffset 24
  let footerMeta : FooterMetadata :=
    { footerSize := rd64 footerMetaBuf 0
      checksum := rd64 footerMetaBuf 8
      magic := rd64 footerMetaBuf 16 }
  if footerMeta.magic ≠ magicNumber then .err .badFooterMagic else do
  let footerStart := footerMetaOffset - footerMeta.footerSize.toInt64
  if footerStart < 64 then .err .badFooterSize else do
  let blockIndexCountBuf ← readBytesAt file footerStart 4
  let blockIndexCount := rd32 blockIndexCountBuf 0
  let header :=
    if blockIndexCount.toUInt64 ≠ header.blockCount then
      if blockIndexCount.toUInt64 > header.blockCount then
        { header with blockCount := blockIndexCount.toUInt64 }
      else header
    else header
  let blockIndexSize := Int64.ofNat (blockIndexCount.toNat * 56)
  let blockIndexBuf ← readBytesAt file (footerStart + 4) blockIndexSize
  let blockIndex := (List.range blockIndexCount.toNat).map
    (fun i => parseEntry blockIndexBuf (UInt32.ofNat i))
  .ok (header, footerMeta, blockIndex)

section R
variable {B : Type} [Bitmap B]

/-- `NewReader` (reader.go:23-56) on a file with these contents; `os.Open` and `Stat`
succeed. -/
def newReader (file : Bytes) : Res (Reader B) := do
  let header ← readHeader file
  let (header, footerMeta, blockIndex) ← readFooter file header
  .ok { bytes := file, header := header, footerMeta := footerMeta, blockIndex := blockIndex,
        globalIDs := none, cacheGlobalIDs := false }

/-- The loop of `decodeUVarInts` (reader_decode.go:120-139): remaining count, index `i`,
remaining bytes. The `Bool` records the early `return vals, nil` of line 132. -/
def decodeUVarIntsLoop : Nat → Nat → Bytes → Res (List UInt64 × Bool)
  | 0, _, _ => .ok ([], false)
  | _ + 1, _, [] => .ok ([], false)
  | k + 1, i, b :: bs =>
    let (v, n) := uvarint (b :: bs)
    if n ≤ 0 then
      if i > 0 then .ok ([], true) else .err .badVarint
    else do
      let (vs, early) ← decodeUVarIntsLoop k (i + 1) ((b :: bs).drop n.toNat)
      .ok (v :: vs, early)

/-- `decodeUVarInts` (reader_decode.go:115-150), including the made-up sequential IDs of
lines 142-147. -/
def decodeUVarInts (buf : Bytes) (count : Nat) : Res (List UInt64) := do
  let (vals, early) ← decodeUVarIntsLoop count 0 buf
  if early then .ok vals
  else .ok (vals ++ (List.range (count - vals.length)).map
    (fun j => UInt64.ofNat (vals.length + j + 1)))

/-- The varint value loop (reader_decode.go:50-66): slots not reached stay zero. -/
def decodeValuesLoop : Nat → Nat → Bytes → List Int64
  | 0, _, _ => []
  | k + 1, _, [] => List.replicate (k + 1) 0
  | k + 1, i, b :: bs =>
    let (v, bytesRead) := decodeSignedVarInt (b :: bs)
    if bytesRead = 0 then Int64.ofNat ((i + 1) * 100) :: decodeValuesLoop k (i + 1) bs
    else v :: decodeValuesLoop k (i + 1) ((b :: bs).drop bytesRead)

/-- The fixed-width ID loop (reader_decode.go:33-42). -/
def decodeFixedIDs (idBytes : Bytes) (count : Nat) : List UInt64 :=
  (List.range count).map fun i =>
    if i * 8 + 8 ≤ idBytes.length then rd64 idBytes (i * 8) else UInt64.ofNat (i + 1)

/-- The fixed-width value loop (reader_decode.go:79-87). -/
def decodeFixedValues (valueBytes : Bytes) (count : Nat) : List Int64 :=
  (List.range count).map fun i =>
    if i * 8 + 8 ≤ valueBytes.length then (rd64 valueBytes (i * 8)).toInt64
    else Int64.ofNat ((i + 1) * 100)

/-- `isVarInt` (reader_decode.go:14-17); also `IsVarIntEncoded` (reader.go:81-86). -/
def isVarIntEnc (e : UInt32) : Bool :=
  e == encVarInt || e == encVarIntID || e == encVarIntValue || e == encVarIntBoth

/-- `IsDeltaEncoded` (reader.go:74-78). -/
def isDeltaEnc (e : UInt32) : Bool :=
  e == encDeltaID || e == encDeltaValue || e == encDeltaBoth

/-- `decodeBlockData` (reader_decode.go:9-112). -/
def decodeBlockData (idBytes valueBytes : Bytes) (count : Nat) (encodingType : UInt32) :
    Res (List UInt64 × List Int64) := do
  let (ids, values) ←
    if isVarIntEnc encodingType then do
      let ids ← decodeUVarInts idBytes count
      Res.ok (ids, decodeValuesLoop count 0 valueBytes)
    else
      let maxCount := idBytes.length / 8
      let count := if count > maxCount then maxCount else count
      let ids := decodeFixedIDs idBytes count
      let maxCountV := valueBytes.length / 8
      let countV := if count > maxCountV then maxCountV else count
      let ids := if count > maxCountV then
          (if ids.length > countV then ids.take countV else ids) else ids
      Res.ok (ids, decodeFixedValues valueBytes countV)
  if encodingType = encDeltaBoth ∨ encodingType = encVarIntBoth then
    Res.ok (deltaDecode ids, deltaDecodeInt64 values)
  else if encodingType = encDeltaID ∨ encodingType = encVarIntID then
    Res.ok (deltaDecode ids, values)
  else if encodingType = encDeltaValue ∨ encodingType = encVarIntValue then
    Res.ok (ids, deltaDecodeInt64 values)
  else Res.ok (ids, values)

/-- `readBlock` (reader_block.go:9-69). -/
def readBlock (r : Reader B) (blockIndex : Int64) : Res (List UInt64 × List Int64) :=
  if blockIndex < 0 then .err .badBlockIndex else
  match r.blockIndex[blockIndex.toInt.toNat]? with
  | none => .err .badBlockIndex
  | some entry => do
    let blockOffset := entry.blockOffset.toInt64
    let count := entry.count.toNat
    let dataOffset := blockOffset + 64
    let dataSize := Int64.ofNat entry.blockSize.toNat - 64
    let blockData ← readBytesAt r.bytes dataOffset dataSize
    let _ ← goSlice blockData 0 4
    let _ ← goSlice blockData 4 8
    let _ ← goSlice blockData 8 12
    let _ ← goSlice blockData 12 16
    let idSectionOffset := rd32 blockData 0
    let idSectionSize := rd32 blockData 4
    let valueSectionOffset := rd32 blockData 8
    let valueSectionSize := rd32 blockData 12
    if idSectionSize = 0 then .err .zeroSection else
    if valueSectionSize = 0 then .err .zeroSection else do
    let idStart := 16 + idSectionOffset.toNat
    let idEnd := idStart + idSectionSize.toNat
    let valueStart := 16 + valueSectionOffset.toNat
    let valueEnd := valueStart + valueSectionSize.toNat
    if idEnd > blockData.length ∨ valueEnd > blockData.length then .err .sectionBounds else do
    let idBytes ← goSlice blockData idStart idEnd
    let valueBytes ← goSlice blockData valueStart valueEnd
    decodeBlockData idBytes valueBytes count r.header.encodingType

/-- `GetPairs` (reader.go:59-61): `int(blockIdx)` may turn negative. -/
def getPairs (r : Reader B) (blockIdx : UInt64) : Res (List UInt64 × List Int64) :=
  readBlock r blockIdx.toInt64

/-- `BlockCount` (reader.go:89-91). -/
def Reader.blockCount (r : Reader B) : UInt64 := r.header.blockCount
/-- `Version` (reader.go:64-66). -/
def Reader.version (r : Reader B) : UInt32 := r.header.version
/-- `EncodingType` (reader.go:69-71). -/
def Reader.encodingType (r : Reader B) : UInt32 := r.header.encodingType

/-- `EnableGlobalIDBitmapCaching` (reader.go:128-130). -/
def enableCaching (r : Reader B) : Reader B := { r with cacheGlobalIDs := true }

/-- `DisableGlobalIDBitmapCaching` (reader.go:133-136). -/
def disableCaching (r : Reader B) : Reader B :=
  { r with cacheGlobalIDs := false, globalIDs := none }

/-- `GetGlobalIDBitmap` (reader.go:141-179). A bitmap is a value here: the caller's later
mutations of the returned `*sroar.Bitmap` are not modelled. -/
def getGlobalIDBitmap (r : Reader B) : Res B × Reader B :=
  match r.globalIDs, r.cacheGlobalIDs with
  | some b, true => (.ok b, r)
  | _, _ =>
    let remember (b : B) : Reader B :=
      if r.cacheGlobalIDs then { r with globalIDs := some b } else r
    if r.header.bitmapOffset = 0 ∨ r.header.bitmapSize = 0 then
      (.ok Bitmap.empty, remember Bitmap.empty)
    else
      match readBytesAt r.bytes r.header.bitmapOffset.toInt64 4 with
      | .err e => (.err e, r)
      | .panic => (.panic, r)
      | .ok sizeBuf =>
        let bitmapSize := rd32 sizeBuf 0
        match readBytesAt r.bytes (r.header.bitmapOffset.toInt64 + 4)
            (Int64.ofNat bitmapSize.toNat) with
        | .err e => (.err e, r)
        | .panic => (.panic, r)
        | .ok bitmapBuf =>
          let bitmap : B := Bitmap.fromBuffer bitmapBuf
          (.ok bitmap, remember bitmap)

end R
end VibeCol
