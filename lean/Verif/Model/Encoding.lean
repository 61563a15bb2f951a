/-
pkg/col/encoding.go, pkg/col/constants.go, pkg/col/utils.go and the standard library's
`binary.Uvarint`.
-/
import Verif.Model.Prim
namespace VibeCol

/-! ### Constants (pkg/col/format.go:8-30, pkg/col/constants.go:4-22) -/

/-- `MagicNumber` (format.go:10). -/
def magicNumber : UInt64 := 0x5642455F434F4C00
/-- `Version` (format.go:13). -/
def version : UInt32 := 1
/-- `DataTypeInt64` (format.go:16). -/
def dataTypeInt64 : UInt32 := 0
/-- `EncodingRaw` (format.go:19). -/
def encRaw : UInt32 := 0
/-- `EncodingDeltaID` (format.go:20). -/
def encDeltaID : UInt32 := 1
/-- `EncodingDeltaValue` (format.go:21). -/
def encDeltaValue : UInt32 := 2
/-- `EncodingDeltaBoth` (format.go:22). -/
def encDeltaBoth : UInt32 := 3
/-- `EncodingVarInt` (format.go:23). -/
def encVarInt : UInt32 := 4
/-- `EncodingVarIntID` (format.go:24). -/
def encVarIntID : UInt32 := 5
/-- `EncodingVarIntValue` (format.go:25). -/
def encVarIntValue : UInt32 := 6
/-- `EncodingVarIntBoth` (format.go:26). -/
def encVarIntBoth : UInt32 := 7
/-- `CompressionNone` (format.go:29). -/
def compressionNone : UInt32 := 0
/-- `headerSize` (constants.go:9). -/
def headerSize : Nat := 64
/-- `blockHeaderSize` (constants.go:10). -/
def blockHeaderSize : Nat := 64
/-- `blockLayoutSize` (constants.go:11). -/
def blockLayoutSize : Nat := 16
/-- `defaultBlockSize` (constants.go:14). -/
def defaultBlockSize : UInt32 := 16384
/-- `PageSize` (constants.go:21). -/
def pageSize : Nat := 4096

/-- `calculatePadding` (constants.go:25-30). Positions are non-negative, so `Nat` replaces
`int64`. -/
def calculatePadding (currentPosition pageSize : Nat) : Nat :=
  if currentPosition % pageSize = 0 then 0
  else pageSize - currentPosition % pageSize

/-! ### Delta encoding -/

/-- The loop of `deltaEncode` (encoding.go:20-22): `prev` is `values[i-1]`. -/
def deltaEncodeFrom (prev : UInt64) : List UInt64 → List UInt64
  | [] => []
  | v :: vs => (v - prev) :: deltaEncodeFrom v vs

/-- `deltaEncode` (encoding.go:10-25). -/
def deltaEncode : List UInt64 → List UInt64
  | [] => []
  | v :: vs => v :: deltaEncodeFrom v vs

/-- The loop of the delta decoder (encoding.go:38-40; reader_decode.go:93-95): `prev` is
the already decoded `result[i-1]`. -/
def deltaDecodeFrom (prev : UInt64) : List UInt64 → List UInt64
  | [] => []
  | d :: ds => (d + prev) :: deltaDecodeFrom (d + prev) ds

/-- `deltaDecode` (encoding.go:28-43); the same computation is done in place at
reader_decode.go:93-95 and 101-103. -/
def deltaDecode : List UInt64 → List UInt64
  | [] => []
  | d :: ds => d :: deltaDecodeFrom d ds

/-- The loop of `deltaEncodeInt64` (encoding.go:56-58). -/
def deltaEncodeInt64From (prev : Int64) : List Int64 → List Int64
  | [] => []
  | v :: vs => (v - prev) :: deltaEncodeInt64From v vs

/-- `deltaEncodeInt64` (encoding.go:46-61). -/
def deltaEncodeInt64 : List Int64 → List Int64
  | [] => []
  | v :: vs => v :: deltaEncodeInt64From v vs

/-- The loop of `deltaDecodeInt64` (encoding.go:74-76; reader_decode.go:96-98). -/
def deltaDecodeInt64From (prev : Int64) : List Int64 → List Int64
  | [] => []
  | d :: ds => (d + prev) :: deltaDecodeInt64From (d + prev) ds

/-- `deltaDecodeInt64` (encoding.go:64-79); the same computation is done in place at
reader_decode.go:96-98 and 106-108. -/
def deltaDecodeInt64 : List Int64 → List Int64
  | [] => []
  | d :: ds => d :: deltaDecodeInt64From d ds

/-! ### Sign-magnitude storage of statistics -/

/-- `int64ToUint64` (encoding.go:83-89). -/
def int64ToUint64 (value : Int64) : UInt64 :=
  if value ≥ 0 then value.toUInt64
  else ((~~~value) + 1).toUInt64 ||| ((1 : UInt64) <<< 63)

/-- `uint64ToInt64` (encoding.go:93-99); `x &^ y` is `x &&& ~~~y`. -/
def uint64ToInt64 (value : UInt64) : Int64 :=
  if value &&& ((1 : UInt64) <<< 63) = 0 then value.toInt64
  else (~~~ ((value &&& ~~~ ((1 : UInt64) <<< 63)).toInt64)) + 1

/-! ### Variable-length integers -/

/-- The loop of `encodeVarInt` (encoding.go:118-132). -/
def encodeVarIntLoop (value : UInt64) : Bytes :=
  if h : value > 0 then
    let b := (value &&& 0x7F).toUInt8
    let value' := value >>> 7
    let b := if value' > 0 then b ||| 0x80 else b
    b :: encodeVarIntLoop value'
  else []
termination_by value.toNat
decreasing_by
  have h' : 0 < value.toNat := by simpa [UInt64.lt_iff_toNat_lt] using h
  rw [UInt64.toNat_shiftRight]
  simp only [Nat.shiftRight_eq_div_pow]
  exact Nat.div_lt_self h' (by decide)

/-- `encodeVarInt` (encoding.go:106-135). -/
def encodeVarInt (value : UInt64) : Bytes :=
  if value = 0 then [0] else encodeVarIntLoop value

/-- Go's `x << s` on `uint64` for a `uint` shift count: zero once `s ≥ 64`. -/
def goShl (x : UInt64) (s : Nat) : UInt64 := UInt64.ofBitVec (x.toBitVec <<< s)

/-- The loop of `decodeVarInt` (encoding.go:144-170): remaining data, `result`, `shift`,
`bytesRead`. -/
def decodeVarIntLoop : Bytes → UInt64 → Nat → Nat → UInt64 × Nat
  | [], result, _, bytesRead => (result, bytesRead)
  | b :: rest, result, shift, bytesRead =>
    let value := (b &&& 0x7F).toUInt64
    let result := result ||| goShl value shift
    if b &&& 0x80 = 0 then (result, bytesRead + 1)
    else if shift + 7 ≥ 70 then (result, bytesRead + 1)
    else decodeVarIntLoop rest result (shift + 7) (bytesRead + 1)

/-- `decodeVarInt` (encoding.go:139-171). -/
def decodeVarInt (data : Bytes) : UInt64 × Nat := decodeVarIntLoop data 0 0 0

/-- `(value << 1) ^ (value >> 63)` converted to `uint64` (encoding.go:186); `>>` on `int64`
is the arithmetic shift. -/
def zigzag (value : Int64) : UInt64 := ((value <<< 1) ^^^ (value >>> 63)).toUInt64

/-- `int64((zigzag >> 1) ^ (-(zigzag & 1)))` (encoding.go:203). -/
def unzigzag (z : UInt64) : Int64 := ((z >>> 1) ^^^ (-(z &&& 1))).toInt64

/-- `encodeSignedVarInt` (encoding.go:176-188). -/
def encodeSignedVarInt (value : Int64) : Bytes := encodeVarInt (zigzag value)

/-- `decodeSignedVarInt` (encoding.go:193-206). -/
def decodeSignedVarInt (data : Bytes) : Int64 × Nat :=
  let (z, bytesRead) := decodeVarInt data
  (unzigzag z, bytesRead)

/-- The loop of the standard library's `binary.Uvarint` (Go 1.22 encoding/binary/varint.go,
used at reader_decode.go:127): remaining bytes, index `i`, accumulator `x`, shift `s`. -/
def uvarintLoop : Bytes → Nat → UInt64 → Nat → UInt64 × Int
  | [], _, _, _ => (0, 0)
  | b :: rest, i, x, s =>
    if i = 10 then (0, -((i : Int) + 1))
    else if b < 0x80 then
      if i = 9 ∧ b > 1 then (0, -((i : Int) + 1))
      else (x ||| goShl b.toUInt64 s, (i : Int) + 1)
    else uvarintLoop rest (i + 1) (x ||| goShl (b &&& 0x7F).toUInt64 s) (s + 7)

/-- `binary.Uvarint(buf)`. -/
def uvarint (buf : Bytes) : UInt64 × Int := uvarintLoop buf 0 0 0

/-! ### Block statistics (pkg/col/utils.go) -/

/-- `calculateMinMaxUint64` (utils.go:4-22): the loop keeps the pair `(min, max)`. -/
def calculateMinMaxUint64 : List UInt64 → UInt64 × UInt64
  | [] => (0, 0)
  | v0 :: vs => (v0 :: vs).foldl
      (fun (acc : UInt64 × UInt64) v =>
        (if v < acc.1 then v else acc.1, if v > acc.2 then v else acc.2)) (v0, v0)

/-- `calculateMinMaxInt64` (utils.go:25-43). -/
def calculateMinMaxInt64 : List Int64 → Int64 × Int64
  | [] => (0, 0)
  | v0 :: vs => (v0 :: vs).foldl
      (fun (acc : Int64 × Int64) v =>
        (if v < acc.1 then v else acc.1, if v > acc.2 then v else acc.2)) (v0, v0)

/-- `calculateSumInt64` (utils.go:46-52), with `int64` wrap-around. -/
def calculateSumInt64 (values : List Int64) : Int64 :=
  values.foldl (fun sum v => sum + v) 0

end VibeCol
