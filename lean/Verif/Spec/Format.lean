/-
Specification vocabulary: the byte format of a file, following column_format_spec.md. Nothing
here refers to the model of the code; numbers are mathematical integers.

The document contradicts itself in three places; what is written here is the reading under
which everything else in it is right:
* section 3 lists 68 bytes of header fields and calls the total 64: the reserved field has 4
  bytes, not 8;
* section 4.1 lists 68 bytes of block header fields and calls the total 64: the last 8 bytes
  listed (half of the checksum, and the reserved field) do not exist, so that the layout of
  section 4.2 follows at offset 64;
* section 5.1 lists 56 bytes of index entry fields and calls the total 48: it is 56.
The document says that checksums are CRC-64 values and that sizes are given in the block header;
the program stores 0 in all of them. It does not say how negative statistics are stored: the
program uses sign and magnitude. The bitmap comes after the blocks, not before them.
-/
import Verif.Model.Prim
namespace VibeCol.Doc

/-- `n` in `k` bytes, least significant first (truncated to `k` bytes). -/
def num : Nat → Nat → Bytes
  | 0, _ => []
  | k + 1, n => UInt8.ofNat (n % 256) :: num k (n / 256)

/-- Section 8.1: 7 bits per byte, least significant first, the top bit set on all but the last. -/
def varint (n : Nat) : Bytes :=
  if n < 128 then [UInt8.ofNat n] else UInt8.ofNat (128 + n % 128) :: varint (n / 128)
termination_by n

/-- Section 8.2: 0, -1, 1, -2, ... become 0, 1, 2, 3, ... -/
def zigzag (v : Int) : Nat := if 0 ≤ v then (2 * v).toNat else (-2 * v - 1).toNat

/-- Section 8.3: the first number, then the differences between neighbours. -/
def deltas : List Int → List Int
  | [] => []
  | x :: xs => x :: List.zipWith (fun a b => b - a) (x :: xs) xs

/-- An integer as an unsigned 64-bit number. -/
def wrapU (x : Int) : Nat := (x % 2 ^ 64).toNat

/-- An integer as a signed 64-bit number. -/
def wrapS (x : Int) : Int := (x + 2 ^ 63) % 2 ^ 64 - 2 ^ 63

/-- Sign bit and 63-bit magnitude. -/
def signMagnitude (x : Int) : Nat := if 0 ≤ x then x.toNat else 2 ^ 63 + x.natAbs % 2 ^ 63

/-- Which encodings store differences. (By section 4.2.2 type 1 should do so for the IDs and
type 2 for the values only; the program does it for both.) -/
def isDelta (enc : Nat) : Bool := enc == 1 || enc == 2 || enc == 3 || enc == 7

/-- Which encodings store variable-length numbers. -/
def isVarint (enc : Nat) : Bool := enc == 4 || enc == 7

/-- ID data (sections 4.2.1 to 4.2.3). -/
def idData (enc : Nat) (ids : List Nat) : Bytes :=
  let xs := if isDelta enc then (deltas (ids.map Int.ofNat)).map wrapU else ids
  xs.flatMap fun x => if isVarint enc then varint x else num 8 x

/-- Value data (sections 4.2.1 to 4.2.3). -/
def valueData (enc : Nat) (vals : List Int) : Bytes :=
  let xs := if isDelta enc then (deltas vals).map wrapS else vals
  xs.flatMap fun x => if isVarint enc then varint (zigzag x) else num 8 (wrapU x)

/-- The statistics repeated in block header and index: minimum and maximum ID, minimum, maximum
and sum of the values, count. -/
def stats (ids : List Nat) (vals : List Int) : Bytes :=
  num 8 (ids.min?.getD 0) ++ num 8 (ids.max?.getD 0) ++
  num 8 (signMagnitude (vals.min?.getD 0)) ++ num 8 (signMagnitude (vals.max?.getD 0)) ++
  num 8 (signMagnitude (wrapS vals.sum)) ++ num 4 ids.length

/-- Block header (section 4.1), layout and data (section 4.2). -/
def block (enc : Nat) (ids : List Nat) (vals : List Int) : Bytes :=
  -- header: statistics, encoding, compression, uncompressed size, compressed size, checksum
  (stats ids vals ++ num 4 enc ++ num 4 0 ++ num 4 0 ++ num 4 0 ++ num 4 0) ++
  -- layout: offset and size of the ID section, offset and size of the value section
  (num 4 0 ++ num 4 (idData enc ids).length ++
    num 4 (idData enc ids).length ++ num 4 (valueData enc vals).length) ++
  idData enc ids ++ valueData enc vals

/-- Zeros up to the next multiple of 4096 (section 6.1). -/
def pageFill (pos : Nat) : Bytes := List.replicate ((4096 - pos % 4096) % 4096) 0

/-- Index entry (section 5.1). -/
def entry (off size : Nat) (ids : List Nat) (vals : List Int) : Bytes :=
  num 8 off ++ num 4 size ++ stats ids vals

/-- The magic number. -/
def magic : Nat := 0x5642455F434F4C00

/-- File header (section 3). -/
def header (count target enc time bitmapOffset bitmapSize : Nat) : Bytes :=
  num 8 magic ++ num 4 1 ++ num 4 0 ++ num 8 count ++ num 4 target ++ num 4 0 ++ num 4 enc ++
  num 8 time ++ num 8 bitmapOffset ++ num 8 bitmapSize ++ num 4 0

/-- Global ID bitmap (section 3.1). -/
def bitmap (data : Bytes) : Bytes := num 4 data.length ++ data

/-- Footer (section 5): count, index, footer size, checksum, magic. -/
def footer (count : Nat) (index : Bytes) : Bytes :=
  num 4 count ++ index ++ num 8 (4 + index.length) ++ num 8 0 ++ num 8 magic

/-- A block's pairs as mathematical integers. -/
abbrev Pairs := List Nat × List Int

/-- The blocks one after the other from offset `off`, each filled up to a page. -/
def blocksAt (enc : Nat) : Nat → List Pairs → Bytes
  | _, [] => []
  | off, b :: bs =>
    let d := block enc b.1 b.2
    let d := d ++ pageFill (off + d.length)
    d ++ blocksAt enc (off + d.length) bs

/-- The index of the same blocks. -/
def indexAt (enc : Nat) : Nat → List Pairs → Bytes
  | _, [] => []
  | off, b :: bs =>
    let d := block enc b.1 b.2
    let d := d ++ pageFill (off + d.length)
    entry off d.length b.1 b.2 ++ indexAt enc (off + d.length) bs

/-- A complete file. -/
def file (enc target time : Nat) (blocks : List Pairs) (bitmapData : Bytes) : Bytes :=
  let data := blocksAt enc 64 blocks
  let bm := bitmap bitmapData
  let body := header blocks.length target enc time (64 + data.length) bm.length ++ data ++ bm
  body ++ pageFill body.length ++ footer blocks.length (indexAt enc 64 blocks)

/-- A block written at offset `off`, filled up to a page. -/
def filledBlock (enc off : Nat) (b : Pairs) : Bytes :=
  block enc b.1 b.2 ++ pageFill (off + (block enc b.1 b.2).length)

/-- The first `n` pairs. -/
def Pairs.first (n : Nat) (b : Pairs) : Pairs := (b.1.take n, b.2.take n)

/-- A batch may be written as one block at offset `off`: it does not take more bytes than the
target, or it cannot be split. -/
def Fits (enc target off : Nat) (b : Pairs) : Prop :=
  (filledBlock enc off b).length ≤ target ∨ b.1.length = 1

/-- Machine integers as mathematical ones. -/
def pairs (b : List UInt64 × List Int64) : Pairs := (b.1.map UInt64.toNat, b.2.map Int64.toInt)

end VibeCol.Doc
