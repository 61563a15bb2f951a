/-
Specification vocabulary: files laid out as column_format_spec.md says, but not necessarily by this
program. Only what the document requires is fixed: the blocks may lie anywhere in the file, in any
order, with anything between them, on page boundaries or not; inside a block the two sections may
lie anywhere; the bitmap may come before or after the blocks, or be missing. Fields that are there
for information (column type, target, compression, creation time, reserved bytes, block headers,
checksums) hold any bytes. Nothing here refers to the model of the code.
-/
import Verif.Spec.Format
namespace VibeCol.Doc

/-- The bytes `bs` stand in `file` at offset `off`. -/
def Holds (file : Bytes) (off : Nat) (bs : Bytes) : Prop := (file.drop off).take bs.length = bs

/-- Sections 4.2.2 and 4.2.3, literally: where the IDs are stored as differences. -/
def idsAreDifferences (enc : Nat) : Bool := enc == 1 || enc == 3 || enc == 5 || enc == 7
/-- Where the values are stored as differences. -/
def valuesAreDifferences (enc : Nat) : Bool := enc == 2 || enc == 3 || enc == 6 || enc == 7
/-- Where the IDs are stored as variable-length numbers. -/
def idsAreVarints (enc : Nat) : Bool := enc == 4 || enc == 5 || enc == 7
/-- Where the values are stored as variable-length numbers. -/
def valuesAreVarints (enc : Nat) : Bool := enc == 4 || enc == 6 || enc == 7

/-- Section 8.1, shortest or not: `bs` spells the number `n` as a variable-length number, 7 bits per
byte, least significant first, the top bit set on all bytes but the last. -/
inductive IsVarint : Nat → Bytes → Prop
  | last (b : UInt8) : b.toNat < 128 → IsVarint b.toNat [b]
  | more (b : UInt8) {n : Nat} {rest : Bytes} : 128 ≤ b.toNat → IsVarint n rest →
      IsVarint (b.toNat % 128 + 128 * n) (b :: rest)

/-- One number of a section: 8 bytes, or a variable-length number of at most 10. -/
def Spelled (varints : Bool) (n : Nat) (bs : Bytes) : Prop :=
  if varints then IsVarint n bs ∧ bs.length ≤ 10 else bs = num 8 n

/-- A section: its numbers, one after the other. -/
inductive Spells (varints : Bool) : List Nat → Bytes → Prop
  | nil : Spells varints [] []
  | cons {n : Nat} {ns : List Nat} {bs rest : Bytes} : Spelled varints n bs → Spells varints ns rest →
      Spells varints (n :: ns) (bs ++ rest)

/-- `bs` can be the ID section of a block with these IDs. -/
def IdSection (enc : Nat) (ids : List Nat) (bs : Bytes) : Prop :=
  Spells (idsAreVarints enc)
    (if idsAreDifferences enc then (deltas (ids.map Int.ofNat)).map wrapU else ids) bs

/-- `bs` can be the value section of a block with these values. -/
def ValueSection (enc : Nat) (vals : List Int) (bs : Bytes) : Prop :=
  Spells (valuesAreVarints enc)
    ((if valuesAreDifferences enc then (deltas vals).map wrapS else vals).map
      (if valuesAreVarints enc then zigzag else wrapU)) bs

/-- A block: where it is, how many bytes it has, and its pairs. -/
structure Place where
  off : Nat
  size : Nat
  pairs : Pairs

/-- The block stands in `file`, in encoding `enc`: the layout after 64 bytes of anything, the two
sections at the offsets the layout gives (counted from its end), all within the block's size. -/
structure Place.In (file : Bytes) (enc : Nat) (p : Place) : Prop where
  same : p.pairs.1.length = p.pairs.2.length
  some : p.pairs.1 ≠ []
  few : p.pairs.1.length ≤ 2 ^ 27
  size : p.size < 2 ^ 32
  inside : p.off + p.size ≤ file.length
  sections : ∃ idOff valueOff ids values,
    IdSection enc p.pairs.1 ids ∧ ValueSection enc p.pairs.2 values ∧
    Holds file (p.off + 64) (num 4 idOff ++ num 4 ids.length ++ num 4 valueOff ++ num 4 values.length) ∧
    Holds file (p.off + 80 + idOff) ids ∧ Holds file (p.off + 80 + valueOff) values ∧
    80 + idOff + ids.length ≤ p.size ∧ 80 + valueOff + values.length ≤ p.size

/-- The bitmap, if there is one, stands in `file` at the offset given; if there is none, the offset
is 0. -/
def BitmapIn (file : Bytes) (off size : Nat) : Option Bytes → Prop
  | none => off = 0
  | some data => off ≠ 0 ∧ size ≠ 0 ∧ size < 2 ^ 64 ∧ data.length < 2 ^ 32 ∧
      off + 4 + data.length ≤ file.length ∧ Holds file off (bitmap data)

/-- The header stands at the beginning of `file`: magic number, version 1, at most the right number
of blocks (0 in a file whose header was never completed), the encoding and where the bitmap is. -/
def HeaderIn (file : Bytes) (enc count : Nat) (bitmapData : Option Bytes) : Prop :=
  ∃ column blocks target compression time bitmapOff bitmapSize,
    Holds file 0 (num 8 magic ++ num 4 1 ++ num 4 column ++ num 8 blocks ++ num 4 target ++
      num 4 compression ++ num 4 enc ++ num 8 time ++ num 8 bitmapOff ++ num 8 bitmapSize) ∧
    blocks ≤ count ∧ BitmapIn file bitmapOff bitmapSize bitmapData

/-- The index of the blocks. -/
def indexOf (places : List Place) : Bytes :=
  places.flatMap fun p => entry p.off p.size p.pairs.1 p.pairs.2

/-- The footer stands at the end of `file`, behind at least 64 bytes. -/
def FooterIn (file : Bytes) (places : List Place) : Prop :=
  ∃ before checksum, 64 ≤ before.length ∧
    file = before ++ (num 4 places.length ++ indexOf places ++ num 8 (4 + (indexOf places).length) ++
      num 8 checksum ++ num 8 magic)

/-- `file` holds these blocks in encoding `enc` and this serialized bitmap. -/
structure FileOf (file : Bytes) (enc : Nat) (places : List Place) (bitmapData : Option Bytes) : Prop where
  size : file.length < 2 ^ 63
  few : places.length ≤ 76695844
  encoding : enc < 8
  header : HeaderIn file enc places.length bitmapData
  footer : FooterIn file places
  blocks : ∀ p ∈ places, p.In file enc

end VibeCol.Doc
