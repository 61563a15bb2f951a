/-
Specification vocabulary for `DebugInfo`. Nothing here refers to the model of the code.
-/
import Verif.Spec.Format
import Verif.Spec.Cli
namespace VibeCol.Debug
open VibeCol.Cli (Decimal SignedDecimal Each2)
open VibeCol.Doc (Pairs)

/-- Characters as bytes. -/
def text (s : String) : Bytes := s.toList.map fun c => UInt8.ofNat c.toNat

/-- How a statistic is shown: the least 64-bit number has no sign-magnitude form and appears as 0. -/
def shown (x : Int) : Int := if x = -2 ^ 63 then 0 else x

/-- A block of the file: its number, where it is, how much space it takes and what is in it. -/
structure Row where
  num : Nat
  off : Nat
  size : Nat
  pairs : Pairs

/-- The three lines describing a block. -/
def Describes (t : Bytes) (b : Row) : Prop :=
  ∃ i o s c l h mn mx sm,
    Decimal i b.num ∧ Decimal o b.off ∧ Decimal s b.size ∧ Decimal c b.pairs.1.length ∧
    Decimal l (b.pairs.1.min?.getD 0) ∧ Decimal h (b.pairs.1.max?.getD 0) ∧
    SignedDecimal mn (shown (b.pairs.2.min?.getD 0)) ∧ SignedDecimal mx (shown (b.pairs.2.max?.getD 0)) ∧
    SignedDecimal sm (shown (Doc.wrapS b.pairs.2.sum)) ∧
    t = text "      Block " ++ i ++ text ": Offset=" ++ o ++ text ", Size=" ++ s ++ text ", Count=" ++ c ++
      text "\n        ID range: " ++ l ++ text "-" ++ h ++
      text "\n        Value range: " ++ mn ++ text "-" ++ mx ++ text ", Sum=" ++ sm ++ text "\n"

/-- The whole text, for a file with these blocks in this encoding. -/
def DescribesFile (t : Bytes) (enc : Nat) (rows : List Row) : Prop :=
  ∃ n e s lines, Decimal n rows.length ∧ Decimal e enc ∧ Decimal s (4 + 56 * rows.length) ∧ Each2 Describes lines rows ∧
    t = text "File header: Magic=0x5642455F434F4C00, Version=1, BlockCount=" ++ n ++
      text "\n    Encoding: Type=" ++ e ++ text ", Compression=0\n    Footer: Size=" ++ s ++
      text ", Magic=0x5642455F434F4C00\n    Block index entries: " ++ n ++ text "\n" ++ lines.flatten

/-- The blocks of a file written in one go, from block number `i` at offset `off` on. -/
def rowsAt (enc : Nat) : Nat → Nat → List Pairs → List Row
  | _, _, [] => []
  | i, off, b :: bs =>
    let size := (Doc.filledBlock enc off b).length
    ⟨i, off, size, b⟩ :: rowsAt enc (i + 1) (off + size) bs

end VibeCol.Debug
