/-
`DebugInfo` (reader.go:99-125): the text describing an open file.
-/
import Verif.Model.Reader
import Verif.Model.Cli
namespace VibeCol
open Cli (str fmtNat fmtInt)
variable {B : Type} [Bitmap B]

/-- An upper case hexadecimal digit. -/
def hexDigit (n : Nat) : UInt8 := UInt8.ofNat (if n < 10 then 48 + n else 55 + n)

/-- `%X` of an unsigned number. -/
def fmtHex (n : Nat) : Bytes := if n < 16 then [hexDigit n] else fmtHex (n / 16) ++ [hexDigit (n % 16)]
termination_by n

/-- The lines for block number `i` (reader.go:112-122). -/
def debugEntry (i : Nat) (e : FooterEntry) : Bytes :=
  str "      Block " ++ fmtNat i ++ str ": Offset=" ++ fmtNat e.blockOffset.toNat ++ str ", Size=" ++ fmtNat e.blockSize.toNat ++
    str ", Count=" ++ fmtNat e.count.toNat ++ str "\n" ++
  str "        ID range: " ++ fmtNat e.minID.toNat ++ str "-" ++ fmtNat e.maxID.toNat ++ str "\n" ++
  str "        Value range: " ++ fmtInt (uint64ToInt64 e.minValue) ++ str "-" ++ fmtInt (uint64ToInt64 e.maxValue) ++ str ", Sum=" ++
    fmtInt (uint64ToInt64 e.sum) ++ str "\n"

/-- The loop of `DebugInfo` (reader.go:111-122) from index `i`. -/
def debugEntries : Nat → List FooterEntry → Bytes
  | _, [] => []
  | i, e :: es => debugEntry i e ++ debugEntries (i + 1) es

/-- `DebugInfo` (reader.go:99-125). -/
def debugInfo (r : Reader B) : Bytes :=
  str "File header: Magic=0x" ++ fmtHex r.header.magic.toNat ++ str ", Version=" ++ fmtNat r.header.version.toNat ++
    str ", BlockCount=" ++ fmtNat r.header.blockCount.toNat ++ str "\n" ++
  str "    Encoding: Type=" ++ fmtNat r.header.encodingType.toNat ++ str ", Compression=" ++
    fmtNat r.header.compressionType.toNat ++ str "\n" ++
  str "    Footer: Size=" ++ fmtNat r.footerMeta.footerSize.toNat ++ str ", Magic=0x" ++ fmtHex r.footerMeta.magic.toNat ++ str "\n" ++
  str "    Block index entries: " ++ fmtNat r.blockIndex.length ++ str "\n" ++
  debugEntries 0 r.blockIndex

end VibeCol
