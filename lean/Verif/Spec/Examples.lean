/-
Specification vocabulary for the example programs: the file they exchange and the text printed for it. Nothing here
refers to the model of the code.
-/
import Verif.Spec.Format
namespace VibeCol.Examples
open VibeCol.Doc (num)

/-- "VIBESCOL", read as a big-endian number. -/
def vibescol : Nat := 0x5649424553434F4C

/-- The ten pairs. -/
def samplePairs : List (Nat × Nat) :=
  [(1, 100), (5, 200), (10, 300), (15, 400), (20, 500), (25, 600), (30, 700), (35, 800), (40, 900), (45, 1000)]

/-- The file header: 68 bytes. -/
def fileHeader (now : Nat) : Bytes :=
  num 8 vibescol ++ num 4 1 ++ num 4 0 ++ num 8 1 ++ num 4 4096 ++ num 4 0 ++ num 4 0 ++ num 8 now ++ List.replicate 24 0

/-- The data of the block: 160 bytes. -/
def blockData : Bytes := (samplePairs.flatMap fun p => num 8 p.1) ++ samplePairs.flatMap fun p => num 8 p.2

/-- The block: 92 bytes of header and layout, then the data. -/
def block (checksum : Nat) : Bytes :=
  num 8 1 ++ num 8 45 ++ num 8 100 ++ num 8 1000 ++ num 8 5500 ++ num 4 10 ++ num 4 0 ++ num 4 0 ++ num 4 160 ++ num 4 160 ++
  num 8 checksum ++ List.replicate 8 0 ++ num 4 0 ++ num 4 80 ++ num 4 80 ++ num 4 80 ++ blockData

/-- The index: 60 bytes. The offset 64 it gives is not where the block starts. -/
def index : Bytes :=
  num 4 1 ++ num 8 64 ++ num 4 256 ++ num 8 1 ++ num 8 45 ++ num 8 100 ++ num 8 1000 ++ num 8 5500 ++ num 4 10

/-- The whole file. There is no footer size in it. -/
def exampleFile (crc : Bytes → UInt64) (now : UInt64) : Bytes :=
  let front := fileHeader now.toNat ++ block (crc blockData).toNat ++ index
  front ++ num 8 (crc front).toNat ++ num 8 vibescol

/-- Characters as bytes. -/
def ascii (s : String) : Bytes := s.toList.map fun c => UInt8.ofNat c.toNat

/-- What `read_example` prints for it. `avg` is the average as text. -/
def exampleText (avg usage name : Bytes) (dump agg : Bool) : Bytes :=
  ascii "File: " ++ name ++ ascii "\nVersion: 1\nBlocks: 1\n\n" ++
  (if dump then ascii "ID\tValue\n--\t-----\n1\t100\n5\t200\n10\t300\n15\t400\n20\t500\n25\t600\n30\t700\n35\t800\n40\t900\n45\t1000\n" ++
    ascii "\nBlock Statistics (computed from data):\nCount: 10\nMin ID: 1, Max ID: 45\nMin Value: 100, Max Value: 1000\nSum: 5500\nAverage: " ++
    avg ++ ascii "\n\n" else []) ++
  (if agg then ascii "Aggregate Statistics (from metadata only):\nCount: 10\nMin: 100\nMax: 1000\nSum: 5500\nAverage: " ++ avg ++ ascii "\n"
    else if dump then [] else usage)

end VibeCol.Examples
