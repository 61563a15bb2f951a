/-
cmd/write_example/main.go (cited as write.go) and cmd/read_example/main.go (cited as read.go). These programs do not
use the library; they have a file format of their own.

Simplifications: file operations succeed, except reads past the end of the file; a `Read` delivers all the bytes asked for that
exist; `crc64.Checksum` and `%.2f` of the average are parameters; error texts are dropped.
-/
import Verif.Model.Prim
import Verif.Model.Cli
namespace VibeCol.Examples
open VibeCol.Cli (str fmtNat fmtInt)

/-- `MagicNumber` (write.go:13, read.go:14). -/
def magic : UInt64 := 0x5649424553434F4C

/-! ### write_example -/

/-- `binary.Write(file, binary.LittleEndian, x)` with the bytes of `x`. -/
def put (f : File) (d : Bytes) : File := { bytes := writeAt f.bytes f.pos d, pos := f.pos + d.length }

/-- Several of them. -/
def puts (f : File) (ds : List Bytes) : File := ds.foldl put f

/-- `file.Read(buf)` with `len(buf) = n`. -/
def read (f : File) (n : Nat) : Bytes × File :=
  let d := (f.bytes.drop f.pos).take n
  (d, { f with pos := f.pos + d.length })

/-- `file.Seek(p, os.SEEK_SET)`. -/
def seek (f : File) (p : Nat) : File := { f with pos := p }

/-- The sample data (write.go:38-39). -/
def sampleIDs : List UInt64 := [1, 5, 10, 15, 20, 25, 30, 35, 40, 45]
/-- The sample data (write.go:38-39). -/
def sampleValues : List Int64 := [100, 200, 300, 400, 500, 600, 700, 800, 900, 1000]

/-- The variables of the statistics loops. -/
structure Stats where
  minID : UInt64
  maxID : UInt64
  minValue : Int64
  maxValue : Int64
  sum : Int64
deriving DecidableEq, Repr

/-- One round of the statistics loop (write.go:49-63, read.go:352-366). -/
def Stats.add (s : Stats) (p : UInt64 × Int64) : Stats where
  minID := if p.1 < s.minID then p.1 else s.minID
  maxID := if p.1 > s.maxID then p.1 else s.maxID
  minValue := if p.2 < s.minValue then p.2 else s.minValue
  maxValue := if p.2 > s.maxValue then p.2 else s.maxValue
  sum := s.sum + p.2

/-- The statistics loop (write.go:43-63, read.go:346-366); `ids[0]` and `values[0]` panic if empty. -/
def stats (ids : List UInt64) (values : List Int64) : Res Stats :=
  match ids, values with
  | id :: _, v :: _ => .ok ((ids.zip values).foldl Stats.add ⟨id, id, v, v, 0⟩)
  | _, _ => .panic

/-- `writeFile` (write.go:29-202): the file afterwards and the size it prints. `now` is the clock. -/
def writeFile (crc : Bytes → UInt64) (now : UInt64) : Res (File × Nat) := do
  let count : UInt32 := UInt32.ofNat sampleIDs.length
  let s ← stats sampleIDs sampleValues
  let f := puts ⟨[], 0⟩ [le64 magic, le32 1, le32 0, le64 1, le32 (4 * 1024), le32 0, le32 0, le64 now, List.replicate 24 0]
  let blockStart : Nat := 64
  let f := puts f [le64 s.minID, le64 s.maxID, leI64 s.minValue, leI64 s.maxValue, leI64 s.sum, le32 count, le32 0, le32 0,
    le32 (count * 8 * 2), le32 (count * 8 * 2)]
  let checksumPos := f.pos
  let f := puts f [le64 0, List.replicate 8 0]
  let f := puts f [le32 0, le32 (count * 8), le32 (count * 8), le32 (count * 8)]
  let dataStart := f.pos
  let f := puts f (sampleIDs.map le64)
  let f := puts f (sampleValues.map leI64)
  let dataEnd := f.pos
  let f := seek f dataStart
  let (blockData, f) := read f (dataEnd - dataStart)
  let blockChecksum := crc blockData
  let f := seek f checksumPos
  let f := put f (le64 blockChecksum)
  let f := seek f f.bytes.length
  let footerStart := f.pos
  let f := puts f [le32 1]
  let f := puts f [le64 (UInt64.ofNat blockStart), le32 (UInt32.ofNat dataEnd - UInt32.ofNat blockStart), le64 s.minID, le64 s.maxID,
    leI64 s.minValue, leI64 s.maxValue, leI64 s.sum, le32 count]
  let footerEnd := f.pos
  let footerSize := footerEnd - footerStart
  let f := put f (le64 (UInt64.ofNat footerSize))
  let f := seek f 0
  let (fileData, f) := read f footerEnd
  let fileChecksum := crc fileData
  let f := put f (le64 fileChecksum)
  let f := put f (le64 magic)
  .ok (f, f.pos)

/-! ### read_example

The cursor of the input file is represented by the bytes behind it. -/

/-- `binary.Read` of a 4-byte number: an error if there are not enough bytes. -/
def get32 (b : Bytes) : Res (UInt32 × Bytes) := if 4 ≤ b.length then .ok (rd32 b 0, b.drop 4) else .err .io
/-- `binary.Read` of an unsigned 8-byte number. -/
def get64 (b : Bytes) : Res (UInt64 × Bytes) := if 8 ≤ b.length then .ok (rd64 b 0, b.drop 8) else .err .io
/-- `binary.Read` of a signed 8-byte number. -/
def getI64 (b : Bytes) : Res (Int64 × Bytes) := if 8 ≤ b.length then .ok ((rd64 b 0).toInt64, b.drop 8) else .err .io

/-- The fields of `FileHeader` that are used (read.go:18-28). -/
structure Header where
  version : UInt32
  blockCount : UInt64
deriving DecidableEq, Repr

/-- `readFileHeader` (read.go:111-156). -/
def readFileHeader (file : Bytes) : Res Header := do
  let (m, b) ← get64 file
  if m ≠ magic then .err .badMagic else do
  let (version, b) ← get32 b
  let (_, b) ← get32 b
  let (blockCount, b) ← get64 b
  let (_, b) ← get32 b
  let (_, b) ← get32 b
  let (_, b) ← get32 b
  let (_, _) ← get64 b
  .ok { version, blockCount }

/-- The fields of `FooterEntry` that are used (read.go:55-64). -/
structure Entry where
  minValue : Int64
  maxValue : Int64
  sum : Int64
  count : UInt32
deriving DecidableEq, Repr

/-- The loop reading the index (read.go:198-223), `n` entries to go. -/
def readEntries : Nat → Bytes → Res (List Entry)
  | 0, _ => .ok []
  | n + 1, b => do
    let (_, b) ← get64 b
    let (_, b) ← get32 b
    let (_, b) ← get64 b
    let (_, b) ← get64 b
    let (minValue, b) ← getI64 b
    let (maxValue, b) ← getI64 b
    let (sum, b) ← getI64 b
    let (count, b) ← get32 b
    let rest ← readEntries n b
    .ok ({ minValue, maxValue, sum, count } :: rest)

/-- `readFooter` (read.go:165-229). -/
def readFooter (file : Bytes) : Res (List Entry) :=
  if file.length < 8 then .err .io else do
  let (m, _) ← get64 (file.drop (file.length - 8))
  if m ≠ magic then .err .badFooterMagic else do
  let (n, b) ← get32 (file.drop 0x140)
  readEntries n.toNat b

/-- `Reader` (read.go:76-81). -/
structure Opened where
  header : Header
  entries : List Entry
deriving DecidableEq, Repr

/-- `NewReader` (read.go:84-108). -/
def openFile (file : Bytes) : Res Opened := do
  let header ← readFileHeader file
  let entries ← readFooter file
  .ok { header, entries }

/-- Reading `n` IDs (read.go:320-325). -/
def getIDs : Nat → Bytes → Res (List UInt64)
  | 0, _ => .ok []
  | n + 1, b => do
    let (x, b) ← get64 b
    let xs ← getIDs n b
    .ok (x :: xs)

/-- Reading `n` values (read.go:333-338). -/
def getValues : Nat → Bytes → Res (List Int64)
  | 0, _ => .ok []
  | n + 1, b => do
    let (x, b) ← getI64 b
    let xs ← getValues n b
    .ok (x :: xs)

/-- `DumpKVPairs` (read.go:237-376): the text it prints. -/
def dump (fmtAvg : Avg → Bytes) (file : Bytes) : Res Bytes := do
  let b := file.drop 0x40
  let (_, b) ← get64 b
  let (_, b) ← get64 b
  let (_, b) ← getI64 b
  let (_, b) ← getI64 b
  let (_, b) ← getI64 b
  let (_, b) ← get32 b
  let (_, b) ← get32 b
  let (_, b) ← get32 b
  let (_, b) ← get32 b
  let (_, b) ← get32 b
  let (_, b) ← get64 b
  let b := b.drop 8
  let (_, b) ← get32 b
  let (_, b) ← get32 b
  let (_, b) ← get32 b
  let (_, _) ← get32 b
  let count := 10
  let ids ← getIDs count (file.drop 0xa0)
  let values ← getValues count (file.drop 0xf0)
  let s ← stats ids values
  .ok (str "ID\tValue\n" ++ str "--\t-----\n" ++
    ((ids.zip values).map fun p => fmtNat p.1.toNat ++ [9] ++ fmtInt p.2 ++ [10]).flatten ++
    str "\nBlock Statistics (computed from data):\n" ++
    str "Count: " ++ fmtNat count ++ str "\n" ++
    str "Min ID: " ++ fmtNat s.minID.toNat ++ str ", Max ID: " ++ fmtNat s.maxID.toNat ++ str "\n" ++
    str "Min Value: " ++ fmtInt s.minValue ++ str ", Max Value: " ++ fmtInt s.maxValue ++ str "\n" ++
    str "Sum: " ++ fmtInt s.sum ++ str "\n" ++
    str "Average: " ++ fmtAvg (.quot s.sum count) ++ str "\n\n")

/-- The totals of `AggregateFromMetadataOnly` (read.go:381-397). -/
def totals (es : List Entry) : Entry :=
  es.foldl (fun t e => {
    count := t.count + e.count
    sum := t.sum + e.sum
    minValue := if e.minValue < t.minValue then e.minValue else t.minValue
    maxValue := if e.maxValue > t.maxValue then e.maxValue else t.maxValue })
    { count := 0, sum := 0, minValue := 9223372036854775807, maxValue := -9223372036854775807 - 1 }

/-- `AggregateFromMetadataOnly` (read.go:380-411). -/
def aggregate (fmtAvg : Avg → Bytes) (es : List Entry) : Bytes :=
  let t := totals es
  str "Aggregate Statistics (from metadata only):\n" ++
  str "Count: " ++ fmtNat t.count.toNat ++ str "\n" ++
  str "Min: " ++ fmtInt t.minValue ++ str "\n" ++
  str "Max: " ++ fmtInt t.maxValue ++ str "\n" ++
  str "Sum: " ++ fmtInt t.sum ++ str "\n" ++
  str "Average: " ++ fmtAvg (if t.count > 0 then .quot t.sum t.count.toNat else .zero) ++ str "\n"

/-- `main` (read.go:413-454): the text printed, `err` standing for `os.Exit(1)` (the text printed before it is dropped).
`usage` is the text printed if no operation is given. -/
def run (fmtAvg : Avg → Bytes) (usage name file : Bytes) (dumpKV agg : Bool) : Res Bytes := do
  let r ← openFile file
  let head := str "File: " ++ name ++ str "\n" ++ str "Version: " ++ fmtNat r.header.version.toNat ++ str "\n" ++
    str "Blocks: " ++ fmtNat r.header.blockCount.toNat ++ str "\n\n"
  let body ← if dumpKV then dump fmtAvg file else .ok []
  .ok (head ++ body ++ (if agg then aggregate fmtAvg r.entries else []) ++ (if !dumpKV && !agg then usage else []))

end VibeCol.Examples
