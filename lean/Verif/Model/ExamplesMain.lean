/-
The programs cmd/write_example/main.go (write.go) and cmd/read_example/main.go (read.go) from the command line to the exit status,
with file operations that may fail. The parts that compute something are those of Verif.Model.Examples.

Simplifications: as there, except that any operation may fail; the texts of error messages are not modelled (they are printed
to the standard output too). A `Read` or `binary.Read` that does not fail delivers all bytes asked for that exist.
-/
import Verif.Model.Examples
import Verif.Model.CommandLine
namespace VibeCol.ExampleCmd
open VibeCol.Cli (str fmtNat)
open VibeCol.Cmd (Files FlagErr Values Kind Value)
open VibeCol.Examples

/-- What the outside world decides about one run of a program: whether `os.Create` and `os.Open` work for a name, the clock, and for the
`n`-th later operation: if it is a write, whether it fails, having put at most `k` bytes into the file (`some k`); if it is a read or
anything else (`Seek`, `Stat`), whether it works. -/
structure World where
  creatable : Bytes → Bool
  openable : Bytes → Bool
  now : UInt64
  write : Nat → Option Nat
  read : Nat → Bool
  other : Nat → Bool

/-! ### write_example -/

/-- The output file and the number of operations so far. -/
structure St where
  file : File
  ops : Nat
deriving DecidableEq, Repr

/-- A piece of `writeFile`: `none` if it returns an error. -/
def P (α : Type) : Type := St → Option α × St

instance : Monad P where
  pure a := fun s => (some a, s)
  bind m f := fun s =>
    match m s with
    | (some a, s) => f a s
    | (none, s) => (none, s)

/-- `binary.Write`, its error being ignored (write.go:66-189). -/
def put (w : World) (d : Bytes) : P Unit := fun s =>
  (some (), ⟨Examples.put s.file (match w.write s.ops with | none => d | some k => d.take k), s.ops + 1⟩)

/-- Several of them. -/
def puts (w : World) : List Bytes → P Unit
  | [] => pure ()
  | d :: ds => do put w d; puts w ds

/-- `file.Seek(0, os.SEEK_CUR)`. -/
def position (w : World) : P Nat := fun s =>
  if w.other s.ops then (some s.file.pos, ⟨s.file, s.ops + 1⟩) else (none, ⟨s.file, s.ops + 1⟩)

/-- `file.Seek(p, os.SEEK_SET)`. -/
def seek (w : World) (p : Nat) : P Unit := fun s =>
  if w.other s.ops then (some (), ⟨Examples.seek s.file p, s.ops + 1⟩) else (none, ⟨s.file, s.ops + 1⟩)

/-- `file.Seek(0, os.SEEK_END)`. -/
def seekEnd (w : World) : P Unit := fun s =>
  if w.other s.ops then (some (), ⟨Examples.seek s.file s.file.bytes.length, s.ops + 1⟩) else (none, ⟨s.file, s.ops + 1⟩)

/-- `file.Read(buf)` into a new buffer of length `n`: the buffer afterwards. It fails at the end of the file unless `n = 0`. -/
def read (w : World) (n : Nat) : P Bytes := fun s =>
  if w.read s.ops = false then (none, ⟨s.file, s.ops + 1⟩)
  else
    let (d, f) := Examples.read s.file n
    if d = [] ∧ n ≠ 0 then (none, ⟨f, s.ops + 1⟩)
    else (some (d ++ List.replicate (n - d.length) 0), ⟨f, s.ops + 1⟩)

/-- `writeFile` (write.go:29-202) after `os.Create`, with the statistics `s` of the sample data: the size it prints. -/
def writeFile (w : World) (crc : Bytes → UInt64) (s : Stats) : P Nat := do
  let count : UInt32 := UInt32.ofNat sampleIDs.length
  puts w [le64 magic, le32 1, le32 0, le64 1, le32 (4 * 1024), le32 0, le32 0, le64 w.now, List.replicate 24 0]
  let blockStart : Nat := 64
  puts w [le64 s.minID, le64 s.maxID, leI64 s.minValue, leI64 s.maxValue, leI64 s.sum, le32 count, le32 0, le32 0,
    le32 (count * 8 * 2), le32 (count * 8 * 2)]
  let checksumPos ← position w
  puts w [le64 0, List.replicate 8 0]
  puts w [le32 0, le32 (count * 8), le32 (count * 8), le32 (count * 8)]
  let dataStart ← position w
  puts w (sampleIDs.map le64)
  puts w (sampleValues.map leI64)
  let dataEnd ← position w
  seek w dataStart
  let blockData ← read w (dataEnd - dataStart)
  seek w checksumPos
  put w (le64 (crc blockData))
  seekEnd w
  let footerStart ← position w
  puts w [le32 1]
  puts w [le64 (UInt64.ofNat blockStart), le32 (UInt32.ofNat dataEnd - UInt32.ofNat blockStart), le64 s.minID, le64 s.maxID,
    leI64 s.minValue, leI64 s.maxValue, leI64 s.sum, le32 count]
  let footerEnd ← position w
  put w (le64 (UInt64.ofNat (footerEnd - footerStart)))
  seek w 0
  let fileData ← read w footerEnd
  put w (le64 (crc fileData))
  put w (le64 magic)
  position w

/-! ### read_example -/

/-- A piece of `read_example`: given the number of operations so far, its result and the number of operations after it. -/
def R (α : Type) : Type := Nat → Res (α × Nat)

instance : Monad R where
  pure a := fun n => .ok (a, n)
  bind m f := fun n =>
    match m n with
    | .ok (a, n) => f a n
    | .err e => .err e
    | .panic => .panic

/-- A `binary.Read`, which fails or does this. -/
def reading {α : Type} (w : World) (x : Res α) : R α := fun n =>
  if w.read n then
    match x with
    | .ok a => .ok (a, n + 1)
    | .err e => .err e
    | .panic => .panic
  else .err .io

/-- A `Seek` or a `Stat`. -/
def other (w : World) : R Unit := fun n => if w.other n then .ok ((), n + 1) else .err .io

/-- What returns an error without a file operation. -/
def fail {α : Type} (e : Err) : R α := fun _ => .err e

/-- What panics. -/
def panic {α : Type} : R α := fun _ => .panic

/-- `readFileHeader` (read.go:111-156). -/
def readFileHeader (w : World) (file : Bytes) : R Header := do
  other w
  let (m, b) ← reading w (get64 file)
  if m ≠ magic then fail .badMagic else do
  let (version, b) ← reading w (get32 b)
  let (_, b) ← reading w (get32 b)
  let (blockCount, b) ← reading w (get64 b)
  let (_, b) ← reading w (get32 b)
  let (_, b) ← reading w (get32 b)
  let (_, b) ← reading w (get32 b)
  let (_, _) ← reading w (get64 b)
  other w
  pure { version, blockCount }

/-- The loop reading the index (read.go:198-223), `n` entries to go. -/
def readEntries (w : World) : Nat → Bytes → R (List Entry)
  | 0, _ => pure []
  | n + 1, b => do
    let (_, b) ← reading w (get64 b)
    let (_, b) ← reading w (get32 b)
    let (_, b) ← reading w (get64 b)
    let (_, b) ← reading w (get64 b)
    let (minValue, b) ← reading w (getI64 b)
    let (maxValue, b) ← reading w (getI64 b)
    let (sum, b) ← reading w (getI64 b)
    let (count, b) ← reading w (get32 b)
    let rest ← readEntries w n b
    pure ({ minValue, maxValue, sum, count } :: rest)

/-- `readFooter` (read.go:165-229). Seeking before the beginning of the file fails. -/
def readFooter (w : World) (file : Bytes) : R (List Entry) := do
  other w
  if file.length < 8 then fail .io else do
  other w
  let (m, _) ← reading w (get64 (file.drop (file.length - 8)))
  if m ≠ magic then fail .badFooterMagic else do
  other w
  let (n, b) ← reading w (get32 (file.drop 0x140))
  readEntries w n.toNat b

/-- `NewReader` (read.go:84-108) after `os.Open`. -/
def openFile (w : World) (file : Bytes) : R Opened := do
  let header ← readFileHeader w file
  let entries ← readFooter w file
  pure { header, entries }

/-- Reading `n` IDs (read.go:320-325). -/
def getIDs (w : World) : Nat → Bytes → R (List UInt64)
  | 0, _ => pure []
  | n + 1, b => do
    let (x, b) ← reading w (get64 b)
    let xs ← getIDs w n b
    pure (x :: xs)

/-- Reading `n` values (read.go:333-338). -/
def getValues (w : World) : Nat → Bytes → R (List Int64)
  | 0, _ => pure []
  | n + 1, b => do
    let (x, b) ← reading w (getI64 b)
    let xs ← getValues w n b
    pure (x :: xs)

/-- The first two lines of `DumpKVPairs` (read.go:238-239). -/
def dumpHead : Bytes := str "ID\tValue\n" ++ str "--\t-----\n"

/-- The rest of `DumpKVPairs` (read.go:241-376): the text it prints, unless it fails. -/
def dumpRest (fmtAvg : Avg → Bytes) (w : World) (file : Bytes) : R Bytes := do
  other w
  let b := file.drop 0x40
  let (_, b) ← reading w (get64 b)
  let (_, b) ← reading w (get64 b)
  let (_, b) ← reading w (getI64 b)
  let (_, b) ← reading w (getI64 b)
  let (_, b) ← reading w (getI64 b)
  let (_, b) ← reading w (get32 b)
  let (_, b) ← reading w (get32 b)
  let (_, b) ← reading w (get32 b)
  let (_, b) ← reading w (get32 b)
  let (_, b) ← reading w (get32 b)
  let (_, b) ← reading w (get64 b)
  other w
  let b := b.drop 8
  let (_, b) ← reading w (get32 b)
  let (_, b) ← reading w (get32 b)
  let (_, b) ← reading w (get32 b)
  let (_, _) ← reading w (get32 b)
  let count := 10
  other w
  let ids ← getIDs w count (file.drop 0xa0)
  other w
  let values ← getValues w count (file.drop 0xf0)
  match stats ids values with
  | .err e => fail e
  | .panic => panic
  | .ok s => pure (((ids.zip values).map fun p => fmtNat p.1.toNat ++ [9] ++ Cli.fmtInt p.2 ++ [10]).flatten ++
    str "\nBlock Statistics (computed from data):\n" ++
    str "Count: " ++ fmtNat count ++ str "\n" ++
    str "Min ID: " ++ fmtNat s.minID.toNat ++ str ", Max ID: " ++ fmtNat s.maxID.toNat ++ str "\n" ++
    str "Min Value: " ++ Cli.fmtInt s.minValue ++ str ", Max Value: " ++ Cli.fmtInt s.maxValue ++ str "\n" ++
    str "Sum: " ++ Cli.fmtInt s.sum ++ str "\n" ++
    str "Average: " ++ fmtAvg (.quot s.sum count) ++ str "\n\n")

/-! ### main -/

/-- How a run ends. -/
inductive End where
  | success
  /-- flag parsing failed (read.go:421) -/
  | flags (e : FlagErr)
  /-- `os.Create` failed (write.go:31-34) -/
  | create
  /-- `writeFile` failed later (write.go:207-209) -/
  | writing
  /-- `os.Open` failed (read.go:85-88) -/
  | noFile
  /-- `NewReader` failed later (read.go:424-428) -/
  | unreadable (e : Err)
  /-- `DumpKVPairs` failed (read.go:438-441) -/
  | dump (e : Err)
  | panicked
deriving DecidableEq, Repr

/-- The exit status. -/
def End.status : End → Nat
  | .success => 0
  | .flags .help => 0
  | .flags _ => 2
  | .panicked => 2
  | _ => 1

/-- A run: what it printed (without error messages), how it ended, and the files afterwards. -/
structure Run where
  out : Bytes
  stop : End
  files : Files

/-- `main` of write_example (write.go:204-210), which does not look at its arguments. -/
def writeMain (crc : Bytes → UInt64) (w : World) (fs : Files) : Run :=
  let name := str "example.col"
  if w.creatable name = false then ⟨[], .create, fs⟩
  else
    match stats sampleIDs sampleValues with
    | .ok s =>
      match writeFile w crc s ⟨⟨[], 0⟩, 0⟩ with
      | (some size, st) => ⟨str "Wrote example file with " ++ fmtNat sampleIDs.length ++ str " entries to " ++ name ++ str "\n" ++
          str "File size: " ++ fmtNat size ++ str " bytes\n", .success, fs.put name st.file.bytes⟩
      | (none, st) => ⟨[], .writing, fs.put name st.file.bytes⟩
    | _ => ⟨[], .panicked, fs.put name []⟩

/-- The flags of read_example (read.go:418-420). -/
def readKind (name : Bytes) : Option Kind :=
  if name = str "file" then some .text else if name = str "dump" ∨ name = str "agg" then some .bool else none

/-- Their defaults (read.go:418-420). -/
def readDefaults : Values := fun name => if name = str "file" then .text (str "example.col") else .bool false

/-- The line printed if no operation is given (read.go:450); `flag.PrintDefaults` prints to the standard error. -/
def noOperation : Bytes :=
  str "No operation specified. Use --dump to show key-value pairs or --agg to show aggregations.\n"

/-- `main` of read_example (read.go:423-453) on a file. -/
def display (fmtAvg : Avg → Bytes) (w : World) (fs : Files) (name file : Bytes) (dumpKV agg : Bool) : Run :=
  match openFile w file 0 with
  | .err e => ⟨[], .unreadable e, fs⟩
  | .panic => ⟨[], .panicked, fs⟩
  | .ok (r, n) =>
    let head := str "File: " ++ name ++ str "\n" ++ str "Version: " ++ fmtNat r.header.version.toNat ++ str "\n" ++
      str "Blocks: " ++ fmtNat r.header.blockCount.toNat ++ str "\n\n"
    let tail := (if agg then Examples.aggregate fmtAvg r.entries else []) ++ (if !dumpKV && !agg then noOperation else [])
    if dumpKV then
      match dumpRest fmtAvg w file n with
      | .err e => ⟨head ++ dumpHead, .dump e, fs⟩
      | .panic => ⟨head ++ dumpHead, .panicked, fs⟩
      | .ok (text, _) => ⟨head ++ (dumpHead ++ text) ++ tail, .success, fs⟩
    else ⟨head ++ tail, .success, fs⟩

/-- `main` of read_example (read.go:423-453) after the flags are parsed. -/
def readFile (w : World) (fs : Files) (name : Bytes) (dumpKV agg : Bool) : Run :=
  match fs name with
  | none => ⟨[], .noFile, fs⟩
  | some file => if w.openable name = false then ⟨[], .noFile, fs⟩ else display printAvg w fs name file dumpKV agg

/-- `main` of read_example (read.go:413-454); `args` is `os.Args[1:]`. -/
def readMain (w : World) (fs : Files) (args : List Bytes) : Run :=
  match Cmd.parse readKind args readDefaults with
  | .error e => ⟨[], .flags e, fs⟩
  | .ok (v, _) => readFile w fs (v.string (str "file")) (v.bool (str "dump")) (v.bool (str "agg"))

/-- A command: one of the two programs with arguments. -/
inductive Command where
  | write (args : List Bytes)
  | read (args : List Bytes)
deriving DecidableEq, Repr

/-- Running a command. -/
def Command.run (crc : Bytes → UInt64) (w : World) (fs : Files) : Command → Run
  | .write _ => writeMain crc w fs
  | .read args => readMain w fs args

/-- A series of commands, each in its own world. -/
def session (crc : Bytes → UInt64) : List (World × Command) → Files → Files
  | [], fs => fs
  | (w, c) :: rest, fs => session crc rest (c.run crc w fs).files

end VibeCol.ExampleCmd
