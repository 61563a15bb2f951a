/-
`main` of cmd/loadtest/main.go (cited as main.go), with the parts of Go's packages `flag` and `strconv` it uses, and the files it works on.
Files are identified by the name given on the command line; directories are not files. Of the printed text only the numbers of
`Verif/Model/LoadTest.lean` are kept.
-/
import Verif.Model.LoadTest
import Verif.Model.CommandLine
namespace VibeCol.LoadCmd
open VibeCol.Cli (str NumErr)
open VibeCol.Cmd (FlagErr Files word parseBool)
open VibeCol.LoadTest (Rng Exit Report)

/-! ### strconv -/

/-- `lower` in strconv: sets bit 5. -/
def lower (c : UInt8) : UInt8 := c ||| 0x20

/-- The last character seen by `underscoreOK`: none yet, a digit (or base prefix), an underscore, anything else. -/
inductive Saw where
  | start
  | digit
  | under
  | other
deriving DecidableEq, Repr

/-- The loop of `strconv.underscoreOK`. -/
def underscoreLoop (hex : Bool) : Bytes → Saw → Bool
  | [], saw => saw ≠ .under
  | c :: cs, saw =>
    if (48 ≤ c ∧ c ≤ 57) ∨ (hex = true ∧ 97 ≤ lower c ∧ lower c ≤ 102) then underscoreLoop hex cs .digit
    else if c = 95 then
      if saw ≠ .digit then false else underscoreLoop hex cs .under
    else if saw = .under then false
    else underscoreLoop hex cs .other

/-- `strconv.underscoreOK`: underscores only between digits, or between the base prefix and a digit. -/
def underscoreOK (s : Bytes) : Bool :=
  let s := match s with
    | c :: cs => if c = 45 ∨ c = 43 then cs else s
    | [] => s
  match s with
  | z :: p :: cs =>
    if z = 48 ∧ (lower p = 98 ∨ lower p = 111 ∨ lower p = 120) then underscoreLoop (lower p = 120) cs .digit
    else underscoreLoop false s .start
  | _ => underscoreLoop false s .start

/-- The value of a digit in the loop of `strconv.ParseUint`. -/
def digitVal (c : UInt8) : Option UInt8 :=
  if 48 ≤ c ∧ c ≤ 57 then some (c - 48)
  else if 97 ≤ lower c ∧ lower c ≤ 122 then some (lower c - 97 + 10)
  else none

/-- The loop of `strconv.ParseUint(s, 0, 64)` for a base: `n` is the number read so far; also whether there were underscores. -/
def parseUintLoop (base : UInt64) : Bytes → UInt64 → Bool → Except NumErr (UInt64 × Bool)
  | [], n, under => .ok (n, under)
  | c :: cs, n, under =>
    if c = 95 then parseUintLoop base cs n true else
    match digitVal c with
    | none => .error .syntax
    | some d =>
      if d.toUInt64 ≥ base then .error .syntax else
      if n ≥ 18446744073709551615 / base + 1 then .error .range else
      let n0 := n * base
      let n1 := n0 + d.toUInt64
      if n1 < n0 then .error .range else parseUintLoop base cs n1 under

/-- The base and the digits, by the prefix of the numeral (`strconv.ParseUint` with base 0). -/
def basePrefix (s : Bytes) : UInt64 × Bytes :=
  match s with
  | c :: cs =>
    if c = 48 then
      match cs with
      | p :: d :: ds =>
        if lower p = 98 then (2, d :: ds)
        else if lower p = 111 then (8, d :: ds)
        else if lower p = 120 then (16, d :: ds)
        else (8, cs)
      | _ => (8, cs)
    else (10, s)
  | [] => (10, s)

/-- `strconv.ParseUint(s, 0, 64)`. -/
def parseUint (s : Bytes) : Except NumErr UInt64 :=
  if s = [] then .error .syntax else
  match parseUintLoop (basePrefix s).1 (basePrefix s).2 0 false with
  | .error e => .error e
  | .ok (n, under) => if under = true ∧ underscoreOK s = false then .error .syntax else .ok n

/-- The end of `strconv.ParseInt(s, 0, 64)`, after the sign. When `ParseUint` reports `ErrRange` it returns the greatest number, which is
out of the range of `int64`. -/
def parseSigned (neg : Bool) (digits : Bytes) : Except NumErr Int64 :=
  match parseUint digits with
  | .error e => .error e
  | .ok un =>
    if neg = false ∧ un ≥ 9223372036854775808 then .error .range else
    if neg = true ∧ un > 9223372036854775808 then .error .range else
    .ok (if neg then -un.toInt64 else un.toInt64)

/-- `strconv.ParseInt(s, 0, 64)`. -/
def parseInt (s : Bytes) : Except NumErr Int64 :=
  match s with
  | [] => .error .syntax
  | c :: cs => parseSigned (c = 45) (if c = 43 ∨ c = 45 then cs else c :: cs)

/-! ### flag -/

/-- The kinds of flags: `String`, `Bool`, `Int` and `Int64` (the same on a 64 bit machine), `Uint64` (main.go:26-36). -/
inductive Kind where
  | text
  | bool
  | int
  | uint
deriving DecidableEq, Repr

/-- The value of a flag. -/
inductive Value where
  | text (s : Bytes)
  | bool (b : Bool)
  | int (v : Int64)
  | uint (v : UInt64)
deriving DecidableEq, Repr

/-- `Value.Set` in package flag. -/
def Kind.set : Kind → Bytes → Option Value
  | .text, s => some (.text s)
  | .bool, s => (parseBool s).map .bool
  | .int, s =>
    match parseInt s with
    | .ok v => some (.int v)
    | .error _ => none
  | .uint, s =>
    match parseUint s with
    | .ok v => some (.uint v)
    | .error _ => none

/-- The values of all flags of a `FlagSet`, by name. -/
abbrev Values := Bytes → Value

/-- Setting a flag. -/
def Values.set (v : Values) (name : Bytes) (x : Value) : Values := fun n => if n = name then x else v n

/-- `FlagSet.Parse`: the flags' values and the remaining arguments, which main.go never looks at. -/
def parse (kind : Bytes → Option Kind) : List Bytes → Values → Except FlagErr (Values × List Bytes)
  | [], v => .ok (v, [])
  | s :: args, v =>
    match word s with
    | .positional => .ok (v, s :: args)
    | .terminator => .ok (v, args)
    | .bad => .error .badSyntax
    | .flag name value =>
      match kind name with
      | none => .error (if name = str "help" ∨ name = str "h" then .help else .undefined)
      | some k =>
        match value with
        | some x =>
          match k.set x with
          | none => .error .badValue
          | some y => parse kind args (v.set name y)
        | none =>
          if k = .bool then parse kind args (v.set name (.bool true))
          else
            match args with
            | [] => .error .missingValue
            | x :: args =>
              match k.set x with
              | none => .error .badValue
              | some y => parse kind args (v.set name y)

/-- The flags of `import` (main.go:26-31). -/
def importKind (name : Bytes) : Option Kind :=
  if name = str "n" ∨ name = str "block-size" ∨ name = str "seed" ∨ name = str "max-value" then some .int
  else if name = str "max-id" then some .uint
  else if name = str "file" then some .text
  else none

/-- Their defaults (main.go:15-19, 26-31); the seed is the time. -/
def importDefaults (now : Int64) : Values := fun name =>
  if name = str "n" then .int 10000000
  else if name = str "block-size" then .int 10000
  else if name = str "seed" then .int now
  else if name = str "max-value" then .int 1000000
  else if name = str "max-id" then .uint 20000000
  else .text (str "loadtest.col")

/-- The flags of `aggregate` (main.go:34-36). -/
def aggregateKind (name : Bytes) : Option Kind :=
  if name = str "file" then some .text
  else if name = str "skip-cache" then some .bool
  else if name = str "parallel" then some .int
  else none

/-- Their defaults (main.go:34-36). -/
def aggregateDefaults : Values := fun name =>
  if name = str "skip-cache" then .bool true
  else if name = str "parallel" then .int 0
  else .text (str "loadtest.col")

/-- The string value of a flag. -/
def Values.string (v : Values) (name : Bytes) : Bytes :=
  match v name with
  | .text s => s
  | _ => []

/-- The truth value of a flag. -/
def Values.bool (v : Values) (name : Bytes) : Bool :=
  match v name with
  | .bool b => b
  | _ => false

/-- The signed value of a flag. -/
def Values.int (v : Values) (name : Bytes) : Int64 :=
  match v name with
  | .int x => x
  | _ => 0

/-- The unsigned value of a flag. -/
def Values.uint (v : Values) (name : Bytes) : UInt64 :=
  match v name with
  | .uint x => x
  | _ => 0

/-! ### main -/

/-- What the outside world decides about one run: the time, the random numbers that follow each seed, whether `os.MkdirAll`, `os.Create`
and `os.Open` work for a file name, and what happens later. -/
structure World where
  env : Env
  sched : Sched
  now : Int64
  rng : Int64 → Rng
  directory : Bytes → Bool
  creatable : Bytes → Bool
  openable : Bytes → Bool

/-- How a run ends. -/
inductive End where
  /-- no subcommand (main.go:39-42) -/
  | noCommand
  /-- an unknown subcommand (main.go:52-56) -/
  | badCommand
  /-- `FlagSet.Parse` failed -/
  | flags (e : FlagErr)
  /-- `os.MkdirAll` failed (main.go:66-69) -/
  | mkdir
  /-- `os.Create` failed -/
  | create
  /-- the end of `runImport`: totals, an error or a panic -/
  | import (e : Exit)
  /-- `os.Open` failed -/
  | noFile
  /-- `NewReader` failed (main.go:178-181) -/
  | unreadable (e : Err)
  /-- the end of `runAggregations` (main.go:193-246) -/
  | report (r : Report)
  /-- a block could not be read in the full scan (main.go:229-232) -/
  | scan (e : Err)
  | panicked
deriving DecidableEq, Repr

/-- The exit status. -/
def End.status : End → Nat
  | .import (.done ..) => 0
  | .report _ => 0
  | .scan _ => 0
  | .flags .help => 0
  | .flags _ => 2
  | .import .panicked => 2
  | .panicked => 2
  | _ => 1

/-- A run: how it ended, and the files afterwards. -/
structure Run where
  stop : End
  files : Files

section
variable (B : Type) [Bitmap B]

/-- `runImport` (main.go:60-171) on files. -/
def runImport (w : World) (fs : Files) (num blockSize : Int64) (file : Bytes) (seed maxValue : Int64) (maxID : UInt64) : Run :=
  if w.directory file = false then ⟨.mkdir, fs⟩
  else if w.creatable file = false then ⟨.create, fs⟩
  else
    match LoadTest.runImport (B := B) w.env (w.rng seed) num blockSize maxValue maxID with
    | (e, some sw) => ⟨.import e, fs.put file sw.writer.file.bytes⟩
    | (e, none) => ⟨.import e, fs.put file (newWriter (B := B)
        [.withBlockSize blockSize.toUInt64.toUInt32, .withEncoding encVarIntBoth] w.env).2.file.bytes⟩

/-- `runAggregate` (main.go:173-246) on files. -/
def runAggregate (w : World) (fs : Files) (file : Bytes) (skipCache : Bool) (parallel : Int64) : Run :=
  match fs file with
  | none => ⟨.noFile, fs⟩
  | some bytes =>
    if w.openable file = false then ⟨.noFile, fs⟩
    else
      match newReader (B := B) bytes with
      | .err e => ⟨.unreadable e, fs⟩
      | .panic => ⟨.panicked, fs⟩
      | .ok _ =>
        match LoadTest.runAggregate (B := B) w.sched bytes skipCache parallel.toInt with
        | .ok r => ⟨.report r, fs⟩
        | .err e => ⟨.scan e, fs⟩
        | .panic => ⟨.panicked, fs⟩

/-- `main` (main.go:21-58); `args` is `os.Args[1:]`. -/
def main (w : World) (fs : Files) (args : List Bytes) : Run :=
  match args with
  | [] => ⟨.noCommand, fs⟩
  | command :: args =>
    if command = str "import" then
      match parse importKind args (importDefaults w.now) with
      | .error e => ⟨.flags e, fs⟩
      | .ok (v, _) => runImport B w fs (v.int (str "n")) (v.int (str "block-size")) (v.string (str "file")) (v.int (str "seed"))
          (v.int (str "max-value")) (v.uint (str "max-id"))
    else if command = str "aggregate" then
      match parse aggregateKind args aggregateDefaults with
      | .error e => ⟨.flags e, fs⟩
      | .ok (v, _) => runAggregate B w fs (v.string (str "file")) (v.bool (str "skip-cache")) (v.int (str "parallel"))
    else ⟨.badCommand, fs⟩

/-- A series of commands, each in its own world. -/
def session : List (World × List Bytes) → Files → Files
  | [], fs => fs
  | (w, args) :: rest, fs => session rest (main B w fs args).files

end
end VibeCol.LoadCmd
