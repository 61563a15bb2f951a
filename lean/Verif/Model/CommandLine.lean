/-
`main` of cmd/vibecol/main.go (cited as main.go), with the part of Go's package `flag` it uses, and the files it
works on. Files are identified by the name given on the command line. The texts of usage and error messages are not modelled.
-/
import Verif.Model.Cli
import Verif.Model.Float
namespace VibeCol.Cmd
open VibeCol.Cli

/-- The kinds of flags: `String` (main.go:19-21, 24) and `Bool` (main.go:25-26). -/
inductive Kind where
  | text
  | bool
deriving DecidableEq, Repr

/-- The value of a flag. -/
inductive Value where
  | text (s : Bytes)
  | bool (b : Bool)
deriving DecidableEq, Repr

/-- The values of all flags of a `FlagSet`, by name. -/
abbrev Values := Bytes → Value

/-- Errors of `FlagSet.Parse`; with `flag.ExitOnError` the program exits with status 2, for `help` with status 0. -/
inductive FlagErr where
  | badSyntax
  | undefined
  | missingValue
  | badValue
  | help
deriving DecidableEq, Repr

/-- How `FlagSet.parseOne` reads an argument. -/
inductive Word where
  | positional
  | terminator
  | bad
  | flag (name : Bytes) (value : Option Bytes)
deriving DecidableEq, Repr

/-- The loop of `FlagSet.parseOne` looking for `=`. -/
def cutEq : Bytes → Bytes × Option Bytes
  | [] => ([], none)
  | c :: cs => if c = 61 then ([], some cs) else (c :: (cutEq cs).1, (cutEq cs).2)

/-- The first part of `FlagSet.parseOne`: is the argument a flag, and which? -/
def word (s : Bytes) : Word :=
  match s with
  | a :: b :: t =>
    if a ≠ 45 then .positional
    else if b = 45 ∧ t = [] then .terminator
    else
      let name := if b = 45 then t else b :: t
      match name with
      | [] => .bad
      | c :: _ => if c = 45 ∨ c = 61 then .bad else .flag (cutEq name).1 (cutEq name).2
  | _ => .positional

/-- `strconv.ParseBool`. -/
def parseBool (s : Bytes) : Option Bool :=
  if s ∈ [str "1", str "t", str "T", str "true", str "TRUE", str "True"] then some true
  else if s ∈ [str "0", str "f", str "F", str "false", str "FALSE", str "False"] then some false
  else none

/-- Setting a flag. -/
def Values.set (v : Values) (name : Bytes) (x : Value) : Values := fun n => if n = name then x else v n

/-- `FlagSet.Parse`: the flags' values and the remaining arguments, which main.go never looks at. -/
def parse (kind : Bytes → Option Kind) : List Bytes → Values → Except FlagErr (Values × List Bytes)
  | [], v => .ok (v, [])
  | s :: args, v =>
    match word s with
    | .positional => .ok (v, s :: args)
    | .terminator => .ok (v, args)
    | .bad => .error .badSyntax
    | .flag name value =>
      match kind name with
      | none => .error (if name = str "help" ∨ name = str "h" then .help else .undefined)
      | some .bool =>
        match value with
        | none => parse kind args (v.set name (.bool true))
        | some x =>
          match parseBool x with
          | none => .error .badValue
          | some b => parse kind args (v.set name (.bool b))
      | some .text =>
        match value with
        | some x => parse kind args (v.set name (.text x))
        | none =>
          match args with
          | [] => .error .missingValue
          | x :: args => parse kind args (v.set name (.text x))

/-- The flags of `write` (main.go:19-21). -/
def writeKind (name : Bytes) : Option Kind :=
  if name = str "o" ∨ name = str "ids" ∨ name = str "values" then some .text else none

/-- Their defaults (main.go:19-21). -/
def writeDefaults : Values := fun name => .text (if name = str "o" then str "example.col" else [])

/-- The flags of `read` (main.go:24-26). -/
def readKind (name : Bytes) : Option Kind :=
  if name = str "f" then some .text else if name = str "dump" ∨ name = str "agg" then some .bool else none

/-- Their defaults (main.go:24-26). -/
def readDefaults : Values := fun name => if name = str "f" then .text (str "example.col") else .bool false

/-- The string value of a flag. -/
def Values.string (v : Values) (name : Bytes) : Bytes :=
  match v name with
  | .text s => s
  | .bool _ => []

/-- The truth value of a flag. -/
def Values.bool (v : Values) (name : Bytes) : Bool :=
  match v name with
  | .text _ => false
  | .bool b => b

/-- The contents of the files. -/
abbrev Files := Bytes → Option Bytes

/-- What the outside world decides about one run: whether `os.Create` and `os.Open` work, and what happens later. -/
structure World where
  env : Env
  sched : Sched
  creatable : Bytes → Bool
  openable : Bytes → Bool

/-- How a run ends. -/
inductive End where
  /-- `main` returns -/
  | success
  /-- no subcommand (main.go:29-35) -/
  | noCommand
  /-- an unknown subcommand (main.go:50-53) -/
  | badCommand
  /-- `-ids` or `-values` is missing or empty (main.go:41-45) -/
  | noLists
  /-- `FlagSet.Parse` failed -/
  | flags (e : FlagErr)
  /-- `os.Create` failed -/
  | create
  /-- `os.Open` failed -/
  | noFile
  /-- a message and `os.Exit(1)` in `runWrite` or `runRead` -/
  | failed (f : Failure)
  | panicked
deriving DecidableEq, Repr

/-- The exit status. -/
def End.status : End → Nat
  | .success => 0
  | .flags .help => 0
  | .flags _ => 2
  | .panicked => 2
  | _ => 1

/-- A run: what it printed (without messages about errors), how it ended, and the files afterwards. -/
structure Run where
  out : Bytes
  stop : End
  files : Files

/-- The files after one was created or truncated and then written. -/
def Files.put (fs : Files) (name bytes : Bytes) : Files := fun n => if n = name then some bytes else fs n

section
variable (B : Type) [Bitmap B]

/-- `runWrite` (main.go:57-111) on files. `os.Create` comes after reading the lists. -/
def write (w : World) (fs : Files) (o ids values : Bytes) : Run :=
  let run := runWrite (B := B) w.env o ids values
  match run.output with
  | none => ⟨[], match run.exit with | .ok _ => .success | .error e => .failed e, fs⟩
  | some wr =>
    if w.creatable o = false then ⟨[], .create, fs⟩
    else
      match run.exit with
      | .ok text => ⟨text, .success, fs.put o wr.file.bytes⟩
      | .error e => ⟨[], .failed e, fs.put o wr.file.bytes⟩

/-- `runRead` (main.go:113-167) on files. -/
def read (usage : Bytes) (w : World) (fs : Files) (f : Bytes) (dump agg : Bool) : Run :=
  match fs f with
  | none => ⟨[], .noFile, fs⟩
  | some bytes =>
    if w.openable f = false then ⟨[], .noFile, fs⟩
    else
      match runRead (B := B) printAvg usage w.sched f bytes dump agg with
      | (text, none) => ⟨text, .success, fs⟩
      | (text, some (.failed e)) => ⟨text, .failed e, fs⟩
      | (text, some .panicked) => ⟨text, .panicked, fs⟩

/-- `main` (main.go:13-55); `args` is `os.Args[1:]`. -/
def main (usage : Bytes) (w : World) (fs : Files) (args : List Bytes) : Run :=
  match args with
  | [] => ⟨[], .noCommand, fs⟩
  | command :: args =>
    if command = str "write" then
      match parse writeKind args writeDefaults with
      | .error e => ⟨[], .flags e, fs⟩
      | .ok (v, _) =>
        if v.string (str "ids") = [] ∨ v.string (str "values") = [] then ⟨[], .noLists, fs⟩
        else write B w fs (v.string (str "o")) (v.string (str "ids")) (v.string (str "values"))
    else if command = str "read" then
      match parse readKind args readDefaults with
      | .error e => ⟨[], .flags e, fs⟩
      | .ok (v, _) => read B usage w fs (v.string (str "f")) (v.bool (str "dump")) (v.bool (str "agg"))
    else ⟨[], .badCommand, fs⟩

/-- A series of commands, each in its own world. -/
def session (usage : Bytes) : List (World × List Bytes) → Files → Files
  | [], fs => fs
  | (w, args) :: rest, fs => session usage rest (main B usage w fs args).files

end
end VibeCol.Cmd
