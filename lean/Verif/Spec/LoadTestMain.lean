/-
What command lines of `loadtest` mean. Of the model, only the kinds of flags and the type of their values are used.
-/
import Verif.Model.LoadTestMain
import Verif.Spec.CommandLine
namespace VibeCol.LoadCmd
open VibeCol.Cli (str)
open VibeCol.Cmd (Dashed Rest boolWords)

/-- `c` is a digit with value `d` in a number system: 0 to 9, then a to f or A to F. -/
def Digit (base : Nat) (c : UInt8) (d : Nat) : Prop :=
  d < base ∧ (d < 10 ∧ c.toNat = 48 + d ∨ 10 ≤ d ∧ (c.toNat = 87 + d ∨ c.toNat = 55 + d))

/-- Digits, each of them possibly with an underscore in front. -/
inductive Digits (base : Nat) : Bytes → List Nat → Prop where
  | nil : Digits base [] []
  | digit {c d s ds} (h : Digit base c d) (t : Digits base s ds) : Digits base (c :: s) (d :: ds)
  | under {c d s ds} (h : Digit base c d) (t : Digits base s ds) : Digits base (95 :: c :: s) (d :: ds)

/-- The number that digits stand for. -/
def valueOf (base : Nat) (ds : List Nat) : Nat := ds.foldl (fun n d => base * n + d) 0

/-- Numerals as in Go programs: decimal if they do not begin with 0; `0b`, `0o` and `0x` (or capitals) in front of binary, octal and
hexadecimal digits; `0` in front of octal digits, or alone. Underscores may separate digits. -/
inductive Numeral : Bytes → Nat → Prop where
  | decimal {c d s ds} (hd : Digit 10 c d) (h0 : d ≠ 0) (h : Digits 10 s ds) : Numeral (c :: s) (valueOf 10 (d :: ds))
  | octal {s ds} (h : Digits 8 s ds) : Numeral (48 :: s) (valueOf 8 ds)
  | prefixed {p base s ds} (hp : (p, base) ∈ [((98 : UInt8), 2), (66, 2), (111, 8), (79, 8), (120, 16), (88, 16)])
      (h : Digits base s ds) (hne : ds ≠ []) : Numeral (48 :: p :: s) (valueOf base ds)

/-- The same with an optional sign. -/
inductive SignedNumeral : Bytes → Int → Prop where
  | plain {s n} (h : Numeral s n) : SignedNumeral s n
  | plus {s n} (h : Numeral s n) : SignedNumeral (43 :: s) n
  | minus {s n} (h : Numeral s n) : SignedNumeral (45 :: s) (-n)

/-- What an argument means for a flag. Numbers that do not fit in 64 bits mean nothing. -/
inductive Denotes : Kind → Bytes → Value → Prop where
  | text (s : Bytes) : Denotes .text s (.text s)
  | bool {s b} (h : s ∈ boolWords b) : Denotes .bool s (.bool b)
  | int {s} {v : Int64} (h : SignedNumeral s v.toInt) : Denotes .int s (.int v)
  | uint {s} {v : UInt64} (h : Numeral s v.toNat) : Denotes .uint s (.uint v)

/-- Arguments that set flags, and what they set, in order: `-name value` (not for truth values), `-name=value`, and `-name` for true. -/
inductive Options (flags : List (Bytes × Kind)) : List Bytes → List (Bytes × Value) → Prop where
  | nil : Options flags [] []
  | separate {name d value k v args os} (hn : (name, k) ∈ flags) (hk : k ≠ .bool) (hd : Dashed name d) (hv : Denotes k value v)
      (h : Options flags args os) : Options flags (d :: value :: args) ((name, v) :: os)
  | joined {name d value k v args os} (hn : (name, k) ∈ flags) (hd : Dashed name d) (hv : Denotes k value v)
      (h : Options flags args os) : Options flags ((d ++ 61 :: value) :: args) ((name, v) :: os)
  | switch {name d args os} (hn : (name, .bool) ∈ flags) (hd : Dashed name d) (h : Options flags args os) :
      Options flags (d :: args) ((name, .bool true) :: os)

/-- The last value given to a flag, or its default. -/
def lastOf (os : List (Bytes × Value)) (name : Bytes) (default : Value) : Value :=
  (os.reverse.lookup name).getD default

/-- `args` are valid arguments for a subcommand with these flags, and set them as in `os`. -/
def Sets (flags : List (Bytes × Kind)) (args : List Bytes) (os : List (Bytes × Value)) : Prop :=
  ∃ opts rest, args = opts ++ rest ∧ Options flags opts os ∧ Rest rest

/-- `args` ask for help, after settings of flags. -/
def Help (flags : List (Bytes × Kind)) (args : List Bytes) : Prop :=
  ∃ opts os s rest, args = opts ++ s :: rest ∧ Options flags opts os ∧ Cmd.HelpWord s

/-- What `import` is told. -/
structure ImportArgs where
  num : Int64
  blockSize : Int64
  file : Bytes
  seed : Int64
  maxValue : Int64
  maxID : UInt64
deriving DecidableEq, Repr

/-- The flags of `import`. -/
def importFlags : List (Bytes × Kind) :=
  [(str "n", .int), (str "block-size", .int), (str "file", .text), (str "seed", .int), (str "max-value", .int), (str "max-id", .uint)]

/-- The command line, given at this time, is `import` with these parameters. -/
def AsksImport (now : Int64) (args : List Bytes) (a : ImportArgs) : Prop :=
  ∃ args' os, args = str "import" :: args' ∧ Sets importFlags args' os ∧
    lastOf os (str "n") (.int 10000000) = .int a.num ∧ lastOf os (str "block-size") (.int 10000) = .int a.blockSize ∧
    lastOf os (str "file") (.text (str "loadtest.col")) = .text a.file ∧ lastOf os (str "seed") (.int now) = .int a.seed ∧
    lastOf os (str "max-value") (.int 1000000) = .int a.maxValue ∧ lastOf os (str "max-id") (.uint 20000000) = .uint a.maxID

/-- The flags of `aggregate`. -/
def aggregateFlags : List (Bytes × Kind) := [(str "file", .text), (str "skip-cache", .bool), (str "parallel", .int)]

/-- The command line is `aggregate` with these parameters. -/
def AsksAggregate (args : List Bytes) (file : Bytes) (skipCache : Bool) (parallel : Int64) : Prop :=
  ∃ args' os, args = str "aggregate" :: args' ∧ Sets aggregateFlags args' os ∧
    lastOf os (str "file") (.text (str "loadtest.col")) = .text file ∧ lastOf os (str "skip-cache") (.bool true) = .bool skipCache ∧
    lastOf os (str "parallel") (.int 0) = .int parallel

/-- The command line is `import` or `aggregate` and asks for help. -/
def AsksHelp (args : List Bytes) : Prop :=
  ∃ args', args = str "import" :: args' ∧ Help importFlags args' ∨ args = str "aggregate" :: args' ∧ Help aggregateFlags args'

end VibeCol.LoadCmd
