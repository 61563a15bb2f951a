/-
What command lines of `vibecol` mean. Of the model, only the type `Value` of flag values (a string or a truth value) is used.
-/
import Verif.Model.CommandLine
namespace VibeCol.Cmd
open VibeCol.Cli (str)

/-- A flag is written with one or two dashes. -/
def Dashed (name s : Bytes) : Prop := s = 45 :: name ∨ s = 45 :: 45 :: name

/-- The words for a truth value. -/
def boolWords (b : Bool) : List Bytes :=
  if b then [str "1", str "t", str "T", str "true", str "TRUE", str "True"]
  else [str "0", str "f", str "F", str "false", str "FALSE", str "False"]

/-- Arguments that set flags, and what they set, in order: `-name value`, `-name=value` for the flags in `texts`,
`-name`, `-name=true`, `-name=false` for those in `bools`. -/
inductive Options (texts bools : List Bytes) : List Bytes → List (Bytes × Value) → Prop where
  | nil : Options texts bools [] []
  | separate (name d value : Bytes) {args os} (hn : name ∈ texts) (hd : Dashed name d) (h : Options texts bools args os) :
      Options texts bools (d :: value :: args) ((name, .text value) :: os)
  | joined (name d value : Bytes) {args os} (hn : name ∈ texts) (hd : Dashed name d) (h : Options texts bools args os) :
      Options texts bools ((d ++ 61 :: value) :: args) ((name, .text value) :: os)
  | switch (name d : Bytes) {args os} (hn : name ∈ bools) (hd : Dashed name d) (h : Options texts bools args os) :
      Options texts bools (d :: args) ((name, .bool true) :: os)
  | switchTo (name d value : Bytes) (b : Bool) {args os} (hn : name ∈ bools) (hd : Dashed name d) (hb : value ∈ boolWords b)
      (h : Options texts bools args os) :
      Options texts bools ((d ++ 61 :: value) :: args) ((name, .bool b) :: os)

/-- Arguments after the flags: there are none, or `--` and anything after it, or a word that is not a flag and anything after it. -/
inductive Rest : List Bytes → Prop where
  | nil : Rest []
  | dashes (args : List Bytes) : Rest ([45, 45] :: args)
  | word (s : Bytes) (args : List Bytes) (h : s.length < 2 ∨ s.head? ≠ some 45) : Rest (s :: args)

/-- The last value given to a flag, or its default. -/
def lastOf (os : List (Bytes × Value)) (name : Bytes) (default : Value) : Value :=
  (os.reverse.lookup name).getD default

/-- `args` are valid arguments for a subcommand with these flags, and set them as in `os`. -/
def Sets (texts bools : List Bytes) (args : List Bytes) (os : List (Bytes × Value)) : Prop :=
  ∃ opts rest, args = opts ++ rest ∧ Options texts bools opts os ∧ Rest rest

/-- A word that asks for help: `-h`, `-help`, also with two dashes or a value. -/
def HelpWord (s : Bytes) : Prop := ∃ d, (Dashed (str "h") d ∨ Dashed (str "help") d) ∧ (s = d ∨ ∃ value, s = d ++ 61 :: value)

/-- `args` ask for help, after settings of flags. -/
def Help (texts bools : List Bytes) (args : List Bytes) : Prop :=
  ∃ opts os s rest, args = opts ++ s :: rest ∧ Options texts bools opts os ∧ HelpWord s

/-- The command line is `write` or `read` and asks for help. -/
def AsksHelp (args : List Bytes) : Prop :=
  ∃ args', args = str "write" :: args' ∧ Help [str "o", str "ids", str "values"] [] args' ∨
    args = str "read" :: args' ∧ Help [str "f"] [str "dump", str "agg"] args'

/-- The command line is `write` with output file `o` and the lists `ids` and `values`. -/
def AsksWrite (args : List Bytes) (o ids values : Bytes) : Prop :=
  ∃ args' os, args = str "write" :: args' ∧ Sets [str "o", str "ids", str "values"] [] args' os ∧
    lastOf os (str "o") (.text (str "example.col")) = .text o ∧ lastOf os (str "ids") (.text []) = .text ids ∧
    lastOf os (str "values") (.text []) = .text values

/-- The command line is `read` with input file `f`, with or without `--dump` and `--agg`. -/
def AsksRead (args : List Bytes) (f : Bytes) (dump agg : Bool) : Prop :=
  ∃ args' os, args = str "read" :: args' ∧ Sets [str "f"] [str "dump", str "agg"] args' os ∧
    lastOf os (str "f") (.text (str "example.col")) = .text f ∧ lastOf os (str "dump") (.bool false) = .bool dump ∧
    lastOf os (str "agg") (.bool false) = .bool agg

end VibeCol.Cmd
