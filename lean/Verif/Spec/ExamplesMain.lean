/-
What command lines of `read_example` mean, and what can go wrong in a run. Of the model, only the description of the outside world and
the type of flag values are used.
-/
import Verif.Model.ExamplesMain
import Verif.Spec.CommandLine
namespace VibeCol.ExampleCmd
open VibeCol.Cli (str)
open VibeCol.Cmd (Sets lastOf)

/-- The command line asks `read_example` for the file `f`, with or without `--dump` and `--agg`. -/
def Asks (args : List Bytes) (f : Bytes) (dump agg : Bool) : Prop :=
  ∃ os, Sets [str "file"] [str "dump", str "agg"] args os ∧
    lastOf os (str "file") (.text (str "example.col")) = .text f ∧ lastOf os (str "dump") (.bool false) = .bool dump ∧
    lastOf os (str "agg") (.bool false) = .bool agg

/-- `read_example` is asked for help. -/
def AsksHelp (args : List Bytes) : Prop := Cmd.Help [str "file"] [str "dump", str "agg"] args

/-- No operation on an open file fails except writes. -/
def OnlyWritesFail (w : World) : Prop := ∀ n, w.read n = true ∧ w.other n = true

/-- No operation on an open file fails. -/
def NothingFails (w : World) : Prop := OnlyWritesFail w ∧ ∀ n, w.write n = none

/-- None of those operations of `write_example` fails that are not writes: the `Seek`s with numbers 19, 26, 47, 48, 50, 52, 53, 63, 65 and 69
and the `Read`s with numbers 49 and 66, counting all operations on the open file from 0. -/
def Completes (w : World) : Prop :=
  (∀ n ∈ [19, 26, 47, 48, 50, 52, 53, 63, 65, 69], w.other n = true) ∧ ∀ n ∈ [49, 66], w.read n = true

end VibeCol.ExampleCmd
