/-
Specification vocabulary: a stack of files of which some blocks cannot be read.
-/
import Verif.Model.MultiIO
import Verif.Spec.Multi
import Verif.Spec.ReadFaults
namespace VibeCol

/-- One of these calls closes reader `i`. -/
def closesReader {B : Type} (calls : List (MultiCall B)) (i : Nat) : Bool :=
  calls.any fun c => match c with
    | .close _ => true
    | .on j (.close _) => j == i
    | _ => false

/-- One of these calls enables the bitmap cache of a reader. -/
def enables {B : Type} (calls : List (MultiCall B)) : Bool :=
  calls.any fun c => match c with
    | .on _ .enable => true
    | _ => false

/-- The pairs visible in a stack of files, ordered from oldest to newest, of each of which (first component) only some blocks
(second component) are read: those that are read, pass the filter and have an ID that occurs nowhere, read or not, in a newer
file. -/
def visibleRead (allowed : UInt64 → Bool) : List (List Block × List Block) → List Pair
  | [] => []
  | f :: newer =>
    (pairsOf f.2).filter (fun p => allowed p.1 && !(newer.any fun g => (pairsOf g.1).any fun q => q.1 == p.1)) ++
      visibleRead allowed newer

/-- The stack `files` with the blocks that are read if block `k` of file `i` fails as `fail i k` says. -/
def readOf (fail : Nat → Nat → Bool) (files : List (List Block)) : List (List Block × List Block) :=
  files.zipIdx.map fun x => (x.1, unfailed (fail x.2) x.1)

/-- The blocks of file `i` that are not read: all, if the reader has been closed. -/
def unread {B : Type} (calls : List (MultiCall B)) (fails : Nat → ReadFails) : Nat → Nat → Bool :=
  fun i k => closesReader calls i || (fails i).blocks (UInt64.ofNat k)

end VibeCol
