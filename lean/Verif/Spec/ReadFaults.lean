/-
Specification vocabulary: reads that fail.
-/
import Verif.Model.ReaderIO
import Verif.Spec.Files
namespace VibeCol

/-- The blocks whose number is not marked as failing, in order. -/
def unfailed (fail : Nat → Bool) (blocks : List Block) : List Block :=
  (blocks.zipIdx.filter fun x => !fail x.2).map Prod.fst

/-- `Close` is among the calls. -/
def closes {B : Type} (calls : List (IOCall B)) : Bool :=
  calls.any fun c => match c with
    | .close _ => true
    | _ => false

end VibeCol
