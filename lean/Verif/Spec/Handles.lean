/-
Vocabulary of C89: which calls of a log close the file of an object.
-/
import Verif.Model.Handles
namespace VibeCol
variable {B : Type}

/-- The call has closed the file of object `i`, as far as the caller can tell: a `Close` of a `Writer` or a `Reader` or of a stack with
this reader, whatever it returned; a `FinalizeAndClose`, or a `Close` of a `SimpleWriter`, that returned nil. -/
def Closes (i : Nat) : Deed B × Outcome → Prop
  | (.onWriter j _ .close, .result _) => j = i
  | (.onWriter j _ .finalizeAndClose, .result (.ok ())) => j = i
  | (.onSimple j _ .close, .result (.ok ())) => j = i
  | (.onReader j (.close _), .returned) => j = i
  | (.closeStack js _, .returned) => i ∈ js
  | _ => False

/-- The call may have closed the file of object `i`: these, and also a `FinalizeAndClose`, or a `Close` of a `SimpleWriter`, that returned an
error. -/
def MayClose (i : Nat) (ev : Deed B × Outcome) : Prop :=
  Closes i ev ∨
  match ev with
  | (.onWriter j _ .finalizeAndClose, .result _) => j = i
  | (.onSimple j _ .close, .result _) => j = i
  | _ => False

/-- How many objects the constructors have returned. -/
def created : List (Deed B × Outcome) → Nat
  | [] => 0
  | (_, .created _) :: log => created log + 1
  | _ :: log => created log

end VibeCol
