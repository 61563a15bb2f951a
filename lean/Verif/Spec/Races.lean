/-
Specification for data races between goroutines that share readers (C82). The shared memory that calls access without
synchronisation are, per reader, the fields `globalIDs` and `cacheGlobalIDs` (pkg/col/reader.go:20-27); the file is accessed by
system calls, and all other fields are only written by `NewReader`.
-/
import Verif.Model.Goroutines
namespace VibeCol.Goroutines
variable {B : Type} [Bitmap B]

/-- A field of a reader. -/
inductive Field where
  | globalIDs (k : Nat)
  | cacheGlobalIDs (k : Nat)

/-- The access to a field that a program is about to make, and whether it is a write. -/
def Prog.next {α : Type} : Prog B α → Option (Field × Bool)
  | .loadIDs k _ => some (.globalIDs k, false)
  | .storeIDs k _ _ => some (.globalIDs k, true)
  | .loadFlag k _ => some (.cacheGlobalIDs k, false)
  | .storeFlag k _ _ => some (.cacheGlobalIDs k, true)
  | _ => none

/-- Goroutine `i` is about to access a field. -/
def About (st : State B) (i : Nat) (f : Field) (write : Bool) : Prop :=
  ∃ p, (st.go i).current = some p ∧ p.next = some (f, write)

/-- A data race: two goroutines are about to access the same field, at least one of them writing, and nothing orders them. -/
def DataRace (st : State B) : Prop :=
  ∃ (i j : Nat) (f : Field) (v w : Bool), i ≠ j ∧ About st i f v ∧ About st j f w ∧ (v = true ∨ w = true)

end VibeCol.Goroutines
