/-
Several `Writer`s in one world: any number of writers, in one process or in several, on any files, also on the same file.
There is no lock: `NewWriter` calls `os.Create`, which truncates the file under the hands of whoever has it open.
-/
import Verif.Model.Closing
namespace VibeCol

/-- The files by name, and the writers by a number. A `Writer` keeps its own file offset (its `os.File`), but the contents
of the file belong to all: `writers` is only used for the other fields. -/
structure Shop (B : Type) where
  files : Bytes → Bytes
  writers : Nat → Option (Bytes × Writer B)

/-- What the program does with its writer number `k`: create it (`NewWriter`, writer.go:31-60), or call one of its methods. -/
inductive Act where
  | create (path : Bytes) (opts : List WriterOption)
  | call (c : WCall)

/-- The map with one entry changed. -/
def changed {α β : Type} [DecidableEq α] (f : α → β) (a : α) (b : β) : α → β := fun x => if x = a then b else f x

variable {B : Type} [Bitmap B]

/-- One call. `NewWriter` starts with an empty file, whatever was there and whoever has it open (`os.Create`, writer.go:32);
if writing the header fails there is no writer (writer.go:54-57). A method works on the contents the file has now.
Calls are atomic here: two writers do not interleave inside a call. `envs k` are the faults and the clock that writer `k` meets.
The result is `none` if there is no writer with this number. -/
def Shop.step (envs : Nat → Env) (k : Nat) : Act → Shop B → Option Result × Shop B
  | .create path opts, s =>
    match newWriter (B := B) opts (envs k) with
    | (.ok _, w) => (some (.ok ()), ⟨changed s.files path w.file.bytes, changed s.writers k (some (path, w))⟩)
    | (.error e, w) => (some (.error e), ⟨changed s.files path w.file.bytes, changed s.writers k none⟩)
  | .call c, s =>
    match s.writers k with
    | none => (none, s)
    | some (path, w) =>
      let (r, w') := c.run (envs k) { w with file := { w.file with bytes := s.files path } }
      (some r, ⟨changed s.files path w'.file.bytes, changed s.writers k (some (path, w'))⟩)

/-- Calls of all writers in the order in which they happen. -/
def Shop.run (envs : Nat → Env) : List (Nat × Act) → Shop B → List (Nat × Act × Option Result) × Shop B
  | [], s => ([], s)
  | (k, a) :: es, s =>
    let (r, s') := s.step envs k a
    let (log, s'') := s'.run envs es
    ((k, a, r) :: log, s'')

end VibeCol
