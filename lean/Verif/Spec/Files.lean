/-
Specification vocabulary: finalized files.
-/
import Verif.Spec.History
import Verif.Spec.Encodings
namespace VibeCol

/-- `file` is on disk after: `NewWriter` with options `opts` succeeded; calls were made with
the results recorded in `log`, none of which was an I/O error (`Finalize` may be among them);
finally `Finalize` returned nil. Nothing is said about the fault oracle `env.fault` itself. -/
structure Finalized (B : Type) [Bitmap B] (env : Env) (opts : List WriterOption) (log : Log)
    (file : Bytes) : Prop where
  made : ∃ (calls : List Call) (w w' : Writer B), History B env opts calls log w ∧
    finalize env w = (.ok (), w') ∧ w'.file.bytes = file
  noIOError : NoIOError log
  bounded : ∀ ev ∈ log, ev.1.Bounded
  /-- Go file offsets are `int64`. -/
  size : file.length < 2 ^ 63

/-- All IDs of the blocks, in order. -/
def idsOf (blocks : List Block) : List UInt64 := blocks.flatMap Prod.fst

/-- The bitmap obtained by setting all IDs of the blocks one by one. -/
def bitmapOf (B : Type) [Bitmap B] (blocks : List Block) : B := (idsOf blocks).foldl Bitmap.set Bitmap.empty

/-- The number of pairs passed to a call. -/
def Call.pairs : Call → Nat
  | .write ids _ => ids.length
  | _ => 0

/-- The number of pairs passed to all calls. -/
def totalPairs (calls : List Call) : Nat := (calls.map Call.pairs).sum

end VibeCol
