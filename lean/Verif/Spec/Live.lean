/-
Specification vocabulary: a file that is read while its writer goes on.
-/
import Verif.Spec.History
namespace VibeCol
variable {B : Type} [Bitmap B]

/-- The file of the writer `w` may hold `f` later: after further calls, all of the kind `allowed`, under any
faults. Since a fault may stop the writer in the middle of a call, even in the middle of a write, these
include what the file holds while a call is under way. Only the last call may be a `Finalize`
that reports an I/O error. -/
def Later (allowed : Call → Prop) (w : Writer B) (f : Bytes) : Prop :=
  ∃ (env : Env) (calls : List Call), (∀ c ∈ calls, allowed c) ∧
    FinalizeNoIOError (runCalls env calls w).1.dropLast ∧ (runCalls env calls w).2.file.bytes = f

/-- A read may find the file of the writer `w` holding `f`: as long as at some later moment, and every byte is
that of some later moment, not necessarily the same one for all bytes, as reads need not be
atomic. -/
structure MaySee (allowed : Call → Prop) (w : Writer B) (f : Bytes) : Prop where
  length : ∃ g, Later allowed w g ∧ f.length = g.length
  byte : ∀ i, i < f.length → ∃ g, Later allowed w g ∧ f[i]? = g[i]?

/-- Any call. -/
def anyCall (_ : Call) : Prop := True

/-- Any call but `Finalize`. -/
def notFinalize (c : Call) : Prop := c ≠ .finalize

end VibeCol
