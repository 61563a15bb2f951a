/-
All calls on a `Writer`, including `Close` and `FinalizeAndClose`; `Spec/History.lean` has the calls other than these two.
-/
import Verif.Spec.History
namespace VibeCol

/-- The calls a client of `Writer` can make: `WriteBlock`, `EstimateBlockSize` and `Finalize` (`Call`), `Close`
(writer_finalize.go:206-209) and `FinalizeAndClose` (writer_finalize.go:43-49). -/
inductive WCall where
  | call (c : Call)
  | close
  | finalizeAndClose

section
variable {B : Type} [Bitmap B]

/-- Run one call. -/
def WCall.run (env : Env) : WCall → Writer B → Result × Writer B
  | .call c, w => c.run env w
  | .close, w => fclose env w
  | .finalizeAndClose, w => VibeCol.finalizeAndClose env w

/-- Run calls one after the other, continuing after errors. -/
def runW (env : Env) : List WCall → Writer B → List (WCall × Result) × Writer B
  | [], w => ([], w)
  | c :: cs, w =>
    let (r, w') := c.run env w
    let (log, w'') := runW env cs w'
    ((c, r) :: log, w'')

end
end VibeCol
