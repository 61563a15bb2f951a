/-
Specification vocabulary: histories with `Close` and `FinalizeAndClose`.
-/
import Verif.Model.Closing
namespace VibeCol

/-- The history of calls up to the one that closed the file, told without `FinalizeAndClose`: one that failed before it
closed the file is a failed `Finalize`. -/
inductive Untold : List (WCall × Result) → Log → Prop where
  | nil : Untold [] []
  | call (c : Call) (r : Result) {log plog} (h : Untold log plog) : Untold ((.call c, r) :: log) ((c, r) :: plog)
  | failed (e : Err) {log plog} (h : Untold log plog) :
      Untold ((.finalizeAndClose, .error e) :: log) ((.finalize, .error e) :: plog)

/-- The blocks acknowledged in a history. -/
def ackedW (log : List (WCall × Result)) : List Block :=
  log.flatMap fun ev => match ev.1 with
    | .call c => ackedBy c ev.2
    | _ => []

/-- A call that did nothing: it returned an error, and not one that acknowledges a part of its input. -/
def Refused (ev : WCall × Result) : Prop := ∃ e, ev.2 = .error e ∧ ∀ n, e ≠ .blockFull n

/-- The call `c`, made in state `w1`, closed the file, and this is what is left: `Close` leaves the file as it is,
`FinalizeAndClose` closes it after a `Finalize` that returned nil. -/
inductive ClosedBy {B : Type} [Bitmap B] (env : Env) (w1 : Writer B) : WCall → Writer B → Prop where
  | close {w : Writer B} (h1 : w.file = w1.file) (h2 : w.disk = w1.disk) : ClosedBy env w1 .close w
  | finalizeAndClose {w w2 : Writer B} (h : finalize env w1 = (.ok (), w2)) (h1 : w.file = w2.file) (h2 : w.disk = w2.disk) :
      ClosedBy env w1 .finalizeAndClose w

end VibeCol
