/-
Specification vocabulary: what an operating system may do after a failed `Sync`.
-/
import Verif.Spec.Power
import Verif.Spec.Simple
namespace VibeCol

/-- One call. If it reported an I/O error, the operating system may have given up on anything that had not been synced: from here on the file
holds what a power failure at that moment could have left on the device (Linux marks the pages of a failed `fsync` as clean, may then drop them,
and the next `fsync` reports success). The size of the file stays as it was. -/
inductive Leaves {B : Type} [Bitmap B] (env : Env) (c : Call) (w : Writer B) : Writer B → Prop where
  | all : Leaves env c w (c.run env w).2
  | some (f : Bytes) (hio : (c.run env w).1 = .error .io) (hf : MayRemain (c.run env w).2.disk f)
      (hl : f.length = (c.run env w).2.file.bytes.length) :
      Leaves env c w { (c.run env w).2 with file := { bytes := f, pos := (c.run env w).2.file.pos } }

/-- A sequence of calls, after each of which the operating system may do the above. -/
inductive Lossy {B : Type} [Bitmap B] (env : Env) : List Call → Writer B → Log → Writer B → Prop where
  | nil (w : Writer B) : Lossy env [] w [] w
  | cons {c : Call} {cs : List Call} {w w1 w2 : Writer B} {log : Log} (h : Leaves env c w w1) (t : Lossy env cs w1 log w2) :
      Lossy env (c :: cs) w ((c, (c.run env w).1) :: log) w2

/-- The same for a call on a `SimpleWriter`, which returns as soon as a call on its `Writer` has reported an I/O error. -/
inductive SWLeaves {B : Type} [Bitmap B] (env : Env) (c : SWCall) (sw : SimpleWriter B) : SimpleWriter B → Prop where
  | all : SWLeaves env c sw (c.run env sw).2
  | some (f : Bytes) (hio : (c.run env sw).1 = .error .io) (hf : MayRemain (c.run env sw).2.writer.disk f)
      (hl : f.length = (c.run env sw).2.writer.file.bytes.length) :
      SWLeaves env c sw { (c.run env sw).2 with writer := { (c.run env sw).2.writer with
        file := { bytes := f, pos := (c.run env sw).2.writer.file.pos } } }

/-- A sequence of calls on a `SimpleWriter`, after each of which the operating system may do the above. `items` is what `TotalItems` returns after
each of the calls. -/
inductive SWLossy {B : Type} [Bitmap B] (env : Env) : List SWCall → SimpleWriter B → SWLog → List Nat → SimpleWriter B → Prop where
  | nil (sw : SimpleWriter B) : SWLossy env [] sw [] [] sw
  | cons {c : SWCall} {cs : List SWCall} {sw sw1 sw2 : SimpleWriter B} {log : SWLog} {items : List Nat} (h : SWLeaves env c sw sw1)
      (t : SWLossy env cs sw1 log items sw2) :
      SWLossy env (c :: cs) sw ((c, (c.run env sw).1) :: log) ((c.run env sw).2.totalItems :: items) sw2

/-- Whenever `Close` reported an I/O error, `TotalItems` was still less than the number of pairs handed over (`n` of them before these calls): the
error came from writing the rest of the pairs, not from `Finalize`. -/
def CloseFailsEarly (n : Nat) : SWLog → List Nat → Prop
  | (c, r) :: log, t :: items => (c = .close → r = .error .io → t < n) ∧ CloseFailsEarly (n + (handedBy c r).flatten.length) log items
  | _, _ => True

end VibeCol
