/-
Specification vocabulary: what one writer does and sees among many.
-/
import Verif.Model.ManyWriters
import Verif.Spec.Format
import Verif.Spec.Simple
namespace VibeCol

/-- The methods called on writer `k`, in order. -/
def callsOf (k : Nat) (es : List (Nat × Act)) : List WCall :=
  es.filterMap fun e => match e with
    | (j, .call c) => if j = k then some c else none
    | _ => none

/-- The methods called on writer `k` with their results, in order. -/
def logOf (k : Nat) (log : List (Nat × Act × Option Result)) : List (WCall × Result) :=
  log.filterMap fun e => match e with
    | (j, .call c, some r) => if j = k then some (c, r) else none
    | _ => none

/-- Calls that write nothing: `EstimateBlockSize` and `Close`. -/
def WCall.Harmless : WCall → Prop
  | .call (.estimate _ _) => True
  | .close => True
  | _ => False

/-- From now on nobody but writer `k` meddles with the file `path`: no other writer is created on it, and those that have
it open from before do nothing but `EstimateBlockSize` and `Close`; writers whose file is closed may do what they like. Writer
`k` is not created again. -/
structure LeftAlone {B : Type} (k : Nat) (path : Bytes) (s : Shop B) (es : List (Nat × Act)) : Prop where
  same : ∀ p opts, (k, .create p opts) ∉ es
  newcomers : ∀ j opts, j ≠ k → (j, .create path opts) ∉ es
  others : ∀ j w, j ≠ k → s.writers j = some (path, w) → w.fileOpen = false ∨ ∀ c, (j, .call c) ∈ es → c.Harmless

/-- Two blocks that take the same room in a file: as many pairs, and equally long encodings. -/
def SameRoom (e : UInt32) (a b : Block) : Prop :=
  a.1.length = b.1.length ∧
  (Doc.idData e.toNat (a.1.map UInt64.toNat)).length = (Doc.idData e.toNat (b.1.map UInt64.toNat)).length ∧
  (Doc.valueData e.toNat (a.2.map Int64.toInt)).length = (Doc.valueData e.toNat (b.2.map Int64.toInt)).length

end VibeCol
