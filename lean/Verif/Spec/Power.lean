/-
Specification vocabulary: power failures.
-/
import Verif.Spec.History
namespace VibeCol

/-- `f` may be found on the device after a power failure: at least the contents of the last
successful `Sync` is there, and every byte either comes from it, or from one of the writes made
since, or is a zero in a part of the file beyond it that was never filled. Nothing is assumed
about which bytes of which writes arrived, or in which order. -/
structure MayRemain (d : Disk) (f : Bytes) : Prop where
  grow : d.synced.length ≤ f.length
  bound : f.length ≤ d.synced.length ∨ ∃ p ∈ d.unsynced, f.length ≤ p.1 + p.2.length
  byte : ∀ i b, f[i]? = some b → d.synced[i]? = some b ∨ (d.synced.length ≤ i ∧ b = 0) ∨
    ∃ p ∈ d.unsynced, p.1 ≤ i ∧ p.2[i - p.1]? = some b

/-- The result of `WriteBlock` acknowledges a block: nil, or `BlockFullError`. -/
def Acknowledges (r : Result) : Prop := r = .ok () ∨ ∃ n, r = .error (.blockFull n)

end VibeCol
