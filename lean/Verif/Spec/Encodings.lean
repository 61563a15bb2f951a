/-
Specification vocabulary: classes of encoding types (pkg/col/format.go:18-26).
-/
import Verif.Model.Encoding
namespace VibeCol

/-- One of the eight documented encodings. -/
def KnownEnc (e : UInt32) : Prop := e.toNat ≤ 7

/-- The four encodings whose encoder and decoder agree. -/
def SymEnc (e : UInt32) : Prop := e = encRaw ∨ e = encDeltaBoth ∨ e = encVarInt ∨ e = encVarIntBoth

/-- The encodings that store both sections the same way (all but 5 and 6). -/
def RegularEnc (e : UInt32) : Prop :=
  e = encRaw ∨ e = encDeltaID ∨ e = encDeltaValue ∨ e = encDeltaBoth ∨ e = encVarInt ∨ e = encVarIntBoth

end VibeCol
