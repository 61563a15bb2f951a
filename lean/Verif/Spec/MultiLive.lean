/-
Specification vocabulary: a stack of files that are read while their writers go on.
-/
import Verif.Model.MultiLive
import Verif.Spec.Live
import Verif.Spec.MultiIO
import Verif.Spec.Simple
namespace VibeCol

/-- One file of a stack: the reader; the blocks it delivers; blocks it does not deliver although their IDs are in its ID
bitmap; and the writer of the file as it was when the last `Finalize` before the header was read had returned. Reads find
what this writer's file holds later (`MaySee`). -/
structure Part (B : Type) where
  reader : Reader B
  delivered : List Block
  undelivered : List Block
  writer : Writer B

/-- The blocks whose IDs are in the ID bitmap. -/
def Part.blocks {B : Type} (p : Part B) : List Block := p.delivered ++ p.undelivered

variable {B : Type} [Bitmap B]

/-- The file was opened between two `Finalize`s: when `NewReader` asked for the size, a `Finalize` had returned nil and
nothing had been written since; when it read the rest, no other `Finalize` had been called, but blocks may have been added. The blocks
are those acknowledged before that `Finalize`. -/
def Part.OpenedBetween (p : Part B) : Prop :=
  ∃ (env : Env) (opts : List WriterOption) (calls : List Call) (log : Log) (w : Writer B) (view : Nat → Bytes),
    History B env opts calls log w ∧ NoIOError log ∧ (∀ ev ∈ log, ev.1.Bounded) ∧ SymEnc (chosenEncoding opts) ∧
    finalize env w = (.ok (), p.writer) ∧ p.writer.file.bytes.length < 2 ^ 63 ∧ (acked log).length ≤ maxBlocks ∧
    (Bitmap.toBuffer (bitmapOf B (acked log))).length < 2 ^ 32 ∧
    view 0 = p.writer.file.bytes ∧ (∀ n, MaySee notFinalize p.writer (view (n + 1))) ∧ newReaderLive view = .ok p.reader ∧
    p.delivered = acked log ∧ p.undelivered = []

/-- The file was opened across a `Finalize`: when `NewReader` asked for the size, a `Finalize` had returned nil and
nothing had been written since; when it read the header, further calls had been made, the last of them a `Finalize` that returned
nil, and no other `Finalize` had been called since. The blocks are those acknowledged before the first and between the two. -/
def Part.OpenedAcross (p : Part B) : Prop :=
  ∃ (env : Env) (opts : List WriterOption) (calls calls2 : List Call) (log log2 : Log) (w w1 w2 : Writer B) (view : Nat → Bytes),
    History B env opts calls log w ∧ finalize env w = (.ok (), w1) ∧
    runCalls env calls2 w1 = (log2, w2) ∧ finalize env w2 = (.ok (), p.writer) ∧
    NoIOError (log ++ log2) ∧ (∀ ev ∈ log ++ log2, ev.1.Bounded) ∧ SymEnc (chosenEncoding opts) ∧
    p.writer.file.bytes.length < 2 ^ 63 ∧ (acked (log ++ log2)).length ≤ maxBlocks ∧
    (Bitmap.toBuffer (bitmapOf B (acked (log ++ log2)))).length < 2 ^ 32 ∧
    view 0 = w1.file.bytes ∧ MaySee notFinalize p.writer (view 1) ∧ (∀ n, MaySee anyCall p.writer (view (n + 2))) ∧
    newReaderLive view = .ok p.reader ∧ p.delivered = acked log ∧ p.undelivered = acked log2

/-- Everything an `Aggregate` finds may be found in the files of the stack. -/
def Finds (stack : List (Part B)) (found : Nat → Found) : Prop :=
  ∀ (i : Nat) p, stack[i]? = some p →
    (∀ k, MaySee anyCall p.writer ((found i).blocks k)) ∧ ∀ n, MaySee anyCall p.writer ((found i).bitmap n)

end VibeCol
