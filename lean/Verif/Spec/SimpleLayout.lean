/-
Specification vocabulary: into which blocks a `SimpleWriter` cuts what it is given.
-/
import Verif.Spec.Simple
import Verif.Spec.Format
namespace VibeCol

/-- Pairs as mathematical integers. -/
def Doc.ofPairs (ps : List Pair) : Doc.Pairs := (ps.map fun p => p.1.toNat, ps.map fun p => p.2.toInt)

/-- The first `n` of the buffered pairs may be written as one block at offset `off`. -/
def CanCut (enc target off : Nat) (pending : List Pair) (n : Nat) : Prop :=
  Doc.Fits enc target off (Doc.ofPairs (pending.take n))

/-- Emptying the buffer, with the end of the file at `off`: as long as there are 1000 pairs (at
`Close`: any pairs) in the buffer, the longest possible beginning of it becomes a block. The last two
arguments are the new blocks and what remains in the buffer. -/
inductive Cut (enc target : Nat) (force : Bool) : Nat → List Pair → List (List Pair) → List Pair → Prop where
  | wait {off pending} (h : pending = [] ∨ (force = false ∧ pending.length < 1000)) :
      Cut enc target force off pending [] pending
  | block {off pending blocks rest} (n : Nat) (h : force = true ∨ 1000 ≤ pending.length)
      (h1 : 1 ≤ n) (h2 : n ≤ pending.length) (hfit : CanCut enc target off pending n)
      (hmax : ∀ m, n < m → m ≤ pending.length → ¬ CanCut enc target off pending m)
      (t : Cut enc target force (off + (Doc.filledBlock enc off (Doc.ofPairs (pending.take n))).length)
        (pending.drop n) blocks rest) :
      Cut enc target force off pending (pending.take n :: blocks) rest

/-- A file being written: the block size target in force, the blocks so far, the buffered pairs. -/
structure Layout where
  target : Nat
  blocks : List (List Pair)
  pending : List Pair
  closed : Bool

/-- The blocks so far, as they are in the file from offset 64 on. -/
def Layout.data (enc : Nat) (L : Layout) : Bytes := Doc.blocksAt enc 64 (L.blocks.map Doc.ofPairs)

/-- The end of the file. -/
def Layout.size (enc : Nat) (L : Layout) : Nat := 64 + (L.data enc).length

/-- After `Close`, only `Close` succeeds. -/
def SWCall.whenClosed : SWCall → Result
  | .close => .ok ()
  | _ => .error .closed

/-- What a call on a `SimpleWriter` returns and does. -/
inductive Layout.Step (enc : Nat) : Layout → SWCall → Result → Layout → Prop where
  /-- `Write` puts the batch in ascending ID order behind the buffered pairs and writes full blocks. -/
  | write {L ids vals stored new rest} (hopen : L.closed = false) (hlen : ids.length = vals.length)
      (hs : SortedBatch (ids.zip vals) stored) (hc : Cut enc L.target false (L.size enc) (L.pending ++ stored) new rest) :
      Step enc L (.write ids vals) (.ok ()) { L with blocks := L.blocks ++ new, pending := rest }
  | mismatch {L ids vals} (hopen : L.closed = false) (hlen : ids.length ≠ vals.length) :
      Step enc L (.write ids vals) (.error .lengthMismatch) L
  /-- `SetTargetBlockSize` sets the target, modulo 2^32. -/
  | target {L size} (hopen : L.closed = false) :
      Step enc L (.setTarget size) (.ok ()) { L with target := (size.toInt % 2 ^ 32).toNat }
  /-- `Close` writes all buffered pairs. -/
  | close {L new} (hopen : L.closed = false) (hc : Cut enc L.target true (L.size enc) L.pending new []) :
      Step enc L .close (.ok ()) { L with blocks := L.blocks ++ new, pending := [], closed := true }
  | closed {L c} (hclosed : L.closed = true) :
      Step enc L c c.whenClosed L

/-- Calls one after the other. -/
inductive Layout.Run (enc : Nat) : Layout → SWLog → Layout → Prop where
  | nil {L} : Run enc L [] L
  | cons {L L' L'' c r log} (h : Step enc L c r L') (t : Run enc L' log L'') : Run enc L ((c, r) :: log) L''

/-- A new file. -/
def Layout.start (opts : List WriterOption) : Layout :=
  { target := (chosenBlockSize opts).toNat, blocks := [], pending := [], closed := false }

end VibeCol
