/-
Specification vocabulary: histories of calls on a `Writer`, and what a caller may conclude
from the results.
-/
import Verif.Model.Writer
namespace VibeCol

/-- The contents of a block: IDs and values, in the order passed to `WriteBlock`. -/
abbrev Block := List UInt64 × List Int64

/-- A call on a `Writer`. -/
inductive Call where
  | write (ids : List UInt64) (vals : List Int64)
  | estimate (ids : List UInt64) (vals : List Int64)
  | finalize

/-- What the caller sees of a call: nil or an error. -/
abbrev Result := Except Err Unit

/-- A history as the caller sees it: calls and their results, in order. -/
abbrev Log := List (Call × Result)

section
variable {B : Type} [Bitmap B]

/-- Run one call. -/
def Call.run (env : Env) : Call → Writer B → Result × Writer B
  | .write ids vals, w => writeBlock ids vals env w
  | .estimate ids vals, w =>
    match estimateBlockSize ids vals env w with
    | (.ok _, w') => (.ok (), w')
    | (.error e, w') => (.error e, w')
  | .finalize, w => VibeCol.finalize env w

/-- Run calls one after the other, continuing after errors. -/
def runCalls (env : Env) : List Call → Writer B → Log × Writer B
  | [], w => ([], w)
  | c :: cs, w =>
    let (r, w') := c.run env w
    let (log, w'') := runCalls env cs w'
    ((c, r) :: log, w'')
end

/-- The blocks a call acknowledged as persisted: everything on nil, the first `n` pairs on
`BlockFullError{n}`, nothing otherwise. -/
def ackedBy : Call → Result → List Block
  | .write ids vals, .ok _ => [(ids, vals)]
  | .write ids vals, .error (.blockFull n) => [(ids.take n, vals.take n)]
  | _, _ => []

/-- All acknowledged blocks of a history. -/
def acked (log : Log) : List Block := log.flatMap fun ev => ackedBy ev.1 ev.2

/-- No call in the history reported an I/O error. -/
def NoIOError (log : Log) : Prop := ∀ ev ∈ log, ev.2 ≠ .error .io

/-- No call reported mismatching section sizes. -/
def NoMismatch (log : Log) : Prop := ∀ ev ∈ log, ev.2 ≠ .error .sectionSizeMismatch

/-- No `Finalize` in the history reported an I/O error. -/
def FinalizeNoIOError (log : Log) : Prop := ∀ ev ∈ log, ev.1 = .finalize → ev.2 ≠ .error .io

/-- The size limit under which the 32-bit block sizes cannot overflow: at most 2^27 pairs in
one call. -/
def Call.Bounded : Call → Prop
  | .write ids _ => ids.length ≤ 2 ^ 27
  | .estimate ids _ => ids.length ≤ 2 ^ 27
  | .finalize => True

/-- The number of 56-byte index entries that fit into 2^32 bytes; above it the reader's
32-bit index arithmetic wraps around. -/
def maxBlocks : Nat := 76695844

/-- The blocks that a call with this result may have left in the file: the acknowledged ones;
or, if `WriteBlock` reported an I/O error, possibly a block with a prefix of the pairs. -/
inductive Left : Call → Result → List Block → Prop where
  | acked (c : Call) (r : Result) : Left c r (ackedBy c r)
  | torn (ids : List UInt64) (vals : List Int64) (k : Nat) (h1 : 1 ≤ k) (h2 : k ≤ ids.length) :
      Left (.write ids vals) (.error .io) [(ids.take k, vals.take k)]

/-- `blocks` are the blocks left in the file by this history. -/
inductive LeftBy : Log → List Block → Prop where
  | nil : LeftBy [] []
  | cons {c r bs log rest} (h : Left c r bs) (t : LeftBy log rest) : LeftBy ((c, r) :: log) (bs ++ rest)

/-- The encoding chosen by a list of options: the last `WithEncoding`, else raw. -/
def chosenEncoding (opts : List WriterOption) : UInt32 :=
  opts.foldl (fun e o => match o with | .withEncoding e' => e' | .withBlockSize _ => e) encRaw

/-- The block size chosen by a list of options: the last `WithBlockSize`, else 16 KiB. -/
def chosenBlockSize (opts : List WriterOption) : UInt32 :=
  opts.foldl (fun s o => match o with | .withEncoding _ => s | .withBlockSize s' => s') defaultBlockSize

/-- A history: a successful `NewWriter`, then calls. -/
structure History (B : Type) [Bitmap B] (env : Env) (opts : List WriterOption) (calls : List Call)
    (log : Log) (w : Writer B) : Prop where
  created : ∃ w0 : Writer B, newWriter opts env = (.ok (), w0) ∧ runCalls env calls w0 = (log, w)

end VibeCol
