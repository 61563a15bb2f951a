/-
Specification vocabulary: histories of calls on a `SimpleWriter`.
-/
import Verif.Model.SimpleWriter
import Verif.Spec.History
namespace VibeCol

/-- A call on a `SimpleWriter`. -/
inductive SWCall where
  | write (ids : List UInt64) (vals : List Int64)
  | setTarget (size : Int64)
  | close

/-- Calls and their results, in order. -/
abbrev SWLog := List (SWCall × Result)

/-- An ID and its value. -/
abbrev Pair := UInt64 × Int64

section
variable {B : Type} [Bitmap B]

/-- Run one call. -/
def SWCall.run (env : Env) : SWCall → SimpleWriter B → Result × SimpleWriter B
  | .write ids vals, sw => sw.write env ids vals
  | .setTarget size, sw => setTargetBlockSize size sw
  | .close, sw => sw.close env

/-- Run calls one after the other, continuing after errors. -/
def runSW (env : Env) : List SWCall → SimpleWriter B → SWLog × SimpleWriter B
  | [], sw => ([], sw)
  | c :: cs, sw =>
    let (r, sw') := c.run env sw
    let (log, sw'') := runSW env cs sw'
    ((c, r) :: log, sw'')

end

/-- A history: a successful `NewSimpleWriter`, then calls. -/
structure SWHistory (B : Type) [Bitmap B] (env : Env) (opts : List WriterOption) (calls : List SWCall)
    (log : SWLog) (sw : SimpleWriter B) : Prop where
  created : ∃ sw0 : SimpleWriter B, newSimpleWriter opts env = .ok sw0 ∧ runSW env calls sw0 = (log, sw)

/-- The batch a call handed over, if `Write` returned nil. -/
def acceptedBy : SWCall → Result → List (List Pair)
  | .write ids vals, .ok _ => [ids.zip vals]
  | _, _ => []

/-- All accepted batches, in call order. -/
def accepted (log : SWLog) : List (List Pair) := log.flatMap fun ev => acceptedBy ev.1 ev.2

/-- The batch a call handed over, if `Write` returned nil or failed with an I/O error: in both
cases the batch is in the buffer or on disk. -/
def handedBy : SWCall → Result → List (List Pair)
  | .write ids vals, .ok _ => [ids.zip vals]
  | .write ids vals, .error .io => [ids.zip vals]
  | _, _ => []

/-- All batches handed over, in call order. -/
def handed (log : SWLog) : List (List Pair) := log.flatMap fun ev => handedBy ev.1 ev.2

/-- The number of pairs passed to a call. -/
def SWCall.pairs : SWCall → Nat
  | .write ids _ => ids.length
  | _ => 0

/-- No `Close` reported an I/O error. -/
def CloseNoIOError (log : SWLog) : Prop := (SWCall.close, Except.error Err.io) ∉ log

/-- `stored` is `batch` in ascending ID order; a batch that is in order already is unchanged. -/
structure SortedBatch (batch stored : List Pair) : Prop where
  perm : stored.Perm batch
  sorted : stored.Pairwise fun a b => a.1 ≤ b.1
  same : (batch.Pairwise fun a b => a.1 ≤ b.1) → stored = batch

/-- No call reported an I/O error. -/
def SWNoIOError (log : SWLog) : Prop := ∀ ev ∈ log, ev.2 ≠ .error .io

/-- No batch is so large that, with the up to 999 pairs already buffered, a block could have
more than 2^27 pairs. -/
def SWCall.Bounded : SWCall → Prop
  | .write ids _ => ids.length + 999 ≤ 2 ^ 27
  | _ => True

/-- `R` holds between the elements of two lists of equal length, position by position. -/
inductive Each {α β : Type} (R : α → β → Prop) : List α → List β → Prop where
  | nil : Each R [] []
  | cons {a b as bs} (h : R a b) (t : Each R as bs) : Each R (a :: as) (b :: bs)

end VibeCol
