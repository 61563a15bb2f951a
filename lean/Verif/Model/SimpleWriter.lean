/-
pkg/col/simple_writer.go.
-/
import Verif.Model.Writer
import Verif.Lemmas.BlockFull
namespace VibeCol

/-- `SimpleWriter` (simple_writer.go:10-18), without the file name. `totalItems` is a `Nat`
instead of a `uint64`. -/
structure SimpleWriter (B : Type) where
  writer : Writer B
  pendingIDs : List UInt64
  pendingValues : List Int64
  targetBlockSize : Int64
  closed : Bool
  totalItems : Nat

section S
variable {B : Type} [Bitmap B]

/-- `NewSimpleWriter` (simple_writer.go:21-40), from a successful `os.Create` on. -/
def newSimpleWriter (options : List WriterOption) (env : Env) : Except Err (SimpleWriter B) :=
  match newWriter options env with
  | (.error e, _) => .error e
  | (.ok _, w) => .ok
    { writer := w, pendingIDs := [], pendingValues := [], targetBlockSize := 128 * 1024,
      closed := false, totalItems := 0 }

/-- `SetTargetBlockSize` (simple_writer.go:43-54); `uint32(size)` truncates. -/
def setTargetBlockSize (size : Int64) (sw : SimpleWriter B) : Except Err Unit × SimpleWriter B :=
  if sw.closed then (.error .closed, sw)
  else (.ok (), { sw with
    targetBlockSize := size
    writer := { sw.writer with blockSizeTarget := size.toUInt64.toUInt32 } })

/-- `isSorted` (simple_writer.go:168-175). -/
def isSorted : List UInt64 → Bool
  | [] => true
  | [_] => true
  | a :: b :: rest => if b < a then false else isSorted (b :: rest)

/-- `sortByID` (simple_writer.go:178-208): `sort.Slice` on the pairs is `env.sort`; the
`Index` field of the pairs is never read and is dropped. -/
def sortByID (env : Env) (ids : List UInt64) (values : List Int64) : List UInt64 × List Int64 :=
  let pairs := env.sort (ids.zip values)
  (pairs.map Prod.fst, pairs.map Prod.snd)

/-- `flushIfNeeded` (simple_writer.go:121-165). The recursion is on the number of pending
pairs, which shrinks because `BlockFullError` always reports at least one item. -/
def flushIfNeeded (env : Env) (force : Bool) (sw : SimpleWriter B) :
    Except Err Unit × SimpleWriter B :=
  if sw.pendingIDs.length = 0 then (.ok (), sw)
  else
    let shouldWrite := if !force then decide (sw.pendingIDs.length ≥ 1000) else force
    if shouldWrite then
      match h : writeBlock sw.pendingIDs sw.pendingValues env sw.writer with
      | (.error (.blockFull itemsWritten), w') =>
        flushIfNeeded env force { sw with
          writer := w'
          totalItems := sw.totalItems + itemsWritten
          pendingIDs := sw.pendingIDs.drop itemsWritten
          pendingValues := sw.pendingValues.drop itemsWritten }
      | (.error e, w') => (.error e, { sw with writer := w' })
      | (.ok _, w') => (.ok (), { sw with
          writer := w'
          totalItems := sw.totalItems + sw.pendingIDs.length
          pendingIDs := []
          pendingValues := [] })
    else (.ok (), sw)
termination_by sw.pendingIDs.length
decreasing_by
  have := writeBlock_blockFull_bounds _ _ _ _ _ _ h
  simp only [List.length_drop]
  omega

/-- `Write` (simple_writer.go:58-88). -/
def SimpleWriter.write (env : Env) (ids : List UInt64) (values : List Int64) (sw : SimpleWriter B) :
    Except Err Unit × SimpleWriter B :=
  if sw.closed then (.error .closed, sw)
  else if ids.length ≠ values.length then (.error .lengthMismatch, sw)
  else if ids.length = 0 then (.ok (), sw)
  else
    let (newIDs, newValues) := if !isSorted ids then sortByID env ids values else (ids, values)
    flushIfNeeded env false { sw with
      pendingIDs := sw.pendingIDs ++ newIDs
      pendingValues := sw.pendingValues ++ newValues }

/-- `Close` (simple_writer.go:91-108). -/
def SimpleWriter.close (env : Env) (sw : SimpleWriter B) : Except Err Unit × SimpleWriter B :=
  if sw.closed then (.ok (), sw)
  else
    match flushIfNeeded env true sw with
    | (.error e, sw') => (.error e, sw')
    | (.ok _, sw') =>
      match finalizeAndClose env sw'.writer with
      | (.error e, w') => (.error e, { sw' with writer := w' })
      | (.ok _, w') => (.ok (), { sw' with writer := w', closed := true })

end S
end VibeCol
