/-
Writing again (writer_block_io.go, simple_writer.go), counting the numbers (IDs and values) that are encoded by `encodeIDs` and
`encodeValues`. `Verif/Props/Work.lean` proves that the results are those of `Verif/Model/Writer.lean` and
`Verif/Model/SimpleWriter.lean`. File operations need no second model: `opNo` counts them.
-/
import Verif.Model.SimpleWriter
namespace VibeCol.Work
set_option linter.unusedSectionVars false
set_option linter.unusedVariables false
variable {B : Type} [Bitmap B]

/-- What a method leaves behind, and how many numbers it has encoded. -/
abbrev Counted (B α : Type) : Type := (Except Err α × Writer B) × Nat

/-- The numbers encoded by `encodeIDs(ids)` and then, if that succeeds, `encodeValues(values)` (writer_block_io.go:87-95, 338-346).
Both loop over the whole slice (writer_encoding.go:8-49); if they stop at an error all are counted. -/
def encodings (e : UInt32) (ids : List UInt64) (values : List Int64) : Nat :=
  match encodeIDs e ids with
  | .error _ => ids.length
  | .ok _ => ids.length + values.length

/-- `EstimateBlockSize` (writer_block_io.go:328-368). -/
def estimateBlockSizeC (ids : List UInt64) (values : List Int64) (env : Env) (w : Writer B) : Counted B Nat :=
  (estimateBlockSize ids values env w,
    if ids.length ≠ values.length ∨ ids.length = 0 then 0 else encodings w.encodingType ids values)

/-- `writeBlockInternal` (writer_block_io.go:72-324) encodes once, before it writes. -/
def writeBlockInternalC (ids : List UInt64) (values : List Int64) (env : Env) (w : Writer B) : Counted B Unit :=
  (writeBlockInternal ids values env w, encodings w.encodingType ids values)

/-- The search loop of `WriteBlock` (writer_block_io.go:43-55). -/
def findOptimalC (ids : List UInt64) (values : List Int64) (env : Env) :
    (fuel : Nat) → (i : Nat) → (optimal : Nat) → (w : Writer B) → Counted B Nat
  | 0, _, optimal, w => ((.ok optimal, w), 0)
  | fuel + 1, i, optimal, w =>
    match estimateBlockSizeC (ids.take i) (values.take i) env w with
    | ((.error _, w'), c) => ((.ok optimal, w'), c)
    | ((.ok size, w'), c) =>
      if size ≤ w.blockSizeTarget.toNat then
        ((findOptimalC ids values env fuel (i + 1) i w').1, c + (findOptimalC ids values env fuel (i + 1) i w').2)
      else ((.ok optimal, w'), c)

/-- `WriteBlock` (writer_block_io.go:21-68). -/
def writeBlockC (ids : List UInt64) (values : List Int64) (env : Env) (w : Writer B) : Counted B Unit :=
  if ids.length ≠ values.length then ((.error .lengthMismatch, w), 0) else
  if ids.length = 0 then ((.error .emptyBlock, w), 0) else
  match estimateBlockSizeC ids values env w with
  | ((.error e, w), c) => ((.error e, w), c)
  | ((.ok estimatedSize, w), c) =>
    if estimatedSize > w.blockSizeTarget.toNat ∧ ids.length > 1 then
      match findOptimalC ids values env (ids.length - 1) 1 1 w with
      | ((.error e, w), c2) => ((.error e, w), c + c2)
      | ((.ok optimal, w), c2) =>
        match writeBlockInternalC (ids.take optimal) (values.take optimal) env w with
        | ((.error e, w), c3) => ((.error e, w), c + c2 + c3)
        | ((.ok _, w), c3) => ((.error (.blockFull optimal), w), c + c2 + c3)
    else ((writeBlockInternalC ids values env w).1, c + (writeBlockInternalC ids values env w).2)

theorem findOptimalC_same (ids : List UInt64) (values : List Int64) (env : Env) (fuel i optimal : Nat) (w : Writer B) :
    (findOptimalC ids values env fuel i optimal w).1 = findOptimal ids values fuel i optimal env w := by
  induction fuel generalizing i optimal w with
  | zero => rfl
  | succ fuel ih =>
    unfold findOptimalC findOptimal estimateBlockSizeC
    rcases h : estimateBlockSize (ids.take i) (values.take i) env w with ⟨r, w'⟩
    cases r with
    | error e => rfl
    | ok size =>
      dsimp only
      split
      · exact ih _ _ _
      · rfl

/-- Counting changes nothing. -/
theorem writeBlockC_same (ids : List UInt64) (values : List Int64) (env : Env) (w : Writer B) :
    (writeBlockC ids values env w).1 = writeBlock ids values env w := by
  unfold writeBlockC writeBlock
  split
  · rfl
  split
  · rfl
  rw [WM.bind_def]
  unfold estimateBlockSizeC
  rcases h : estimateBlockSize ids values env w with ⟨r, w1⟩
  cases r with
  | error e => rfl
  | ok size =>
    simp only [WM.bind_def, WM.get]
    split
    · rw [WM.bind_def, ← findOptimalC_same]
      rcases h2 : findOptimalC ids values env (ids.length - 1) 1 1 w1 with ⟨⟨r2, w2⟩, c2⟩
      cases r2 with
      | error e => rfl
      | ok k =>
        simp only [WM.bind_def]
        unfold writeBlockInternalC
        rcases h3 : writeBlockInternal (ids.take k) (values.take k) env w2 with ⟨r3, w3⟩
        cases r3 <;> rfl
    · rfl

/-- `flushIfNeeded` (simple_writer.go:121-165). -/
def flushIfNeededC (env : Env) (force : Bool) (sw : SimpleWriter B) : (Except Err Unit × SimpleWriter B) × Nat :=
  if sw.pendingIDs.length = 0 then ((.ok (), sw), 0)
  else
    let shouldWrite := if !force then decide (sw.pendingIDs.length ≥ 1000) else force
    if shouldWrite then
      match h : writeBlockC sw.pendingIDs sw.pendingValues env sw.writer with
      | ((.error (.blockFull itemsWritten), w'), c) =>
        let rest := flushIfNeededC env force { sw with
          writer := w'
          totalItems := sw.totalItems + itemsWritten
          pendingIDs := sw.pendingIDs.drop itemsWritten
          pendingValues := sw.pendingValues.drop itemsWritten }
        (rest.1, c + rest.2)
      | ((.error e, w'), c) => ((.error e, { sw with writer := w' }), c)
      | ((.ok _, w'), c) => ((.ok (), { sw with
          writer := w'
          totalItems := sw.totalItems + sw.pendingIDs.length
          pendingIDs := []
          pendingValues := [] }), c)
    else ((.ok (), sw), 0)
termination_by sw.pendingIDs.length
decreasing_by
  have := writeBlock_blockFull_bounds sw.pendingIDs sw.pendingValues env sw.writer w' itemsWritten
    (by rw [← writeBlockC_same, h])
  simp only [List.length_drop]
  omega

/-- `Write` (simple_writer.go:58-88). -/
def writeC (env : Env) (ids : List UInt64) (values : List Int64) (sw : SimpleWriter B) : (Except Err Unit × SimpleWriter B) × Nat :=
  if sw.closed then ((.error .closed, sw), 0)
  else if ids.length ≠ values.length then ((.error .lengthMismatch, sw), 0)
  else if ids.length = 0 then ((.ok (), sw), 0)
  else
    let (newIDs, newValues) := if !isSorted ids then sortByID env ids values else (ids, values)
    flushIfNeededC env false { sw with
      pendingIDs := sw.pendingIDs ++ newIDs
      pendingValues := sw.pendingValues ++ newValues }

end VibeCol.Work
