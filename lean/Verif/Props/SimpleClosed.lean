/-
C22: what `IsClosed()` says.
-/
import Verif.Props.Simple
import Verif.Props.SimpleProgress

namespace VibeCol.SimpleClosed

variable {B : Type} [Bitmap B] [LawfulBitmap B]

/-- `IsClosed` (simple_writer.go:110-113). -/
def _root_.VibeCol.SimpleWriter.isClosed (sw : SimpleWriter B) : Bool := sw.closed

omit [LawfulBitmap B] in
/-- Flushing does not touch the flag. -/
theorem flush_closed (env : Env) (force : Bool) (sw : SimpleWriter B) :
    (flushIfNeeded env force sw).2.closed = sw.closed := by
  induction hn : sw.pendingIDs.length using Nat.strongRecOn generalizing sw with
  | _ n ih =>
    unfold flushIfNeeded
    split
    · rfl
    · dsimp only
      generalize (if (!force) = true then decide (sw.pendingIDs.length ≥ 1000) else force) = sh
      split
      · split
        · rename_i k w' hw
          have hb := writeBlock_blockFull_bounds _ _ _ _ _ _ hw
          exact ih (sw.pendingIDs.length - k) (by omega) _ (by simp [List.length_drop])
        · rfl
        · rfl
      · rfl

omit [LawfulBitmap B] in
/-- A call on an open writer leaves it open, unless it is a `Close` that returned nil. -/
theorem open_call (env : Env) (c : SWCall) (sw : SimpleWriter B) (ho : sw.closed = false)
    (hno : (c, (c.run env sw).1) ≠ (SWCall.close, Except.ok ())) : (c.run env sw).2.closed = false := by
  cases c with
  | write ids vals =>
    show (sw.write env ids vals).2.closed = false
    unfold SimpleWriter.write
    split
    · exact ho
    · split
      · exact ho
      · split
        · exact ho
        · dsimp only
          split <;> rw [flush_closed] <;> exact ho
  | close =>
    have hno' : (sw.close env).1 ≠ .ok () := fun h => hno (congrArg (Prod.mk SWCall.close) h)
    show (sw.close env).2.closed = false
    have hfl := flush_closed env true sw
    unfold SimpleWriter.close at hno' ⊢
    rw [if_neg (by rw [ho]; decide)] at hno' ⊢
    generalize flushIfNeeded env true sw = fl at hfl hno' ⊢
    obtain ⟨r1, sw1⟩ := fl
    cases r1 with
    | error e => exact hfl.trans ho
    | ok u =>
      simp only at hno' ⊢
      generalize finalizeAndClose env sw1.writer = fin at hno' ⊢
      obtain ⟨r2, w2⟩ := fin
      cases r2 with
      | error e => exact hfl.trans ho
      | ok u => exact absurd rfl hno'
  | setTarget n =>
    simp only [SWCall.run, setTargetBlockSize]
    split <;> exact ho

omit [LawfulBitmap B] in
theorem runSW_calls (env : Env) (cs : List SWCall) (sw : SimpleWriter B) : (runSW env cs sw).1.map Prod.fst = cs := by
  induction cs generalizing sw with
  | nil => rfl
  | cons c cs ih =>
    rw [runSW_cons]
    exact congrArg (c :: ·) (ih _)

omit [LawfulBitmap B] in
theorem open_run (env : Env) (cs : List SWCall) (sw : SimpleWriter B) (ho : sw.closed = false)
    (hno : (SWCall.close, Except.ok ()) ∉ (runSW env cs sw).1) : (runSW env cs sw).2.closed = false := by
  induction cs generalizing sw with
  | nil => exact ho
  | cons c cs ih =>
    rw [runSW_cons] at hno ⊢
    exact ih _ (open_call env c sw ho fun h => hno (by rw [← h]; exact List.mem_cons_self ..))
      fun h => hno (List.mem_cons_of_mem _ h)

omit [LawfulBitmap B] in
/-- **C22.** `IsClosed()` is true exactly when a `Close` has returned nil: not before, not after a
`Close` that failed, and from then on for ever. -/
theorem C22_isClosed {env : Env} {opts : List WriterOption} {calls : List SWCall} {log : SWLog}
    {sw : SimpleWriter B} (h : SWHistory B env opts calls log sw) :
    sw.isClosed = true ↔ (SWCall.close, Except.ok ()) ∈ log := by
  obtain ⟨sw0, h0, hr⟩ := h.created
  have ho : sw0.closed = false := by
    unfold newSimpleWriter at h0
    split at h0
    · cases h0
    · cases h0; rfl
  show sw.closed = true ↔ _
  constructor
  · intro hc
    apply Classical.byContradiction
    intro hno
    have := open_run env calls sw0 ho (by rw [hr]; exact hno)
    rw [hr] at this
    rw [this] at hc
    cases hc
  · intro hm
    have := closed_of_log env calls sw0 (by rw [hr]; exact hm)
    rwa [hr] at this

/-- Non-vacuity: the example of C20 is closed at its end, and was not after its first four calls. -/
theorem C22_example : (∃ sw : SimpleWriter IdSet,
      SWHistory IdSet quietEnv [.withEncoding encVarIntBoth] exampleSW exampleSWLog sw ∧ sw.isClosed = true) ∧
    ∃ (log : SWLog) (sw : SimpleWriter IdSet),
      SWHistory IdSet quietEnv [.withEncoding encVarIntBoth] (exampleSW.take 4) log sw ∧ sw.isClosed = false := by
  obtain ⟨sw, h, _, _, _, hc⟩ := exampleSW_history
  refine ⟨⟨sw, h, (C22_isClosed h).2 hc⟩, ?_⟩
  obtain ⟨sw0, h0, _⟩ := h.created
  rcases hr : runSW quietEnv (exampleSW.take 4) sw0 with ⟨log, sw'⟩
  refine ⟨log, sw', ⟨sw0, h0, hr⟩, ?_⟩
  have hno : (SWCall.close, Except.ok ()) ∉ log := by
    intro hm
    have h1 : SWCall.close ∈ log.map Prod.fst := List.mem_map.2 ⟨_, hm, rfl⟩
    have h2 : log.map Prod.fst = exampleSW.take 4 := by
      have := runSW_calls quietEnv (exampleSW.take 4) sw0
      rwa [hr] at this
    rw [h2] at h1
    simp [exampleSW] at h1
  cases hcl : sw'.isClosed with
  | false => rfl
  | true => exact absurd ((C22_isClosed (⟨sw0, h0, hr⟩ : SWHistory IdSet quietEnv _ _ log sw')).1 hcl) hno

end VibeCol.SimpleClosed
