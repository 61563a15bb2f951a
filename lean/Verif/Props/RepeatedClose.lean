/- Non-vacuity of `C44_early` (`Props/SyncLossSimple.lean`). -/
import Verif.Props.SyncLossSimple

namespace VibeCol.SyncLossSimple
open VibeCol SyncLoss

set_option synthInstance.maxSize 1000 in
/-- `TotalItems` after the batch and after the `Close` that fails, in the run of `C44_refuted`. -/
theorem retryItems_eq : (newSimpleWriter (B := IdSet) [] syncFault).toOption.map
    (fun sw0 => ((retrySW1 syncFault sw0).totalItems, (retrySW2 syncFault sw0).totalItems)) = some (0, 0) := by
  decide +kernel

/-- Every hypothesis of `C44_early` is met by the run of `C44_refuted`: the first `Close` fails early, the second succeeds. -/
example : ∃ (sw0 sw : SimpleWriter IdSet), LawfulSort syncFault.sort ∧ SymEnc (chosenEncoding []) ∧ newSimpleWriter [] syncFault = .ok sw0 ∧
    runSW syncFault retryCalls sw0 = (retryLog, sw) ∧ (retryCalls.map SWCall.pairs).sum ≤ 2 ^ 27 ∧
    CloseFailsEarly 0 retryLog (itemsAfter syncFault retryCalls sw0) ∧ (SWCall.close, Except.ok ()) ∈ retryLog ∧
    (SWCall.close, Except.error .io) ∈ retryLog ∧ sw.writer.file.bytes.length ≤ maxFileSize := by
  have hev := retryOutcome_eq
  have hit := retryItems_eq
  have hs : LawfulSort syncFault.sort := sortByInsertion_lawful
  generalize syncFault = env at *
  rcases h0 : newSimpleWriter (B := IdSet) [] env with e | sw0
  · rw [h0] at hev; cases hev
  rw [h0] at hev hit
  simp only [Except.toOption, Option.map_some, Option.some.injEq, retryOutcome, Prod.mk.injEq] at hev hit
  obtain ⟨hlog, hfail, hcnt, htot, hpos, hbuf⟩ := hev
  have hlog2 := hlog
  have hlog' : (runSW env retryCalls sw0).1 = [(.write [1] [1], (SWCall.run env (.write [1] [1]) sw0).1),
      (.close, ((retrySW1 env sw0).close env).1), (.close, ((retrySW2 env sw0).close env).1)] := rfl
  rw [hlog'] at hlog2
  simp only [retryLog, List.cons.injEq, Prod.mk.injEq, true_and, and_true] at hlog2
  obtain ⟨hc1, hc2, hc3⟩ := hlog2
  obtain ⟨r, ps, h1, h2, h3, h4, h5⟩ := retry_general hs h0 (sw1 := retrySW1 env sw0) (sw2 := retrySW2 env sw0)
    (by rw [← hc1]; rfl) (by rw [← hc2]; rfl) hfail hc3 hcnt hpos hbuf
  have hi : itemsAfter env retryCalls sw0 = [(retrySW1 env sw0).totalItems, (retrySW2 env sw0).totalItems, (runSW env retryCalls sw0).2.totalItems] := rfl
  refine ⟨sw0, _, hs, by unfold SymEnc; decide, rfl, Prod.ext hlog rfl, by decide, ?_, by simp [retryLog], by simp [retryLog], h5⟩
  rw [hi, hit.1, hit.2, htot]
  simp [CloseFailsEarly, handedBy, retryLog]

end VibeCol.SyncLossSimple
