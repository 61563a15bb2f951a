/-
C44: `SimpleWriter` when the file system fails.
-/
import Verif.Lemmas.SimpleFaults
import Verif.Props.SimpleProgress
set_option linter.unusedSimpArgs false
namespace VibeCol
variable {B : Type} [Bitmap B] [LawfulBitmap B]

omit [LawfulBitmap B] in
theorem SWDone.reads {opts : List WriterOption} {sw : SimpleWriter B} {S : List Pair} {blks : List Blk}
    (h : SWDone opts sw S blks) (henc : SymEnc (chosenEncoding opts))
    (hsize : sw.writer.file.bytes.length ≤ maxFileSize) :
    ∃ r : Reader B, newReader sw.writer.file.bytes = .ok r ∧ AllPairs r (blkPairs blks) ∧
      blks.length ≤ (blkPairs blks).length := by
  obtain ⟨hd, buf, bo, fs, hok⟩ := h.file (by unfold maxFileSize maxBlocks at hsize; omega)
  have hfew := hok.few hsize
  have hR := hok.reads (B := B) henc hfew
  refine ⟨_, hok.newReader (B := B) (by unfold maxBlocks at hfew; omega),
    ⟨_, hR.toIndexed.count_toNat, hR.read, ?_⟩, blkPairs_length (fun b hb => hok.ok b hb)⟩
  simp [blkPairs, List.flatMap_map]

/-- **C44.** Under every fault schedule: if no `Close` failed with an I/O error and some `Close`
returned nil, then the file opens and contains, in order, all batches handed to a `Write` that
returned nil or an I/O error, each sorted; every pair of the file was handed over. (Pairs of a
batch can occur in the file more often than handed over: see `C44_refuted`.) -/
theorem C44_nothing_lost {env : Env} (hs : LawfulSort env.sort) {opts : List WriterOption} {calls : List SWCall}
    {log : SWLog} {sw : SimpleWriter B} (h : SWHistory B env opts calls log sw)
    (henc : SymEnc (chosenEncoding opts)) (hb : (calls.map SWCall.pairs).sum ≤ 2 ^ 27) (hno : CloseNoIOError log)
    (hclose : (SWCall.close, Except.ok ()) ∈ log) (hsize : sw.writer.file.bytes.length ≤ maxFileSize) :
    ∃ (r : Reader B) (stored : List (List Pair)) (ps : List Pair), newReader sw.writer.file.bytes = .ok r ∧
      Each SortedBatch (handed log) stored ∧ AllPairs r ps ∧ List.Sublist stored.flatten ps ∧
      ∀ p ∈ ps, p ∈ stored.flatten := by
  obtain ⟨sw0, h0, hr⟩ := h.created
  have hl : log = (runSW env calls sw0).1 := by rw [hr]
  have hw : sw = (runSW env calls sw0).2 := by rw [hr]
  subst hl hw
  have hcl := closed_of_log env calls sw0 hclose
  obtain ⟨stored, new, extra, h1, h2⟩ := (newSimpleWriter_open h0).live.run hs henc calls (by simpa using hb) hno
  rcases h2 with h2 | h2
  · rw [h2.isOpen] at hcl; cases hcl
  · obtain ⟨r, hr, hp, _⟩ := h2.reads henc hsize
    exact ⟨r, stored, _, hr, h1, hp, by simpa using h2.keep, by simpa using h2.only⟩

/-- Non-vacuity of C44. -/
example : ∃ (sw : SimpleWriter IdSet) (r : Reader IdSet) (stored : List (List Pair)) (ps : List Pair),
    newReader sw.writer.file.bytes = .ok r ∧
    Each SortedBatch [[(3, 30), (1, -10), (2, 20)], [(5, 7), (1, -9223372036854775808)]] stored ∧
    AllPairs r ps ∧ List.Sublist stored.flatten ps := by
  obtain ⟨sw, h, henc, hb, hno, hc⟩ := exampleSW_history
  obtain ⟨_, st, _, hst, _, hsz, _⟩ := C20_sized sortByInsertion_lawful h henc hb hno hc (by decide)
    (fun L hL => Nat.lt_of_le_of_lt (idSet_buffer 5 L (by rw [hL]; decide)) (by decide))
  have hl : st.flatten.length = 5 := hst.perm.length_eq
  have hbuf := idSet_buffer 5 (st.flatten.map Prod.fst) (by rw [List.length_map, hl]; exact Nat.le_refl _)
  obtain ⟨r, stored, ps, h1, h2, h3, h4, _⟩ := C44_nothing_lost sortByInsertion_lawful h henc (by decide)
    (fun hev => hno _ hev rfl) hc (by
      have : (accepted exampleSWLog).flatten.length = 5 := by decide
      rw [this] at hsz
      refine Nat.le_trans hsz ?_
      unfold bitmapOfPairs maxFileSize maxBlocks
      omega)
  exact ⟨sw, r, stored, ps, h1, h2, h3, h4⟩

/-- A `Close` that succeeds in any live state. -/
theorem SWLive.close_ok {env : Env} {opts : List WriterOption} {sw : SimpleWriter B} {S : List Pair} {blks : List Blk}
    {extra : List UInt64} (h : SWLive opts sw S blks extra) (henc : SymEnc (chosenEncoding opts)) (hb : S.length ≤ 2 ^ 27)
    (hok : (sw.close env).1 = .ok ()) :
    ∃ blks', SWDone opts (sw.close env).2 S blks' ∧ blks'.length = (flushIfNeeded env true sw).2.writer.blockCount ∧
      (sw.close env).2.writer.file.bytes.length ≤ (flushIfNeeded env true sw).2.writer.file.pos +
        (Bitmap.toBuffer (flushIfNeeded env true sw).2.writer.globalIDs).length + 4127 +
        56 * (flushIfNeeded env true sw).2.writer.blockCount := by
  obtain ⟨new, extra', ho, hp, hout⟩ := h.flush (env := env) henc true [] [] rfl (by simpa using hb)
  simp only [List.append_nil] at ho hp hout
  have hid : ({ sw with pendingIDs := sw.pendingIDs, pendingValues := sw.pendingValues } : SimpleWriter B) = sw := rfl
  rw [hid] at ho hp hout
  simp only [SimpleWriter.close, h.isOpen, Bool.false_eq_true, if_false] at hok ⊢
  rcases hf : flushIfNeeded env true sw with ⟨r, sw1⟩
  rw [hf] at ho hp hout hok
  rcases hout with hr | hr <;> simp only at hr <;> subst hr
  · have hp := hp rfl trivial
    simp only at hok hp ⊢
    rw [show ([] : List UInt64).zip ([] : List Int64) = [] from rfl, List.append_nil] at ho
    simp only at ho
    have hfin := finalize_inv env sw1.writer (blks ++ new) extra' ho.inv
    have hfc := finalizeAndClose_spec env sw1.writer
    rcases hff : finalizeAndClose env sw1.writer with ⟨r2, w3⟩
    rw [hff] at hok hfc
    rcases hfc with ⟨e, w2, he, hrw⟩ | ⟨w2, he, hcase⟩
    · cases hrw; cases hok
    · obtain ⟨hopen, hinv, hcfg, hgl, _, hfo, hlen⟩ := wp_ok hfin he
      obtain ⟨hres, hf1, hf2⟩ := hcase
      simp only at hres hf1 hf2
      rcases hres with rfl | rfl
      · cases hok
      · have hpend : sw1.pending = [] := by unfold SimpleWriter.pending; rw [hp]; rfl
        have hk := ho.keep
        have hon := ho.only
        rw [hpend, List.append_nil] at hk hon
        refine ⟨blks ++ new, ⟨rfl, hk, hon, ?_, ?_⟩, ho.inv.cnt.symm, ?_⟩
        · show w3.blockCount = _
          rw [hf2, hinv.cnt]
        · show w3.file.bytes.length < 2 ^ 63 → _
          rw [hf1]
          intro hsz
          obtain ⟨hd, bo, fs, hfo, _⟩ := hfo hsz
          refine ⟨hd, Bitmap.toBuffer sw1.writer.globalIDs, bo, fs, ?_⟩
          rw [← ho.enc]
          exact hfo
        · show w3.file.bytes.length ≤ _
          rw [hf1, ho.inv.cnt]
          exact hlen
  · cases hok

/-- The 37th file operation fails: the `Sync` at the end of the first `WriteBlock`. -/
def syncFault : Env := { quietEnv with fault := fun n => if n = 36 then some 0 else none }

/-- A batch of one pair, a `Close` that fails, a second `Close`. -/
def retryCalls : List SWCall := [.write [1] [1], .close, .close]

/-- Results. -/
def retryLog : SWLog := [(.write [1] [1], .ok ()), (.close, .error .io), (.close, .ok ())]

deriving instance DecidableEq for SWCall

/-- The state after the batch. -/
def retrySW1 (env : Env) (sw0 : SimpleWriter IdSet) : SimpleWriter IdSet := (SWCall.run env (.write [1] [1]) sw0).2

/-- The state after the first `Close`. -/
def retrySW2 (env : Env) (sw0 : SimpleWriter IdSet) : SimpleWriter IdSet := (SWCall.run env .close (retrySW1 env sw0)).2

/-- What is observed of the run. -/
def retryOutcome (env : Env) (sw0 : SimpleWriter IdSet) : SWLog × Result × Nat × Nat × Nat × Nat :=
  ((runSW env retryCalls sw0).1, (flushIfNeeded env true (retrySW1 env sw0)).1,
    (flushIfNeeded env true (retrySW2 env sw0)).2.writer.blockCount, (runSW env retryCalls sw0).2.totalItems,
    (flushIfNeeded env true (retrySW2 env sw0)).2.writer.file.pos,
    (Bitmap.toBuffer (flushIfNeeded env true (retrySW2 env sw0)).2.writer.globalIDs).length)

set_option synthInstance.maxSize 1000 in
theorem retryOutcome_eq :
    (newSimpleWriter (B := IdSet) [] syncFault).toOption.map (retryOutcome syncFault) = some (retryLog, .error .io, 2, 1, 8192, 16) := by
  decide +kernel

/-- The argument for any environment. -/
theorem retry_general {env : Env} (hs : LawfulSort env.sort) {sw0 sw1 sw2 : SimpleWriter B}
    (h0 : newSimpleWriter [] env = .ok sw0)
    (hc1 : SWCall.run env (.write [1] [1]) sw0 = (.ok (), sw1)) (hc2 : sw1.close env = (.error .io, sw2))
    (hfail : (flushIfNeeded env true sw1).1 = .error .io) (hc3 : (sw2.close env).1 = .ok ())
    (hcnt : (flushIfNeeded env true sw2).2.writer.blockCount = 2)
    (hpos : (flushIfNeeded env true sw2).2.writer.file.pos = 8192)
    (hbuf : (Bitmap.toBuffer (flushIfNeeded env true sw2).2.writer.globalIDs).length = 16) :
    ∃ (r : Reader B) (ps : List Pair), newReader (sw2.close env).2.writer.file.bytes = .ok r ∧ AllPairs r ps ∧
      2 ≤ ps.length ∧ (∀ p ∈ ps, p = (1, 1)) ∧ (sw2.close env).2.writer.file.bytes.length ≤ maxFileSize := by
  have henc : SymEnc (chosenEncoding []) := by unfold SymEnc; decide
  obtain ⟨st1, new1, ex1, hf1, hL1⟩ := (newSimpleWriter_open h0).live.call (env := env) hs henc
    (.write [1] [1]) (by decide) (by intro h; cases h)
  rw [hc1] at hf1 hL1
  obtain rfl : st1 = [[(1, 1)]] := by
    cases hf1 with
    | cons h t =>
      cases t
      have := h.same (.cons (by simp) .nil)
      subst this
      rfl
  have hopen1 : sw1.closed = false := by
    cases hcl : sw1.closed with
    | false => rfl
    | true =>
      simp only [SimpleWriter.close, hcl, if_true] at hc2
      cases hc2
  rcases hL1 with hL1 | hL1
  rotate_left
  · have := hL1.isClosed
    simp only [hopen1] at this
    cases this
  obtain ⟨new2, ex2, hL2, _, _⟩ := hL1.flush (env := env) henc true [] [] rfl (by decide)
  simp only [List.append_nil] at hL2
  have h2 : sw2 = (flushIfNeeded env true sw1).2 := by
    simp only [SimpleWriter.close, hopen1, Bool.false_eq_true, if_false] at hc2
    rcases hfl : flushIfNeeded env true sw1 with ⟨r, x⟩
    rw [hfl] at hfail hc2
    simp only at hfail
    subst hfail
    simp only [Prod.mk.injEq] at hc2
    exact hc2.2.symm
  have hL2' : SWLive [] sw2 [(1, 1)] (new1 ++ new2) ex2 := by
    rw [h2]
    exact hL2
  obtain ⟨blks, hdone, hlen, hsz⟩ := hL2'.close_ok henc (by decide) hc3
  rw [hcnt, hpos, hbuf] at hsz
  rw [hcnt] at hlen
  have hmax : (sw2.close env).2.writer.file.bytes.length ≤ maxFileSize := by unfold maxFileSize maxBlocks; omega
  obtain ⟨r, hr, hp, hge⟩ := hdone.reads henc hmax
  exact ⟨r, _, hr, hp, by omega, fun p hpm => by simpa using hdone.only p hpm, hmax⟩

/-- **C44, refuted in the exact form.** If the `Sync` of a block fails, `Close` reports an I/O
error; calling `Close` again succeeds, and then the file contains the accepted pair twice,
while `TotalItems()` is 1. -/
theorem C44_refuted : ∃ (sw : SimpleWriter IdSet) (r : Reader IdSet) (ps : List Pair),
    SWHistory IdSet syncFault [] retryCalls retryLog sw ∧ newReader sw.writer.file.bytes = .ok r ∧ AllPairs r ps ∧
    (accepted retryLog).flatten = [(1, 1)] ∧ 2 ≤ ps.length ∧ (∀ p ∈ ps, p = (1, 1)) ∧ sw.totalItems = 1 := by
  have hev := retryOutcome_eq
  rcases h0 : newSimpleWriter (B := IdSet) [] syncFault with e | sw0
  · rw [h0] at hev; cases hev
  rw [h0] at hev
  simp only [Except.toOption, Option.map_some, Option.some.injEq, retryOutcome, Prod.mk.injEq] at hev
  obtain ⟨hlog, hfail, hcnt, htot, hpos, hbuf⟩ := hev
  generalize he : syncFault = env at *
  have hs : LawfulSort env.sort := by rw [← he]; exact sortByInsertion_lawful
  clear he
  have hlog' : (runSW env retryCalls sw0).1 = [(.write [1] [1], (SWCall.run env (.write [1] [1]) sw0).1),
      (.close, ((retrySW1 env sw0).close env).1), (.close, ((retrySW2 env sw0).close env).1)] := rfl
  have hist : SWHistory IdSet env [] retryCalls retryLog (runSW env retryCalls sw0).2 :=
    ⟨sw0, h0, by rw [← hlog]⟩
  rw [hlog'] at hlog
  simp only [retryLog, List.cons.injEq, Prod.mk.injEq, true_and, and_true] at hlog
  obtain ⟨hc1, hc2, hc3⟩ := hlog
  obtain ⟨r, ps, h1, h2, h3, h4, _⟩ := retry_general hs h0 (sw1 := retrySW1 env sw0) (sw2 := retrySW2 env sw0)
    (by rw [← hc1]; rfl) (by rw [← hc2]; rfl) hfail hc3 hcnt hpos hbuf
  exact ⟨_, r, ps, hist, h1, h2, rfl, h3, h4, htot⟩

end VibeCol
