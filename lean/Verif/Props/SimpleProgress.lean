/-
C23: `SimpleWriter` calls terminate, and succeed when nothing fails; examples for C20-C22, C39.
-/
import Verif.Props.Simple
set_option linter.unusedSimpArgs false
namespace VibeCol
variable {B : Type} [Bitmap B]

/-! ### The flush as a loop -/

/-- One round of `flushIfNeeded` (simple_writer.go:121-165), without its recursion: `.inl sw'`
if it calls itself again on `sw'`, `.inr` if it returns. -/
def flushRound (env : Env) (force : Bool) (sw : SimpleWriter B) : SimpleWriter B ⊕ (Result × SimpleWriter B) :=
  if sw.pendingIDs.length = 0 then .inr (.ok (), sw)
  else if !force && sw.pendingIDs.length < 1000 then .inr (.ok (), sw)
  else
    match writeBlock sw.pendingIDs sw.pendingValues env sw.writer with
    | (.error (.blockFull n), w') =>
      .inl { sw with
        writer := w'
        totalItems := sw.totalItems + n
        pendingIDs := sw.pendingIDs.drop n
        pendingValues := sw.pendingValues.drop n }
    | (.error e, w') => .inr (.error e, { sw with writer := w' })
    | (.ok _, w') => .inr (.ok (), { sw with
        writer := w'
        totalItems := sw.totalItems + sw.pendingIDs.length
        pendingIDs := []
        pendingValues := [] })

/-- `n` rounds lead from `sw` to a return with `out`. -/
inductive FlushRuns (env : Env) (force : Bool) : SimpleWriter B → Nat → Result × SimpleWriter B → Prop where
  | done {sw out} (h : flushRound env force sw = .inr out) : FlushRuns env force sw 1 out
  | again {sw sw' n out} (h : flushRound env force sw = .inl sw') (t : FlushRuns env force sw' n out) :
      FlushRuns env force sw (n + 1) out

/-- **C23.** From every state, with any target size, encoding and fault schedule, the flush
loop returns, after at most as many rounds as there are pending pairs (one if there are none);
every round makes at most one `WriteBlock` call. The model's `flushIfNeeded` is what the loop
computes. -/
theorem C23_terminates (env : Env) (force : Bool) (sw : SimpleWriter B) :
    ∃ n, 1 ≤ n ∧ n ≤ max 1 sw.pendingIDs.length ∧ FlushRuns env force sw n (flushIfNeeded env force sw) := by
  rw [flushIfNeeded_eq]
  by_cases h0 : sw.pendingIDs.length = 0
  · rw [if_pos h0]
    exact ⟨1, Nat.le_refl _, by omega, .done (by unfold flushRound; rw [if_pos h0])⟩
  rw [if_neg h0]
  by_cases hc : force = true ∨ sw.pendingIDs.length ≥ 1000
  · rw [if_pos hc]
    have hc' : (!force && decide (sw.pendingIDs.length < 1000)) = false := by
      rcases hc with hc | hc
      · rw [hc]; rfl
      · rw [decide_eq_false (by omega), Bool.and_false]
    have hround : flushRound env force sw = (match writeBlock sw.pendingIDs sw.pendingValues env sw.writer with
        | (.error (.blockFull n), w') =>
          .inl { sw with
            writer := w'
            totalItems := sw.totalItems + n
            pendingIDs := sw.pendingIDs.drop n
            pendingValues := sw.pendingValues.drop n }
        | (.error e, w') => .inr (.error e, { sw with writer := w' })
        | (.ok _, w') => .inr (.ok (), { sw with
            writer := w'
            totalItems := sw.totalItems + sw.pendingIDs.length
            pendingIDs := []
            pendingValues := [] })) := by
      unfold flushRound
      rw [if_neg h0, hc']
      rfl
    rcases hw : writeBlock sw.pendingIDs sw.pendingValues env sw.writer with ⟨r, w'⟩
    rw [hw] at hround
    cases r with
    | ok u => exact ⟨1, Nat.le_refl _, by omega, .done hround⟩
    | error e =>
      cases e with
      | blockFull k =>
        have hb := writeBlock_blockFull_bounds _ _ _ _ _ _ hw
        obtain ⟨n, h1, h2, h3⟩ := C23_terminates env force { sw with
            writer := w'
            totalItems := sw.totalItems + k
            pendingIDs := sw.pendingIDs.drop k
            pendingValues := sw.pendingValues.drop k }
        simp only [List.length_drop] at h2
        exact ⟨n + 1, by omega, by omega, .again hround h3⟩
      | _ => exact ⟨1, Nat.le_refl _, by omega, .done hround⟩
  · rw [if_neg hc]
    refine ⟨1, Nat.le_refl _, by omega, .done ?_⟩
    unfold flushRound
    rw [if_neg h0, if_pos]
    simp only [ge_iff_le, not_or, Bool.not_eq_true] at hc
    rw [hc.1, decide_eq_true (show sw.pendingIDs.length < 1000 by omega)]; rfl
termination_by sw.pendingIDs.length
decreasing_by simp only [List.length_drop]; omega

/-- The flush loop is deterministic: the bound of `C23_terminates` is about every run. -/
theorem C23_deterministic (env : Env) (force : Bool) (sw : SimpleWriter B) {n m out out'}
    (h : FlushRuns env force sw n out) (h' : FlushRuns env force sw m out') : n = m ∧ out = out' := by
  induction h generalizing m out' with
  | done h =>
    cases h' with
    | done h2 => rw [h] at h2; cases h2; exact ⟨rfl, rfl⟩
    | again h2 _ => rw [h] at h2; cases h2
  | again h _ ih =>
    cases h' with
    | done h2 => rw [h] at h2; cases h2
    | again h2 t =>
      rw [h] at h2; cases h2
      obtain ⟨rfl, rfl⟩ := ih t
      exact ⟨rfl, rfl⟩

variable [LawfulBitmap B]

/-! ### Without faults everything succeeds -/

/-- What a call returns when nothing fails. -/
def SWCall.expected : SWCall → (closed : Bool) → Result
  | .close, _ => .ok ()
  | _, true => .error .closed
  | .setTarget _, false => .ok ()
  | .write ids vals, false => if ids.length = vals.length then .ok () else .error .lengthMismatch

/-- Is it closed after the call? -/
def SWCall.closes : SWCall → Bool → Bool
  | .close, _ => true
  | _, b => b

theorem SWOpen.noFault {env : Env} (hs : LawfulSort env.sort) (hn : env.NoFault) {opts : List WriterOption}
    {sw : SimpleWriter B} {S : List Pair} {blks : List Blk} (h : SWOpen opts sw S blks)
    (henc : SymEnc (chosenEncoding opts)) (c : SWCall) (hb : c.Bounded) :
    (c.run env sw).1 = c.expected false ∧ (c.run env sw).2.closed = c.closes false := by
  have nf : ∀ (force : Bool) (ids : List UInt64) (vals : List Int64), ids.length = vals.length → ids.length + 999 ≤ 2 ^ 27 →
      (flushIfNeeded env force { sw with pendingIDs := sw.pendingIDs ++ ids, pendingValues := sw.pendingValues ++ vals }).1 ≠ .error .io := by
    intro force ids vals hl hb hc
    obtain ⟨new, extra, F⟩ := flush_spec env force
      { sw with pendingIDs := sw.pendingIDs ++ ids, pendingValues := sw.pendingValues ++ vals } blks []
      h.inv (by rw [h.enc]; exact henc) (by simp only [List.length_append, h.lens]; omega)
      (by have := h.few; simp only [List.length_append]; omega)
    rcases F.outcome with h1 | ⟨_, hF⟩
    · rw [hc] at h1; cases h1
    · exact NoFault.not_faulty hn h.fileOpen hF
  cases c with
  | setTarget size => simp [SWCall.run, setTargetBlockSize, h.isOpen, SWCall.expected, SWCall.closes]
  | write ids vals =>
    by_cases hl : ids.length = vals.length
    · by_cases hne : ids.length = 0
      · have e1 : ids = [] := List.eq_nil_of_length_eq_zero hne
        have e2 : vals = [] := List.eq_nil_of_length_eq_zero (by omega)
        subst e1 e2
        simp [SWCall.run, SimpleWriter.write, h.isOpen, SWCall.expected, SWCall.closes]
      · obtain ⟨h1, h2, h3⟩ := storedBatch_spec env hs ids vals hl
        simp only [SWCall.run, SWCall.expected, SWCall.closes, hl, if_true]
        rw [write_eq env ids vals sw h.isOpen hl hne]
        have hno := nf false (storedBatch env ids vals).1 (storedBatch env ids vals).2 (h2.trans h3.symm) (by rw [h2]; exact hb)
        obtain ⟨hr, new, ho, _⟩ := h.flush henc false _ _ (h2.trans h3.symm) (by rw [h2]; exact hb) hno
        exact ⟨hr, ho.isOpen⟩
    · simp [SWCall.run, SimpleWriter.write, h.isOpen, hl, SWCall.expected, SWCall.closes]
  | close =>
    have hno := nf true [] [] rfl (by decide)
    have hfl := h.flush (env := env) henc true [] [] rfl (by decide) hno
    simp only [List.append_nil] at hfl
    have hid : ({ sw with pendingIDs := sw.pendingIDs, pendingValues := sw.pendingValues } : SimpleWriter B) = sw := rfl
    rw [hid] at hfl
    simp only [SWCall.run, SimpleWriter.close, h.isOpen, Bool.false_eq_true, if_false]
    rcases hf : flushIfNeeded env true sw with ⟨r, sw1⟩
    rw [hf] at hfl
    obtain ⟨rfl, new, ho, _⟩ := hfl
    simp only
    obtain ⟨w2, hw2⟩ := finalize_noFault hn ho.inv ho.clean ho.fileOpen
    have hfc : finalizeAndClose env sw1.writer = (.ok (), { w2 with opNo := w2.opNo + 1, fileOpen := false }) := by
      obtain ⟨_, _, hcfg, _⟩ := wp_ok (finalize_inv env sw1.writer _ [] ho.inv) hw2
      have : w2.fileOpen = true := by rw [hcfg.opened, ho.fileOpen]
      unfold finalizeAndClose
      rw [WM.bind_def, hw2]
      simp only [fclose, this, hn w2.opNo]
      rfl
    rw [hfc]
    exact ⟨rfl, rfl⟩

/-- What a sequence of calls returns when nothing fails. -/
def expectedSW : List SWCall → (closed : Bool) → SWLog
  | [], _ => []
  | c :: cs, b => (c, c.expected b) :: expectedSW cs (c.closes b)

theorem SWOpen.run_noFault {env : Env} (hs : LawfulSort env.sort) (hn : env.NoFault) {opts : List WriterOption}
    {sw : SimpleWriter B} {S : List Pair} {blks : List Blk} (h : SWOpen opts sw S blks)
    (henc : SymEnc (chosenEncoding opts)) (cs : List SWCall) (hb : ∀ c ∈ cs, c.Bounded) :
    (runSW env cs sw).1 = expectedSW cs false := by
  induction cs generalizing sw S blks with
  | nil => rfl
  | cons c cs ih =>
    obtain ⟨h1, h2⟩ := h.noFault hs hn henc c (hb c (by simp))
    have hno : (c.run env sw).1 ≠ .error .io := by
      rw [h1]
      cases c <;> simp [SWCall.expected]
      split <;> simp
    rw [runSW_cons, expectedSW, h1]
    refine congrArg (List.cons _) ?_
    obtain ⟨_, _, _, hcase⟩ := h.call hs henc c (hb c (by simp)) hno
    rcases hcase with ho | ⟨rfl, _, hcl⟩
    · rw [← h2, ho.isOpen]
      exact ih ho (fun c' hc' => hb c' (by simp [hc']))
    · have hclosed : ∀ (cs : List SWCall) (sw : SimpleWriter B), sw.closed = true →
          (runSW env cs sw).1 = expectedSW cs true := by
        intro cs
        induction cs with
        | nil => intro _ _; rfl
        | cons c cs ih =>
          intro sw hc
          obtain ⟨h1, h2⟩ := closed_call env c sw hc
          rw [runSW_cons, h1, ih sw hc, h2, expectedSW]
          cases c <;> rfl
      exact hclosed cs _ hcl.isClosed

/-- **C23.** When nothing fails, every call succeeds unless its input is rejected or the writer
was closed before, for every target block size (even zero) and every symmetric encoding. -/
theorem C23_succeeds {env : Env} (hs : LawfulSort env.sort) (hn : env.NoFault) (opts : List WriterOption)
    (henc : SymEnc (chosenEncoding opts)) (calls : List SWCall) (hb : ∀ c ∈ calls, c.Bounded) :
    ∃ sw : SimpleWriter B, SWHistory B env opts calls (expectedSW calls false) sw := by
  obtain ⟨w0, h0⟩ := newWriter_ok (B := B) env hn opts
  obtain ⟨sw0, hnew⟩ : ∃ sw0 : SimpleWriter B, newSimpleWriter opts env = .ok sw0 := by
    unfold newSimpleWriter
    rw [h0]
    exact ⟨_, rfl⟩
  refine ⟨(runSW env calls sw0).2, sw0, hnew, ?_⟩
  rw [← (newSimpleWriter_open hnew).run_noFault hs hn henc calls hb]

/-! ### Example -/

/-- Two batches, the first out of order; a rejected batch; a block size that forces one block
per pair; a write after closing. -/
def exampleSW : List SWCall :=
  [.write [3, 1, 2] [30, -10, 20], .setTarget 0, .write [5] [], .write [5, 1] [7, -9223372036854775808], .close, .write [1] [1]]

/-- Results. -/
def exampleSWLog : SWLog :=
  [(.write [3, 1, 2] [30, -10, 20], .ok ()), (.setTarget 0, .ok ()), (.write [5] [], .error .lengthMismatch),
   (.write [5, 1] [7, -9223372036854775808], .ok ()), (.close, .ok ()), (.write [1] [1], .error .closed)]

/-- The example meets the hypotheses of C20, C21 and C22. -/
theorem exampleSW_history : ∃ sw : SimpleWriter IdSet, SWHistory IdSet quietEnv [.withEncoding encVarIntBoth] exampleSW exampleSWLog sw ∧
    SymEnc (chosenEncoding [.withEncoding encVarIntBoth]) ∧ (∀ c ∈ exampleSW, c.Bounded) ∧ SWNoIOError exampleSWLog ∧
    (SWCall.close, Except.ok ()) ∈ exampleSWLog := by
  have hb : ∀ c ∈ exampleSW, c.Bounded := by
    intro c hc
    simp only [exampleSW, List.mem_cons, List.not_mem_nil, or_false] at hc
    rcases hc with rfl | rfl | rfl | rfl | rfl | rfl <;> simp [SWCall.Bounded]
  obtain ⟨sw, h⟩ := C23_succeeds (B := IdSet) (env := quietEnv) sortByInsertion_lawful quietEnv_noFault [.withEncoding encVarIntBoth]
    (by unfold SymEnc; decide) exampleSW hb
  refine ⟨sw, h, by unfold SymEnc; decide, hb, ?_, ?_⟩
  · intro ev hev
    simp only [exampleSWLog, List.mem_cons, List.not_mem_nil, or_false] at hev
    rcases hev with rfl | rfl | rfl | rfl | rfl | rfl <;> simp
  · simp [exampleSWLog]

/-- Non-vacuity of C20, C21, C22: the file of the example opens and has the five pairs. -/
example : ∃ (sw : SimpleWriter IdSet) (r : Reader IdSet) (stored : List (List Pair)),
    newReader sw.writer.file.bytes = .ok r ∧
    Each SortedBatch [[(3, 30), (1, -10), (2, 20)], [(5, 7), (1, -9223372036854775808)]] stored ∧
    AllPairs r stored.flatten ∧ sw.totalItems = 5 := by
  obtain ⟨sw, h, henc, hb, hno, hc⟩ := exampleSW_history
  obtain ⟨r, stored, h1, h2, h3, _⟩ := C20_sized sortByInsertion_lawful h henc hb hno hc (by decide)
    (fun L hL => Nat.lt_of_le_of_lt (idSet_buffer 5 L (by rw [hL]; decide)) (by decide))
  exact ⟨sw, r, stored, h1, h2, h3, ((C21_accounting sortByInsertion_lawful h henc hb hno).2.2 hc).1⟩

end VibeCol
