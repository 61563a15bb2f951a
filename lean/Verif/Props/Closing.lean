/-
C66: closing a writer.
-/
import Verif.Props.Live
import Verif.Spec.Closing
import Verif.Props.Power
namespace VibeCol.Closing
variable {B : Type} [Bitmap B] {α β : Type}

/-! ### Calls on a closed file -/

/-- A program that, on a closed file, returns an error other than `BlockFullError` and changes nothing but the number of
operations made. -/
def Dead (m : WM B α) : Prop := ∀ env (w : Writer B), w.fileOpen = false →
  ∃ e n, m env w = (.error e, { w with opNo := n }) ∧ ∀ k, e ≠ .blockFull k

theorem Dead.bind {m : WM B α} {f : α → WM B β} (h : Dead m) : Dead (m >>= f) := by
  intro env w hw
  obtain ⟨e, n, h1, h2⟩ := h env w hw
  exact ⟨e, n, by rw [WM.bind_def, h1], h2⟩

theorem Dead.get {f : Writer B → WM B β} (h : ∀ w, Dead (f w)) : Dead (WM.get >>= f) := fun env w hw => h w env w hw

theorem Dead.lift {r : Except Err α} {f : α → WM B β} (hr : ∀ n, r ≠ .error (.blockFull n)) (h : ∀ a, Dead (f a)) :
    Dead (WM.lift r >>= f) := by
  intro env w hw
  cases r with
  | ok a => exact h a env w hw
  | error e => exact ⟨e, w.opNo, rfl, fun k hk => hr k (by rw [hk])⟩

theorem Dead.throw {e : Err} (he : ∀ n, e ≠ .blockFull n) : Dead (WM.throw e : WM B α) := fun _ w _ => ⟨e, w.opNo, rfl, he⟩

theorem Dead.ite {c : Prop} [Decidable c] {a b : WM B α} (ha : Dead a) (hb : Dead b) : Dead (if c then a else b) := by
  split <;> assumption

theorem Dead.fileOp (f : File → Except Err (α × File)) : Dead (WM.fileOp f : WM B α) := by
  intro env w hw
  refine ⟨.io, w.opNo + 1, ?_, by simp⟩
  unfold WM.fileOp
  rw [if_pos hw]

theorem dead_estimate (ids : List UInt64) (vals : List Int64) : Dead (estimateBlockSize ids vals : WM B Nat) := by
  unfold estimateBlockSize
  exact .ite (.throw (by simp)) (.ite (.throw (by simp)) (.get fun w => .lift (encodeData_noBF _ _ _ _) fun _ =>
    .lift (encodeData_noBF _ _ _ _) fun _ => .bind (.fileOp _)))

theorem dead_writeBlock (ids : List UInt64) (vals : List Int64) : Dead (writeBlock ids vals : WM B Unit) := by
  unfold writeBlock
  exact .ite (.throw (by simp)) (.ite (.throw (by simp)) (.bind (dead_estimate ids vals)))

theorem dead_finalize : Dead (finalize : WM B Unit) := by
  unfold finalize writeGlobalIDBitmap
  exact .bind (.bind (.fileOp _))

theorem dead_fclose : Dead (fclose : WM B Unit) := by
  intro env w hw
  refine ⟨.io, w.opNo + 1, ?_, by simp⟩
  unfold fclose
  rw [if_pos hw, ← hw]

theorem dead_call (c : WCall) : Dead (fun env (w : Writer B) => c.run env w) := by
  cases c with
  | close => exact dead_fclose
  | finalizeAndClose => exact .bind dead_finalize
  | call c =>
    cases c with
    | write ids vals => exact dead_writeBlock ids vals
    | finalize => exact dead_finalize
    | estimate ids vals =>
      intro env w hw
      obtain ⟨e, n, h1, h2⟩ := dead_estimate ids vals env w hw
      refine ⟨e, n, ?_, h2⟩
      show (match estimateBlockSize ids vals env w with
        | (.ok _, w') => (.ok (), w')
        | (.error e, w') => (.error e, w') : Result × Writer B) = _
      rw [h1]

/-- **C66.** After the file has been closed, whatever is called, every call is refused and nothing changes any more: neither the
file nor what is on stable storage. -/
theorem C66_refused (env : Env) (calls : List WCall) (w : Writer B) (hw : w.fileOpen = false) :
    (∀ ev ∈ (runW env calls w).1, Refused ev) ∧ (runW env calls w).2.file = w.file ∧
      (runW env calls w).2.disk = w.disk ∧ (runW env calls w).2.fileOpen = false := by
  induction calls generalizing w with
  | nil => exact ⟨(fun ev h => by cases h), rfl, rfl, hw⟩
  | cons c cs ih =>
    obtain ⟨e, n, h1, h2⟩ := dead_call c env w hw
    have hw' : ({ w with opNo := n } : Writer B).fileOpen = false := hw
    obtain ⟨i1, i2, i3, i4⟩ := ih _ hw'
    have hrun : runW env (c :: cs) w = ((c, .error e) :: (runW env cs { w with opNo := n }).1,
        (runW env cs { w with opNo := n }).2) := by
      show (((c, (c.run env w).1) :: (runW env cs (c.run env w).2).1, (runW env cs (c.run env w).2).2) :
        List (WCall × Result) × Writer B) = _
      dsimp only at h1
      rw [h1]
    rw [hrun]
    refine ⟨fun ev hev => ?_, i2, i3, i4⟩
    rcases List.mem_cons.1 hev with rfl | hev
    · exact ⟨e, rfl, h2⟩
    · exact i1 ev hev

/-! ### Histories with `Close` -/

omit [Bitmap B] in
theorem fclose_facts (env : Env) (w : Writer B) : ((fclose env w).1 = .ok () ∨ (fclose env w).1 = .error .io) ∧
    (fclose env w).2.file = w.file ∧ (fclose env w).2.disk = w.disk ∧ (fclose env w).2.fileOpen = false := by
  unfold fclose
  dsimp only
  split
  · exact ⟨.inr rfl, rfl, rfl, rfl⟩
  · split
    · exact ⟨.inr rfl, rfl, rfl, rfl⟩
    · exact ⟨.inl rfl, rfl, rfl, rfl⟩

/-- The phases of a run from a writer that has a history. -/
theorem phases {env : Env} {opts : List WriterOption} (wcalls : List WCall) :
    ∀ {calls : List Call} {log : Log} {w : Writer B}, History B env opts calls log w →
    (∃ more mlog, Untold (runW env wcalls w).1 mlog ∧ History B env opts (calls ++ more) (log ++ mlog) (runW env wcalls w).2) ∨
    ∃ before c r after more mlog w1, (runW env wcalls w).1 = before ++ (c, r) :: after ∧ Untold before mlog ∧
      History B env opts (calls ++ more) (log ++ mlog) w1 ∧ (r = .ok () ∨ r = .error .io) ∧
      ClosedBy env w1 c (runW env wcalls w).2 ∧
      ∀ ev ∈ after, Refused ev := by
  induction wcalls with
  | nil =>
    intro calls log w h
    refine .inl ⟨[], [], .nil, ?_⟩
    rw [List.append_nil, List.append_nil]
    exact h
  | cons c cs ih =>
    intro calls log w h
    have hrun : runW env (c :: cs) w = ((c, (c.run env w).1) :: (runW env cs (c.run env w).2).1,
        (runW env cs (c.run env w).2).2) := rfl
    have plain : ∀ (d : Call) (r : Result) (w' : Writer B), d.run env w = (r, w') →
        (Untold [] [] → ∀ log' plog', Untold log' plog' → Untold ((c, r) :: log') ((d, r) :: plog')) →
        c.run env w = (r, w') → 
        ((∃ more mlog, Untold (runW env (c :: cs) w).1 mlog ∧
          History B env opts (calls ++ more) (log ++ mlog) (runW env (c :: cs) w).2) ∨
        ∃ before c' r' after more mlog w1, (runW env (c :: cs) w).1 = before ++ (c', r') :: after ∧ Untold before mlog ∧
          History B env opts (calls ++ more) (log ++ mlog) w1 ∧ (r' = .ok () ∨ r' = .error .io) ∧
          ClosedBy env w1 c' (runW env (c :: cs) w).2 ∧
          ∀ ev ∈ after, Refused ev) := by
      intro d r w' hd hu hc
      have hh : History B env opts (calls ++ [d]) (log ++ [(d, r)]) w' := by
        obtain ⟨w0, h0, h1⟩ := h.created
        refine ⟨w0, h0, ?_⟩
        rw [runCalls_append, h1]
        show (log ++ (runCalls env [d] w).1, (runCalls env [d] w).2) = _
        show (log ++ [(d, (d.run env w).1)], (d.run env w).2) = _
        rw [hd]
      rw [hrun, hc]
      rcases ih hh with ⟨more, mlog, i1, i2⟩ | ⟨before, c', r', after, more, mlog, w1, i1, i2, i3, i4⟩
      · refine .inl ⟨d :: more, (d, r) :: mlog, hu .nil _ _ i1, ?_⟩
        rw [List.append_assoc, List.append_assoc] at i2
        exact i2
      · refine .inr ⟨(c, r) :: before, c', r', after, d :: more, (d, r) :: mlog, w1, ?_, hu .nil _ _ i2, ?_, i4⟩
        · dsimp only; rw [i1]; rfl
        · rw [List.append_assoc, List.append_assoc] at i3
          exact i3
    cases c with
    | call d =>
      exact plain d (d.run env w).1 (d.run env w).2 rfl (fun _ _ _ hu => .call _ _ hu) rfl
    | close =>
      obtain ⟨f1, f2, f3, f4⟩ := fclose_facts env w
      obtain ⟨a1, a2, a3, a4⟩ := C66_refused env cs _ f4
      refine .inr ⟨[], .close, (fclose env w).1, (runW env cs (fclose env w).2).1, [], [], w, rfl, .nil, ?_, f1, ?_, a1⟩
      · rw [List.append_nil, List.append_nil]; exact h
      · rw [hrun]
        exact .close (a2.trans f2) (a3.trans f3)
    | finalizeAndClose =>
      rcases hfin : finalize env w with ⟨r, w2⟩
      have hfc : (WCall.finalizeAndClose.run env w : Result × Writer B) = (match (r, w2) with
          | (.ok a, w') => fclose env w'
          | (.error e, w') => (.error e, w')) := by
        show VibeCol.finalizeAndClose env w = _
        unfold VibeCol.finalizeAndClose
        rw [WM.bind_def, hfin]
        cases r <;> rfl
      cases r with
      | error e => exact plain .finalize (.error e) w2 hfin (fun _ _ _ hu => .failed _ hu) hfc
      | ok u =>
        obtain ⟨f1, f2, f3, f4⟩ := fclose_facts env w2
        obtain ⟨a1, a2, a3, a4⟩ := C66_refused env cs _ f4
        dsimp only at hfc
        refine .inr ⟨[], .finalizeAndClose, (fclose env w2).1, (runW env cs (fclose env w2).2).1, [], [], w, ?_, .nil, ?_, f1, ?_, a1⟩
        · rw [hrun, hfc]; rfl
        · rw [List.append_nil, List.append_nil]; exact h
        · rw [hrun, hfc]
          exact .finalizeAndClose hfin (a2.trans f2) (a3.trans f3)

/-- **C66.** Every run of a writer, with any calls in any order under any faults, is a history without `Close`, possibly
followed by one call that closes the file and then by calls that are all refused. Until then a `FinalizeAndClose` is a `Finalize`
that failed. The file is left as it was when it was closed, by `FinalizeAndClose` only after a `Finalize` that succeeded. -/
theorem C66_phases {env : Env} {opts : List WriterOption} {w0 w : Writer B} (h0 : newWriter opts env = (.ok (), w0))
    {wcalls : List WCall} {log : List (WCall × Result)} (hrun : runW env wcalls w0 = (log, w)) :
    (∃ calls plog, Untold log plog ∧ History B env opts calls plog w) ∨
    ∃ before c r after calls plog w1, log = before ++ (c, r) :: after ∧ Untold before plog ∧
      History B env opts calls plog w1 ∧ (r = .ok () ∨ r = .error .io) ∧ ClosedBy env w1 c w ∧ ∀ ev ∈ after, Refused ev := by
  have h : History B env opts [] [] w0 := ⟨w0, h0, rfl⟩
  have := phases wcalls h
  rw [hrun] at this
  rcases this with ⟨m, l, h1, h2⟩ | ⟨before, c, r, after, m, l, w1, h1⟩
  · exact .inl ⟨m, l, h1, h2⟩
  · exact .inr ⟨before, c, r, after, m, l, w1, h1⟩

omit [Bitmap B] in
theorem _root_.VibeCol.Untold.acked {log : List (WCall × Result)} {plog : Log} (h : Untold log plog) : VibeCol.acked plog = ackedW log := by
  induction h with
  | nil => rfl
  | call c r _ ih =>
    show ackedBy c r ++ VibeCol.acked _ = ackedBy c r ++ ackedW _
    rw [ih]
  | failed e _ ih =>
    show [] ++ VibeCol.acked _ = [] ++ ackedW _
    rw [ih]

theorem _root_.VibeCol.Untold.events {log : List (WCall × Result)} {plog : Log} (h : Untold log plog) :
    (∀ ev ∈ plog, (.call ev.1, ev.2) ∈ log ∨ ev.1 = .finalize ∧ (.finalizeAndClose, ev.2) ∈ log) ∧
    (WCall.finalizeAndClose, Except.ok ()) ∉ log := by
  induction h with
  | nil => exact ⟨(fun ev h => by cases h), (fun h => by cases h)⟩
  | call c r _ ih =>
    refine ⟨fun ev hev => ?_, fun hm => ?_⟩
    · rcases List.mem_cons.1 hev with rfl | hev
      · exact .inl (List.mem_cons_self ..)
      · exact (ih.1 ev hev).imp (List.mem_cons_of_mem _) fun x => ⟨x.1, List.mem_cons_of_mem _ x.2⟩
    · rcases List.mem_cons.1 hm with hm | hm
      · cases hm
      · exact ih.2 hm
  | failed e _ ih =>
    refine ⟨fun ev hev => ?_, fun hm => ?_⟩
    · rcases List.mem_cons.1 hev with rfl | hev
      · exact .inr ⟨rfl, List.mem_cons_self ..⟩
      · exact (ih.1 ev hev).imp (List.mem_cons_of_mem _) fun x => ⟨x.1, List.mem_cons_of_mem _ x.2⟩
    · rcases List.mem_cons.1 hm with hm | hm
      · cases hm
      · exact ih.2 hm

/-- What a `FinalizeAndClose` that returned nil proves about a run. -/
theorem closed_nil {env : Env} {opts : List WriterOption} {w0 w : Writer B} (h0 : newWriter opts env = (.ok (), w0))
    {wcalls : List WCall} {before after : List (WCall × Result)}
    (hrun : runW env wcalls w0 = (before ++ (.finalizeAndClose, .ok ()) :: after, w)) :
    ∃ calls plog w1 w2, Untold before plog ∧ History B env opts calls plog w1 ∧ finalize env w1 = (.ok (), w2) ∧
      w.file = w2.file ∧ w.disk = w2.disk ∧ ∀ ev ∈ after, Refused ev := by
  have nok : ∀ l : List (WCall × Result), (∀ ev ∈ l, Refused ev) → (WCall.finalizeAndClose, Except.ok ()) ∉ l := by
    intro l hl hm
    obtain ⟨e, he, _⟩ := hl _ hm
    cases he
  rcases C66_phases h0 hrun with ⟨calls, plog, h1, _⟩ | ⟨b, c, r, a, calls, plog, w1, h1, h2, h3, h4, h5, h6⟩
  · exact absurd (by simp) h1.events.2
  · rcases List.append_eq_append_iff.1 h1 with ⟨x, hb, hx⟩ | ⟨x, hb, hx⟩
    · cases x with
      | nil =>
        simp only [List.nil_append, List.cons.injEq, Prod.mk.injEq] at hx
        obtain ⟨⟨rfl, rfl⟩, rfl⟩ := hx
        rw [List.append_nil] at hb
        subst hb
        cases h5 with
        | finalizeAndClose hf e1 e2 => exact ⟨calls, plog, w1, _, h2, h3, hf, e1, e2, h6⟩
      | cons y ys =>
        exfalso
        simp only [List.cons_append, List.cons.injEq] at hx
        refine h2.events.2 ?_
        rw [hb, ← hx.1]
        simp
    · cases x with
      | nil =>
        simp only [List.nil_append, List.cons.injEq, Prod.mk.injEq] at hx
        obtain ⟨⟨rfl, rfl⟩, rfl⟩ := hx
        rw [List.append_nil] at hb
        subst hb
        cases h5 with
        | finalizeAndClose hf e1 e2 => exact ⟨calls, plog, w1, _, h2, h3, hf, e1, e2, h6⟩
      | cons y ys =>
        exfalso
        simp only [List.cons_append, List.cons.injEq] at hx
        refine nok a h6 ?_
        rw [hx.2]
        simp

/-- **C66.** Once `FinalizeAndClose` has returned nil, whatever is called afterwards, the file reads back as exactly the blocks acknowledged
before, and a power failure can leave nothing else. -/
theorem C66_complete [LawfulBitmap B] {env : Env} {opts : List WriterOption} {w0 w : Writer B} (h0 : newWriter opts env = (.ok (), w0))
    {wcalls : List WCall} {before after : List (WCall × Result)}
    (hrun : runW env wcalls w0 = (before ++ (.finalizeAndClose, .ok ()) :: after, w)) (hno : ∀ ev ∈ before, ev.2 ≠ .error .io)
    (hb : ∀ c ∈ wcalls, ∀ d, c = .call d → d.Bounded) (henc : SymEnc (chosenEncoding opts))
    (hn : (ackedW before).length ≤ maxBlocks) (hsz : w.file.bytes.length < 2 ^ 63) :
    ReadsBack B w.file.bytes (ackedW before) ∧ ackedW after = [] ∧ ∀ f, MayRemain w.disk f ↔ f = w.file.bytes := by
  obtain ⟨calls, plog, w1, w2, h1, h2, h3, h4, h5, h6⟩ := closed_nil h0 hrun
  have hlog : ∀ ev ∈ before ++ (WCall.finalizeAndClose, Except.ok ()) :: after, ev.1 ∈ wcalls := by
    have gen : ∀ (cs : List WCall) (v : Writer B), ∀ ev ∈ (runW env cs v).1, ev.1 ∈ cs := by
      intro cs
      induction cs with
      | nil => intro v ev h; cases h
      | cons c cs ih =>
        intro v ev h
        rcases List.mem_cons.1 h with rfl | h
        · exact List.mem_cons_self ..
        · exact List.mem_cons_of_mem _ (ih _ ev h)
    have := gen wcalls w0
    rw [hrun] at this
    exact this
  rw [← h1.acked] at hn ⊢
  refine ⟨?_, ?_, fun f => ?_⟩
  · rw [h4]
    refine C01_roundtrip (env := env) (opts := opts) ⟨⟨calls, w1, w2, h2, h3, rfl⟩, ?_, ?_, by rw [← h4]; exact hsz⟩ henc hn
    · intro ev hev
      rcases h1.events.1 ev hev with h | ⟨_, h⟩
      · exact hno _ h
      · exact hno _ h
    · intro ev hev
      rcases h1.events.1 ev hev with h | ⟨h, _⟩
      · exact hb _ (hlog _ (List.mem_append.2 (.inl h))) _ rfl
      · rw [h]; trivial
  · unfold ackedW
    rw [List.flatMap_eq_nil_iff]
    intro ev hev
    obtain ⟨e, he, hne⟩ := h6 ev hev
    rw [he]
    obtain ⟨c, r⟩ := ev
    cases c with
    | call d =>
      cases d with
      | write ids vals =>
        cases e <;> first | rfl | exact absurd rfl (hne _)
      | estimate => rfl
      | finalize => rfl
    | close => rfl
    | finalizeAndClose => rfl
  · rw [h4, h5]
    exact C45_finalize h3 f

/-! ### Example -/

/-- A run: a block, an invalid call, `FinalizeAndClose`, and calls afterwards. -/
def exampleRun : List WCall :=
  [.call (.write [3, 1, 2] [30, -10, 20]), .call (.write [1] []), .finalizeAndClose, .call (.write [7] [70]), .call .finalize,
    .finalizeAndClose, .close, .call (.write [] [])]

theorem exampleBefore : ∃ file, Finalized IdSet quietEnv exampleOpts
    [(.write [3, 1, 2] [30, -10, 20], .ok ()), (.write [1] [], .error .lengthMismatch)] file :=
  finalized_of_log exampleOpts [.write [3, 1, 2] [30, -10, 20], .write [1] []] _ (by decide) (by decide +kernel)
    (by unfold NoMismatch; decide) (by decide)

theorem runW_calls (env : Env) (c d : Call) (post : List WCall) {w0 w1 : Writer IdSet} {r s : Result}
    (h : runCalls env [c, d] w0 = ([(c, r), (d, s)], w1)) :
    runW env (.call c :: .call d :: .finalizeAndClose :: post) w0 =
      ((.call c, r) :: (.call d, s) :: (.finalizeAndClose, (VibeCol.finalizeAndClose env w1).1) ::
        (runW env post (VibeCol.finalizeAndClose env w1).2).1, (runW env post (VibeCol.finalizeAndClose env w1).2).2) := by
  have h1 : runCalls env [c, d] w0 = ([(c, (c.run env w0).1), (d, (d.run env (c.run env w0).2).1)], (d.run env (c.run env w0).2).2) := rfl
  rw [h1] at h
  simp only [Prod.mk.injEq, List.cons.injEq, true_and, and_true] at h
  obtain ⟨⟨rfl, rfl⟩, rfl⟩ := h
  rfl

/-- On a closed file. -/
theorem exampleAfter (v : Writer IdSet) (hv : v.fileOpen = false) (he : v.encodingType = encVarIntBoth) :
    (runW quietEnv [.call (.write [7] [70]), .call .finalize, .finalizeAndClose, .close, .call (.write [] [])] v).1 =
      [(.call (.write [7] [70]), .error .io), (.call .finalize, .error .io),
        (.finalizeAndClose, .error .io), (.close, .error .io), (.call (.write [] []), .error .emptyBlock)] := by
  cases v
  dsimp only at hv he
  subst hv he
  with_unfolding_all rfl

/-- Non-vacuity of C66: after `FinalizeAndClose` the calls are refused, and the file has the block written before. -/
example : ∃ w0 w : Writer IdSet, newWriter exampleOpts quietEnv = (.ok (), w0) ∧
    runW quietEnv exampleRun w0 =
      ([(.call (.write [3, 1, 2] [30, -10, 20]), .ok ()), (.call (.write [1] []), .error .lengthMismatch)] ++
        (.finalizeAndClose, .ok ()) :: [(.call (.write [7] [70]), .error .io), (.call .finalize, .error .io),
          (.finalizeAndClose, .error .io), (.close, .error .io), (.call (.write [] []), .error .emptyBlock)], w) ∧
    ReadsBack IdSet w.file.bytes [([3, 1, 2], [30, -10, 20])] := by
  obtain ⟨w0, h0⟩ := newWriter_ok (B := IdSet) quietEnv quietEnv_noFault exampleOpts
  obtain ⟨file, hfin⟩ := exampleBefore
  obtain ⟨calls, w1, w2, hh, h2, rfl⟩ := hfin.made
  have h3 : History IdSet quietEnv exampleOpts (calls ++ [.finalize]) _ w2 := hh.extend (calls2 := []) h2 rfl
  obtain ⟨_, _, _, _, hopen, henc, _⟩ := history_faulty h3 (h3.bounded (by
    intro ev hev
    rcases List.mem_append.1 hev with hev | hev
    · exact hfin.bounded ev hev
    · rw [List.mem_singleton.1 hev]; trivial)) (by
    refine NoIOError.finalize ?_
    intro ev hev
    rcases List.mem_append.1 hev with hev | hev
    · exact hfin.noIOError ev hev
    · rw [List.mem_singleton.1 hev]; simp)
  obtain ⟨v0, hv0, hrun0⟩ := hh.created
  rw [h0] at hv0
  obtain rfl : w0 = v0 := by cases hv0; rfl
  have hcalls : calls = [.write [3, 1, 2] [30, -10, 20], .write [1] []] := hh.calls_eq
  subst hcalls
  have hclose : fclose quietEnv w2 = (.ok (), { w2 with opNo := w2.opNo + 1, fileOpen := false }) := by
    unfold fclose
    dsimp only
    rw [if_neg (by rw [hopen]; decide)]
    rfl
  have h4 : finalizeAndClose quietEnv w1 = (.ok (), { w2 with opNo := w2.opNo + 1, fileOpen := false }) := by
    unfold finalizeAndClose
    rw [WM.bind_def, h2]
    exact hclose
  generalize hv : ({ w2 with opNo := w2.opNo + 1, fileOpen := false } : Writer IdSet) = v at h4
  have hvo : v.fileOpen = false := by rw [← hv]
  have hvf : v.file = w2.file := by rw [← hv]
  have hve : v.encodingType = encVarIntBoth := by rw [← hv]; exact henc
  have h5 := exampleAfter v hvo hve
  have h6 := (C66_refused quietEnv [.call (.write [7] [70]), .call .finalize, .finalizeAndClose, .close, .call (.write [] [])] v hvo).2.1
  generalize hpost : [WCall.call (.write [7] [70]), .call .finalize, .finalizeAndClose, .close, .call (.write [] [])] = post at h5 h6
  rcases h7 : runW quietEnv post v with ⟨plog, w⟩
  rw [h7] at h5 h6
  dsimp only at h5 h6
  have hrun : runW quietEnv exampleRun w0 =
      ([(.call (.write [3, 1, 2] [30, -10, 20]), .ok ()), (.call (.write [1] []), .error .lengthMismatch)] ++
        (.finalizeAndClose, .ok ()) :: [(.call (.write [7] [70]), .error .io), (.call .finalize, .error .io),
          (.finalizeAndClose, .error .io), (.close, .error .io), (.call (.write [] []), .error .emptyBlock)], w) := by
    unfold exampleRun
    rw [hpost, runW_calls quietEnv _ _ _ hrun0, h4]
    dsimp only
    rw [h7, h5]
    rfl
  have hsz : w.file.bytes.length < 2 ^ 63 := by rw [h6, hvf]; exact hfin.size
  refine ⟨w0, w, h0, hrun, ?_⟩
  refine (C66_complete h0 (before := [(.call (.write [3, 1, 2] [30, -10, 20]), .ok ()), (.call (.write [1] []), .error .lengthMismatch)])
    hrun (by simp) ?_ (.inr (.inr (.inr rfl))) (by simp [ackedW, ackedBy, maxBlocks]) hsz).1
  intro c hc d hd
  subst hd
  simp only [exampleRun, List.mem_cons, List.not_mem_nil, or_false, WCall.call.injEq, reduceCtorEq, false_or] at hc
  rcases hc with rfl | rfl | rfl | rfl | rfl <;> simp [Call.Bounded]

end VibeCol.Closing
