/-
How the counters of a writer move, under every fault schedule and for every input.
-/
import Verif.Lemmas.Crash
namespace VibeCol
variable {B : Type}

/-- From states with `I` the program ends, normally or with an error, in states with `J`. -/
def Trip {α : Type} (I J : Writer B → Prop) (m : WM B α) : Prop := ∀ env w, I w → J (m env w).2

/-- Number of recorded positions and of blocks. -/
def counters (w : Writer B) : Nat × Nat := (w.blockPositions.length, w.blockCount)

/-- The program does not touch positions and count. -/
def Frame {α : Type} (m : WM B α) : Prop := ∀ env w, counters (m env w).2 = counters w

namespace Frame
variable {α β : Type}

theorem pure (a : α) : Frame (Pure.pure a : WM B α) := fun _ _ => rfl
theorem throw (e : Err) : Frame (WM.throw e : WM B α) := fun _ _ => rfl
theorem get : Frame (WM.get : WM B _) := fun _ _ => rfl
theorem lift (r : Except Err α) : Frame (WM.lift r : WM B α) := fun _ _ => by cases r <;> rfl
theorem now [Bitmap B] : Frame (VibeCol.now : WM B _) := fun _ _ => rfl

theorem modify (f : Writer B → Writer B) (h : ∀ w, counters (f w) = counters w) : Frame (WM.modify f) :=
  fun _ w => h w

theorem seq {m : WM B α} {g : Except Err α → WM B β} (hm : Frame m) (hg : ∀ r, Frame (g r)) :
    Frame (fun env w => g (m env w).1 env (m env w).2) :=
  fun env w => (hg _ env _).trans (hm env w)

theorem bind {m : WM B α} {f : α → WM B β} (hm : Frame m) (hf : ∀ a, Frame (f a)) : Frame (m >>= f) := by
  intro env w
  rw [WM.bind_def]
  have h := hm env w
  generalize m env w = res at h ⊢
  obtain ⟨r, w'⟩ := res
  cases r with
  | ok a => exact (hf a env w').trans h
  | error e => exact h

theorem ite {c : Prop} [Decidable c] {a b : WM B α} (ha : Frame a) (hb : Frame b) : Frame (if c then a else b) := by
  split <;> assumption

theorem fileOp (f : File → Except Err (α × File)) : Frame (WM.fileOp f : WM B α) := by
  intro env w
  unfold WM.fileOp
  dsimp only
  split
  · rfl
  · split
    · rfl
    · split <;> rfl

theorem seekCur : Frame (VibeCol.seekCur : WM B _) := fileOp _
theorem seekRel (o : Int) : Frame (VibeCol.seekRel o : WM B _) := fileOp _
theorem seekStart : Frame (VibeCol.seekStart : WM B _) := fileOp _
theorem seekEnd : Frame (VibeCol.seekEnd : WM B _) := fileOp _
theorem fsync : Frame (VibeCol.fsync : WM B _) := by
  intro env w
  unfold VibeCol.fsync
  dsimp only
  split
  · rfl
  · split <;> rfl

theorem fwrite (d : Bytes) : Frame (VibeCol.fwrite d : WM B _) := by
  intro env w
  unfold VibeCol.fwrite
  dsimp only
  split
  · rfl
  · split <;> rfl

theorem fwriteAll (ds : List Bytes) : Frame (VibeCol.fwriteAll ds : WM B _) := by
  induction ds with
  | nil => exact pure _
  | cons d ds ih =>
    unfold VibeCol.fwriteAll
    exact bind (fwrite _) fun _ => bind ih fun _ => pure _

theorem writeBlockHeader (a b c d e : UInt64) (n : UInt32) :
    Frame (VibeCol.writeBlockHeader a b c d e n : WM B _) := by
  unfold VibeCol.writeBlockHeader
  exact bind seekCur fun _ => bind get fun _ => bind (fwriteAll _) fun _ => bind seekCur fun _ =>
    ite (throw _) (pure _)

theorem estimateBlockSize (ids : List UInt64) (vals : List Int64) :
    Frame (VibeCol.estimateBlockSize ids vals : WM B _) := by
  unfold VibeCol.estimateBlockSize
  exact ite (throw _) (ite (throw _) (bind get fun _ => bind (lift _) fun _ => bind (lift _) fun _ =>
    bind seekCur fun _ => pure _))

theorem findOptimal (ids : List UInt64) (vals : List Int64) (fuel i o : Nat) :
    Frame (VibeCol.findOptimal ids vals fuel i o : WM B _) := by
  induction fuel generalizing i o with
  | zero => exact pure _
  | succ fuel ih =>
    intro env w
    have h := estimateBlockSize (B := B) (ids.take i) (vals.take i) env w
    simp only [VibeCol.findOptimal]
    generalize VibeCol.estimateBlockSize (ids.take i) (vals.take i) env w = res at h ⊢
    obtain ⟨r, w'⟩ := res
    cases r with
    | error e => exact h
    | ok size =>
      dsimp only
      split
      · exact (ih _ _ env w').trans h
      · exact h

theorem writeBlockFooters (es : List FooterEntry) : Frame (VibeCol.writeBlockFooters es : WM B _) := by
  induction es with
  | nil => exact pure _
  | cons e es ih =>
    unfold VibeCol.writeBlockFooters VibeCol.writeBlockFooter
    exact bind (bind seekCur fun _ => bind (fwriteAll _) fun _ => bind seekCur fun _ => ite (throw _) (pure _))
      fun _ => ih

variable [Bitmap B]

theorem finalize : Frame (VibeCol.finalize : WM B _) := by
  unfold VibeCol.finalize VibeCol.writeGlobalIDBitmap
  refine bind (bind seekCur fun _ => bind get fun _ => bind (fwrite _) fun _ => bind (fwrite _) fun _ =>
    bind seekCur fun _ => pure _) fun _ => ?_
  refine bind seekStart fun _ => bind now fun _ => bind get fun w => bind (fwriteAll _) fun _ =>
    bind seekEnd fun _ => bind seekCur fun _ => ?_
  have tail : ∀ fs : Nat, Frame (do
      let footerEnd ← VibeCol.seekCur (B := B)
      let footerSize := footerEnd - fs
      let _ ← VibeCol.fwriteAll [le64 (UInt64.ofNat footerSize), le64 0, le64 magicNumber]
      let footerMetaEnd ← VibeCol.seekCur
      if footerMetaEnd - footerEnd ≠ 24 then WM.throw .footerSizeMismatch else
      if footerMetaEnd - fs ≠ footerSize + 24 then WM.throw .footerSizeMismatch else
      VibeCol.fsync) := fun fs =>
    bind seekCur fun _ => bind (fwriteAll _) fun _ => bind seekCur fun _ => ite (throw _) (ite (throw _) fsync)
  have mid : Frame (do
      let footerStart ← VibeCol.seekCur (B := B)
      let _ ← VibeCol.fwrite (le32 (UInt32.ofNat w.blockCount))
      if w.blockCount > 0 then
        if w.blockPositions.length ≠ w.blockCount then WM.throw .positionTracking
        else VibeCol.writeBlockFooters w.entries
      let footerEnd ← VibeCol.seekCur
      let footerSize := footerEnd - footerStart
      let _ ← VibeCol.fwriteAll [le64 (UInt64.ofNat footerSize), le64 0, le64 magicNumber]
      let footerMetaEnd ← VibeCol.seekCur
      if footerMetaEnd - footerEnd ≠ 24 then WM.throw .footerSizeMismatch else
      if footerMetaEnd - footerStart ≠ footerSize + 24 then WM.throw .footerSizeMismatch else
      VibeCol.fsync) := by
    refine bind seekCur fun fs => bind (fwrite _) fun _ => ?_
    refine ite (ite (bind (throw _) fun _ => tail _) (bind (writeBlockFooters _) fun _ => tail _)) (tail _)
  exact ite (bind (fwrite _) fun _ => mid) mid

end Frame

namespace Trip
variable {α β : Type}

theorem bind {I J : Writer B → Prop} {m : WM B α} {f : α → WM B β} (hm : Frame m)
    (hI : ∀ w w', counters w' = counters w → I w → I w') (hIJ : ∀ w, I w → J w) (hf : ∀ a, Trip I J (f a)) :
    Trip I J (m >>= f) := by
  intro env w hw
  rw [WM.bind_def]
  have h := hm env w
  generalize m env w = res at h ⊢
  obtain ⟨r, w'⟩ := res
  cases r with
  | ok a => exact hf a env w' (hI _ _ h hw)
  | error e => exact hIJ _ (hI _ _ h hw)

theorem ite {I J : Writer B → Prop} {c : Prop} [Decidable c] {a b : WM B α} (ha : Trip I J a) (hb : Trip I J b) :
    Trip I J (if c then a else b) := by
  split <;> assumption

theorem of_frame {I J : Writer B → Prop} {m : WM B α} (hm : Frame m)
    (hIJ : ∀ w w', counters w' = counters w → I w → J w') : Trip I J m :=
  fun env w h => hIJ _ _ (hm env w) h

end Trip

/-- `counters` after a `WriteBlock`, relative to before: nothing happened, a position without a
block was recorded, or a position and a block. -/
def Moved (c c' : Nat × Nat) : Prop :=
  c' = c ∨ c' = (c.1 + 1, c.2) ∨ c' = (c.1 + 1, c.2 + 1)

section
variable [Bitmap B]

theorem writeBlockInternal_moved (ids : List UInt64) (vals : List Int64) (c : Nat × Nat) :
    Trip (fun w => counters w = c) (fun w : Writer B => Moved c (counters w)) (writeBlockInternal ids vals) := by
  have hI : ∀ (d : Nat × Nat) (w w' : Writer B), counters w' = counters w → counters w = d → counters w' = d :=
    fun d w w' h h' => h.trans h'
  have hJ0 : ∀ w : Writer B, counters w = c → Moved c (counters w) := fun w h => .inl h
  have hJ1 : ∀ w : Writer B, counters w = (c.1 + 1, c.2) → Moved c (counters w) := fun w h => .inr (.inl h)
  have thr : ∀ {α : Type} (e : Err), Trip (fun w : Writer B => counters w = (c.1 + 1, c.2))
      (fun w => Moved c (counters w)) (WM.throw e : WM B α) :=
    fun e => .of_frame (Frame.throw e) fun w w' h h' => hJ1 _ (h.trans h')
  unfold writeBlockInternal
  refine .bind (Frame.modify _ (fun _ => rfl)) (hI c) hJ0 fun _ => ?_
  refine .bind Frame.get (hI c) hJ0 fun _ => .bind (Frame.lift _) (hI c) hJ0 fun _ => ?_
  refine .bind (Frame.lift _) (hI c) hJ0 fun _ => .bind Frame.seekCur (hI c) hJ0 fun bs => ?_
  suffices h : ∀ f : Unit → WM B Unit, (Trip (fun w => counters w = (c.1 + 1, c.2)) (fun w => Moved c (counters w)) (f ())) →
      Trip (fun w => counters w = c) (fun w => Moved c (counters w)) ((WM.modify fun w : Writer B =>
        { w with blockPositions := w.blockPositions ++ [UInt64.ofNat bs] }) >>= f) by
    refine h _ ?_
    have hI := hI (c.1 + 1, c.2)
    refine .bind (Frame.writeBlockHeader _ _ _ _ _ _) hI hJ1 fun _ => .bind (Frame.fwrite _) hI hJ1 fun _ =>
      .bind (Frame.fwrite _) hI hJ1 fun _ => .bind Frame.seekCur hI hJ1 fun _ => .bind (Frame.fwrite _) hI hJ1 fun _ =>
      .bind (Frame.seekRel _) hI hJ1 fun _ => ?_
    refine .ite (thr _) (.ite (thr _) (.ite (thr _) ?_))
    refine .bind (Frame.fwrite _) hI hJ1 fun _ => .bind Frame.seekCur hI hJ1 fun _ =>
      .bind (Frame.fwriteAll _) hI hJ1 fun _ => .ite (thr _) ?_
    refine .bind (Frame.fwriteAll _) hI hJ1 fun _ => .ite (thr _) ?_
    refine .bind Frame.seekCur hI hJ1 fun _ => ?_
    have last : ∀ (f : Writer B → Writer B), (∀ w, counters (f w) = ((counters w).1, (counters w).2 + 1)) →
        Trip (fun w => counters w = (c.1 + 1, c.2)) (fun w : Writer B => Moved c (counters w))
          (WM.modify f >>= fun _ => fsync) := by
      intro f hf env w hw
      have h1 := Frame.fsync (B := B) env (f w)
      have h2 : ((WM.modify f >>= fun _ => fsync : WM B Unit) env w).2 = (fsync env (f w)).2 := rfl
      show Moved c (counters ((WM.modify f >>= fun _ => fsync : WM B Unit) env w).2)
      rw [h2, h1, hf, hw]
      exact .inr (.inr rfl)
    refine .ite (.bind (Frame.fwrite _) hI hJ1 fun _ => ?_) ?_
    · exact .ite (thr _) (last _ fun _ => rfl)
    · exact .ite (thr _) (last _ fun _ => rfl)
  intro f hf env w hw
  refine hf env _ ?_
  show counters ({ w with blockPositions := w.blockPositions ++ [UInt64.ofNat bs] } : Writer B) = _
  rw [← hw]
  simp [counters]

theorem writeBlock_moved (ids : List UInt64) (vals : List Int64) (env : Env) (w : Writer B) :
    Moved (counters w) (counters (writeBlock ids vals env w).2) := by
  have key : Trip (fun w' => counters w' = counters w) (fun w' : Writer B => Moved (counters w) (counters w'))
      (writeBlock ids vals) := by
    have hI : ∀ (w1 w' : Writer B), counters w' = counters w1 → counters w1 = counters w → counters w' = counters w :=
      fun _ _ h h' => h.trans h'
    have hJ : ∀ w' : Writer B, counters w' = counters w → Moved (counters w) (counters w') := fun _ h => .inl h
    have fr : ∀ {α : Type} {m : WM B α}, Frame m → Trip (fun w' => counters w' = counters w)
        (fun w' : Writer B => Moved (counters w) (counters w')) m :=
      fun hm => .of_frame hm fun _ _ h h' => hJ _ (h.trans h')
    unfold writeBlock
    refine .ite (fr (Frame.throw _)) (.ite (fr (Frame.throw _)) ?_)
    refine .bind (Frame.estimateBlockSize _ _) hI hJ fun _ => .bind Frame.get hI hJ fun _ => .ite ?_ ?_
    · refine .bind (Frame.findOptimal _ _ _ _ _) hI hJ fun o => ?_
      intro env w' hw'
      have h := writeBlockInternal_moved (ids.take o) (vals.take o) (counters w) env w' hw'
      rw [WM.bind_def]
      generalize writeBlockInternal (ids.take o) (vals.take o) env w' = res at h ⊢
      obtain ⟨r, w''⟩ := res
      cases r <;> exact h
    · exact writeBlockInternal_moved ids vals (counters w)
  exact key env w rfl

theorem call_moved (c : Call) (env : Env) (w : Writer B) : Moved (counters w) (counters (c.run env w).2) := by
  cases c with
  | write ids vals => exact writeBlock_moved ids vals env w
  | finalize => exact .inl (Frame.finalize env w)
  | estimate ids vals =>
    have h := Frame.estimateBlockSize (B := B) ids vals env w
    left
    simp only [Call.run]
    generalize estimateBlockSize ids vals env w = res at h ⊢
    obtain ⟨r, w'⟩ := res
    cases r <;> exact h

/-- Over any calls, positions grow at least as much as blocks, and blocks never decrease. -/
theorem runCalls_moved (cs : List Call) (env : Env) (w : Writer B) :
    (counters w).2 ≤ (counters (runCalls env cs w).2).2 ∧
    (counters (runCalls env cs w).2).2 + (counters w).1 ≤ (counters w).2 + (counters (runCalls env cs w).2).1 := by
  induction cs generalizing w with
  | nil => exact ⟨Nat.le_refl _, by show _ + _ ≤ _ + _; simp [runCalls]⟩
  | cons c cs ih =>
    have h1 := call_moved c env w
    have h2 := ih (c.run env w).2
    have he : (runCalls env (c :: cs) w).2 = (runCalls env cs (c.run env w).2).2 := rfl
    rw [he]
    unfold Moved at h1
    rcases h1 with h1 | h1 | h1 <;> rw [h1] at h2 <;> omega

/-! ### When `Finalize` complains about positions -/

/-- The program keeps the counters and never reports mismatching positions. -/
def Plain {α : Type} (m : WM B α) : Prop :=
  ∀ env w, counters (m env w).2 = counters w ∧ (m env w).1 ≠ .error .positionTracking

namespace Plain
variable {α β : Type}
omit [Bitmap B]

theorem pure (a : α) : Plain (Pure.pure a : WM B α) := fun _ _ => ⟨rfl, fun h => by cases h⟩
theorem throw (e : Err) (he : e ≠ .positionTracking) : Plain (WM.throw e : WM B α) :=
  fun _ _ => ⟨rfl, fun h => he (by cases h; rfl)⟩
theorem get : Plain (WM.get : WM B _) := fun _ _ => ⟨rfl, fun h => by cases h⟩
theorem now [Bitmap B] : Plain (VibeCol.now : WM B _) := fun _ _ => ⟨rfl, fun h => by cases h⟩

theorem bind {m : WM B α} {f : α → WM B β} (hm : Plain m) (hf : ∀ a, Plain (f a)) : Plain (m >>= f) := by
  intro env w
  rw [WM.bind_def]
  have h := hm env w
  generalize m env w = res at h ⊢
  obtain ⟨r, w'⟩ := res
  cases r with
  | ok a => exact ⟨(hf a env w').1.trans h.1, (hf a env w').2⟩
  | error e => exact ⟨h.1, fun hx => h.2 (by cases hx; rfl)⟩

theorem ite {c : Prop} [Decidable c] {a b : WM B α} (ha : Plain a) (hb : Plain b) : Plain (if c then a else b) := by
  split <;> assumption

theorem fileOp (f : File → Except Err (α × File)) (hf : ∀ F, f F ≠ .error .positionTracking) :
    Plain (WM.fileOp f : WM B α) := by
  intro env w
  refine ⟨Frame.fileOp f env w, ?_⟩
  unfold WM.fileOp
  dsimp only
  split
  · intro h; cases h
  · split
    · intro h; cases h
    · split
      · intro h; cases h
      · rename_i e he
        intro h
        refine hf w.file ?_
        rw [he]
        cases h; rfl

theorem seekCur : Plain (VibeCol.seekCur : WM B _) := fileOp _ (fun _ h => by cases h)
theorem seekStart : Plain (VibeCol.seekStart : WM B _) := fileOp _ (fun _ h => by cases h)
theorem seekEnd : Plain (VibeCol.seekEnd : WM B _) := fileOp _ (fun _ h => by cases h)
theorem fsync : Plain (VibeCol.fsync : WM B _) := by
  intro env w
  refine ⟨Frame.fsync env w, ?_⟩
  unfold VibeCol.fsync
  dsimp only
  split
  · intro h; cases h
  · split <;> (intro h; cases h)

theorem fwrite (d : Bytes) : Plain (VibeCol.fwrite d : WM B _) := by
  intro env w
  refine ⟨Frame.fwrite d env w, ?_⟩
  unfold VibeCol.fwrite
  dsimp only
  split
  · intro h; cases h
  · split <;> (intro h; cases h)

theorem fwriteAll (ds : List Bytes) : Plain (VibeCol.fwriteAll ds : WM B _) := by
  induction ds with
  | nil => exact pure _
  | cons d ds ih =>
    unfold VibeCol.fwriteAll
    exact bind (fwrite _) fun _ => bind ih fun _ => pure _

theorem writeBlockFooters (es : List FooterEntry) : Plain (VibeCol.writeBlockFooters es : WM B _) := by
  induction es with
  | nil => exact pure _
  | cons e es ih =>
    unfold VibeCol.writeBlockFooters VibeCol.writeBlockFooter
    exact bind (bind seekCur fun _ => bind (fwriteAll _) fun _ => bind seekCur fun _ =>
      ite (throw _ (by simp)) (pure _)) fun _ => ih

end Plain

/-- Positions and blocks match, as far as `Finalize` checks. -/
def Matching (c : Nat × Nat) : Prop := c.2 = 0 ∨ c.1 = c.2

/-- The program succeeds only if the counters match, and complains about them only if not. -/
def Checks {α : Type} (c : Nat × Nat) (m : WM B α) : Prop :=
  ∀ env w, counters w = c → ((∃ a, (m env w).1 = .ok a) → Matching c) ∧
    ((m env w).1 = .error .positionTracking → ¬ Matching c)

namespace Checks
variable {α β : Type} {c : Nat × Nat}
omit [Bitmap B]

theorem bind {m : WM B α} {f : α → WM B β} (hm : Plain m) (hf : ∀ a, Checks c (f a)) : Checks c (m >>= f) := by
  intro env w hw
  rw [WM.bind_def]
  have h := hm env w
  generalize m env w = res at h ⊢
  obtain ⟨r, w'⟩ := res
  cases r with
  | ok a => exact hf a env w' (h.1.trans hw)
  | error e => exact ⟨fun ⟨a, ha⟩ => (by cases ha), fun hx => absurd (by cases hx; rfl) h.2⟩

theorem get {f : Writer B → WM B β} (hf : ∀ w, counters w = c → Checks c (f w)) : Checks c (WM.get >>= f) :=
  fun env w hw => hf w hw env w hw

theorem ite {p : Prop} [Decidable p] {a b : WM B α} (ha : p → Checks c a) (hb : ¬ p → Checks c b) :
    Checks c (if p then a else b) := by
  split
  · exact ha ‹_›
  · exact hb ‹_›

theorem plain {m : WM B α} (hm : Plain m) (hc : Matching c) : Checks c m :=
  fun env w _ => ⟨fun _ => hc, fun h => absurd h (hm env w).2⟩

theorem throw {f : α → WM B β} (hc : ¬ Matching c) : Checks c ((WM.throw .positionTracking : WM B α) >>= f) :=
  fun _ _ _ => ⟨fun ⟨a, ha⟩ => (by cases ha), fun _ => hc⟩

end Checks

theorem finalize_checks (c : Nat × Nat) : Checks c (VibeCol.finalize : WM B _) := by
  unfold VibeCol.finalize VibeCol.writeGlobalIDBitmap
  refine .bind (.bind .seekCur fun _ => .bind .get fun _ => .bind (.fwrite _) fun _ => .bind (.fwrite _) fun _ =>
    .bind .seekCur fun _ => .pure _) fun _ => ?_
  refine .bind .seekStart fun _ => .bind .now fun _ => .get fun w hw => .bind (.fwriteAll _) fun _ =>
    .bind .seekEnd fun _ => .bind .seekCur fun _ => ?_
  have tail : ∀ fs : Nat, Plain (do
      let footerEnd ← VibeCol.seekCur (B := B)
      let footerSize := footerEnd - fs
      let _ ← VibeCol.fwriteAll [le64 (UInt64.ofNat footerSize), le64 0, le64 magicNumber]
      let footerMetaEnd ← VibeCol.seekCur
      if footerMetaEnd - footerEnd ≠ 24 then WM.throw .footerSizeMismatch else
      if footerMetaEnd - fs ≠ footerSize + 24 then WM.throw .footerSizeMismatch else
      VibeCol.fsync) := fun fs =>
    .bind .seekCur fun _ => .bind (.fwriteAll _) fun _ => .bind .seekCur fun _ =>
      .ite (.throw _ (by simp)) (.ite (.throw _ (by simp)) .fsync)
  have mid : Checks c (do
      let footerStart ← VibeCol.seekCur (B := B)
      let _ ← VibeCol.fwrite (le32 (UInt32.ofNat w.blockCount))
      if w.blockCount > 0 then
        if w.blockPositions.length ≠ w.blockCount then WM.throw .positionTracking
        else VibeCol.writeBlockFooters w.entries
      let footerEnd ← VibeCol.seekCur
      let footerSize := footerEnd - footerStart
      let _ ← VibeCol.fwriteAll [le64 (UInt64.ofNat footerSize), le64 0, le64 magicNumber]
      let footerMetaEnd ← VibeCol.seekCur
      if footerMetaEnd - footerEnd ≠ 24 then WM.throw .footerSizeMismatch else
      if footerMetaEnd - footerStart ≠ footerSize + 24 then WM.throw .footerSizeMismatch else
      VibeCol.fsync) := by
    refine .bind .seekCur fun fs => .bind (.fwrite _) fun _ => ?_
    subst hw
    refine .ite (fun h1 => .ite (fun h2 => .throw ?_) (fun h2 => ?_)) (fun h1 => ?_)
    · simp only [Matching, counters]; omega
    · refine .plain (.bind (.writeBlockFooters _) fun _ => tail _) ?_
      simp only [Matching, counters]; omega
    · refine .plain (tail _) ?_
      simp only [Matching, counters]; omega
  exact .ite (fun _ => .bind (.fwrite _) fun _ => mid) (fun _ => mid)

/-- `Finalize` returns nil only if there are no blocks or as many positions as blocks. -/
theorem finalize_ok_counters (env : Env) (w : Writer B) (h : (finalize env w).1 = .ok ()) :
    w.blockCount = 0 ∨ w.blockPositions.length = w.blockCount :=
  (finalize_checks (counters w) env w rfl).1 ⟨(), h⟩

theorem finalize_tracking_counters (env : Env) (w w1 : Writer B) (h : finalize env w = (.error .positionTracking, w1)) :
    0 < w.blockCount ∧ w.blockPositions.length ≠ w.blockCount := by
  have := (finalize_checks (counters w) env w rfl).2 (by rw [h])
  simp only [Matching, counters] at this
  omega

end

end VibeCol
