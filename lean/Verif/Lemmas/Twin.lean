/-
The writer never reads its file: two writers that differ only in what is in the file (and on the device) behave alike.
-/
import Verif.Lemmas.Track
import Verif.Lemmas.Power
namespace VibeCol
set_option linter.unusedSectionVars false
variable {B α β : Type}

/-- The writer with other bytes in its file and on the device. -/
def Writer.put (w : Writer B) (g : Bytes) (d : Disk) : Writer B := { w with file := { bytes := g, pos := w.file.pos }, disk := d }

/-- `s` differs from `w` at most in what the bytes in the file are, and in what is on the device. -/
def Twin (w s : Writer B) : Prop := ∃ g d, s = w.put g d ∧ g.length = w.file.bytes.length

theorem Twin.refl (w : Writer B) : Twin w w := ⟨w.file.bytes, w.disk, rfl, rfl⟩

theorem Twin.put {w s : Writer B} (h : Twin w s) (f : Bytes) (d : Disk) (hf : f.length = w.file.bytes.length) : Twin (w.put f d) s := by
  obtain ⟨g, e, rfl, hl⟩ := h
  exact ⟨g, e, rfl, hl.trans hf.symm⟩

/-- The program does not look at the bytes in the file. -/
def Blind (m : WM B α) : Prop := ∀ env w s, Twin w s → (m env s).1 = (m env w).1 ∧ Twin (m env w).2 (m env s).2

namespace Blind

theorem pure (a : α) : Blind (Pure.pure a : WM B α) := fun _ _ _ h => ⟨rfl, h⟩
theorem throw (e : Err) : Blind (WM.throw e : WM B α) := fun _ _ _ h => ⟨rfl, h⟩
theorem lift (r : Except Err α) : Blind (WM.lift r : WM B α) := fun _ _ _ h => by cases r <;> exact ⟨rfl, h⟩
theorem now [Bitmap B] : Blind (VibeCol.now : WM B _) := fun _ _ _ h => by
  refine ⟨?_, h⟩
  obtain ⟨g, d, rfl, _⟩ := h
  rfl

theorem modify (f : Writer B → Writer B) (h : ∀ w g d, f (w.put g d) = (f w).put g d) (hf : ∀ w, (f w).file = w.file) :
    Blind (WM.modify f) := by
  rintro env w _ ⟨g, d, rfl, hl⟩
  exact ⟨rfl, g, d, h w g d, by show g.length = (f w).file.bytes.length; rw [hf]; exact hl⟩

theorem bind {m : WM B α} {f : α → WM B β} (hm : Blind m) (hf : ∀ a, Blind (f a)) : Blind (m >>= f) := by
  intro env w s h
  rw [WM.bind_def, WM.bind_def]
  obtain ⟨h1, h2⟩ := hm env w s h
  generalize m env w = res at h1 h2 ⊢
  generalize m env s = res' at h1 h2 ⊢
  obtain ⟨r, w'⟩ := res
  obtain ⟨r', s'⟩ := res'
  dsimp only at h1 h2
  subst h1
  cases r' with
  | ok a => exact hf a env w' s' h2
  | error e => exact ⟨rfl, h2⟩

/-- A program that reads the fields of the writer, but not the file. -/
theorem get {f : Writer B → WM B β} (hf : ∀ w, Blind (f w)) (hp : ∀ w g d, f (w.put g d) = f w) : Blind (WM.get >>= f) := by
  rintro env w _ ⟨g, d, rfl, hl⟩
  show (f (w.put g d) env (w.put g d)).1 = (f w env w).1 ∧ Twin (f w env w).2 (f (w.put g d) env (w.put g d)).2
  rw [hp]
  exact hf w env w _ ⟨g, d, rfl, hl⟩

theorem ite {c : Prop} [Decidable c] {a b : WM B α} (ha : Blind a) (hb : Blind b) : Blind (if c then a else b) := by
  split <;> assumption

theorem fileOp (f : File → Except Err (α × File))
    (h : ∀ F g, g.length = F.bytes.length → (∃ e, f F = .error e ∧ f { F with bytes := g } = .error e) ∨
      ∃ a p, f F = .ok (a, { F with pos := p }) ∧ f { F with bytes := g } = .ok (a, { bytes := g, pos := p })) :
    Blind (WM.fileOp f : WM B α) := by
  rintro env w _ ⟨g, d, rfl, hl⟩
  unfold WM.fileOp
  dsimp only
  have e1 : (w.put g d).fileOpen = w.fileOpen := rfl
  have e2 : (w.put g d).opNo = w.opNo := rfl
  have e3 : (w.put g d).file = { w.file with bytes := g } := rfl
  rw [e1, e2, e3]
  by_cases ho : w.fileOpen = false
  · rw [if_pos ho, if_pos ho]
    exact ⟨rfl, g, d, rfl, hl⟩
  · rw [if_neg ho, if_neg ho]
    cases env.fault w.opNo with
    | some k => exact ⟨rfl, g, d, rfl, hl⟩
    | none =>
      dsimp only
      rcases h w.file g hl with ⟨e, h1, h2⟩ | ⟨a, p, h1, h2⟩
      · rw [h1, h2]
        exact ⟨rfl, g, d, rfl, hl⟩
      · rw [h1, h2]
        exact ⟨rfl, g, d, rfl, hl⟩

theorem seekCur : Blind (VibeCol.seekCur : WM B _) := fileOp _ fun _ _ _ => .inr ⟨_, _, rfl, rfl⟩
theorem seekStart : Blind (VibeCol.seekStart : WM B _) := fileOp _ fun _ _ _ => .inr ⟨_, _, rfl, rfl⟩
theorem seekEnd : Blind (VibeCol.seekEnd : WM B _) := fileOp _ fun F g h => .inr ⟨_, _, rfl, by rw [← h]⟩
theorem seekRel (o : Int) : Blind (VibeCol.seekRel o : WM B _) := fileOp _ fun F g h => by
  dsimp only
  by_cases hc : (F.pos : Int) + o < 0
  · rw [if_pos hc, if_pos hc]; exact .inl ⟨_, rfl, rfl⟩
  · rw [if_neg hc, if_neg hc]; exact .inr ⟨_, _, rfl, rfl⟩

theorem fsync : Blind (VibeCol.fsync : WM B _) := by
  rintro env w _ ⟨g, d, rfl, hl⟩
  unfold VibeCol.fsync
  dsimp only
  have e1 : (w.put g d).fileOpen = w.fileOpen := rfl
  have e2 : (w.put g d).opNo = w.opNo := rfl
  rw [e1, e2]
  by_cases ho : w.fileOpen = false
  · rw [if_pos ho, if_pos ho]
    exact ⟨rfl, g, d, rfl, hl⟩
  · rw [if_neg ho, if_neg ho]
    cases env.fault w.opNo with
    | some k => exact ⟨rfl, g, d, rfl, hl⟩
    | none => exact ⟨rfl, g, _, rfl, hl⟩

theorem writeAt_length_eq (b g d : Bytes) (p : Nat) (h : g.length = b.length) : (writeAt g p d).length = (writeAt b p d).length := by
  cases d with
  | nil => exact h
  | cons x xs => simp [writeAt, h]

theorem fwrite (d : Bytes) : Blind (VibeCol.fwrite d : WM B _) := by
  rintro env w _ ⟨g, k, rfl, hl⟩
  unfold VibeCol.fwrite
  dsimp only
  have e1 : (w.put g k).fileOpen = w.fileOpen := rfl
  have e2 : (w.put g k).opNo = w.opNo := rfl
  rw [e1, e2]
  by_cases ho : w.fileOpen = false
  · rw [if_pos ho, if_pos ho]
    exact ⟨rfl, g, k, rfl, hl⟩
  · rw [if_neg ho, if_neg ho]
    cases env.fault w.opNo with
    | some j => exact ⟨rfl, _, _, rfl, writeAt_length_eq _ _ _ _ hl⟩
    | none => exact ⟨rfl, _, _, rfl, writeAt_length_eq _ _ _ _ hl⟩

theorem fwriteAll (ds : List Bytes) : Blind (VibeCol.fwriteAll ds : WM B _) := by
  induction ds with
  | nil => exact pure _
  | cons d ds ih =>
    unfold VibeCol.fwriteAll
    exact bind (fwrite _) fun _ => bind ih fun _ => pure _

theorem writeBlockHeader (a b c d e : UInt64) (n : UInt32) : Blind (VibeCol.writeBlockHeader a b c d e n : WM B _) := by
  unfold VibeCol.writeBlockHeader
  exact bind seekCur fun _ => get (fun _ => bind (fwriteAll _) fun _ => bind seekCur fun _ => ite (throw _) (pure _)) fun _ _ _ => rfl

theorem estimateBlockSize (ids : List UInt64) (vals : List Int64) : Blind (VibeCol.estimateBlockSize ids vals : WM B _) := by
  unfold VibeCol.estimateBlockSize
  exact ite (throw _) (ite (throw _) (get (fun _ => bind (lift _) fun _ => bind (lift _) fun _ => bind seekCur fun _ => pure _)
    fun _ _ _ => rfl))

theorem findOptimal (ids : List UInt64) (vals : List Int64) (fuel i o : Nat) : Blind (VibeCol.findOptimal ids vals fuel i o : WM B _) := by
  induction fuel generalizing i o with
  | zero => exact pure _
  | succ fuel ih =>
    intro env w s hs
    obtain ⟨h1, h2⟩ := estimateBlockSize (B := B) (ids.take i) (vals.take i) env w s hs
    have ht : s.blockSizeTarget = w.blockSizeTarget := by obtain ⟨g, d, rfl, _⟩ := hs; rfl
    simp only [VibeCol.findOptimal]
    generalize VibeCol.estimateBlockSize (ids.take i) (vals.take i) env w = res at h1 h2 ⊢
    generalize VibeCol.estimateBlockSize (ids.take i) (vals.take i) env s = res' at h1 h2 ⊢
    obtain ⟨r, w'⟩ := res
    obtain ⟨r', s'⟩ := res'
    dsimp only at h1 h2
    subst h1
    cases r' with
    | error e => exact ⟨rfl, h2⟩
    | ok size =>
      dsimp only
      rw [ht]
      by_cases hc : size ≤ w.blockSizeTarget.toNat
      · rw [if_pos hc, if_pos hc]; exact ih _ _ env w' s' h2
      · rw [if_neg hc, if_neg hc]; exact ⟨rfl, h2⟩

theorem writeBlockFooters (es : List FooterEntry) : Blind (VibeCol.writeBlockFooters es : WM B _) := by
  induction es with
  | nil => exact pure _
  | cons e es ih =>
    unfold VibeCol.writeBlockFooters VibeCol.writeBlockFooter
    exact bind (bind seekCur fun _ => bind (fwriteAll _) fun _ => bind seekCur fun _ => ite (throw _) (pure _))
      fun _ => ih

variable [Bitmap B]

theorem writeBlockInternal (ids : List UInt64) (vals : List Int64) : Blind (VibeCol.writeBlockInternal ids vals : WM B _) := by
  unfold VibeCol.writeBlockInternal
  refine bind (modify _ (fun _ _ _ => rfl) fun _ => rfl) fun _ => get (fun w => ?_) fun _ _ _ => rfl
  refine bind (lift _) fun x => bind (lift _) fun y => bind seekCur fun bs => bind (modify _ (fun _ _ _ => rfl) fun _ => rfl) fun _ => ?_
  refine bind (writeBlockHeader _ _ _ _ _ _) fun _ => bind (fwrite _) fun _ => bind (fwrite _) fun _ => bind seekCur fun _ =>
    bind (fwrite _) fun _ => bind (seekRel _) fun _ => ?_
  refine ite (throw _) (ite (throw _) (ite (throw _) ?_))
  refine bind (fwrite _) fun _ => bind seekCur fun _ => bind (fwriteAll _) fun _ => ite (throw _) ?_
  refine bind (fwriteAll _) fun _ => ite (throw _) (bind seekCur fun _ => ?_)
  dsimp only
  split
  · exact bind (fwrite _) fun _ => ite (throw _) (bind (modify _ (fun _ _ _ => rfl) fun _ => rfl) fun _ => fsync)
  · exact ite (throw _) (bind (modify _ (fun _ _ _ => rfl) fun _ => rfl) fun _ => fsync)

theorem writeBlock (ids : List UInt64) (vals : List Int64) : Blind (VibeCol.writeBlock ids vals : WM B _) := by
  unfold VibeCol.writeBlock
  refine ite (throw _) (ite (throw _) (bind (estimateBlockSize _ _) fun _ => get (fun w => ?_) fun _ _ _ => rfl))
  exact ite (bind (findOptimal _ _ _ _ _) fun _ => bind (writeBlockInternal _ _) fun _ => throw _) (writeBlockInternal _ _)

theorem finalize : Blind (VibeCol.finalize : WM B _) := by
  unfold VibeCol.finalize VibeCol.writeGlobalIDBitmap
  refine bind (bind seekCur fun _ => get (fun _ => bind (fwrite _) fun _ => bind (fwrite _) fun _ =>
    bind seekCur fun _ => pure _) fun _ _ _ => rfl) fun _ => ?_
  refine bind seekStart fun _ => bind now fun _ => get (fun w => bind (fwriteAll _) fun _ =>
    bind seekEnd fun _ => bind seekCur fun _ => ?_) fun _ _ _ => rfl
  have tail : ∀ fs : Nat, Blind (do
      let footerEnd ← VibeCol.seekCur (B := B)
      let footerSize := footerEnd - fs
      let _ ← VibeCol.fwriteAll [le64 (UInt64.ofNat footerSize), le64 0, le64 magicNumber]
      let footerMetaEnd ← VibeCol.seekCur
      if footerMetaEnd - footerEnd ≠ 24 then WM.throw .footerSizeMismatch else
      if footerMetaEnd - fs ≠ footerSize + 24 then WM.throw .footerSizeMismatch else
      VibeCol.fsync) := fun fs =>
    bind seekCur fun _ => bind (fwriteAll _) fun _ => bind seekCur fun _ => ite (throw _) (ite (throw _) fsync)
  have mid : Blind (do
      let footerStart ← VibeCol.seekCur (B := B)
      let _ ← VibeCol.fwrite (le32 (UInt32.ofNat w.blockCount))
      if w.blockCount > 0 then
        if w.blockPositions.length ≠ w.blockCount then WM.throw .positionTracking
        else VibeCol.writeBlockFooters w.entries
      let footerEnd ← VibeCol.seekCur
      let footerSize := footerEnd - footerStart
      let _ ← VibeCol.fwriteAll [le64 (UInt64.ofNat footerSize), le64 0, le64 magicNumber]
      let footerMetaEnd ← VibeCol.seekCur
      if footerMetaEnd - footerEnd ≠ 24 then WM.throw .footerSizeMismatch else
      if footerMetaEnd - footerStart ≠ footerSize + 24 then WM.throw .footerSizeMismatch else
      VibeCol.fsync) := by
    refine bind seekCur fun fs => bind (fwrite _) fun _ => ?_
    refine ite (ite (bind (throw _) fun _ => tail _) (bind (writeBlockFooters _) fun _ => tail _)) (tail _)
  exact ite (bind (fwrite _) fun _ => mid) mid

end Blind

/-- Calls on twins have the same results and leave twins. -/
theorem Twin.call [Bitmap B] {w s : Writer B} (h : Twin w s) (env : Env) (c : Call) :
    (c.run env s).1 = (c.run env w).1 ∧ Twin (c.run env w).2 (c.run env s).2 := by
  cases c with
  | write ids vals => exact Blind.writeBlock ids vals env w s h
  | finalize => exact Blind.finalize env w s h
  | estimate ids vals =>
    obtain ⟨h1, h2⟩ := Blind.estimateBlockSize ids vals env w s h
    simp only [Call.run]
    generalize estimateBlockSize ids vals env w = res at h1 h2 ⊢
    generalize estimateBlockSize ids vals env s = res' at h1 h2 ⊢
    obtain ⟨r, w'⟩ := res
    obtain ⟨r', s'⟩ := res'
    dsimp only at h1 h2
    subst h1
    cases r' <;> exact ⟨rfl, h2⟩

end VibeCol
