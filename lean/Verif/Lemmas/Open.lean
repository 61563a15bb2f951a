/-
Which programs leave the writer's file open.
-/
import Verif.Lemmas.Track
import Verif.Model.SimpleWriter
namespace VibeCol
variable {B : Type}

/-- The program neither closes the file nor opens it. -/
def Steady {α : Type} (m : WM B α) : Prop := ∀ env w, (m env w).2.fileOpen = w.fileOpen

namespace Steady
variable {α β : Type}

theorem pure (a : α) : Steady (Pure.pure a : WM B α) := fun _ _ => rfl
theorem throw (e : Err) : Steady (WM.throw e : WM B α) := fun _ _ => rfl
theorem get : Steady (WM.get : WM B _) := fun _ _ => rfl
theorem lift (r : Except Err α) : Steady (WM.lift r : WM B α) := fun _ _ => by cases r <;> rfl
theorem now [Bitmap B] : Steady (VibeCol.now : WM B _) := fun _ _ => rfl

theorem modify (f : Writer B → Writer B) (h : ∀ w, (f w).fileOpen = w.fileOpen) : Steady (WM.modify f) :=
  fun _ w => h w

theorem seq {m : WM B α} {g : Except Err α → WM B β} (hm : Steady m) (hg : ∀ r, Steady (g r)) :
    Steady (fun env w => g (m env w).1 env (m env w).2) :=
  fun env w => (hg _ env _).trans (hm env w)

theorem bind {m : WM B α} {f : α → WM B β} (hm : Steady m) (hf : ∀ a, Steady (f a)) : Steady (m >>= f) := by
  intro env w
  rw [WM.bind_def]
  have h := hm env w
  generalize m env w = res at h ⊢
  obtain ⟨r, w'⟩ := res
  cases r with
  | ok a => exact (hf a env w').trans h
  | error e => exact h

theorem ite {c : Prop} [Decidable c] {a b : WM B α} (ha : Steady a) (hb : Steady b) : Steady (if c then a else b) := by
  split <;> assumption

theorem fileOp (f : File → Except Err (α × File)) : Steady (WM.fileOp f : WM B α) := by
  intro env w
  unfold WM.fileOp
  dsimp only
  split
  · rfl
  · split
    · rfl
    · split <;> rfl

theorem seekCur : Steady (VibeCol.seekCur : WM B _) := fileOp _
theorem seekRel (o : Int) : Steady (VibeCol.seekRel o : WM B _) := fileOp _
theorem seekStart : Steady (VibeCol.seekStart : WM B _) := fileOp _
theorem seekEnd : Steady (VibeCol.seekEnd : WM B _) := fileOp _
theorem fsync : Steady (VibeCol.fsync : WM B _) := by
  intro env w
  unfold VibeCol.fsync
  dsimp only
  split
  · rfl
  · split <;> rfl

theorem fwrite (d : Bytes) : Steady (VibeCol.fwrite d : WM B _) := by
  intro env w
  unfold VibeCol.fwrite
  dsimp only
  split
  · rfl
  · split <;> rfl

theorem fwriteAll (ds : List Bytes) : Steady (VibeCol.fwriteAll ds : WM B _) := by
  induction ds with
  | nil => exact pure _
  | cons d ds ih =>
    unfold VibeCol.fwriteAll
    exact bind (fwrite _) fun _ => bind ih fun _ => pure _

theorem writeBlockHeader (a b c d e : UInt64) (n : UInt32) :
    Steady (VibeCol.writeBlockHeader a b c d e n : WM B _) := by
  unfold VibeCol.writeBlockHeader
  exact bind seekCur fun _ => bind get fun _ => bind (fwriteAll _) fun _ => bind seekCur fun _ =>
    ite (throw _) (pure _)

theorem estimateBlockSize (ids : List UInt64) (vals : List Int64) :
    Steady (VibeCol.estimateBlockSize ids vals : WM B _) := by
  unfold VibeCol.estimateBlockSize
  exact ite (throw _) (ite (throw _) (bind get fun _ => bind (lift _) fun _ => bind (lift _) fun _ =>
    bind seekCur fun _ => pure _))

theorem findOptimal (ids : List UInt64) (vals : List Int64) (fuel i o : Nat) :
    Steady (VibeCol.findOptimal ids vals fuel i o : WM B _) := by
  induction fuel generalizing i o with
  | zero => exact pure _
  | succ fuel ih =>
    intro env w
    have h := estimateBlockSize (B := B) (ids.take i) (vals.take i) env w
    simp only [VibeCol.findOptimal]
    generalize VibeCol.estimateBlockSize (ids.take i) (vals.take i) env w = res at h ⊢
    obtain ⟨r, w'⟩ := res
    cases r with
    | error e => exact h
    | ok size =>
      dsimp only
      split
      · exact (ih _ _ env w').trans h
      · exact h

theorem writeBlockFooters (es : List FooterEntry) : Steady (VibeCol.writeBlockFooters es : WM B _) := by
  induction es with
  | nil => exact pure _
  | cons e es ih =>
    unfold VibeCol.writeBlockFooters VibeCol.writeBlockFooter
    exact bind (bind seekCur fun _ => bind (fwriteAll _) fun _ => bind seekCur fun _ => ite (throw _) (pure _))
      fun _ => ih

variable [Bitmap B]

theorem writeBlockInternal (ids : List UInt64) (vals : List Int64) : Steady (VibeCol.writeBlockInternal ids vals : WM B _) := by
  unfold VibeCol.writeBlockInternal
  refine bind (modify _ fun _ => rfl) fun _ => bind get fun _ => bind (lift _) fun _ => bind (lift _) fun _ => bind seekCur fun bs => ?_
  refine bind (modify _ fun _ => rfl) fun _ => bind (writeBlockHeader _ _ _ _ _ _) fun _ => bind (fwrite _) fun _ => bind (fwrite _) fun _ =>
    bind seekCur fun _ => bind (fwrite _) fun _ => bind (seekRel _) fun _ => ite (throw _) (ite (throw _) (ite (throw _) ?_))
  refine bind (fwrite _) fun _ => bind seekCur fun _ => bind (fwriteAll _) fun _ => ite (throw _) ?_
  refine bind (fwriteAll _) fun _ => ite (throw _) (bind seekCur fun _ => ite (bind (fwrite _) fun _ => ?_) ?_)
  · exact ite (throw _) (bind (modify _ fun _ => rfl) fun _ => fsync)
  · exact ite (throw _) (bind (modify _ fun _ => rfl) fun _ => fsync)

theorem writeBlock (ids : List UInt64) (vals : List Int64) : Steady (VibeCol.writeBlock ids vals : WM B _) := by
  unfold VibeCol.writeBlock
  exact ite (throw _) (ite (throw _) (bind (estimateBlockSize _ _) fun _ => bind get fun _ =>
    ite (bind (findOptimal _ _ _ _ _) fun _ => bind (writeBlockInternal _ _) fun _ => throw _) (writeBlockInternal _ _)))


theorem finalize : Steady (VibeCol.finalize : WM B _) := by
  unfold VibeCol.finalize VibeCol.writeGlobalIDBitmap
  refine bind (bind seekCur fun _ => bind get fun _ => bind (fwrite _) fun _ => bind (fwrite _) fun _ =>
    bind seekCur fun _ => pure _) fun _ => ?_
  refine bind seekStart fun _ => bind now fun _ => bind get fun w => bind (fwriteAll _) fun _ =>
    bind seekEnd fun _ => bind seekCur fun _ => ?_
  have tail : ∀ fs : Nat, Steady (do
      let footerEnd ← VibeCol.seekCur (B := B)
      let footerSize := footerEnd - fs
      let _ ← VibeCol.fwriteAll [le64 (UInt64.ofNat footerSize), le64 0, le64 magicNumber]
      let footerMetaEnd ← VibeCol.seekCur
      if footerMetaEnd - footerEnd ≠ 24 then WM.throw .footerSizeMismatch else
      if footerMetaEnd - fs ≠ footerSize + 24 then WM.throw .footerSizeMismatch else
      VibeCol.fsync) := fun fs =>
    bind seekCur fun _ => bind (fwriteAll _) fun _ => bind seekCur fun _ => ite (throw _) (ite (throw _) fsync)
  have mid : Steady (do
      let footerStart ← VibeCol.seekCur (B := B)
      let _ ← VibeCol.fwrite (le32 (UInt32.ofNat w.blockCount))
      if w.blockCount > 0 then
        if w.blockPositions.length ≠ w.blockCount then WM.throw .positionTracking
        else VibeCol.writeBlockFooters w.entries
      let footerEnd ← VibeCol.seekCur
      let footerSize := footerEnd - footerStart
      let _ ← VibeCol.fwriteAll [le64 (UInt64.ofNat footerSize), le64 0, le64 magicNumber]
      let footerMetaEnd ← VibeCol.seekCur
      if footerMetaEnd - footerEnd ≠ 24 then WM.throw .footerSizeMismatch else
      if footerMetaEnd - footerStart ≠ footerSize + 24 then WM.throw .footerSizeMismatch else
      VibeCol.fsync) := by
    refine bind seekCur fun fs => bind (fwrite _) fun _ => ?_
    refine ite (ite (bind (throw _) fun _ => tail _) (bind (writeBlockFooters _) fun _ => tail _)) (tail _)
  exact ite (bind (fwrite _) fun _ => mid) mid


theorem writeHeader : Steady (VibeCol.writeHeader : WM B _) := by
  unfold VibeCol.writeHeader
  exact bind seekCur fun _ => bind now fun _ => bind get fun _ => bind (fwriteAll _) fun _ => bind (fwrite _) fun _ =>
    bind seekCur fun _ => ite (throw _) (pure _)

theorem call (c : Call) (env : Env) (w : Writer B) : (c.run env w).2.fileOpen = w.fileOpen := by
  cases c with
  | write ids vals => exact writeBlock ids vals env w
  | finalize => exact finalize env w
  | estimate ids vals =>
    have h := estimateBlockSize (B := B) ids vals env w
    simp only [Call.run]
    generalize VibeCol.estimateBlockSize ids vals env w = res at h ⊢
    obtain ⟨r, w'⟩ := res
    cases r <;> exact h

theorem flush (env : Env) (force : Bool) (sw : SimpleWriter B) :
    (flushIfNeeded env force sw).2.writer.fileOpen = sw.writer.fileOpen := by
  induction hn : sw.pendingIDs.length using Nat.strongRecOn generalizing sw with
  | _ n ih =>
    unfold flushIfNeeded
    split
    · rfl
    · dsimp only
      generalize (if (!force) = true then decide (sw.pendingIDs.length ≥ 1000) else force) = sh
      split
      · have hst := writeBlock (B := B) sw.pendingIDs sw.pendingValues env sw.writer
        split
        · rename_i k w' hw
          have hb := writeBlock_blockFull_bounds _ _ _ _ _ _ hw
          rw [hw] at hst
          exact (ih (sw.pendingIDs.length - k) (by omega) _ (by simp [List.length_drop])).trans hst
        · rename_i _ hw
          rw [hw] at hst
          exact hst
        · rename_i hw
          rw [hw] at hst
          exact hst
      · rfl

end Steady
end VibeCol
