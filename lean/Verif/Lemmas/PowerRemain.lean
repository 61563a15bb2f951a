/-
Power failures: the current contents is always among what may remain, and `Finalize` ends in a `Sync`.
-/
import Verif.Lemmas.PowerFinal
import Verif.Lemmas.Crash
namespace VibeCol
set_option linter.unusedSectionVars false
variable {B α β : Type} [Bitmap B]

/-! ### The current contents may remain -/

/-- The file as it is now may be what a power failure leaves. -/
def Remains (w : Writer B) : Prop := MayRemain w.disk w.file.bytes

/-- A program after which the current contents may remain, if that was so before. -/
def CanRemain (m : WM B α) : Prop := ∀ env w, Remains w → Remains (m env w).2

theorem Remains.of_eq {w w' : Writer B} (h : Remains w) (h1 : w'.file.bytes = w.file.bytes) (h2 : w'.disk = w.disk) :
    Remains w' := by
  unfold Remains
  rw [h1, h2]
  exact h

theorem writeAt_cases (b d : Bytes) (p i : Nat) (x : UInt8) (h : (writeAt b p d)[i]? = some x) :
    b[i]? = some x ∨ (b.length ≤ i ∧ x = 0) ∨ (p ≤ i ∧ d[i - p]? = some x) := by
  cases d with
  | nil => exact .inl h
  | cons y ys =>
    unfold writeAt at h
    dsimp only at h
    by_cases h1 : i < (b.take p).length
    · rw [List.append_assoc, List.append_assoc, List.getElem?_append_left h1] at h
      rw [List.getElem?_take] at h
      split at h
      · exact .inl h
      · cases h
    · rw [List.append_assoc, List.append_assoc, List.getElem?_append_right (by omega)] at h
      rw [List.length_take] at h h1
      by_cases h2 : i - min p b.length < (List.replicate (p - b.length) (0 : UInt8)).length
      · rw [List.getElem?_append_left h2] at h
        rw [List.length_replicate] at h2
        obtain ⟨_, h⟩ := List.getElem?_eq_some_iff.mp h
        rw [List.getElem_replicate] at h
        exact .inr (.inl ⟨by omega, h.symm⟩)
      · rw [List.getElem?_append_right (by omega), List.length_replicate] at h
        rw [List.length_replicate] at h2
        have e1 : i - min p b.length - (p - b.length) = i - p := by omega
        rw [e1] at h
        by_cases h3 : i - p < (y :: ys).length
        · rw [List.getElem?_append_left h3] at h
          exact .inr (.inr ⟨by omega, h⟩)
        · rw [List.getElem?_append_right (by omega), List.getElem?_drop] at h
          have e2 : p + (y :: ys).length + (i - p - (y :: ys).length) = i := by omega
          rw [e2] at h
          exact .inl h

theorem Remains.write {w : Writer B} (h : Remains w) (d : Bytes) (o : Nat) :
    Remains { w with
      opNo := o
      file := { bytes := writeAt w.file.bytes w.file.pos d, pos := w.file.pos + d.length }
      disk := { w.disk with unsynced := w.disk.unsynced ++ [(w.file.pos, d)] } } where
  grow := Nat.le_trans h.grow (writeAt_length_ge _ _ _)
  bound := by
    have hl := Crashable.writeAt_length_max w.file.bytes w.file.pos d
    show (writeAt w.file.bytes w.file.pos d).length ≤ _ ∨ ∃ p ∈ w.disk.unsynced ++ [(w.file.pos, d)], (writeAt w.file.bytes w.file.pos d).length ≤ _
    have old : (writeAt w.file.bytes w.file.pos d).length ≤ w.file.bytes.length →
        (writeAt w.file.bytes w.file.pos d).length ≤ w.disk.synced.length ∨
        ∃ p ∈ w.disk.unsynced ++ [(w.file.pos, d)], (writeAt w.file.bytes w.file.pos d).length ≤ p.1 + p.2.length := by
      intro hle
      rcases h.bound with hb | ⟨p, hp, hb⟩
      · exact .inl (by omega)
      · exact .inr ⟨p, List.mem_append_left _ hp, by omega⟩
    by_cases hd : d = []
    · rw [if_pos hd] at hl
      exact old (by omega)
    · rw [if_neg hd] at hl
      by_cases hm : w.file.pos + d.length ≤ w.file.bytes.length
      · exact old (by omega)
      · exact .inr ⟨(w.file.pos, d), by simp, by dsimp only; omega⟩
  byte i b hb := by
    rcases writeAt_cases _ _ _ _ _ hb with h1 | ⟨h1, h2⟩ | ⟨h1, h2⟩
    · rcases h.byte i b h1 with h' | h' | ⟨p, hp, h'⟩
      · exact .inl h'
      · exact .inr (.inl h')
      · exact .inr (.inr ⟨p, List.mem_append_left _ hp, h'⟩)
    · exact .inr (.inl ⟨Nat.le_trans h.grow h1, h2⟩)
    · exact .inr (.inr ⟨(w.file.pos, d), by simp, h1, h2⟩)

theorem Remains.synced {w : Writer B} (h : AllSynced w) : Remains w := (h.remains _).mpr rfl

namespace CanRemain

theorem same {m : WM B α} (h : ∀ env w, (m env w).2.file.bytes = w.file.bytes ∧ (m env w).2.disk = w.disk) :
    CanRemain m := fun env w hr => hr.of_eq (h env w).1 (h env w).2

theorem pure (a : α) : CanRemain (Pure.pure a : WM B α) := fun _ _ h => h

theorem seq {m : WM B α} {g : Except Err α → WM B β} (hm : CanRemain m) (hg : ∀ r, CanRemain (g r)) :
    CanRemain (fun env w => g (m env w).1 env (m env w).2) := fun env w h => hg _ env _ (hm env w h)

theorem throw (e : Err) : CanRemain (WM.throw e : WM B α) := fun _ _ h => h
theorem get : CanRemain (WM.get : WM B _) := fun _ _ h => h
theorem lift (r : Except Err α) : CanRemain (WM.lift r : WM B α) := same fun _ _ => by cases r <;> exact ⟨rfl, rfl⟩
theorem now : CanRemain (VibeCol.now : WM B _) := fun _ _ h => h
theorem modify (f : Writer B → Writer B) (h1 : ∀ w, (f w).file = w.file) (h2 : ∀ w, (f w).disk = w.disk) :
    CanRemain (WM.modify f) := same fun _ w => ⟨congrArg File.bytes (h1 w), h2 w⟩

theorem bind {m : WM B α} {f : α → WM B β} (hm : CanRemain m) (hf : ∀ a, CanRemain (f a)) :
    CanRemain (m >>= f) := by
  intro env w h
  have := hm env w h
  have he : ((m >>= f) env w) = (match m env w with
      | (.ok a, w') => f a env w'
      | (.error e, w') => (.error e, w')) := rfl
  rw [he]
  generalize m env w = res at this ⊢
  obtain ⟨r, w'⟩ := res
  cases r with
  | ok a => exact hf a env w' this
  | error e => exact this

theorem ite {c : Prop} [Decidable c] {a b : WM B α} (ha : CanRemain a) (hb : CanRemain b) :
    CanRemain (if c then a else b) := by
  split <;> assumption

theorem fileOp {f : File → Except Err (α × File)} (hf : ∀ F a F', f F = .ok (a, F') → F'.bytes = F.bytes) :
    CanRemain (WM.fileOp f : WM B α) := by
  refine same fun env w => ?_
  unfold WM.fileOp
  dsimp only
  split
  · exact ⟨rfl, rfl⟩
  · split
    · exact ⟨rfl, rfl⟩
    · split
      · rename_i hF
        exact ⟨hf _ _ _ hF, rfl⟩
      · exact ⟨rfl, rfl⟩

theorem seekCur : CanRemain (VibeCol.seekCur : WM B _) :=
  fileOp (by intro F a F' h; cases h; rfl)
theorem seekRel (o : Int) : CanRemain (VibeCol.seekRel o : WM B _) :=
  fileOp (by
    intro F a F' h
    dsimp only at h
    split at h
    · cases h
    · cases h; rfl)
theorem seekStart : CanRemain (VibeCol.seekStart : WM B _) :=
  fileOp (by intro F a F' h; cases h; rfl)
theorem seekEnd : CanRemain (VibeCol.seekEnd : WM B _) :=
  fileOp (by intro F a F' h; cases h; rfl)

theorem fwrite (d : Bytes) : CanRemain (VibeCol.fwrite d : WM B _) := by
  intro env w h
  unfold VibeCol.fwrite
  dsimp only
  split
  · exact h
  · split
    · exact h.write _ _
    · exact h.write _ _

theorem fsync : CanRemain (VibeCol.fsync : WM B _) := by
  intro env w h
  unfold VibeCol.fsync
  dsimp only
  split
  · exact h
  · split
    · exact h
    · exact Remains.synced rfl

theorem fwriteAll (ds : List Bytes) : CanRemain (VibeCol.fwriteAll ds : WM B _) := by
  induction ds with
  | nil => exact pure 0
  | cons d ds ih =>
    unfold VibeCol.fwriteAll
    exact bind (fwrite d) fun _ => bind ih fun _ => pure _

theorem writeHeader : CanRemain (VibeCol.writeHeader : WM B _) := by
  unfold VibeCol.writeHeader
  refine bind seekCur fun _ => bind now fun _ => bind get fun _ => bind (fwriteAll _) fun _ =>
    bind (fwrite _) fun _ => bind seekCur fun _ => ite (throw _) (pure _)

theorem writeBlockHeader (a b c d e : UInt64) (n : UInt32) :
    CanRemain (VibeCol.writeBlockHeader a b c d e n : WM B _) := by
  unfold VibeCol.writeBlockHeader
  exact bind seekCur fun _ => bind get fun _ => bind (fwriteAll _) fun _ => bind seekCur fun _ =>
    ite (throw _) (pure _)

theorem writeBlockFooters (es : List FooterEntry) : CanRemain (VibeCol.writeBlockFooters es : WM B _) := by
  induction es with
  | nil => exact pure _
  | cons e es ih =>
    unfold VibeCol.writeBlockFooters VibeCol.writeBlockFooter
    exact bind (bind seekCur fun _ => bind (fwriteAll _) fun _ => bind seekCur fun _ => ite (throw _) (pure _))
      fun _ => ih

theorem finalize : CanRemain (VibeCol.finalize : WM B _) := by
  unfold VibeCol.finalize VibeCol.writeGlobalIDBitmap
  refine bind (bind seekCur fun _ => bind get fun _ => bind (fwrite _) fun _ => bind (fwrite _) fun _ =>
    bind seekCur fun _ => pure _) fun _ => ?_
  refine bind seekStart fun _ => bind now fun _ => bind get fun w => bind (fwriteAll _) fun _ =>
    bind seekEnd fun _ => bind seekCur fun _ => ?_
  have tail : ∀ fs : Nat, CanRemain (do
      let footerEnd ← VibeCol.seekCur (B := B)
      let footerSize := footerEnd - fs
      let _ ← VibeCol.fwriteAll [le64 (UInt64.ofNat footerSize), le64 0, le64 magicNumber]
      let footerMetaEnd ← VibeCol.seekCur
      if footerMetaEnd - footerEnd ≠ 24 then WM.throw .footerSizeMismatch else
      if footerMetaEnd - fs ≠ footerSize + 24 then WM.throw .footerSizeMismatch else
      VibeCol.fsync) := fun fs =>
    bind seekCur fun _ => bind (fwriteAll _) fun _ => bind seekCur fun _ => ite (throw _) (ite (throw _) fsync)
  have mid : CanRemain (do
      let footerStart ← VibeCol.seekCur (B := B)
      let _ ← VibeCol.fwrite (le32 (UInt32.ofNat w.blockCount))
      if w.blockCount > 0 then
        if w.blockPositions.length ≠ w.blockCount then WM.throw .positionTracking
        else VibeCol.writeBlockFooters w.entries
      let footerEnd ← VibeCol.seekCur
      let footerSize := footerEnd - footerStart
      let _ ← VibeCol.fwriteAll [le64 (UInt64.ofNat footerSize), le64 0, le64 magicNumber]
      let footerMetaEnd ← VibeCol.seekCur
      if footerMetaEnd - footerEnd ≠ 24 then WM.throw .footerSizeMismatch else
      if footerMetaEnd - footerStart ≠ footerSize + 24 then WM.throw .footerSizeMismatch else
      VibeCol.fsync) := by
    refine bind seekCur fun fs => bind (fwrite _) fun _ => ?_
    refine ite (ite (bind (throw _) fun _ => tail _) (bind (writeBlockFooters _) fun _ => tail _)) (tail _)
  exact ite (bind (fwrite _) fun _ => mid) mid

theorem writeBlockInternal (ids : List UInt64) (vals : List Int64) :
    CanRemain (VibeCol.writeBlockInternal ids vals : WM B _) := by
  unfold VibeCol.writeBlockInternal
  refine bind (modify _ (fun _ => rfl) (fun _ => rfl)) fun _ => bind get fun _ => bind (lift _) fun _ => ?_
  refine bind (lift _) fun _ => bind seekCur fun _ => bind (modify _ (fun _ => rfl) (fun _ => rfl)) fun _ => ?_
  refine bind (writeBlockHeader _ _ _ _ _ _) fun _ => bind (fwrite _) fun _ => bind (fwrite _) fun _ =>
    bind seekCur fun _ => bind (fwrite _) fun _ => bind (seekRel _) fun _ => ?_
  refine ite (throw _) (ite (throw _) (ite (throw _) ?_))
  refine bind (fwrite _) fun _ => bind seekCur fun _ => bind (fwriteAll _) fun _ => ite (throw _) ?_
  refine bind (fwriteAll _) fun _ => ite (throw _) ?_
  refine bind seekCur fun _ => ?_
  refine ite (bind (fwrite _) fun _ => ?_) ?_
  · exact ite (throw _) (bind (modify _ (fun _ => rfl) (fun _ => rfl)) fun _ => fsync)
  · exact ite (throw _) (bind (modify _ (fun _ => rfl) (fun _ => rfl)) fun _ => fsync)

theorem estimateBlockSize (ids : List UInt64) (vals : List Int64) :
    CanRemain (VibeCol.estimateBlockSize ids vals : WM B _) := by
  unfold VibeCol.estimateBlockSize
  exact ite (throw _) (ite (throw _) (bind get fun _ => bind (lift _) fun _ => bind (lift _) fun _ =>
    bind seekCur fun _ => pure _))

theorem findOptimal (ids : List UInt64) (vals : List Int64) (fuel i o : Nat) :
    CanRemain (VibeCol.findOptimal ids vals fuel i o : WM B _) := by
  induction fuel generalizing i o with
  | zero => exact pure _
  | succ fuel ih =>
    have he : (VibeCol.findOptimal ids vals (fuel + 1) i o : WM B _) = (WM.get >>= fun w0 => fun env w =>
        (match (VibeCol.estimateBlockSize (ids.take i) (vals.take i) env w).1 with
          | .ok size => (if size ≤ w0.blockSizeTarget.toNat then VibeCol.findOptimal ids vals fuel (i + 1) i
              else Pure.pure o : WM B Nat)
          | .error _ => (Pure.pure o : WM B Nat)) env
          (VibeCol.estimateBlockSize (ids.take i) (vals.take i) env w).2) := by
      funext env w
      show _ = (match (VibeCol.estimateBlockSize (ids.take i) (vals.take i) env w).1 with
          | .ok size => (if size ≤ w.blockSizeTarget.toNat then VibeCol.findOptimal ids vals fuel (i + 1) i
              else Pure.pure o : WM B Nat)
          | .error _ => (Pure.pure o : WM B Nat)) env
          (VibeCol.estimateBlockSize (ids.take i) (vals.take i) env w).2
      simp only [VibeCol.findOptimal]
      rcases VibeCol.estimateBlockSize (ids.take i) (vals.take i) env w with ⟨r, w'⟩
      cases r with
      | error e => rfl
      | ok size =>
        dsimp only
        split <;> rfl
    rw [he]
    refine bind get fun w0 => seq (g := fun r => match r with
      | .ok size => (if size ≤ w0.blockSizeTarget.toNat then VibeCol.findOptimal ids vals fuel (i + 1) i
              else Pure.pure o : WM B Nat)
      | .error _ => (Pure.pure o : WM B Nat)) (estimateBlockSize _ _) fun r => ?_
    cases r with
    | ok s => exact ite (ih _ _) (pure _)
    | error e => exact pure _

theorem writeBlock (ids : List UInt64) (vals : List Int64) :
    CanRemain (VibeCol.writeBlock ids vals : WM B _) := by
  unfold VibeCol.writeBlock
  refine ite (throw _) (ite (throw _) (bind (estimateBlockSize _ _) fun _ => bind get fun _ => ite ?_ ?_))
  · exact bind (findOptimal _ _ _ _ _) fun _ => bind (writeBlockInternal _ _) fun _ => throw _
  · exact writeBlockInternal _ _

/-- One call; its error, if any, is recorded and the caller goes on. -/
theorem call (c : Call) : CanRemain (fun env w => (.ok (c.run env w).1, (c.run env w).2) : WM B Result) := by
  cases c with
  | write ids vals =>
    exact seq (g := fun r => (Pure.pure r : WM B Result)) (writeBlock ids vals) fun r => pure r
  | finalize =>
    exact seq (g := fun r => (Pure.pure r : WM B Result)) finalize fun r => pure r
  | estimate ids vals =>
    have h := seq (g := fun r => (Pure.pure (match r with | .ok _ => .ok () | .error e => .error e) : WM B Result))
      (estimateBlockSize (B := B) ids vals) fun r => pure _
    refine cast ?_ h
    congr 1
    funext env w
    show _ = (Except.ok (Call.run env (.estimate ids vals) w).1, (Call.run env (.estimate ids vals) w).2)
    simp only [Call.run]
    rcases VibeCol.estimateBlockSize ids vals env w with ⟨r, w'⟩
    cases r <;> rfl

/-- A sequence of calls. -/
theorem calls (cs : List Call) :
    CanRemain (fun env w => (.ok (runCalls env cs w).1, (runCalls env cs w).2) : WM B Log) := by
  induction cs with
  | nil => exact pure []
  | cons c cs ih =>
    have h := bind (call (B := B) c) fun r => bind ih fun log => pure ((c, r) :: log)
    refine cast ?_ h
    congr 1

end CanRemain

/-! ### The last operation of `Finalize` is a `Sync` -/

/-- A program whose last operation, if it succeeds, is a `Sync`: had this operation failed, the result
would be an I/O error, with the same file. -/
def EndsInSync (m : WM B Unit) : Prop := ∀ env w w', m env w = (.ok (), w') → w.opNo < w'.opNo ∧
  ∀ k, ∃ d, m (env.crashAt (w'.opNo - 1) k) w = (.error .io, { w' with disk := d })

namespace EndsInSync

theorem throw (e : Err) : EndsInSync (WM.throw e : WM B Unit) := fun _ _ _ h => by cases h

theorem fsync : EndsInSync (VibeCol.fsync : WM B Unit) := by
  intro env w w' h
  unfold VibeCol.fsync at h ⊢
  dsimp only at h ⊢
  by_cases hc : w.fileOpen = false
  · rw [if_pos hc] at h; cases h
  · rw [if_neg hc] at h
    rcases hf : env.fault w.opNo with _ | k
    · rw [hf] at h
      cases h
      refine ⟨Nat.lt_succ_self _, fun k => ⟨w.disk, ?_⟩⟩
      rw [if_neg hc]
      have : (env.crashAt (w.opNo + 1 - 1) k).fault w.opNo = some k := by
        simp [Env.crashAt]
      dsimp only
      rw [this]
    · rw [hf] at h; cases h

theorem bind {m : WM B α} {f : α → WM B Unit} (hm : Crashable m) (hf : ∀ a, EndsInSync (f a)) :
    EndsInSync (m >>= f) := by
  intro env w w' h
  have he : ∀ env, ((m >>= f) env w) = (match m env w with
      | (.ok a, w') => f a env w'
      | (.error e, w') => (.error e, w')) := fun _ => rfl
  rw [he] at h
  have hcount := hm.count env w
  have hag : ∀ n k, (m env w).2.opNo ≤ n → m (env.crashAt n k) w = m env w := fun n k => hm.agree_crashAt env w n k
  generalize m env w = res at h hcount hag
  obtain ⟨r, w1⟩ := res
  cases r with
  | error e => cases h
  | ok a =>
    obtain ⟨h1, h2⟩ := hf a env w1 w' h
    refine ⟨Nat.lt_of_le_of_lt hcount h1, fun k => ?_⟩
    obtain ⟨d, hd⟩ := h2 k
    refine ⟨d, ?_⟩
    rw [he, hag _ _ (by show w1.opNo ≤ _; omega)]
    exact hd

theorem ite {c : Prop} [Decidable c] {a b : WM B Unit} (ha : EndsInSync a) (hb : EndsInSync b) :
    EndsInSync (if c then a else b) := by
  split <;> assumption

theorem finalize : EndsInSync (VibeCol.finalize : WM B Unit) := by
  unfold VibeCol.finalize VibeCol.writeGlobalIDBitmap
  refine bind (.bind .seekCur fun _ => .bind .get fun _ => .bind (.fwrite _) fun _ => .bind (.fwrite _) fun _ =>
    .bind .seekCur fun _ => .pure _) fun _ => ?_
  refine bind .seekStart fun _ => bind .now fun _ => bind .get fun w => bind (.fwriteAll _) fun _ =>
    bind .seekEnd fun _ => bind .seekCur fun _ => ?_
  have tail : ∀ fs : Nat, EndsInSync (do
      let footerEnd ← VibeCol.seekCur (B := B)
      let footerSize := footerEnd - fs
      let _ ← VibeCol.fwriteAll [le64 (UInt64.ofNat footerSize), le64 0, le64 magicNumber]
      let footerMetaEnd ← VibeCol.seekCur
      if footerMetaEnd - footerEnd ≠ 24 then WM.throw .footerSizeMismatch else
      if footerMetaEnd - fs ≠ footerSize + 24 then WM.throw .footerSizeMismatch else
      VibeCol.fsync) := fun fs =>
    bind .seekCur fun _ => bind (.fwriteAll _) fun _ => bind .seekCur fun _ => ite (throw _) (ite (throw _) fsync)
  have mid : EndsInSync (do
      let footerStart ← VibeCol.seekCur (B := B)
      let _ ← VibeCol.fwrite (le32 (UInt32.ofNat w.blockCount))
      if w.blockCount > 0 then
        if w.blockPositions.length ≠ w.blockCount then WM.throw .positionTracking
        else VibeCol.writeBlockFooters w.entries
      let footerEnd ← VibeCol.seekCur
      let footerSize := footerEnd - footerStart
      let _ ← VibeCol.fwriteAll [le64 (UInt64.ofNat footerSize), le64 0, le64 magicNumber]
      let footerMetaEnd ← VibeCol.seekCur
      if footerMetaEnd - footerEnd ≠ 24 then WM.throw .footerSizeMismatch else
      if footerMetaEnd - footerStart ≠ footerSize + 24 then WM.throw .footerSizeMismatch else
      VibeCol.fsync) := by
    refine bind .seekCur fun fs => bind (.fwrite _) fun _ => ?_
    refine ite (ite (bind (.throw _) fun _ => tail _) (bind (.writeBlockFooters _) fun _ => tail _)) (tail _)
  exact ite (bind (.fwrite _) fun _ => mid) mid

end EndsInSync
end VibeCol
