/-
`WriteBlock` reports `BlockFullError{n}` only with `1 ≤ n < len(ids)`. This is what makes
the retry loop of `SimpleWriter.flushIfNeeded` terminate, so it is proved before that
function is defined.
-/
import Verif.Model.Writer
namespace VibeCol
set_option linter.unusedSectionVars false
variable {B α β : Type}

/-- `m` never returns a `BlockFullError`. -/
def NoBF (m : WM B α) : Prop := ∀ env w n, (m env w).1 ≠ .error (.blockFull n)

theorem WM.bind_def (m : WM B α) (f : α → WM B β) (env : Env) (w : Writer B) :
    (m >>= f) env w = match m env w with
      | (.ok a, w') => f a env w'
      | (.error e, w') => (.error e, w') := rfl

theorem WM.pure_def (a : α) (env : Env) (w : Writer B) :
    (pure a : WM B α) env w = (.ok a, w) := rfl

theorem NoBF.bind {m : WM B α} {f : α → WM B β} (hm : NoBF m) (hf : ∀ a, NoBF (f a)) :
    NoBF (m >>= f) := by
  intro env w n
  rw [WM.bind_def]
  rcases hmw : m env w with ⟨r, w'⟩
  cases r with
  | ok a => exact hf a env w' n
  | error e =>
    intro h
    apply hm env w n
    rw [hmw]; simpa using h

theorem NoBF.pure (a : α) : NoBF (pure a : WM B α) := by
  intro env w n h; simp [WM.pure_def] at h

theorem NoBF.get : NoBF (WM.get : WM B _) := by intro env w n h; simp [WM.get] at h
theorem NoBF.modify (f : Writer B → Writer B) : NoBF (WM.modify f) := by
  intro env w n h; simp [WM.modify] at h

theorem NoBF.throw {e : Err} (he : ∀ n, e ≠ .blockFull n) : NoBF (WM.throw e : WM B α) := by
  intro env w n h; simp [WM.throw] at h; exact he n h

theorem NoBF.fileOp {f : File → Except Err (α × File)} (hf : ∀ x n, f x ≠ .error (.blockFull n)) :
    NoBF (WM.fileOp f : WM B α) := by
  intro env w n h
  simp only [WM.fileOp] at h
  split at h
  · simp at h
  · split at h
    · simp at h
    · split at h
      · simp at h
      · rename_i he
        simp at h
        exact hf _ n (h ▸ he)

theorem NoBF.seekCur : NoBF (seekCur : WM B Nat) := NoBF.fileOp (by simp)
theorem NoBF.seekRel (o : Int) : NoBF (seekRel o : WM B Nat) := by
  apply NoBF.fileOp; intro x n; dsimp only; split <;> simp
theorem NoBF.seekStart : NoBF (seekStart : WM B Nat) := NoBF.fileOp (by simp)
theorem NoBF.seekEnd : NoBF (seekEnd : WM B Nat) := NoBF.fileOp (by simp)
theorem NoBF.fsync : NoBF (fsync : WM B Unit) := by
  intro env w n h
  simp only [VibeCol.fsync] at h
  split at h
  · simp at h
  · split at h <;> simp at h

theorem NoBF.fwrite (d : Bytes) : NoBF (fwrite d : WM B Nat) := by
  intro env w n h
  simp only [VibeCol.fwrite] at h
  split at h
  · simp at h
  · split at h <;> simp at h

theorem NoBF.fwriteAll (ds : List Bytes) : NoBF (fwriteAll ds : WM B Nat) := by
  induction ds with
  | nil => exact NoBF.pure 0
  | cons d ds ih =>
    exact NoBF.bind (NoBF.fwrite d) fun n => NoBF.bind ih fun m => NoBF.pure _

theorem NoBF.lift {r : Except Err α} (hr : ∀ n, r ≠ .error (.blockFull n)) :
    NoBF (WM.lift r : WM B α) := by
  intro env w n h
  cases r with
  | ok a => simp [WM.lift] at h
  | error e => simp [WM.lift] at h; exact hr n (by rw [h])

theorem NoBF.ite {c : Prop} [Decidable c] {a b : WM B α} (ha : NoBF a) (hb : NoBF b) :
    NoBF (if c then a else b) := by split <;> assumption

theorem encodeVarLoop_noBF {T : Type} (enc : T → Bytes) (l : List T) (s : UInt32) (n : Nat) :
    encodeVarLoop enc l s ≠ .error (.blockFull n) := by
  induction l generalizing s with
  | nil => simp [encodeVarLoop]
  | cons d ds ih =>
    simp only [encodeVarLoop]
    split
    · simp
    · split
      · simp
      · rename_i e he
        intro h
        exact ih _ (by rw [he]; exact h)

theorem encodeData_noBF {T : Type} (e : UInt32) (data : List T) (f : List T → List T)
    (g : T → Bytes) (n : Nat) : encodeData e data f g ≠ .error (.blockFull n) := by
  intro h
  unfold encodeData at h
  simp only at h
  split at h
  · rename_i e' he
    split at he
    · simp at he
    · split at he
      · simp at he
      · simp at he h; subst he; simp at h
  · split at h
    · simp at h
    · split at h
      · rename_i e' he
        simp at h; subst h
        exact encodeVarLoop_noBF _ _ _ n he
      · split at h <;> simp at h

variable [Bitmap B]

theorem NoBF.writeBlockHeader (a b c d e : UInt64) (n : UInt32) :
    NoBF (writeBlockHeader a b c d e n : WM B Nat) := by
  unfold VibeCol.writeBlockHeader
  refine NoBF.bind NoBF.seekCur fun _ => NoBF.bind NoBF.get fun _ =>
    NoBF.bind (NoBF.fwriteAll _) fun _ => NoBF.bind NoBF.seekCur fun _ => ?_
  exact NoBF.ite (NoBF.throw (by simp)) (NoBF.pure _)

theorem NoBF.writeBlockInternal (ids : List UInt64) (values : List Int64) :
    NoBF (writeBlockInternal ids values : WM B Unit) := by
  unfold VibeCol.writeBlockInternal
  refine NoBF.bind (NoBF.modify _) fun _ => NoBF.bind NoBF.get fun w =>
    NoBF.bind (NoBF.lift (encodeData_noBF _ _ _ _)) fun x => ?_
  obtain ⟨x1, x2, x3⟩ := x
  refine NoBF.bind (NoBF.lift (encodeData_noBF _ _ _ _)) fun y => ?_
  obtain ⟨y1, y2, y3⟩ := y
  refine NoBF.bind NoBF.seekCur fun _ => NoBF.bind (NoBF.modify _) fun _ =>
    NoBF.bind (NoBF.writeBlockHeader _ _ _ _ _ _) fun _ => NoBF.bind (NoBF.fwrite _) fun _ =>
    NoBF.bind (NoBF.fwrite _) fun _ => NoBF.bind NoBF.seekCur fun _ =>
    NoBF.bind (NoBF.fwrite _) fun _ => NoBF.bind (NoBF.seekRel _) fun _ => ?_
  refine NoBF.ite (NoBF.throw (by simp)) (NoBF.ite (NoBF.throw (by simp))
    (NoBF.ite (NoBF.throw (by simp)) ?_))
  refine NoBF.bind (NoBF.fwrite _) fun _ => NoBF.bind NoBF.seekCur fun _ =>
    NoBF.bind (NoBF.fwriteAll _) fun _ => NoBF.ite (NoBF.throw (by simp)) ?_
  refine NoBF.bind (NoBF.fwriteAll _) fun _ => NoBF.ite (NoBF.throw (by simp)) ?_
  refine NoBF.bind NoBF.seekCur fun _ => ?_
  have tail : ∀ (bs p : Nat) (st : BlockStats) (c : Prop) [Decidable c], NoBF (
      if c then WM.throw .blockSizeMismatch else do
        WM.modify fun (w : Writer B) => { w with
          blockSizes := w.blockSizes ++ [UInt32.ofNat bs]
          blockStats := w.blockStats ++ [st]
          blockCount := w.blockCount + 1 }
        VibeCol.fsync) := fun bs p st c _ =>
    NoBF.ite (NoBF.throw (by simp)) (NoBF.bind (NoBF.modify _) fun _ => NoBF.fsync)
  dsimp only
  split
  · exact NoBF.bind (NoBF.fwrite _) fun _ => tail _ 0 _ _
  · exact tail _ 0 _ _

theorem NoBF.estimateBlockSize (ids : List UInt64) (values : List Int64) :
    NoBF (estimateBlockSize ids values : WM B Nat) := by
  unfold VibeCol.estimateBlockSize
  refine NoBF.ite (NoBF.throw (by simp)) (NoBF.ite (NoBF.throw (by simp)) ?_)
  refine NoBF.bind NoBF.get fun w => NoBF.bind (NoBF.lift (encodeData_noBF _ _ _ _)) fun x => ?_
  obtain ⟨x1, x2, x3⟩ := x
  refine NoBF.bind (NoBF.lift (encodeData_noBF _ _ _ _)) fun y => ?_
  obtain ⟨y1, y2, y3⟩ := y
  exact NoBF.bind NoBF.seekCur fun _ => NoBF.pure _

/-- The search loop returns its initial `optimal` or an index it tried. -/
theorem findOptimal_bounds (ids : List UInt64) (values : List Int64) (fuel i opt : Nat)
    (env : Env) (w : Writer B) :
    ∃ k w', findOptimal ids values fuel i opt env w = (.ok k, w') ∧
      (k = opt ∨ (i ≤ k ∧ k < i + fuel)) := by
  induction fuel generalizing i opt w with
  | zero => exact ⟨opt, w, rfl, .inl rfl⟩
  | succ fuel ih =>
    simp only [findOptimal]
    rcases h : estimateBlockSize (ids.take i) (values.take i) env w with ⟨r, w'⟩
    cases r with
    | error e => exact ⟨opt, w', rfl, .inl rfl⟩
    | ok size =>
      simp only
      split
      · obtain ⟨k, w'', h1, h2⟩ := ih (i + 1) i w'
        exact ⟨k, w'', h1, by omega⟩
      · exact ⟨opt, w', rfl, .inl rfl⟩

/-- A `BlockFullError` carries a positive count smaller than the number of pairs passed. -/
theorem writeBlock_blockFull_bounds (ids : List UInt64) (values : List Int64) (env : Env)
    (w w' : Writer B) (n : Nat) (h : writeBlock ids values env w = (.error (.blockFull n), w')) :
    0 < n ∧ n < ids.length := by
  unfold writeBlock at h
  split at h
  · simp [WM.throw] at h
  split at h
  · simp [WM.throw] at h
  rw [WM.bind_def] at h
  rcases he : estimateBlockSize ids values env w with ⟨r, w1⟩
  rw [he] at h
  cases r with
  | error e =>
    simp at h
    exact absurd (by rw [he]; simp [h.1]) (NoBF.estimateBlockSize ids values env w n)
  | ok size =>
    simp only [WM.bind_def, WM.get] at h
    split at h
    · rename_i hc
      rw [WM.bind_def] at h
      obtain ⟨k, w2, h1, h2⟩ := findOptimal_bounds ids values (ids.length - 1) 1 1 env w1
      rw [h1] at h
      simp only [WM.bind_def] at h
      rcases hi : writeBlockInternal (ids.take k) (values.take k) env w2 with ⟨r, w3⟩
      rw [hi] at h
      cases r with
      | error e =>
        simp at h
        exact absurd (by rw [hi]; simp [h.1]) (NoBF.writeBlockInternal _ _ env w2 n)
      | ok u =>
        simp [WM.throw] at h
        omega
    · exact absurd (by rw [h]) (NoBF.writeBlockInternal ids values env w1 n)

end VibeCol
