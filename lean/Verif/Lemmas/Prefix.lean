/-
`Finalize` up to and including the rewritten header, and the rest, which only appends. A crash
that leaves a file as long as the complete one leaves the complete one.
-/
import Verif.Lemmas.Crash
import Verif.Lemmas.Finalize
namespace VibeCol.Prefix
set_option linter.unusedSectionVars false
variable {B : Type} {α β : Type}

/-- The same writer, apart from what the outside world keeps. -/
def Alike (w w' : Writer B) : Prop := ∃ o d, w' = { w with opNo := o, disk := d }

theorem Alike.refl (w : Writer B) : Alike w w := ⟨_, _, rfl⟩

/-- A program that only appends: what one run leaves behind, however it ends, is a prefix of what a successful
run leaves, and two successful runs do the same. -/
structure Appends (m : WM B α) : Prop where
  done : ∀ env w a w1, w.file.pos = w.file.bytes.length → m env w = (.ok a, w1) →
    w1.file.pos = w1.file.bytes.length ∧ w.file.bytes <+: w1.file.bytes
  other : ∀ env w a w1, w.file.pos = w.file.bytes.length → m env w = (.ok a, w1) →
    ∀ env' w', Alike w w' → (∃ w1', m env' w' = (.ok a, w1') ∧ Alike w1 w1') ∨
      ∃ e w1', m env' w' = (.error e, w1') ∧ w1'.file.bytes <+: w1.file.bytes

namespace Appends

theorem pure (a : α) : Appends (pure a : WM B α) where
  done env w a' w1 hp h := by cases h; exact ⟨hp, List.prefix_refl _⟩
  other env w a' w1 hp h env' w' hw := by cases h; exact .inl ⟨w', rfl, hw⟩

theorem throw (e : Err) : Appends (WM.throw e : WM B α) where
  done env w a' w1 hp h := by cases h
  other env w a' w1 hp h := by cases h

theorem bind {m : WM B α} {f : α → WM B β} (hm : Appends m) (hf : ∀ a, Appends (f a)) : Appends (m >>= f) where
  done env w b w2 hp h := by
    rw [WM.bind_def] at h
    rcases hr : m env w with ⟨r, w1⟩
    rw [hr] at h
    cases r with
    | error e => cases h
    | ok a =>
      obtain ⟨h1, h2⟩ := hm.done env w a w1 hp hr
      obtain ⟨h3, h4⟩ := (hf a).done env w1 b w2 h1 h
      exact ⟨h3, h2.trans h4⟩
  other env w b w2 hp h env' w' hw := by
    rw [WM.bind_def] at h
    rcases hr : m env w with ⟨r, w1⟩
    rw [hr] at h
    cases r with
    | error e => cases h
    | ok a =>
      obtain ⟨h1, h2⟩ := hm.done env w a w1 hp hr
      obtain ⟨h3, h4⟩ := (hf a).done env w1 b w2 h1 h
      rcases hm.other env w a w1 hp hr env' w' hw with ⟨w1', h5, h6⟩ | ⟨e, w1', h5, h6⟩
      · have := (hf a).other env w1 b w2 h1 h env' w1' h6
        rw [WM.bind_def, h5]
        exact this
      · rw [WM.bind_def, h5]
        exact .inr ⟨e, w1', rfl, h6.trans h4⟩

theorem ite {c : Prop} [Decidable c] {a b : WM B α} (ha : Appends a) (hb : Appends b) : Appends (if c then a else b) := by
  split <;> assumption

theorem seekCur : Appends (VibeCol.seekCur : WM B _) where
  done env w a w1 hp h := by
    unfold VibeCol.seekCur WM.fileOp at h
    dsimp only at h
    split at h
    · cases h
    · split at h
      · cases h
      · cases h; exact ⟨hp, List.prefix_refl _⟩
  other env w a w1 hp h env' w' hw := by
    unfold VibeCol.seekCur WM.fileOp at h ⊢
    obtain ⟨o, d, rfl⟩ := hw
    dsimp only at h ⊢
    split at h
    · cases h
    · rename_i hopen
      split at h
      · cases h
      · cases h
        rw [if_neg hopen]
        split
        · exact .inr ⟨_, _, rfl, List.prefix_refl _⟩
        · exact .inl ⟨_, rfl, _, _, rfl⟩

theorem fsync : Appends (VibeCol.fsync : WM B _) where
  done env w a w1 hp h := by
    unfold VibeCol.fsync at h
    dsimp only at h
    split at h
    · cases h
    · split at h
      · cases h
      · cases h; exact ⟨hp, List.prefix_refl _⟩
  other env w a w1 hp h env' w' hw := by
    unfold VibeCol.fsync at h ⊢
    obtain ⟨o, d, rfl⟩ := hw
    dsimp only at h ⊢
    split at h
    · cases h
    · rename_i hopen
      split at h
      · cases h
      · cases h
        rw [if_neg hopen]
        split
        · exact .inr ⟨_, _, rfl, List.prefix_refl _⟩
        · exact .inl ⟨_, rfl, _, _, rfl⟩

theorem fwrite (d : Bytes) : Appends (VibeCol.fwrite d : WM B _) where
  done env w a w1 hp h := by
    unfold VibeCol.fwrite at h
    dsimp only at h
    split at h
    · cases h
    · split at h
      · cases h
      · cases h
        dsimp only
        rw [hp, writeAt_end]
        exact ⟨(List.length_append).symm, List.prefix_append _ _⟩
  other env w a w1 hp h env' w' hw := by
    unfold VibeCol.fwrite at h ⊢
    obtain ⟨o, ds, rfl⟩ := hw
    dsimp only at h ⊢
    split at h
    · cases h
    · rename_i hopen
      split at h
      · cases h
      · cases h
        rw [if_neg hopen]
        split
        · refine .inr ⟨_, _, rfl, ?_⟩
          dsimp only
          rw [hp, writeAt_end, writeAt_end]
          exact (List.prefix_append_right_inj _).2 (List.take_prefix _ _)
        · exact .inl ⟨_, rfl, _, _, rfl⟩

theorem fwriteAll (ds : List Bytes) : Appends (VibeCol.fwriteAll ds : WM B _) := by
  induction ds with
  | nil => exact pure 0
  | cons d ds ih =>
    unfold VibeCol.fwriteAll
    exact bind (fwrite d) fun _ => bind ih fun _ => pure _

theorem writeBlockFooters (es : List FooterEntry) : Appends (VibeCol.writeBlockFooters es : WM B _) := by
  induction es with
  | nil => exact pure _
  | cons e es ih =>
    unfold VibeCol.writeBlockFooters VibeCol.writeBlockFooter
    exact bind (bind seekCur fun _ => bind (fwriteAll _) fun _ => bind seekCur fun _ => ite (throw _) (pure _)) fun _ => ih

end Appends

variable [Bitmap B]

/-- `Finalize` up to the `Seek` to the end after rewriting the header. -/
def front : WM B (Writer B) := do
  let (bitmapOffset, bitmapSize) ← writeGlobalIDBitmap
  let _ ← seekStart
  let t ← now
  let w ← WM.get
  let header := { newFileHeader t (UInt64.ofNat w.blockCount) w.blockSizeTarget w.encodingType with
    bitmapOffset := UInt64.ofNat bitmapOffset
    bitmapSize := UInt64.ofNat bitmapSize }
  let _ ← fwriteAll header.fields
  let _ ← seekEnd
  pure w

/-- The rest of `Finalize`. -/
def back (w : Writer B) : WM B Unit := do
  let currentPos ← seekCur
  let padding := calculatePadding currentPos pageSize
  if padding > 0 then
    let _ ← fwrite (List.replicate padding 0)
  let footerStart ← seekCur
  let _ ← fwrite (le32 (UInt32.ofNat w.blockCount))
  if w.blockCount > 0 then
    if w.blockPositions.length ≠ w.blockCount then WM.throw .positionTracking
    else writeBlockFooters w.entries
  let footerEnd ← seekCur
  let footerSize := footerEnd - footerStart
  let _ ← fwriteAll [le64 (UInt64.ofNat footerSize), le64 0, le64 magicNumber]
  let footerMetaEnd ← seekCur
  if footerMetaEnd - footerEnd ≠ 24 then WM.throw .footerSizeMismatch else
  if footerMetaEnd - footerStart ≠ footerSize + 24 then WM.throw .footerSizeMismatch else
  fsync

theorem bind_assoc' {γ : Type} (m : WM B α) (f : α → WM B β) (g : β → WM B γ) : (m >>= f) >>= g = m >>= fun a => f a >>= g := by
  funext env w
  simp only [WM.bind_def]
  rcases m env w with ⟨r, w1⟩
  cases r <;> rfl

theorem pure_bind' (a : α) (f : α → WM B β) : (pure a >>= f) = f a := rfl

theorem finalize_split : (finalize : WM B Unit) = front >>= back := by
  unfold front
  simp only [bind_assoc', pure_bind']
  rfl

theorem front_crashable : Crashable (front : WM B _) := by
  unfold front writeGlobalIDBitmap
  refine .bind (.bind .seekCur fun _ => .bind .get fun _ => .bind (.fwrite _) fun _ => .bind (.fwrite _) fun _ =>
    .bind .seekCur fun _ => .pure _) fun x => ?_
  obtain ⟨a, b⟩ := x
  exact .bind .seekStart fun _ => .bind .now fun _ => .bind .get fun _ => .bind (.fwriteAll _) fun _ => .bind .seekEnd fun _ => .pure _

theorem back_appends (w : Writer B) : Appends (back w) := by
  unfold back
  refine .bind .seekCur fun _ => ?_
  have tail : ∀ fs : Nat, Appends (do
      let footerEnd ← VibeCol.seekCur (B := B)
      let footerSize := footerEnd - fs
      let _ ← VibeCol.fwriteAll [le64 (UInt64.ofNat footerSize), le64 0, le64 magicNumber]
      let footerMetaEnd ← VibeCol.seekCur
      if footerMetaEnd - footerEnd ≠ 24 then WM.throw .footerSizeMismatch else
      if footerMetaEnd - fs ≠ footerSize + 24 then WM.throw .footerSizeMismatch else
      VibeCol.fsync) := fun fs =>
    .bind .seekCur fun _ => .bind (.fwriteAll _) fun _ => .bind .seekCur fun _ => .ite (.throw _) (.ite (.throw _) .fsync)
  have mid : Appends (do
      let footerStart ← VibeCol.seekCur (B := B)
      let _ ← VibeCol.fwrite (le32 (UInt32.ofNat w.blockCount))
      if w.blockCount > 0 then
        if w.blockPositions.length ≠ w.blockCount then WM.throw .positionTracking
        else VibeCol.writeBlockFooters w.entries
      let footerEnd ← VibeCol.seekCur
      let footerSize := footerEnd - footerStart
      let _ ← VibeCol.fwriteAll [le64 (UInt64.ofNat footerSize), le64 0, le64 magicNumber]
      let footerMetaEnd ← VibeCol.seekCur
      if footerMetaEnd - footerEnd ≠ 24 then WM.throw .footerSizeMismatch else
      if footerMetaEnd - footerStart ≠ footerSize + 24 then WM.throw .footerSizeMismatch else
      VibeCol.fsync) :=
    .bind .seekCur fun _ => .bind (.fwrite _) fun _ =>
      .ite (.ite (.bind (.throw _) fun _ => tail _) (.bind (.writeBlockFooters _) fun _ => tail _)) (tail _)
  exact .ite (.bind (.fwrite _) fun _ => mid) mid

theorem back_crashable (w : Writer B) : Crashable (back w) := by
  unfold back
  refine .bind .seekCur fun _ => ?_
  have tail : ∀ fs : Nat, Crashable (do
      let footerEnd ← VibeCol.seekCur (B := B)
      let footerSize := footerEnd - fs
      let _ ← VibeCol.fwriteAll [le64 (UInt64.ofNat footerSize), le64 0, le64 magicNumber]
      let footerMetaEnd ← VibeCol.seekCur
      if footerMetaEnd - footerEnd ≠ 24 then WM.throw .footerSizeMismatch else
      if footerMetaEnd - fs ≠ footerSize + 24 then WM.throw .footerSizeMismatch else
      VibeCol.fsync) := fun fs =>
    .bind .seekCur fun _ => .bind (.fwriteAll _) fun _ => .bind .seekCur fun _ => .ite (.throw _) (.ite (.throw _) .fsync)
  have mid : Crashable (do
      let footerStart ← VibeCol.seekCur (B := B)
      let _ ← VibeCol.fwrite (le32 (UInt32.ofNat w.blockCount))
      if w.blockCount > 0 then
        if w.blockPositions.length ≠ w.blockCount then WM.throw .positionTracking
        else VibeCol.writeBlockFooters w.entries
      let footerEnd ← VibeCol.seekCur
      let footerSize := footerEnd - footerStart
      let _ ← VibeCol.fwriteAll [le64 (UInt64.ofNat footerSize), le64 0, le64 magicNumber]
      let footerMetaEnd ← VibeCol.seekCur
      if footerMetaEnd - footerEnd ≠ 24 then WM.throw .footerSizeMismatch else
      if footerMetaEnd - footerStart ≠ footerSize + 24 then WM.throw .footerSizeMismatch else
      VibeCol.fsync) :=
    .bind .seekCur fun _ => .bind (.fwrite _) fun _ =>
      .ite (.ite (.bind (.throw _) fun _ => tail _) (.bind (.writeBlockFooters _) fun _ => tail _)) (tail _)
  exact .ite (.bind (.fwrite _) fun _ => mid) mid

/-- A program that, if it succeeds, appends at least `c` bytes. -/
def Gains (c : Nat) (m : WM B α) : Prop := ∀ env w a w1, w.file.pos = w.file.bytes.length → m env w = (.ok a, w1) →
  w.file.bytes.length + c ≤ w1.file.bytes.length

theorem gains_first {c : Nat} {m : WM B α} {f : α → WM B β} (ha : Appends m) (hm : Gains c m) (hf : ∀ a, Appends (f a)) : Gains c (m >>= f) := by
  intro env w b w2 hp h
  rw [WM.bind_def] at h
  rcases hr : m env w with ⟨r, w1⟩
  rw [hr] at h
  cases r with
  | error e => cases h
  | ok a =>
    have := ((hf a).done env w1 b w2 (ha.done env w a w1 hp hr).1 h).2.length_le
    have := hm env w a w1 hp hr
    omega

theorem gains_later {c : Nat} {m : WM B α} {f : α → WM B β} (ha : Appends m) (hf : ∀ a, Gains c (f a)) : Gains c (m >>= f) := by
  intro env w b w2 hp h
  rw [WM.bind_def] at h
  rcases hr : m env w with ⟨r, w1⟩
  rw [hr] at h
  cases r with
  | error e => cases h
  | ok a =>
    obtain ⟨h1, h2⟩ := ha.done env w a w1 hp hr
    have := hf a env w1 b w2 h1 h
    have := h2.length_le
    omega

theorem gains_fwrite (d : Bytes) : Gains d.length (VibeCol.fwrite d : WM B _) := by
  intro env w a w1 hp h
  unfold VibeCol.fwrite at h
  dsimp only at h
  split at h
  · cases h
  · split at h
    · cases h
    · cases h
      dsimp only
      rw [hp, writeAt_end, List.length_append]
      exact Nat.le_refl _

theorem gains_ite {c : Nat} {p : Prop} [Decidable p] {a b : WM B α} (ha : Gains c a) (hb : Gains c b) : Gains c (if p then a else b) := by
  split <;> assumption

theorem back_gains (w : Writer B) : Gains 4 (back w) := by
  unfold back
  refine gains_later .seekCur fun _ => ?_
  have tail : ∀ fs : Nat, Appends (do
      let footerEnd ← VibeCol.seekCur (B := B)
      let footerSize := footerEnd - fs
      let _ ← VibeCol.fwriteAll [le64 (UInt64.ofNat footerSize), le64 0, le64 magicNumber]
      let footerMetaEnd ← VibeCol.seekCur
      if footerMetaEnd - footerEnd ≠ 24 then WM.throw .footerSizeMismatch else
      if footerMetaEnd - fs ≠ footerSize + 24 then WM.throw .footerSizeMismatch else
      VibeCol.fsync) := fun fs =>
    .bind .seekCur fun _ => .bind (.fwriteAll _) fun _ => .bind .seekCur fun _ => .ite (.throw _) (.ite (.throw _) .fsync)
  have mid : Gains 4 (do
      let footerStart ← VibeCol.seekCur (B := B)
      let _ ← VibeCol.fwrite (le32 (UInt32.ofNat w.blockCount))
      if w.blockCount > 0 then
        if w.blockPositions.length ≠ w.blockCount then WM.throw .positionTracking
        else VibeCol.writeBlockFooters w.entries
      let footerEnd ← VibeCol.seekCur
      let footerSize := footerEnd - footerStart
      let _ ← VibeCol.fwriteAll [le64 (UInt64.ofNat footerSize), le64 0, le64 magicNumber]
      let footerMetaEnd ← VibeCol.seekCur
      if footerMetaEnd - footerEnd ≠ 24 then WM.throw .footerSizeMismatch else
      if footerMetaEnd - footerStart ≠ footerSize + 24 then WM.throw .footerSizeMismatch else
      VibeCol.fsync) :=
    gains_later .seekCur fun _ => gains_first (.fwrite _) (gains_fwrite (le32 (UInt32.ofNat w.blockCount))) fun _ =>
      .ite (.ite (.bind (.throw _) fun _ => tail _) (.bind (.writeBlockFooters _) fun _ => tail _)) (tail _)
  exact gains_ite (gains_later (.fwrite _) fun _ => mid) mid

/-- A program after which, if it succeeds, the cursor is at the end of the file. -/
def AtEnd (m : WM B α) : Prop := ∀ env w a w1, m env w = (.ok a, w1) → w1.file.pos = w1.file.bytes.length

theorem atEnd_bind {m : WM B α} {f : α → WM B β} (hf : ∀ a, AtEnd (f a)) : AtEnd (m >>= f) := by
  intro env w b w2 h
  rw [WM.bind_def] at h
  rcases hr : m env w with ⟨r, w1⟩
  rw [hr] at h
  cases r with
  | error e => cases h
  | ok a => exact hf a env w1 b w2 h

theorem front_atEnd : AtEnd (front : WM B _) := by
  unfold front
  refine atEnd_bind fun x => ?_
  obtain ⟨a, b⟩ := x
  refine atEnd_bind fun _ => atEnd_bind fun _ => atEnd_bind fun _ => atEnd_bind fun _ => ?_
  intro env w a w1 h
  rw [WM.bind_def] at h
  unfold VibeCol.seekEnd WM.fileOp at h
  dsimp only at h
  split at h
  · rename_i heq
    cases h
    split at heq
    · cases heq
    · split at heq
      · cases heq
      · cases heq
        rfl
  · cases h

/-- A crash during `Finalize` that leaves a file as long as the complete one leaves the complete one. -/
theorem finalize_full {env : Env} (hq : env.NoFault) {w w2 : Writer B} (h2 : finalize env w = (.ok (), w2)) {n k : Nat}
    (hlen : (finalize (env.crashAt n k) w).2.file.bytes.length = w2.file.bytes.length) :
    (finalize (env.crashAt n k) w).2.file.bytes = w2.file.bytes := by
  have hcr := Crashable.finalize (B := B)
  rw [finalize_split] at h2 hlen ⊢
  rw [WM.bind_def] at h2
  rcases hf : front env w with ⟨r, w1⟩
  rw [hf] at h2
  cases r with
  | error e => cases h2
  | ok a =>
    have h2 : back a env w1 = (.ok (), w2) := h2
    have hend := front_atEnd env w a w1 hf
    have hlong : w1.file.bytes.length + 4 ≤ w2.file.bytes.length := back_gains a env w1 () w2 hend h2
    have hgrow := front_crashable.grow env w
    rw [hf] at hgrow
    dsimp only at hgrow
    by_cases hn : n < w1.opNo
    · exfalso
      have key : ∃ wc, (front (env.crashAt n k) w).2 = wc ∧ wc.file.bytes.length ≤ w1.file.bytes.length ∧ Dead (env.crashAt n k) wc := by
        by_cases hn0 : n < w.opNo
        · have hd := dead_crashAt env n k w hn0
          refine ⟨_, rfl, ?_, dead_mono hd (front_crashable.count _ _)⟩
          rw [front_crashable.dead _ _ hd]
          exact hgrow
        · have := front_crashable.crash env w n k (Nat.le_of_not_lt hn0) (by rw [hf]; exact hn) hq
          rw [hf] at this
          exact ⟨_, rfl, this.1, dead_crashAt env n k _ this.2⟩
      obtain ⟨wc, hwc, hle, hd⟩ := key
      rw [WM.bind_def] at hlen
      rcases hfc : front (env.crashAt n k) w with ⟨rc, wc'⟩
      rw [hfc] at hwc hlen
      dsimp only at hwc
      subst hwc
      cases rc with
      | error e => dsimp only at hlen; omega
      | ok a' =>
        dsimp only at hlen
        rw [(back_crashable a').dead _ _ hd] at hlen
        omega
    · have hag : front (env.crashAt n k) w = (.ok a, w1) := by
        rw [front_crashable.agree_crashAt env w n k (by rw [hf]; exact Nat.le_of_not_lt hn), hf]
      have hbind : (front >>= back : WM B Unit) (env.crashAt n k) w = back a (env.crashAt n k) w1 := by
        rw [WM.bind_def, hag]
      rw [hbind] at hlen ⊢
      rcases (back_appends a).other env w1 () w2 hend h2 (env.crashAt n k) w1 (.refl w1) with ⟨w1', h3, o, d, h4⟩ | ⟨e, w1', h3, h4⟩
      · rw [h3, h4]
      · rw [h3] at hlen ⊢
        exact h4.eq_of_length hlen

end VibeCol.Prefix
