/-
Power failures during `Finalize`: what the writes since the last `Sync` can have done to the header.
-/
import Verif.Lemmas.Power
namespace VibeCol
set_option linter.unusedSectionVars false
variable {B α β : Type} [Bitmap B]

/-- Unsynced writes to the first 64 bytes are still visible in the file; `s` is what was synced. -/
structure Low (s : Bytes) (w : Writer B) : Prop where
  synced : w.disk.synced = s
  low : ∀ p ∈ w.disk.unsynced, ∀ j b, p.1 + j < 64 → p.2[j]? = some b → w.file.bytes[p.1 + j]? = some b

/-- There are no unsynced writes to the first 64 bytes, and the cursor is behind them. -/
structure LowA (s : Bytes) (w : Writer B) : Prop where
  synced : w.disk.synced = s
  high : ∀ p ∈ w.disk.unsynced, 64 ≤ p.1
  pos : 64 ≤ w.file.pos
  len : 64 ≤ w.file.bytes.length

/-- Unsynced writes to the first 64 bytes end before the cursor and are visible. -/
structure LowH (s : Bytes) (n : Nat) (w : Writer B) : Prop where
  synced : w.disk.synced = s
  done : ∀ p ∈ w.disk.unsynced, 64 ≤ p.1 ∨
    (p.1 + p.2.length ≤ w.file.pos ∧ ∀ j b, p.2[j]? = some b → w.file.bytes[p.1 + j]? = some b)
  pos : w.file.pos + n ≤ 64
  len : 64 ≤ w.file.bytes.length

/-- As `Low`, with the cursor behind the first 64 bytes. -/
structure LowC (s : Bytes) (w : Writer B) : Prop extends Low s w where
  pos : 64 ≤ w.file.pos
  len : 64 ≤ w.file.bytes.length

variable {s : Bytes} {env : Env} {w : Writer B} {n : Nat} {E : Err → Writer B → Prop}

theorem LowA.toLow (h : LowA s w) : Low s w :=
  ⟨h.synced, fun p hp j b hj _ => by have := h.high p hp; omega⟩

theorem LowH.toLow (h : LowH s n w) : Low s w :=
  ⟨h.synced, fun p hp j b hj hb => by
    rcases h.done p hp with h' | ⟨_, h'⟩
    · omega
    · exact h' j b hb⟩

theorem LowA.of_eq {w' : Writer B} (h : LowA s w) (h1 : w'.file.bytes = w.file.bytes) (h3 : 64 ≤ w'.file.pos)
    (h2 : w'.disk = w.disk) : LowA s w' :=
  ⟨h2 ▸ h.synced, h2 ▸ h.high, h3, h1 ▸ h.len⟩

theorem LowC.of_eq {w' : Writer B} (h : LowC s w) (h1 : w'.file.bytes = w.file.bytes) (h3 : 64 ≤ w'.file.pos)
    (h2 : w'.disk = w.disk) : LowC s w' :=
  ⟨⟨h2 ▸ h.synced, by rw [h1, h2]; exact h.low⟩, h3, h1 ▸ h.len⟩

theorem LowH.of_eq {w' : Writer B} (h : LowH s n w) (h1 : w'.file = w.file) (h2 : w'.disk = w.disk) : LowH s n w' :=
  ⟨h2 ▸ h.synced, by rw [h1, h2]; exact h.done, by rw [h1]; exact h.pos, by rw [h1]; exact h.len⟩

theorem LowA.write (h : LowA s w) (d : Bytes) (o : Nat) :
    LowA s { w with
      opNo := o
      file := { bytes := writeAt w.file.bytes w.file.pos d, pos := w.file.pos + d.length }
      disk := { w.disk with unsynced := w.disk.unsynced ++ [(w.file.pos, d)] } } where
  synced := h.synced
  high p hp := by
    rcases List.mem_append.mp hp with hp | hp
    · exact h.high p hp
    · rw [List.mem_singleton] at hp; subst hp; exact h.pos
  pos := by have := h.pos; show 64 ≤ w.file.pos + d.length; omega
  len := Nat.le_trans h.len (writeAt_length_ge _ _ _)

theorem LowC.write (h : LowC s w) (d : Bytes) (o : Nat) :
    LowC s { w with
      opNo := o
      file := { bytes := writeAt w.file.bytes w.file.pos d, pos := w.file.pos + d.length }
      disk := { w.disk with unsynced := w.disk.unsynced ++ [(w.file.pos, d)] } } where
  synced := h.synced
  low p hp j b hj hb := by
    have h1 := h.pos
    have h2 := h.len
    rcases List.mem_append.mp hp with hp | hp
    · rw [← h.low p hp j b hj hb]
      exact writeAt_below _ _ _ _ (by omega) (by omega)
    · rw [List.mem_singleton] at hp; subst hp; dsimp only at hj; omega
  pos := by have := h.pos; show 64 ≤ w.file.pos + d.length; omega
  len := Nat.le_trans h.len (writeAt_length_ge _ _ _)

theorem writeAt_inside (b d : Bytes) (p j : Nat) (x : UInt8) (hp : p ≤ b.length) (hj : d[j]? = some x) :
    (writeAt b p d)[p + j]? = some x := by
  cases d with
  | nil => simp at hj
  | cons y ys =>
    obtain ⟨hlt, _⟩ := List.getElem?_eq_some_iff.mp hj
    unfold writeAt
    dsimp only
    have hr : p - b.length = 0 := by omega
    rw [hr, List.replicate_zero, List.append_nil, List.append_assoc,
      List.getElem?_append_right (by rw [List.length_take]; omega), List.length_take,
      Nat.min_eq_left hp, Nat.add_sub_cancel_left, List.getElem?_append_left hlt]
    exact hj

theorem LowH.write {m : Nat} (h : LowH s m w) (d : Bytes) (o : Nat) (hm : n + d.length ≤ m) :
    LowH s n { w with
      opNo := o
      file := { bytes := writeAt w.file.bytes w.file.pos d, pos := w.file.pos + d.length }
      disk := { w.disk with unsynced := w.disk.unsynced ++ [(w.file.pos, d)] } } where
  synced := h.synced
  done p hp := by
    have h1 := h.pos
    have h2 := h.len
    rcases List.mem_append.mp hp with hp | hp
    · rcases h.done p hp with h' | ⟨h', h''⟩
      · exact .inl h'
      · refine .inr ⟨by show _ ≤ w.file.pos + d.length; omega, fun j b hb => ?_⟩
        obtain ⟨hlt, _⟩ := List.getElem?_eq_some_iff.mp hb
        rw [← h'' j b hb]
        exact writeAt_below _ _ _ _ (by omega) (by omega)
    · rw [List.mem_singleton] at hp
      subst hp
      exact .inr ⟨Nat.le_refl _, fun j b hb => writeAt_inside _ _ _ _ _ (by omega) hb⟩
  pos := by have := h.pos; show w.file.pos + d.length + n ≤ 64; omega
  len := Nat.le_trans h.len (writeAt_length_ge _ _ _)

theorem la_fwrite {d : Bytes} {Q : Nat → Writer B → Prop} (h : LowA s w)
    (hok : ∀ w', LowA s w' → Q d.length w') (hio : ∀ w', LowA s w' → E .io w') :
    wp (fwrite d : WM B Nat) Q E env w := by
  unfold wp fwrite
  by_cases hc : w.fileOpen = false
  · simp only [hc, if_true]
    exact hio _ (h.of_eq rfl h.pos rfl)
  · simp only [if_neg hc]
    rcases hf : env.fault w.opNo with _ | k
    · exact hok _ (h.write d _)
    · exact hio _ (h.write (d.take k) _)

theorem lc_fwrite {d : Bytes} {Q : Nat → Writer B → Prop} (h : LowC s w)
    (hok : ∀ w', LowC s w' → Q d.length w') (hio : ∀ w', LowC s w' → E .io w') :
    wp (fwrite d : WM B Nat) Q E env w := by
  unfold wp fwrite
  by_cases hc : w.fileOpen = false
  · simp only [hc, if_true]
    exact hio _ (h.of_eq rfl h.pos rfl)
  · simp only [if_neg hc]
    rcases hf : env.fault w.opNo with _ | k
    · exact hok _ (h.write d _)
    · exact hio _ (h.write (d.take k) _)

theorem lc_fwriteAll {ds : List Bytes} {Q : Nat → Writer B → Prop} (h : LowC s w)
    (hok : ∀ a w', LowC s w' → Q a w') (hio : ∀ w', LowC s w' → E .io w') :
    wp (fwriteAll ds : WM B Nat) Q E env w := by
  induction ds generalizing w Q with
  | nil => exact hok _ _ h
  | cons d ds ih =>
    unfold fwriteAll
    refine wp_bind (lc_fwrite h (fun w1 h1 => ?_) hio)
    exact wp_bind (ih h1 (fun a w2 h2 => wp_pure (hok _ _ h2)))

theorem lc_seekCur {Q : Nat → Writer B → Prop} (h : LowC s w)
    (hok : ∀ a w', LowC s w' → Q a w') (hio : ∀ w', LowC s w' → E .io w') :
    wp (seekCur : WM B Nat) Q E env w :=
  wp_seekCur (fun _ _ => hok _ _ (h.of_eq rfl h.pos rfl)) (fun _ _ => hio _ (h.of_eq rfl h.pos rfl))

theorem la_seekCur {Q : Nat → Writer B → Prop} (h : LowA s w)
    (hok : ∀ a w', LowA s w' → Q a w') (hio : ∀ w', LowA s w' → E .io w') :
    wp (seekCur : WM B Nat) Q E env w :=
  wp_seekCur (fun _ _ => hok _ _ (h.of_eq rfl h.pos rfl)) (fun _ _ => hio _ (h.of_eq rfl h.pos rfl))

theorem lh_fwrite {m : Nat} {d : Bytes} {Q : Nat → Writer B → Prop} (h : LowH s m w) (hm : m = n + d.length)
    (hok : ∀ w', LowH s n w' → Q d.length w') (hio : ∀ w', Low s w' → E .io w') :
    wp (fwrite d : WM B Nat) Q E env w := by
  unfold wp fwrite
  by_cases hc : w.fileOpen = false
  · simp only [hc, if_true]
    exact hio _ (LowH.toLow (h.of_eq rfl rfl))
  · simp only [if_neg hc]
    rcases hf : env.fault w.opNo with _ | k
    · exact hok _ (h.write d _ (by omega))
    · exact hio _ (LowH.toLow (n := n) (h.write (d.take k) _ (by rw [List.length_take]; omega)))

theorem lh_fwriteAll {ds : List Bytes} {m : Nat} {Q : Nat → Writer B → Prop} (h : LowH s m w)
    (hm : m = n + ds.flatten.length) (hok : ∀ a w', LowH s n w' → Q a w') (hio : ∀ w', Low s w' → E .io w') :
    wp (fwriteAll ds : WM B Nat) Q E env w := by
  induction ds generalizing w m Q with
  | nil =>
    refine hok _ _ ?_
    rw [List.flatten_nil, List.length_nil, Nat.add_zero] at hm
    exact hm ▸ h
  | cons d ds ih =>
    unfold fwriteAll
    rw [List.flatten_cons, List.length_append] at hm
    refine wp_bind (lh_fwrite (n := n + ds.flatten.length) h (by omega) (fun w1 h1 => ?_) hio)
    exact wp_bind (ih h1 rfl (fun a w2 h2 => wp_pure (hok _ _ h2)))

theorem writeBlockFooters_low (es : List FooterEntry) (h : LowC s w) :
    wp (writeBlockFooters es : WM B Unit) (fun _ w' => LowC s w') (fun _ w' => Low s w') env w := by
  induction es generalizing w with
  | nil => exact h
  | cons e es ih =>
    unfold writeBlockFooters writeBlockFooter
    refine wp_bind ?_
    refine wp_bind (lc_seekCur h (fun a w1 h1 => ?_) (fun _ h => h.toLow))
    refine wp_bind (lc_fwriteAll h1 (fun a w2 h2 => ?_) (fun _ h => h.toLow))
    refine wp_bind (lc_seekCur h2 (fun a w3 h3 => ?_) (fun _ h => h.toLow))
    exact wp_ite (fun _ => wp_throw h3.toLow) fun _ => wp_pure (ih h3)

/-- A `Finalize` that fails leaves the synced contents alone, and its writes to the header are visible in
the file. -/
theorem finalize_low (h : LowA s w) :
    wp finalize (fun _ _ => True) (fun _ w' => Low s w') env w := by
  unfold finalize writeGlobalIDBitmap
  refine wp_bind (wp_bind (la_seekCur h (fun a w1 h1 => ?_) (fun _ h => h.toLow)))
  refine wp_bind (wp_get ?_)
  refine wp_bind (la_fwrite h1 (fun w2 h2 => ?_) (fun _ h => h.toLow))
  refine wp_bind (la_fwrite h2 (fun w3 h3 => ?_) (fun _ h => h.toLow))
  refine wp_bind (la_seekCur h3 (fun s' w4 h4 => wp_pure ?_) (fun _ h => h.toLow))
  dsimp only
  refine wp_bind (wp_seekStart (fun o _ => ?_) (fun o _ => LowA.toLow (h4.of_eq rfl h4.pos rfl)))
  have h5 : LowH s 64 { w4 with opNo := o, file := { w4.file with pos := 0 } } :=
    ⟨h4.synced, fun p hp => .inl (h4.high p hp), by show 0 + 64 ≤ 64; omega, h4.len⟩
  generalize { w4 with opNo := o, file := { w4.file with pos := 0 } } = w5 at h5 ⊢
  refine wp_bind (wp_now fun t => wp_bind (wp_get ?_))
  refine wp_bind (lh_fwriteAll (n := 4) h5 (by
    simp only [FileHeader.fields, List.flatten_cons, List.flatten_nil, List.length_append, le64_length, le32_length,
      List.length_nil]) (fun _ w6 h6 => ?_) (fun _ h => h))
  refine wp_bind (wp_seekEnd (fun o _ => ?_) (fun o _ => LowH.toLow (h6.of_eq rfl rfl)))
  have h7 : LowC s { w6 with opNo := o, file := { w6.file with pos := w6.file.bytes.length } } :=
    ⟨⟨h6.synced, h6.toLow.low⟩, h6.len, h6.len⟩
  generalize { w6 with opNo := o, file := { w6.file with pos := w6.file.bytes.length } } = w7 at h7 ⊢
  refine wp_bind (lc_seekCur h7 (fun p w8 h8 => ?_) (fun _ h => h.toLow))
  have tail : ∀ (fs : Nat) (w : Writer B), LowC s w → wp (do
      let footerEnd ← seekCur
      let footerSize := footerEnd - fs
      let _ ← fwriteAll [le64 (UInt64.ofNat footerSize), le64 0, le64 magicNumber]
      let footerMetaEnd ← seekCur
      if footerMetaEnd - footerEnd ≠ 24 then WM.throw .footerSizeMismatch else
      if footerMetaEnd - fs ≠ footerSize + 24 then WM.throw .footerSizeMismatch else
      fsync : WM B Unit) (fun _ _ => True) (fun _ w' => Low s w') env w := by
    intro fs w h
    refine wp_bind (lc_seekCur h (fun p w1 h1 => ?_) (fun _ h => h.toLow))
    refine wp_bind (lc_fwriteAll h1 (fun _ w2 h2 => ?_) (fun _ h => h.toLow))
    refine wp_bind (lc_seekCur h2 (fun p w3 h3 => ?_) (fun _ h => h.toLow))
    exact wp_ite (fun _ => wp_throw h3.toLow) fun _ => wp_ite (fun _ => wp_throw h3.toLow) fun _ =>
      wp_fsync (fun _ _ _ => trivial) (fun _ _ => LowC.toLow (h3.of_eq rfl h3.pos rfl))
  have rest : ∀ (w8 : Writer B), LowC s w8 → wp (do
      let footerStart ← seekCur
      let _ ← fwrite (le32 (UInt32.ofNat w5.blockCount))
      if w5.blockCount > 0 then
        if w5.blockPositions.length ≠ w5.blockCount then WM.throw .positionTracking
        else writeBlockFooters w5.entries
      let footerEnd ← seekCur
      let footerSize := footerEnd - footerStart
      let _ ← fwriteAll [le64 (UInt64.ofNat footerSize), le64 0, le64 magicNumber]
      let footerMetaEnd ← seekCur
      if footerMetaEnd - footerEnd ≠ 24 then WM.throw .footerSizeMismatch else
      if footerMetaEnd - footerStart ≠ footerSize + 24 then WM.throw .footerSizeMismatch else
      fsync : WM B Unit) (fun _ _ => True) (fun _ w' => Low s w') env w8 := by
    intro w8 h8
    refine wp_bind (lc_seekCur h8 (fun fs w9 h9 => ?_) (fun _ h => h.toLow))
    refine wp_bind (lc_fwrite h9 (fun w10 h10 => ?_) (fun _ h => h.toLow))
    dsimp only
    split
    · split
      · exact wp_bind (wp_throw h10.toLow)
      · exact wp_bind (wp_mono (writeBlockFooters_low _ h10) (fun _ w11 h11 => tail fs w11 h11) (fun _ _ h => h))
    · exact tail fs w10 h10
  split
  · refine wp_bind (lc_fwrite h8 (fun w9 h9 => ?_) (fun _ h => h.toLow))
    exact rest w9 h9
  · exact rest w8 h8

end VibeCol
