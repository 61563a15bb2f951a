/-
Exact effect of `Finalize` on the file, for every fault schedule.
-/
import Verif.Lemmas.WriteInternal
namespace VibeCol
variable {B : Type} [Bitmap B]

/-- Bytes of the bitmap record: size and buffer. -/
def bitmapBytes (w : Writer B) : Bytes :=
  le32 (UInt32.ofNat (Bitmap.toBuffer w.globalIDs).length) ++ Bitmap.toBuffer w.globalIDs

/-- The header `Finalize` writes at clock value `t`. -/
def finHeader (t : UInt64) (w : Writer B) : FileHeader :=
  { newFileHeader t (UInt64.ofNat w.blockCount) w.blockSizeTarget w.encodingType with
    bitmapOffset := UInt64.ofNat w.file.pos
    bitmapSize := UInt64.ofNat (bitmapBytes w).length }

/-- Bytes of an index entry. -/
def entryBytes (e : FooterEntry) : Bytes := e.fields.flatten

@[simp] theorem entryBytes_length (e : FooterEntry) : (entryBytes e).length = 56 := by
  simp [entryBytes, FooterEntry.fields]

theorem headerFields_length (h : FileHeader) : h.fields.flatten.length = 60 := by
  simp [FileHeader.fields]

/-- Contents once the bitmap is appended. -/
def phase1 (w : Writer B) : Bytes := w.file.bytes.take w.file.pos ++ bitmapBytes w

/-- Contents once the header is rewritten. -/
def phase2 (t : UInt64) (w : Writer B) : Bytes :=
  (finHeader t w).fields.flatten ++ (phase1 w).drop 60

/-- Zero bytes in front of the footer. -/
def footPad (w : Writer B) : Bytes :=
  List.replicate (calculatePadding (phase1 w).length pageSize) 0

/-- Bytes of all index entries. -/
def indexBytes (w : Writer B) : Bytes := (w.entries.map entryBytes).flatten

/-- Count and index. -/
def footBytes (w : Writer B) : Bytes :=
  le32 (UInt32.ofNat w.blockCount) ++ (if w.blockCount > 0 then indexBytes w else [])

/-- The 24 bytes at the end. -/
def metaBytes (footerSize : Nat) : Bytes :=
  le64 (UInt64.ofNat footerSize) ++ le64 0 ++ le64 magicNumber

/-- Everything appended after the header rewrite. -/
def tailBytes (w : Writer B) : Bytes :=
  footPad w ++ footBytes w ++ metaBytes (footBytes w).length

/-- Contents of a finalized file. -/
def finalBytes (t : UInt64) (w : Writer B) : Bytes := phase2 t w ++ tailBytes w

/-- The file states in which `Finalize` may fail. -/
inductive FinErr (env : Env) (w : Writer B) : Err → File → Prop where
  /-- While appending the bitmap (cursor still at the end of the data). -/
  | bitmap (k : Nat) (hF : Faulty env w) : FinErr env w .io (w.file.put ((bitmapBytes w).take k))
  /-- While rewriting the header (cursor inside the header). -/
  | header (t : UInt64) (k : Nat) (hF : Faulty env w) :
      FinErr env w .io { bytes := writeAt (phase1 w) 0 ((finHeader t w).fields.flatten.take k)
                         pos := ((finHeader t w).fields.flatten.take k).length }
  /-- While appending padding, index and metadata, or in the final `Sync`. -/
  | foot (t : UInt64) (k : Nat) (hF : Faulty env w)
      (hpos : w.blockCount = 0 ∨ w.blockPositions.length = w.blockCount ∨
        k ≤ (footPad w).length + 4) :
      FinErr env w .io { bytes := phase2 t w ++ (tailBytes w).take k
                         pos := (phase2 t w ++ (tailBytes w).take k).length }
  /-- The number of recorded positions is wrong. -/
  | tracking (t : UInt64) (h : 0 < w.blockCount ∧ w.blockPositions.length ≠ w.blockCount) :
      FinErr env w .positionTracking
        { bytes := phase2 t w ++ footPad w ++ le32 (UInt32.ofNat w.blockCount)
          pos := (phase2 t w ++ footPad w ++ le32 (UInt32.ofNat w.blockCount)).length }

theorem writeAt_zero_take (b d : Bytes) (_h : d.length ≤ b.length) :
    writeAt b 0 d = d ++ b.drop d.length := by
  rw [writeAt_eq _ _ _ (by omega)]; simp

theorem put_end (b d : Bytes) : File.put { bytes := b, pos := b.length } d =
    { bytes := b ++ d, pos := (b ++ d).length } := by
  simp [File.put, writeAt_end]

omit [Bitmap B] in
theorem st_writeBlockFooters {env : Env} {base w : Writer B} {E : Err → Writer B → Prop}
    {Q : Unit → Writer B → Prop} (es : List FooterEntry) (b : Bytes)
    (h : St base { bytes := b, pos := b.length } w)
    (hok : ∀ w', St base { bytes := b ++ (es.map entryBytes).flatten
                           pos := (b ++ (es.map entryBytes).flatten).length } w' → Q () w')
    (hio : ∀ w' k, St base { bytes := b ++ (es.map entryBytes).flatten.take k
                             pos := (b ++ (es.map entryBytes).flatten.take k).length } w' →
      Faulty env base → E .io w') :
    wp (writeBlockFooters es : WM B Unit) Q E env w := by
  induction es generalizing b w with
  | nil => exact wp_pure (hok w (by simpa using h))
  | cons e es ih =>
    unfold writeBlockFooters
    have hput : ∀ d, File.put { bytes := b, pos := b.length } d = _ := put_end b
    refine wp_bind ?_
    unfold writeBlockFooter
    refine wp_bind (st_seekCur h ?_ ?_)
    rotate_left
    · intro w' hs hF; exact hio w' 0 (by simpa using hs) hF
    clear h; intro w1 h _
    refine wp_bind (st_fwriteAll h (by simp) ?_ ?_)
    rotate_left
    · intro w' k hs hF
      rw [hput] at hs
      by_cases hk : k ≤ 56
      · refine hio w' k ?_ hF
        rw [List.map_cons, List.flatten_cons, List.take_append_of_le_length (by simpa using hk)]
        exact hs
      · refine hio w' 56 ?_ hF
        rw [List.map_cons, List.flatten_cons, List.take_append_of_le_length (by simp),
          List.take_of_length_le (by simp)]
        rw [List.take_of_length_le (by have := entryBytes_length e; unfold entryBytes at this; omega)] at hs
        exact hs
    clear h; intro w2 h
    rw [hput] at h
    refine wp_bind (st_seekCur h ?_ ?_)
    rotate_left
    · intro w' hs hF
      refine hio w' 56 ?_ hF
      rw [List.map_cons, List.flatten_cons, List.take_append_of_le_length (by simp),
          List.take_of_length_le (by simp)]
      exact hs
    clear h; intro w3 h _
    have hl : ({ bytes := b ++ e.fields.flatten, pos := (b ++ e.fields.flatten).length } : File).pos -
        ({ bytes := b, pos := b.length } : File).pos = 56 := by
      have := entryBytes_length e; unfold entryBytes at this
      simp only [List.length_append]; omega
    rw [hl]
    refine wp_ite (fun hc => absurd rfl hc) (fun _ => wp_pure ?_)
    refine ih (b ++ entryBytes e) h ?_ ?_
    · intro w' hs; refine hok w' ?_
      simpa [List.append_assoc] using hs
    · intro w' k hs hF
      refine hio w' (56 + k) ?_ hF
      rw [List.map_cons, List.flatten_cons, show 56 + k = (entryBytes e).length + k by simp,
        List.take_length_add_append]
      simpa [List.append_assoc] using hs

theorem take_append_take_ge {α : Type} (a b : List α) (k : Nat) :
    a ++ b.take k = (a ++ b).take (a.length + k) := by
  rw [List.take_length_add_append]

/-- Everything `Finalize` can do from a state whose cursor is at most four bytes before the
end of the file. -/
theorem finalize_spec (env : Env) (w : Writer B) (h64 : 64 ≤ w.file.pos)
    (hpos : w.file.pos ≤ w.file.bytes.length) (hnear : w.file.bytes.length ≤ w.file.pos + 4) :
    wp finalize
      (fun _ w' => w.fileOpen = true ∧ (w.blockCount = 0 ∨ w.blockPositions.length = w.blockCount) ∧
        ∃ t, St w { bytes := finalBytes t w, pos := (finalBytes t w).length } w')
      (fun e w' => ∃ f, FinErr env w e f ∧ St w f w') env w := by
  have hbl : 4 ≤ (bitmapBytes w).length := by simp [bitmapBytes]
  have hput1 : w.file.put (bitmapBytes w) = { bytes := phase1 w, pos := (phase1 w).length } := by
    simp only [File.put, writeAt_eq _ _ _ hpos, phase1, File.mk.injEq]
    rw [List.drop_eq_nil_of_le (by omega)]
    simp; omega
  have hl1 : (phase1 w).length = w.file.pos + (bitmapBytes w).length := by
    simp [phase1]; omega
  unfold finalize writeGlobalIDBitmap
  have hs := St.refl w
  refine wp_bind (wp_bind (st_seekCur hs ?_
    (fun w' h hF => ⟨_, .bitmap 0 hF, by simpa using h⟩)))
  clear hs; intro w1 hs hopen
  refine wp_bind (wp_get ?_)
  have hgl : w1.globalIDs = w.globalIDs := by obtain ⟨o, d, rfl⟩ := hs; rfl
  rw [hgl]
  refine wp_bind (st_fwrite hs ?_ ?_)
  rotate_left
  · intro w' k h hF
    by_cases hk : k ≤ 4
    · refine ⟨_, .bitmap k hF, ?_⟩
      rw [bitmapBytes, List.take_append_of_le_length (by simpa using hk)]; exact h
    · refine ⟨_, .bitmap 4 hF, ?_⟩
      rw [bitmapBytes, List.take_append_of_le_length (by simp), List.take_of_length_le (by simp)]
      rw [List.take_of_length_le (by simp; omega)] at h; exact h
  clear hs; intro w2 hs _
  refine wp_bind (st_fwrite hs ?_ ?_)
  rotate_left
  · intro w' k h hF
    refine ⟨_, .bitmap (4 + k) hF, ?_⟩
    rw [File.put_put _ _ _ hpos, take_append_take_ge] at h
    simpa [bitmapBytes] using h
  clear hs; intro w3 hs _
  rw [File.put_put _ _ _ hpos, show le32 _ ++ _ = bitmapBytes w from rfl, hput1] at hs
  have b1 : ∀ w', St w { bytes := phase1 w, pos := (phase1 w).length } w' → Faulty env w →
      ∃ f, FinErr env w .io f ∧ St w f w' := by
    intro w' h hF
    refine ⟨_, .bitmap (bitmapBytes w).length hF, ?_⟩
    rw [List.take_length, hput1]; exact h
  refine wp_bind (st_seekCur hs ?_ b1)
  clear hs; intro w4 hs _
  refine wp_pure ?_
  dsimp only
  refine wp_bind (st_seekStart hs ?_ b1)
  clear hs; intro w5 hs _
  refine wp_bind (wp_now ?_)
  intro t
  refine wp_bind (wp_get ?_)
  have hc5 : w5.blockCount = w.blockCount := by obtain ⟨o, d, rfl⟩ := hs; rfl
  have ht5 : w5.blockSizeTarget = w.blockSizeTarget := by obtain ⟨o, d, rfl⟩ := hs; rfl
  have hp5 : w5.blockPositions = w.blockPositions := by obtain ⟨o, d, rfl⟩ := hs; rfl
  have he5 : w5.entries = w.entries := by obtain ⟨o, d, rfl⟩ := hs; rfl
  rw [hc5, ht5, hs.enc, hp5, he5, show (phase1 w).length - w.file.pos = (bitmapBytes w).length by omega,
    show ({ newFileHeader t (UInt64.ofNat w.blockCount) w.blockSizeTarget w.encodingType with
      bitmapOffset := UInt64.ofNat w.file.pos
      bitmapSize := UInt64.ofNat (bitmapBytes w).length } : FileHeader) = finHeader t w from rfl]
  have hE2 : ∀ w' k, St w (File.put { bytes := phase1 w, pos := 0 }
      ((finHeader t w).fields.flatten.take k)) w' → Faulty env w →
      ∃ f, FinErr env w .io f ∧ St w f w' := by
    intro w' k h hF
    refine ⟨_, .header t k hF, ?_⟩
    simpa [File.put] using h
  refine wp_bind (st_fwriteAll hs (by simp) ?_ hE2)
  clear hs; intro w6 hs
  have hput2 : File.put { bytes := phase1 w, pos := 0 } (finHeader t w).fields.flatten =
      { bytes := phase2 t w, pos := 60 } := by
    have := headerFields_length (finHeader t w)
    simp only [File.put]
    rw [writeAt_zero_take _ _ (by omega), this, phase2]
  rw [hput2] at hs
  have hl2 : (phase2 t w).length = (phase1 w).length := by
    have := headerFields_length (finHeader t w)
    simp only [phase2, List.length_append, List.length_drop]; omega
  refine wp_bind (st_seekEnd hs ?_ ?_)
  rotate_left
  · intro w' h hF
    refine hE2 w' 60 ?_ hF
    rw [List.take_of_length_le (by rw [headerFields_length]; omega), hput2]; exact h
  clear hs; intro w7 hs _
  dsimp only at hs ⊢
  -- from here on, failures are `foot` failures
  have hE3 : ∀ k, (w.blockCount = 0 ∨ w.blockPositions.length = w.blockCount ∨
      k ≤ (footPad w).length + 4) → ∀ w' d, (tailBytes w).take k = d →
      St w { bytes := phase2 t w ++ d, pos := (phase2 t w ++ d).length } w' → Faulty env w →
      ∃ f, FinErr env w .io f ∧ St w f w' := by
    intro k hk w' d hd h hF
    refine ⟨_, .foot t k hF hk, ?_⟩
    rw [hd]; exact h
  refine wp_bind (st_seekCur hs ?_ (fun w' h hF => hE3 0 (by simp) w' [] (by simp) (by simpa using h) hF))
  clear hs; intro w8 hs _
  dsimp only
  rw [hl2]
  have tail1 : ∀ k, k ≤ (footPad w).length → (tailBytes w).take k = (footPad w).take k := by
    intro k hk
    rw [tailBytes, List.append_assoc, List.take_append_of_le_length hk]
  -- after the padding
  have main : ∀ w9, St w { bytes := phase2 t w ++ footPad w, pos := (phase2 t w ++ footPad w).length } w9 →
      wp (do
        let footerStart ← seekCur
        let _ ← fwrite (le32 (UInt32.ofNat w.blockCount))
        if w.blockCount > 0 then
          if w.blockPositions.length ≠ w.blockCount then WM.throw .positionTracking
          else writeBlockFooters w.entries
        let footerEnd ← seekCur
        let footerSize := footerEnd - footerStart
        let _ ← fwriteAll [le64 (UInt64.ofNat footerSize), le64 0, le64 magicNumber]
        let footerMetaEnd ← seekCur
        if footerMetaEnd - footerEnd ≠ 24 then WM.throw .footerSizeMismatch else
        if footerMetaEnd - footerStart ≠ footerSize + 24 then WM.throw .footerSizeMismatch else
        fsync)
      (fun _ w' => w.fileOpen = true ∧ (w.blockCount = 0 ∨ w.blockPositions.length = w.blockCount) ∧
        ∃ t, St w { bytes := finalBytes t w, pos := (finalBytes t w).length } w')
      (fun e w' => ∃ f, FinErr env w e f ∧ St w f w') env w9 := by
    clear hs; intro w9 hs
    refine wp_bind (st_seekCur hs ?_ (fun w' h hF =>
      hE3 (footPad w).length (by omega) w' _ (by rw [tail1 _ (Nat.le_refl _), List.take_length]) h hF))
    clear hs; intro w10 hs _
    refine wp_bind (st_fwrite hs ?_ ?_)
    rotate_left
    · intro w' k h hF
      rw [put_end, List.append_assoc] at h
      refine hE3 ((footPad w).length + min k 4) (by omega) w' _ ?_ h hF
      rw [tailBytes, List.append_assoc, List.take_length_add_append, footBytes, List.append_assoc,
        List.take_append_of_le_length (by simp; omega)]
      congr 1
      by_cases hk : k ≤ 4
      · rw [Nat.min_eq_left hk]
      · rw [Nat.min_eq_right (by omega), List.take_of_length_le (by simp),
          List.take_of_length_le (by simp; omega)]
    clear hs; intro w11 hs _
    rw [put_end] at hs
    -- after the index
    have fin : (w.blockCount = 0 ∨ w.blockPositions.length = w.blockCount) →
        ∀ w12, St w { bytes := phase2 t w ++ (footPad w ++ footBytes w), pos := (phase2 t w ++ (footPad w ++ footBytes w)).length } w12 →
        wp (do
          let footerEnd ← seekCur
          let footerSize := footerEnd - (phase2 t w ++ footPad w).length
          let _ ← fwriteAll [le64 (UInt64.ofNat footerSize), le64 0, le64 magicNumber]
          let footerMetaEnd ← seekCur
          if footerMetaEnd - footerEnd ≠ 24 then WM.throw .footerSizeMismatch else
          if footerMetaEnd - (phase2 t w ++ footPad w).length ≠ footerSize + 24 then WM.throw .footerSizeMismatch else
          fsync)
        (fun _ w' => w.fileOpen = true ∧ (w.blockCount = 0 ∨ w.blockPositions.length = w.blockCount) ∧
          ∃ t, St w { bytes := finalBytes t w, pos := (finalBytes t w).length } w')
        (fun e w' => ∃ f, FinErr env w e f ∧ St w f w') env w12 := by
      intro hcnt w12 hs
      have hcnt' : ∀ k : Nat, w.blockCount = 0 ∨ w.blockPositions.length = w.blockCount ∨
          k ≤ (footPad w).length + 4 := by
        intro k; rcases hcnt with h | h
        · exact .inl h
        · exact .inr (.inl h)
      refine wp_bind (st_seekCur hs ?_ (fun w' h hF =>
        hE3 (footPad w ++ footBytes w).length (hcnt' _) w' _
          (by rw [tailBytes, List.take_append_of_le_length (Nat.le_refl _), List.take_length]) h hF))
      clear hs; intro w13 hs _
      have hfs : (phase2 t w ++ (footPad w ++ footBytes w)).length - (phase2 t w ++ footPad w).length =
          (footBytes w).length := by simp; omega
      have hmeta : [le64 (UInt64.ofNat (footBytes w).length), le64 0, le64 magicNumber].flatten =
          metaBytes (footBytes w).length := by simp [metaBytes]
      have hml : (metaBytes (footBytes w).length).length = 24 := by simp [metaBytes]
      dsimp only
      rw [hfs]
      refine wp_bind (st_fwriteAll hs (by simp) ?_ ?_)
      rotate_left
      · intro w' k h hF
        rw [hmeta, put_end, List.append_assoc] at h
        refine hE3 ((footPad w ++ footBytes w).length + k) (hcnt' _) w' _ ?_ h hF
        rw [tailBytes, List.take_length_add_append]
      clear hs; intro w14 hs
      rw [hmeta, put_end, List.append_assoc, show footPad w ++ footBytes w ++ _ = tailBytes w from rfl,
        show phase2 t w ++ tailBytes w = finalBytes t w from rfl] at hs
      have hE4 : ∀ w', St w { bytes := finalBytes t w, pos := (finalBytes t w).length } w' → Faulty env w →
          ∃ f, FinErr env w .io f ∧ St w f w' := by
        intro w' h hF
        exact hE3 (tailBytes w).length (hcnt' _) w' _ (List.take_length) h hF
      refine wp_bind (st_seekCur hs ?_ hE4)
      clear hs; intro w15 hs _
      have hfl : (finalBytes t w).length = (phase2 t w ++ footPad w).length + (footBytes w).length + 24 := by
        simp only [finalBytes, tailBytes, List.length_append, hml]; omega
      have h1 : (finalBytes t w).length - (phase2 t w ++ (footPad w ++ footBytes w)).length = 24 := by
        rw [hfl]; simp only [List.length_append]; omega
      have h2 : (finalBytes t w).length - (phase2 t w ++ footPad w).length = (footBytes w).length + 24 := by
        rw [hfl]; omega
      dsimp only
      rw [h1, h2]
      refine wp_ite (fun hc => absurd rfl hc) (fun _ => wp_ite (fun hc => absurd rfl hc) (fun _ => ?_))
      exact st_fsync hs (fun w' h ho => ⟨ho, hcnt, t, h⟩) hE4
    refine wp_ite (fun hc => ?_) (fun hc => ?_)
    · refine wp_ite (fun hp => ?_) (fun hp => ?_)
      · refine wp_bind (wp_throw ⟨_, .tracking t ⟨hc, hp⟩, hs⟩)
      · have hp : w.blockPositions.length = w.blockCount := by omega
        refine wp_bind (st_writeBlockFooters w.entries _ hs ?_ ?_)
        · intro w' h
          refine fin (.inr hp) w' ?_
          rw [show phase2 t w ++ (footPad w ++ footBytes w) = phase2 t w ++ footPad w ++
            le32 (UInt32.ofNat w.blockCount) ++ (w.entries.map entryBytes).flatten by
            simp [footBytes, indexBytes, hc, List.append_assoc]]
          exact h
        · intro w' k h hF
          rw [List.append_assoc, List.append_assoc] at h
          refine hE3 ((footPad w).length + (4 + min k (indexBytes w).length)) (.inr (.inl hp)) w' _ ?_ h hF
          rw [tailBytes, List.append_assoc, List.take_length_add_append, footBytes, List.append_assoc,
            if_pos hc]
          congr 1
          rw [show 4 + min k (indexBytes w).length = (le32 (UInt32.ofNat w.blockCount)).length +
            min k (indexBytes w).length by simp, List.take_length_add_append]
          congr 1
          rw [List.take_append_of_le_length (by omega)]
          show _ = List.take k (indexBytes w)
          by_cases hk : k ≤ (indexBytes w).length
          · rw [Nat.min_eq_left hk]
          · rw [Nat.min_eq_right (by omega), List.take_length, List.take_of_length_le (by omega)]
    · have hc0 : w.blockCount = 0 := by omega
      refine fin (.inl hc0) w11 ?_
      rw [show phase2 t w ++ (footPad w ++ footBytes w) = phase2 t w ++ footPad w ++
        le32 (UInt32.ofNat w.blockCount) by simp [footBytes, hc0, List.append_assoc]]
      exact hs
  refine wp_ite (fun hp => ?_) (fun hp => ?_)
  · refine wp_bind (st_fwrite hs ?_ ?_)
    rotate_left
    · intro w' k h hF
      rw [put_end] at h
      refine hE3 (min k (footPad w).length) (by omega) w' _ ?_ h hF
      rw [tail1 _ (by omega)]
      show _ = List.take k (footPad w)
      by_cases hk : k ≤ (footPad w).length
      · rw [Nat.min_eq_left hk]
      · rw [Nat.min_eq_right (by omega), List.take_length, List.take_of_length_le (by omega)]
    clear hs; intro w9 hs _
    rw [put_end] at hs
    exact main w9 hs
  · refine main w8 ?_
    have : footPad w = [] := by simp only [footPad]; rw [show calculatePadding _ _ = 0 by omega]; rfl
    rw [this, List.append_nil]; exact hs

end VibeCol
