/-
What a successful `Finalize` does from any cursor position, also inside the file (where a failed
`Finalize` may have left it).
-/
import Verif.Lemmas.Hist
namespace VibeCol
variable {B : Type} [Bitmap B]

/-- Contents once the bitmap is written at the cursor. -/
def re1 (w : Writer B) : Bytes := writeAt w.file.bytes w.file.pos (bitmapBytes w)

/-- Contents once the header is rewritten. -/
def re2 (t : UInt64) (w : Writer B) : Bytes := (finHeader t w).fields.flatten ++ (re1 w).drop 60

/-- Zero bytes in front of the footer. -/
def rePad (w : Writer B) : Bytes := List.replicate (calculatePadding (re1 w).length pageSize) 0

/-- Contents at the end. -/
def reFinal (t : UInt64) (w : Writer B) : Bytes :=
  re2 t w ++ rePad w ++ footBytes w ++ metaBytes (footBytes w).length

theorem finalize_from (env : Env) (w : Writer B) (h60 : 60 ≤ w.file.bytes.length)
    (hpos : w.file.pos ≤ w.file.bytes.length) :
    wp finalize
      (fun _ w' => ∃ i, St w { bytes := reFinal (env.clock i) w, pos := (reFinal (env.clock i) w).length } w')
      (fun _ _ => True) env w := by
  have hl1 : w.file.bytes.length ≤ (re1 w).length := by
    unfold re1; rw [writeAt_length _ _ _ hpos]; omega
  have hput1 : w.file.put (bitmapBytes w) = { bytes := re1 w, pos := w.file.pos + (bitmapBytes w).length } := rfl
  unfold finalize writeGlobalIDBitmap
  have hs := St.refl w
  refine wp_bind (wp_bind (st_seekCur hs ?_ (fun _ _ _ => trivial)))
  clear hs; intro w1 hs hopen
  refine wp_bind (wp_get ?_)
  have hgl : w1.globalIDs = w.globalIDs := by obtain ⟨o, _, rfl⟩ := hs; rfl
  rw [hgl]
  refine wp_bind (st_fwrite hs ?_ (fun _ _ _ _ => trivial))
  clear hs; intro w2 hs _
  refine wp_bind (st_fwrite hs ?_ (fun _ _ _ _ => trivial))
  clear hs; intro w3 hs _
  rw [File.put_put _ _ _ hpos, show le32 _ ++ _ = bitmapBytes w from rfl, hput1] at hs
  refine wp_bind (st_seekCur hs ?_ (fun _ _ _ => trivial))
  clear hs; intro w4 hs _
  refine wp_pure ?_
  dsimp only
  refine wp_bind (st_seekStart hs ?_ (fun _ _ _ => trivial))
  clear hs; intro w5 hs _
  refine wp_bind (wp_now' ?_)
  generalize hi : w5.opNo = i
  refine wp_bind (wp_get ?_)
  have hc5 : w5.blockCount = w.blockCount := by obtain ⟨o, _, rfl⟩ := hs; rfl
  have ht5 : w5.blockSizeTarget = w.blockSizeTarget := by obtain ⟨o, _, rfl⟩ := hs; rfl
  have hp5 : w5.blockPositions = w.blockPositions := by obtain ⟨o, _, rfl⟩ := hs; rfl
  have he5 : w5.entries = w.entries := by obtain ⟨o, _, rfl⟩ := hs; rfl
  rw [hc5, ht5, hs.enc, hp5, he5, Nat.add_sub_cancel_left,
    show ({ newFileHeader (env.clock i) (UInt64.ofNat w.blockCount) w.blockSizeTarget w.encodingType with
      bitmapOffset := UInt64.ofNat w.file.pos
      bitmapSize := UInt64.ofNat (bitmapBytes w).length } : FileHeader) = finHeader (env.clock i) w from rfl]
  refine wp_bind (st_fwriteAll hs (by simp) ?_ (fun _ _ _ _ => trivial))
  clear hs; intro w6 hs
  have hput2 : File.put { bytes := re1 w, pos := 0 } (finHeader (env.clock i) w).fields.flatten =
      { bytes := re2 (env.clock i) w, pos := 60 } := by
    have := headerFields_length (finHeader (env.clock i) w)
    simp only [File.put]
    rw [writeAt_zero_take _ _ (by omega), this, re2]
  rw [hput2] at hs
  have hl2 : (re2 (env.clock i) w).length = (re1 w).length := by
    have := headerFields_length (finHeader (env.clock i) w)
    simp only [re2, List.length_append, List.length_drop]; omega
  refine wp_bind (st_seekEnd hs ?_ (fun _ _ _ => trivial))
  clear hs; intro w7 hs _
  dsimp only at hs ⊢
  refine wp_bind (st_seekCur hs ?_ (fun _ _ _ => trivial))
  clear hs; intro w8 hs _
  dsimp only
  rw [hl2]
  have main : ∀ w9, St w { bytes := re2 (env.clock i) w ++ rePad w, pos := (re2 (env.clock i) w ++ rePad w).length } w9 →
      wp (do
        let footerStart ← seekCur
        let _ ← fwrite (le32 (UInt32.ofNat w.blockCount))
        if w.blockCount > 0 then
          if w.blockPositions.length ≠ w.blockCount then WM.throw .positionTracking
          else writeBlockFooters w.entries
        let footerEnd ← seekCur
        let footerSize := footerEnd - footerStart
        let _ ← fwriteAll [le64 (UInt64.ofNat footerSize), le64 0, le64 magicNumber]
        let footerMetaEnd ← seekCur
        if footerMetaEnd - footerEnd ≠ 24 then WM.throw .footerSizeMismatch else
        if footerMetaEnd - footerStart ≠ footerSize + 24 then WM.throw .footerSizeMismatch else
        fsync)
      (fun _ w' => ∃ i, St w { bytes := reFinal (env.clock i) w, pos := (reFinal (env.clock i) w).length } w')
      (fun _ _ => True) env w9 := by
    clear hs; intro w9 hs
    refine wp_bind (st_seekCur hs ?_ (fun _ _ _ => trivial))
    clear hs; intro w10 hs _
    refine wp_bind (st_fwrite hs ?_ (fun _ _ _ _ => trivial))
    clear hs; intro w11 hs _
    rw [put_end] at hs
    have fin : ∀ w12, St w { bytes := re2 (env.clock i) w ++ rePad w ++ footBytes w
                             pos := (re2 (env.clock i) w ++ rePad w ++ footBytes w).length } w12 →
        wp (do
          let footerEnd ← seekCur
          let footerSize := footerEnd - (re2 (env.clock i) w ++ rePad w).length
          let _ ← fwriteAll [le64 (UInt64.ofNat footerSize), le64 0, le64 magicNumber]
          let footerMetaEnd ← seekCur
          if footerMetaEnd - footerEnd ≠ 24 then WM.throw .footerSizeMismatch else
          if footerMetaEnd - (re2 (env.clock i) w ++ rePad w).length ≠ footerSize + 24 then WM.throw .footerSizeMismatch else
          fsync)
        (fun _ w' => ∃ i, St w { bytes := reFinal (env.clock i) w, pos := (reFinal (env.clock i) w).length } w')
        (fun _ _ => True) env w12 := by
      intro w12 hs
      refine wp_bind (st_seekCur hs ?_ (fun _ _ _ => trivial))
      clear hs; intro w13 hs _
      have hfs : (re2 (env.clock i) w ++ rePad w ++ footBytes w).length - (re2 (env.clock i) w ++ rePad w).length =
          (footBytes w).length := by rw [List.length_append (bs := footBytes w)]; omega
      have hmeta : [le64 (UInt64.ofNat (footBytes w).length), le64 0, le64 magicNumber].flatten =
          metaBytes (footBytes w).length := by simp [metaBytes]
      have hml : (metaBytes (footBytes w).length).length = 24 := by simp [metaBytes]
      dsimp only
      rw [hfs]
      refine wp_bind (st_fwriteAll hs (by simp) ?_ (fun _ _ _ _ => trivial))
      clear hs; intro w14 hs
      rw [hmeta, put_end, show re2 (env.clock i) w ++ rePad w ++ footBytes w ++ metaBytes (footBytes w).length =
        reFinal (env.clock i) w from rfl] at hs
      refine wp_bind (st_seekCur hs ?_ (fun _ _ _ => trivial))
      clear hs; intro w15 hs _
      have hfl : (reFinal (env.clock i) w).length = (re2 (env.clock i) w ++ rePad w).length + (footBytes w).length + 24 := by
        simp only [reFinal, List.length_append, hml]
      have h1 : (reFinal (env.clock i) w).length - (re2 (env.clock i) w ++ rePad w ++ footBytes w).length = 24 := by
        rw [hfl, List.length_append (bs := footBytes w)]; omega
      have h2 : (reFinal (env.clock i) w).length - (re2 (env.clock i) w ++ rePad w).length = (footBytes w).length + 24 := by
        rw [hfl]; omega
      dsimp only
      rw [h1, h2]
      refine wp_ite (fun hc => absurd rfl hc) (fun _ => wp_ite (fun hc => absurd rfl hc) (fun _ => ?_))
      exact st_fsync hs (fun w' h ho => ⟨i, h⟩) (fun _ _ _ => trivial)
    refine wp_ite (fun hc => ?_) (fun hc => ?_)
    · refine wp_ite (fun hp => ?_) (fun hp => ?_)
      · exact wp_bind (wp_throw trivial)
      · refine wp_bind (st_writeBlockFooters w.entries _ hs ?_ (fun _ _ _ _ => trivial))
        intro w' h
        refine fin w' ?_
        rw [show re2 (env.clock i) w ++ rePad w ++ footBytes w = re2 (env.clock i) w ++ rePad w ++
          le32 (UInt32.ofNat w.blockCount) ++ (w.entries.map entryBytes).flatten by
          simp [footBytes, indexBytes, hc, List.append_assoc]]
        exact h
    · have hc0 : w.blockCount = 0 := by omega
      refine fin w11 ?_
      rw [show re2 (env.clock i) w ++ rePad w ++ footBytes w = re2 (env.clock i) w ++ rePad w ++
        le32 (UInt32.ofNat w.blockCount) by simp [footBytes, hc0]]
      exact hs
  refine wp_ite (fun hp => ?_) (fun hp => ?_)
  · refine wp_bind (st_fwrite hs ?_ (fun _ _ _ _ => trivial))
    clear hs; intro w9 hs _
    rw [put_end] at hs
    exact main w9 hs
  · refine main w8 ?_
    have : rePad w = [] := by simp only [rePad]; rw [show calculatePadding _ _ = 0 by omega]; rfl
    rw [this, List.append_nil]; exact hs

end VibeCol
