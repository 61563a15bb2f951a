/-
`Finalize` failing outside the header keeps the invariant.
-/
import Verif.Lemmas.Hist
namespace VibeCol
variable {B : Type} [Bitmap B]

/-- Only the file changed, growing behind the cursor. -/
theorem Inv.grown {w w' : Writer B} {blks extra} {f : File} (h : Inv w blks extra) (hs : St w f w')
    (h64 : w.file.pos ≤ f.pos) (hle : f.pos ≤ f.bytes.length) (hnear : f.bytes.length ≤ f.pos + 4)
    (hend : w.file.pos = w.file.bytes.length → f.pos = f.bytes.length)
    (hkeep : ∀ o n, 60 ≤ o → o + n ≤ w.file.pos → slice f.bytes o n = slice w.file.bytes o n) :
    Inv w' blks extra := by
  obtain ⟨o, d, rfl⟩ := hs
  refine ⟨Nat.le_trans h.pos64 h64, hle, hnear, h.cnt, h.sizes, h.stats, h.bitmap, h.ok, h.tracked.imp (fun c => ?_) id⟩
  refine ⟨c.positions, hend c.atEnd, c.laid.mono h64, fun b hb => ?_⟩
  have hm := c.laid.mem b hb
  have hsz := Blk.img_le_size w.encodingType b
  unfold Blk.stop at hm
  show slice f.bytes b.off (b.img w.encodingType).length = b.img w.encodingType
  rw [hkeep _ _ (by omega) (by omega)]
  exact c.img b hb

/-- A `Finalize` that failed with the cursor behind the header keeps the invariant. -/
theorem finalize_io_inv (env : Env) {w w' : Writer B} {blks extra} {e : Err} (h : Inv w blks extra)
    (hf : finalize env w = (.error e, w')) (h64 : 64 ≤ w'.file.pos) : Inv w' blks extra ∧ SameConfig w w' := by
  obtain ⟨f, hfe, hs⟩ := wp_error (finalize_inv env w blks extra h) hf
  refine ⟨?_, hs.same⟩
  have hfile := hs.file
  have hl1 := phase1_length w h.posLe
  cases hfe with
  | bitmap k hF =>
    have hp := (PartialFile.refl h.posLe h.near).put ((bitmapBytes w).take k)
    refine h.grown hs hp.ge hp.le hp.near (fun he => ?_) (fun o n _ hn => ?_)
    · rw [show w.file = { bytes := w.file.bytes, pos := w.file.bytes.length } by rw [← he], put_end]
    · rw [← slice_take_le _ w.file.pos _ _ hn, hp.take, slice_take_le _ _ _ _ hn]
  | header t k hF =>
    exfalso
    have h2 := headerFields_length (finHeader t w)
    rw [hfile] at h64
    simp only [List.length_take] at h64
    omega
  | foot t k hF hpos =>
    have hl2 := phase2_length t w h.pos64 h.posLe
    refine h.grown hs ?_ (Nat.le_refl _) (Nat.le_add_right _ _) (fun _ => rfl) (fun o n ho hn => ?_)
    · simp only [List.length_append, hl2]; omega
    · dsimp only
      rw [slice_append_left _ _ _ _ (by omega), phase2_slice t w h.pos64 h.posLe o n ho, phase1,
        slice_append_left _ _ _ _ (by simp; have := h.posLe; omega), slice_take_le _ _ _ _ hn]
  | tracking t hc =>
    have hl2 := phase2_length t w h.pos64 h.posLe
    refine h.grown hs ?_ (Nat.le_refl _) (Nat.le_add_right _ _) (fun _ => rfl) (fun o n ho hn => ?_)
    · simp only [List.length_append, hl2]; omega
    · dsimp only
      rw [List.append_assoc, slice_append_left _ _ _ _ (by omega), phase2_slice t w h.pos64 h.posLe o n ho, phase1,
        slice_append_left _ _ _ _ (by simp; have := h.posLe; omega), slice_take_le _ _ _ _ hn]

/-- One call, whatever fails, if it leaves the cursor behind the header. -/
theorem call_retry [LawfulBitmap B] (env : Env) (c : Call) (hb : c.Bounded) (w : Writer B)
    (blks : List Blk) (extra : List UInt64) (h : Inv w blks extra) (h64 : 64 ≤ (c.run env w).2.file.pos) :
    ∃ new extra', Left c (c.run env w).1 (new.map Blk.pairs) ∧ Inv (c.run env w).2 (blks ++ new) extra' ∧
      SameConfig w (c.run env w).2 := by
  by_cases hfin : c = .finalize → (c.run env w).1 ≠ .error .io
  · obtain ⟨new, extra', h1, h2, h3, _⟩ := call_inv env c hb w blks extra h hfin
    exact ⟨new, extra', h1, h2, h3⟩
  · have hc : c = .finalize := Classical.byContradiction fun hx => hfin fun hy => absurd hy hx
    subst hc
    have hr : (Call.run env .finalize w).1 = .error .io :=
      Classical.byContradiction fun hx => hfin fun _ => hx
    obtain ⟨h1, h2⟩ := finalize_io_inv env (w' := (Call.run env .finalize w).2) (e := .io) h (Prod.ext hr rfl) h64
    exact ⟨[], extra, .acked _ _, by simpa using h1, h2⟩

theorem runCalls_retry [LawfulBitmap B] (env : Env) (calls : List Call) (hb : ∀ c ∈ calls, c.Bounded)
    (w : Writer B) (blks : List Blk) (extra : List UInt64) (h : Inv w blks extra)
    (h64 : ∀ k, 64 ≤ (runCalls env (calls.take k) w).2.file.pos) :
    ∃ new extra', LeftBy (runCalls env calls w).1 (new.map Blk.pairs) ∧
      Inv (runCalls env calls w).2 (blks ++ new) extra' ∧ SameConfig w (runCalls env calls w).2 := by
  induction calls generalizing w blks extra with
  | nil => exact ⟨[], extra, .nil, by simpa [runCalls] using h, SameConfig.refl w⟩
  | cons c cs ih =>
    obtain ⟨new, extra1, h1, h2, h3⟩ := call_retry env c (hb c (by simp)) w blks extra h (h64 1)
    obtain ⟨new2, extra2, g1, g2, g3⟩ := ih (fun c' hc' => hb c' (by simp [hc'])) _ _ _ h2 (fun k => h64 (k + 1))
    refine ⟨new ++ new2, extra2, ?_, by rw [← List.append_assoc]; exact g2, h3.trans g3⟩
    rw [List.map_append]; exact .cons h1 g1

end VibeCol
