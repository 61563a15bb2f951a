/-
Where the IDs in the writer's bitmap come from.
-/
import Verif.Lemmas.Opened
namespace VibeCol
variable {B : Type} [Bitmap B]

/-- The IDs passed to a `WriteBlock` call. -/
def Call.writtenIDs : Call → List UInt64
  | .write ids _ => ids
  | _ => []

theorem call_ids [LawfulBitmap B] (env : Env) (c : Call) (hb : c.Bounded) (w : Writer B)
    (blks : List Blk) (extra : List UInt64) (h : Inv w blks extra) (x : UInt64)
    (hx : Bitmap.contains (c.run env w).2.globalIDs x = true) :
    Bitmap.contains w.globalIDs x = true ∨ x ∈ c.writtenIDs := by
  cases c with
  | estimate ids vals =>
    left
    by_cases hl : ids.length = vals.length
    · by_cases hne : ids.length = 0
      · have : ids = [] := List.eq_nil_of_length_eq_zero hne
        have : vals = [] := List.eq_nil_of_length_eq_zero (by omega)
        subst_vars
        simpa [Call.run, estimate_empty] using hx
      · by_cases hk : KnownEnc w.encodingType
        · have hest := estimateBlockSize_spec env w ids vals hk hl (by omega) hb
          unfold wp at hest
          rcases hr : estimateBlockSize ids vals env w with ⟨r, w'⟩
          rw [hr] at hest
          cases r with
          | ok s => rw [← hest.2.gl]; simpa [Call.run, hr] using hx
          | error e => rw [← hest.2.2.gl]; simpa [Call.run, hr] using hx
        · simpa [Call.run, estimate_unknown env w ids vals hl hne hk] using hx
    · simpa [Call.run, estimate_lengthMismatch env w ids vals hl] using hx
  | finalize =>
    left
    rcases hr : finalize env w with ⟨r, w'⟩
    have hx' : Bitmap.contains w'.globalIDs x = true := by simpa [Call.run, hr] using hx
    cases r with
    | ok u =>
      obtain ⟨_, _, _, hg, _⟩ := wp_ok (finalize_inv env w blks extra h) hr
      rwa [hg] at hx'
    | error e =>
      obtain ⟨f, _, hs⟩ := wp_error (finalize_inv env w blks extra h) hr
      rwa [hs.gl] at hx'
  | write ids vals =>
    change Bitmap.contains (writeBlock ids vals env w).2.globalIDs x = true at hx
    by_cases hl : ids.length = vals.length
    · by_cases hne : ids.length = 0
      · have : ids = [] := List.eq_nil_of_length_eq_zero hne
        have : vals = [] := List.eq_nil_of_length_eq_zero (by omega)
        subst_vars
        left; simpa [writeBlock_empty] using hx
      · by_cases hk : KnownEnc w.encodingType
        · obtain ⟨new, extra', ha, hi, _, _, hex, _⟩ :=
            writeBlock_inv env w blks extra h hk ids vals hl (by omega) hb
          rw [hi.bitmap] at hx
          have hnew : ∀ b ∈ new, ∀ y ∈ b.ids, y ∈ ids := by
            intro b hbm y hy
            generalize (writeBlock ids vals env w).1 = r at ha
            cases ha with
            | all => rw [List.mem_singleton.1 hbm] at hy; exact hy
            | part k _ _ => rw [List.mem_singleton.1 hbm] at hy; exact List.mem_of_mem_take hy
            | none => cases hbm
            | torn k _ _ _ => rw [List.mem_singleton.1 hbm] at hy; exact List.mem_of_mem_take hy
          rw [h.bitmap]
          rcases hx with ⟨b, hbm, hxb⟩ | hx
          · rcases List.mem_append.1 hbm with hbm | hbm
            · exact .inl (.inl ⟨b, hbm, hxb⟩)
            · exact .inr (hnew b hbm x hxb)
          · rcases hex x hx with hx | hx
            · exact .inl (.inr hx)
            · exact .inr hx
        · left; simpa [writeBlock_unknown env w ids vals hl hne hk] using hx
    · left; simpa [writeBlock_lengthMismatch env w ids vals hl] using hx

theorem runCalls_ids [LawfulBitmap B] (env : Env) (calls : List Call) (hb : ∀ c ∈ calls, c.Bounded)
    (w : Writer B) (blks : List Blk) (extra : List UInt64) (h : Inv w blks extra)
    (hfin : FinalizeNoIOError (runCalls env calls w).1) (x : UInt64)
    (hx : Bitmap.contains (runCalls env calls w).2.globalIDs x = true) :
    Bitmap.contains w.globalIDs x = true ∨ ∃ c ∈ calls, x ∈ c.writtenIDs := by
  induction calls generalizing w blks extra with
  | nil => exact .inl hx
  | cons c cs ih =>
    have hlog : (runCalls env (c :: cs) w).1 = (c, (c.run env w).1) :: (runCalls env cs (c.run env w).2).1 := rfl
    rw [hlog] at hfin
    obtain ⟨new, extra1, _, h2, _⟩ := call_inv env c (hb c (by simp)) w blks extra h
      (fun hc => hfin _ (List.mem_cons_self ..) hc)
    rcases ih (fun c' hc' => hb c' (by simp [hc'])) _ _ _ h2
      (fun ev hev => hfin ev (List.mem_cons_of_mem _ hev)) hx with hx | ⟨c', hc', hx⟩
    · rcases call_ids env c (hb c (by simp)) w blks extra h x hx with hx | hx
      · exact .inl hx
      · exact .inr ⟨c, by simp, hx⟩
    · exact .inr ⟨c', by simp [hc'], hx⟩

theorem history_ids [LawfulBitmap B] {env : Env} {opts : List WriterOption} {calls : List Call}
    {log : Log} {w : Writer B} (h : History B env opts calls log w) (hb : ∀ c ∈ calls, c.Bounded)
    (hno : FinalizeNoIOError log) (x : UInt64) (hx : Bitmap.contains w.globalIDs x = true) :
    ∃ c ∈ calls, x ∈ c.writtenIDs := by
  obtain ⟨w0, hnew, hrun⟩ := h.created
  obtain ⟨hi, _, _, _, _, _, hg⟩ := newWriter_inv hnew
  have hl : log = (runCalls env calls w0).1 := by rw [hrun]
  have hw : w = (runCalls env calls w0).2 := by rw [hrun]
  subst hl hw
  rcases runCalls_ids env calls hb w0 [] [] hi hno x hx with h | h
  · rw [hg, LawfulBitmap.contains_empty] at h; cases h
  · exact h

end VibeCol
