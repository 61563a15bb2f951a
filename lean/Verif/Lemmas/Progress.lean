/-
How large files get, and that without faults everything succeeds.
-/
import Verif.Lemmas.Opened
namespace VibeCol
variable {B : Type} [Bitmap B]

theorem Blk.size_le (e : UInt32) (b : Blk) (h : b.OK e) : b.size e ≤ 4175 + 20 * b.ids.length := by
  have h1 := idSize_le e b.ids
  have h2 := valSize_le e b.vals
  have h3 := calculatePadding_lt (b.off + (b.img e).length)
  have h5 := h.len
  rw [size_eq, img_length e b h] at *
  omega

theorem ackedBy_pairs (c : Call) (r : Result) : ∀ b ∈ ackedBy c r, b.1.length ≤ c.pairs := by
  intro b hb
  unfold ackedBy at hb
  split at hb
  · rw [List.mem_singleton.1 hb]; exact Nat.le_refl _
  · rw [List.mem_singleton.1 hb]
    simp only [Call.pairs, List.length_take]; omega
  · cases hb

/-- How far one successful call moves the cursor. -/
theorem call_size [LawfulBitmap B] (env : Env) (c : Call) (hb : c.Bounded) (w : Writer B)
    (blks : List Blk) (extra : List UInt64) (h : Inv w blks extra) (hc : Clean w blks)
    (hio : (c.run env w).1 ≠ .error .io) (hmi : (c.run env w).1 ≠ .error .sectionSizeMismatch) :
    ∃ new, Inv (c.run env w).2 (blks ++ new) extra ∧ Clean (c.run env w).2 (blks ++ new) ∧
      SameConfig w (c.run env w).2 ∧ new.length ≤ 1 ∧ (blkIDs new).length ≤ c.pairs ∧
      (c.run env w).2.globalIDs = (blkIDs new).foldl Bitmap.set w.globalIDs ∧
      (c.run env w).2.file.pos ≤ w.file.pos + (4175 + (Bitmap.toBuffer w.globalIDs).length + 56 * blks.length) +
        20 * c.pairs := by
  obtain ⟨new, extra', hl, h1, h2, h3, _, h5⟩ := call_inv env c hb w blks extra h (fun _ => hio)
  obtain ⟨rfl, h4⟩ := h3 hio hmi
  have hp : (blkIDs new).length ≤ c.pairs := by
    have : new.map Blk.pairs = ackedBy c (c.run env w).1 := by
      generalize hnb : new.map Blk.pairs = nb at hl
      generalize (c.run env w).1 = r at hl hio hmi
      cases hl
      · rfl
      · exact absurd rfl hio
    match new, h5.one, this with
    | [], _, _ => exact Nat.zero_le _
    | [b], _, this =>
      have := ackedBy_pairs c _ b.pairs (by rw [← this]; simp)
      simpa [blkIDs, Blk.pairs] using this
  refine ⟨new, h1, h4 hc, h2, h5.one, hp, ?_, ?_⟩
  · match new, h5 with
    | [], h6 => exact h6.same rfl hio hmi
    | [b], h6 => simpa [blkIDs] using (h6.fresh b (by simp)).gl
    | _ :: _ :: _, h6 => exact absurd h6.one (by simp)
  · match new, h5, h1, hp with
    | [], h6, _, _ =>
      by_cases hcf : c = .finalize
      · subst hcf
        rcases hr : Call.run env .finalize w with ⟨r, w'⟩
        have hr' : finalize env w = (r, w') := hr
        cases r with
        | ok u =>
          obtain ⟨_, hi, _, _, hcl, _, hsz⟩ := wp_ok (finalize_inv env w blks extra' h) hr'
          have := (hcl hc).atEnd
          show w'.file.pos ≤ _
          omega
        | error e =>
          rcases finalize_tracking_inv env h hr' with ⟨rfl, _⟩ | ⟨rfl, hnc, _⟩
          · rw [hr] at hio; exact absurd rfl hio
          · exact absurd hc hnc
      · rw [h6.still rfl hcf hio hmi]; omega
    | [b], h6, hi, hp =>
      have hf := h6.fresh b (by simp)
      have hok := hi.ok b (by simp)
      rw [h2.enc] at hok
      have := Blk.size_le _ _ hok
      have h8 := hf.stop
      have h9 := hf.off
      simp only [blkIDs, List.flatMap_cons, List.flatMap_nil, List.append_nil] at hp
      unfold Blk.stop at h8
      omega
    | _ :: _ :: _, h6, _, _ => exact absurd h6.one (by simp)

/-- How far a history moves the cursor, `K` bounding the size of the serialized bitmap. -/
theorem runCalls_size [LawfulBitmap B] (env : Env) (K M N : Nat)
    (hK : ∀ L : List UInt64, L.length ≤ N → (Bitmap.toBuffer (L.foldl Bitmap.set (Bitmap.empty : B))).length ≤ K)
    (calls : List Call) (hb : ∀ c ∈ calls, c.Bounded) (w : Writer B)
    (blks : List Blk) (extra : List UInt64) (h : Inv w blks extra) (hc : Clean w blks)
    (L : List UInt64) (hL : w.globalIDs = L.foldl Bitmap.set Bitmap.empty)
    (hN : L.length + totalPairs calls ≤ N) (hM : blks.length + calls.length ≤ M)
    (hio : NoIOError (runCalls env calls w).1) (hmi : NoMismatch (runCalls env calls w).1) :
    (runCalls env calls w).2.file.pos ≤ w.file.pos + calls.length * (4175 + K + 56 * M) +
        20 * totalPairs calls := by
  induction calls generalizing w blks L with
  | nil => show w.file.pos ≤ _; simp [totalPairs]
  | cons c cs ih =>
    have hlog : (runCalls env (c :: cs) w).1 = (c, (c.run env w).1) :: (runCalls env cs (c.run env w).2).1 := rfl
    have hst : (runCalls env (c :: cs) w).2 = (runCalls env cs (c.run env w).2).2 := rfl
    rw [hlog] at hio hmi
    rw [hst]
    have htp : totalPairs (c :: cs) = c.pairs + totalPairs cs := by simp [totalPairs]
    rw [htp] at hN ⊢
    obtain ⟨new, h1, h2, h3, h4, h5, h6, h7⟩ := call_size env c (hb c (by simp)) w blks extra h hc
      (hio _ (List.mem_cons_self ..)) (hmi _ (List.mem_cons_self ..))
    have hk := hK L (by omega)
    rw [← hL] at hk
    simp only [List.length_cons] at hM
    have := ih (fun c' hc' => hb c' (by simp [hc'])) (c.run env w).2 (blks ++ new) h1 h2 (L ++ blkIDs new)
      (by rw [h6, hL, List.foldl_append]) (by simp only [List.length_append]; omega)
      (by simp only [List.length_append]; omega)
      (fun ev hev => hio ev (List.mem_cons_of_mem _ hev)) (fun ev hev => hmi ev (List.mem_cons_of_mem _ hev))
    rw [List.length_cons, Nat.succ_mul]
    omega

/-- The largest file that `calls` and a final `Finalize` can leave behind, if the serialized
bitmap has at most `K` bytes. -/
def sizeBound (calls : List Call) (K : Nat) : Nat :=
  64 + (calls.length + 1) * (4175 + K + 56 * calls.length) + 20 * totalPairs calls

theorem finalized_length [LawfulBitmap B] {env : Env} {opts calls log} {w w' : Writer B}
    (hh : History B env opts calls log w) (hb : ∀ c ∈ calls, c.Bounded) (hmis : NoMismatch log)
    (hno : NoIOError log) (hf : finalize env w = (.ok (), w')) (K : Nat)
    (hK : ∀ L : List UInt64, L.length ≤ totalPairs calls →
      (Bitmap.toBuffer (L.foldl Bitmap.set (Bitmap.empty : B))).length ≤ K) :
    w'.file.bytes.length ≤ sizeBound calls K := by
  obtain ⟨w0, hnew, hrun⟩ := hh.created
  obtain ⟨hi, hc, ho, he, ht, hp, hg⟩ := newWriter_inv hnew
  have hl : log = (runCalls env calls w0).1 := by rw [hrun]
  have hw : w = (runCalls env calls w0).2 := by rw [hrun]
  have hsz := runCalls_size env K calls.length (totalPairs calls) hK calls hb w0 [] [] hi hc [] hg (by simp)
    (by simp) (hl ▸ hno) (hl ▸ hmis)
  obtain ⟨new, extra, h1, h2, h3, h4, h6, h7⟩ := runCalls_inv env calls hb w0 [] [] hi (hl ▸ hno.finalize)
  rw [← hw] at hsz h2
  rw [← hl] at h1
  rw [List.nil_append] at h2
  obtain ⟨_, _, _, _, _, _, hfl⟩ := wp_ok (finalize_inv env w new extra h2) hf
  have hk : (Bitmap.toBuffer w.globalIDs).length ≤ K ∧ new.length ≤ calls.length := by
    obtain ⟨_, _, h8, _⟩ := h4 (hl ▸ hno) (hl ▸ hmis)
    rw [hg, ← hw] at h8
    have hpairs := h1.eq_acked hno
    have hle : ∀ lg : Log, (idsOf (acked lg)).length ≤ totalPairs (lg.map Prod.fst) ∧
        (acked lg).length ≤ lg.length := by
      intro lg
      induction lg with
      | nil => exact ⟨Nat.le_refl _, Nat.le_refl _⟩
      | cons ev lg ih =>
        have e1 : acked (ev :: lg) = ackedBy ev.1 ev.2 ++ acked lg := by simp [acked]
        have e2 : totalPairs ((ev :: lg).map Prod.fst) = ev.1.pairs + totalPairs (lg.map Prod.fst) := by
          simp [totalPairs]
        have e3 : (idsOf (ackedBy ev.1 ev.2)).length ≤ ev.1.pairs ∧ (ackedBy ev.1 ev.2).length ≤ 1 := by
          have h1 : (ackedBy ev.1 ev.2).length ≤ 1 := by unfold ackedBy; split <;> simp
          refine ⟨?_, h1⟩
          have h2 := ackedBy_pairs ev.1 ev.2
          match ackedBy ev.1 ev.2, h1, h2 with
          | [], _, _ => exact Nat.zero_le _
          | [b], _, h2 => simpa [idsOf] using h2 b (by simp)
        rw [e1, e2, idsOf, List.flatMap_append, List.length_append, List.length_append, List.length_cons]
        have := ih.1; have := ih.2; have := e3.1; have := e3.2
        unfold idsOf at *
        omega
    have hl2 := hle log
    rw [← hh.calls_eq] at hl2
    have hcl : log.length = calls.length := by rw [hh.calls_eq, List.length_map]
    constructor
    · rw [h8, blkIDs_eq, hpairs]; exact hK _ hl2.1
    · have := congrArg List.length hpairs
      rw [List.length_map] at this; omega
  unfold sizeBound
  rw [Nat.succ_mul]
  have := hk.1; have := hk.2
  omega

/-- Without faults, `Finalize` succeeds after a history without section mismatches. -/
theorem History.finalized [LawfulBitmap B] {env : Env} (hn : env.NoFault) {opts : List WriterOption}
    {calls : List Call} {log : Log} {w : Writer B} (hh : History B env opts calls log w)
    (hb : ∀ c ∈ calls, c.Bounded) (hmis : NoMismatch log) (K : Nat)
    (hK : ∀ L : List UInt64, L.length ≤ totalPairs calls →
      (Bitmap.toBuffer (L.foldl Bitmap.set (Bitmap.empty : B))).length ≤ K)
    (hsize : sizeBound calls K < 2 ^ 63) : ∃ file, Finalized B env opts log file := by
  have hno : NoIOError log := by
    obtain ⟨w0, h0, hrun⟩ := hh.created
    obtain ⟨hi, _, ho, _⟩ := newWriter_inv h0
    have := runCalls_noFault env hn calls hb w0 ho [] [] hi
    rwa [hrun] at this
  obtain ⟨blks, hi, hc, hp, ho, he, ht, hfit, hchain, hg⟩ := history_clean' hh hb hmis hno
  obtain ⟨w', hf⟩ := finalize_noFault hn hi hc ho
  refine ⟨_, ⟨⟨calls, w, w', hh, hf, rfl⟩, hno, ?_, ?_⟩⟩
  · intro ev hev
    apply hb
    rw [hh.calls_eq]
    exact List.mem_map_of_mem hev
  · exact Nat.lt_of_le_of_lt (finalized_length hh hb hmis hno hf K hK) hsize

/-- Without faults, `NewWriter`, all calls and a final `Finalize` go through. -/
theorem finalized_noFault [LawfulBitmap B] {env : Env} (hn : env.NoFault) (opts : List WriterOption)
    (henc : SymEnc (chosenEncoding opts)) (calls : List Call) (hb : ∀ c ∈ calls, c.Bounded) (K : Nat)
    (hK : ∀ L : List UInt64, L.length ≤ totalPairs calls →
      (Bitmap.toBuffer (L.foldl Bitmap.set (Bitmap.empty : B))).length ≤ K)
    (hsize : sizeBound calls K < 2 ^ 63) :
    ∃ log file, Finalized B env opts log file ∧ log.map Prod.fst = calls := by
  obtain ⟨log, w, hh, hno⟩ := history_noFault (B := B) hn opts calls hb
  obtain ⟨file, hf⟩ := hh.finalized hn hb (history_noMismatch hh hb henc.allMatch hno.finalize) K hK hsize
  exact ⟨log, file, hf, hh.calls_eq.symm⟩

end VibeCol
