/-
C05 in full: without faults, what `WriteBlock` does is determined by the documented size of a block.
-/
import Verif.Props.Format
namespace VibeCol
variable {B : Type} [Bitmap B] [LawfulBitmap B]

theorem filledBlock_doc {e : UInt32} (he : RegularEnc e) (off : Nat) (ids : List UInt64) (vals : List Int64)
    (h1 : ids ≠ []) (h2 : vals ≠ []) :
    padded off (image e ids vals) = Doc.filledBlock e.toNat off (Doc.pairs (ids, vals)) :=
  padded_doc he off ids vals h1 h2 (he.allMatch ids vals)

theorem filledBlock_size {e : UInt32} (he : RegularEnc e) (off : Nat) (ids : List UInt64) (vals : List Int64)
    (h1 : ids ≠ []) (h2 : vals ≠ []) :
    (Doc.filledBlock e.toNat off (Doc.pairs (ids, vals))).length = estSize e off ids vals := by
  have hm := he.allMatch ids vals
  rw [← filledBlock_doc he off ids vals h1 h2, padded_length, image_length, hm.1, hm.2]
  rfl

theorem pairs_first (n : Nat) (ids : List UInt64) (vals : List Int64) :
    Doc.Pairs.first n (Doc.pairs (ids, vals)) = Doc.pairs (ids.take n, vals.take n) := by
  simp [Doc.Pairs.first, Doc.pairs, List.map_take]

theorem fits_iff {e : UInt32} (he : RegularEnc e) (target off n : Nat) (ids : List UInt64) (vals : List Int64)
    (hlen : ids.length = vals.length) (hn : 0 < n) (hne : 0 < ids.length) :
    Doc.Fits e.toNat target off (Doc.Pairs.first n (Doc.pairs (ids, vals))) ↔
      estSize e off (ids.take n) (vals.take n) ≤ target ∨ (ids.take n).length = 1 := by
  unfold Doc.Fits
  rw [pairs_first, filledBlock_size he off]
  · simp [Doc.pairs]
  · rw [← List.length_pos_iff, List.length_take]; omega
  · rw [← List.length_pos_iff, List.length_take]; omega

theorem RegularEnc.known {e : UInt32} (h : RegularEnc e) : KnownEnc e := by
  rcases h with h | h | h | h | h | h <;> subst h <;> (unfold KnownEnc; decide)

/-- **C05.** Without file system errors, the outcome of `WriteBlock` is determined by the
documented format: if the whole batch, written as a block at the end of the file and filled up to
a page, does not take more bytes than the block size target (or is a single pair), the call returns
nil and exactly these bytes are appended. Otherwise it returns `BlockFullError{n}`, where `n` is the
greatest number of pairs less than all for which that is so, and the block of the first `n` pairs
is appended. -/
theorem C05_exact {env : Env} (hnf : env.NoFault) {opts : List WriterOption} {calls : List Call} {log : Log}
    {w : Writer B} (h : History B env opts calls log w) (hno : NoIOError log)
    (hb : ∀ ev ∈ log, ev.1.Bounded) (he : RegularEnc (chosenEncoding opts))
    (ids : List UInt64) (vals : List Int64) (hid : ids.length ≤ 2 ^ 27)
    (hlen : ids.length = vals.length) (hne : ids ≠ []) :
    let enc := (chosenEncoding opts).toNat
    let off := w.file.bytes.length
    let batch := Doc.pairs (ids, vals)
    let fits := fun n => Doc.Fits enc (chosenBlockSize opts).toNat off (Doc.Pairs.first n batch)
    (fits ids.length ∧ (writeBlock ids vals env w).1 = .ok () ∧
      (writeBlock ids vals env w).2.file.bytes = w.file.bytes ++ Doc.filledBlock enc off batch) ∨
    ∃ n, 1 ≤ n ∧ n < ids.length ∧ fits n ∧ (∀ m, n < m → m ≤ ids.length → ¬ fits m) ∧
      (writeBlock ids vals env w).1 = .error (.blockFull n) ∧
      (writeBlock ids vals env w).2.file.bytes =
        w.file.bytes ++ Doc.filledBlock enc off (Doc.Pairs.first n batch) := by
  intro enc off batch fits
  have hpos : 0 < ids.length := List.length_pos_iff.2 hne
  have hmis : NoMismatch log := history_noMismatch h (h.bounded hb) he.allMatch hno.finalize
  obtain ⟨blks, hi, hc, _, ho, hee, htt, _⟩ := history_clean' h (h.bounded hb) hmis hno
  have hF := NoFault.not_faulty (w := w) hnf ho
  have hk : KnownEnc w.encodingType := by rw [hee]; exact he.known
  have hout := writeBlock_out env w ids vals hk hlen hpos hid hi.posLe hi.near
  have hat := hc.atEnd
  have hfits : ∀ n, 0 < n → (fits n ↔
      estSize w.encodingType w.file.pos (ids.take n) (vals.take n) ≤ w.blockSizeTarget.toNat ∨ (ids.take n).length = 1) := by
    intro n hn
    rw [hee, htt, hat]
    exact fits_iff he _ _ n ids vals hlen hn hpos
  have hdoc : ∀ n, 0 < n → padded w.file.bytes.length (image w.encodingType (ids.take n) (vals.take n)) =
      Doc.filledBlock enc off (Doc.Pairs.first n batch) := by
    intro n hn
    rw [hee, pairs_first]
    apply filledBlock_doc he
    · rw [← List.length_pos_iff, List.length_take]; omega
    · rw [← List.length_pos_iff, List.length_take]; omega
  generalize writeBlock ids vals env w = res at hout ⊢
  obtain ⟨r, w'⟩ := res
  dsimp only at hout ⊢
  cases hout with
  | full _ _ _ hfit hcm =>
    left
    refine ⟨?_, rfl, ?_⟩
    · rw [hfits _ hpos, List.take_length, hlen, List.take_length, ← hlen]; exact hfit
    · rw [committed_bytes hcm hat]
      have := hdoc ids.length hpos
      rw [List.take_length, hlen, List.take_length] at this
      rw [this, pairs_first, ← hlen, List.take_length, hlen, List.take_length]
  | part _ k hk1 hk2 hbig hfit hmax _ _ hcm =>
    right
    refine ⟨k, hk1, hk2, ?_, ?_, rfl, ?_⟩
    · rw [hfits _ hk1]
      rcases hfit with hfit | hfit
      · exact .inl hfit
      · right; rw [List.length_take]; omega
    · intro m hm1 hm2
      rw [hfits _ (by omega)]
      have h1 := hmax hF
      have h2 := estSize_mono w.encodingType w.file.pos ids vals (k + 1) m hm1
      rw [List.length_take]
      omega
    · rw [committed_bytes hcm hat, hdoc k hk1]
  | noop _ hFF _ => exact absurd hFF hF
  | fail e _ k hk1 hk2 _ hx =>
    cases hx with
    | early _ hFF _ => exact absurd hFF hF
    | mid _ _ hFF _ _ => exact absurd hFF hF
    | mismatch _ _ hm _ _ => exact absurd (by rw [hee]; exact he.allMatch _ _) hm
    | sync _ hFF _ _ => exact absurd hFF hF

/-! ### The numbers for the default options -/

theorem flatMap_num (l : List α) (f : α → Nat) : (l.flatMap fun x => Doc.num 8 (f x)).length = 8 * l.length := by
  induction l with
  | nil => rfl
  | cons x xs ih => simp [num_length, ih]; omega

theorem filledBlock_raw (off : Nat) (b : Doc.Pairs) (h : b.1.length = b.2.length) :
    (Doc.filledBlock 0 off b).length + off = (off + 80 + 16 * b.1.length + 4095) / 4096 * 4096 := by
  have e1 : (Doc.idData 0 b.1).length = 8 * b.1.length := by
    simpa [Doc.idData, Doc.isDelta, Doc.isVarint] using flatMap_num b.1 id
  have e2 : (Doc.valueData 0 b.2).length = 8 * b.2.length := by
    simpa [Doc.valueData, Doc.isDelta, Doc.isVarint] using flatMap_num b.2 Doc.wrapU
  have e3 : (Doc.block 0 b.1 b.2).length = 80 + 16 * b.1.length := by
    simp only [Doc.block, Doc.stats, List.length_append, num_length, e1, e2]; omega
  unfold Doc.filledBlock Doc.pageFill
  rw [List.length_append, List.length_replicate, e3]
  omega

/-- The number of pairs that fit into one block under the default options. -/
def defaultCapacity (log : Log) : Nat := if acked log = [] then 1015 else 1019

theorem chain_end {e : UInt32} {lo hi : Nat} {bs : List Blk} (h : Chain e lo bs hi) (hne : bs ≠ []) :
    hi % 4096 = 0 := by
  induction bs generalizing lo with
  | nil => exact absurd rfl hne
  | cons b bs ih =>
    cases bs with
    | nil => have := h.2; cases this; exact Blk.stop_aligned _ _
    | cons c cs => exact ih h.2 (by simp)

/-- **C05.** With the default options (raw encoding, 16 KiB blocks), no file system errors and no
`Finalize` so far, `WriteBlock` accepts a batch in full exactly if it has at most 1015 pairs
(first block) or 1019 pairs (later blocks), whatever the IDs and values; of a larger batch it
takes exactly that many. -/
theorem C05_default {env : Env} (hnf : env.NoFault) {calls : List Call} {log : Log}
    {w : Writer B} (h : History B env [] calls log w) (hno : NoIOError log)
    (hb : ∀ ev ∈ log, ev.1.Bounded) (hfin : Call.finalize ∉ calls)
    (ids : List UInt64) (vals : List Int64) (hid : ids.length ≤ 2 ^ 27)
    (hlen : ids.length = vals.length) (hne : ids ≠ []) :
    (writeBlock ids vals env w).1 =
      if ids.length ≤ defaultCapacity log then .ok () else .error (.blockFull (defaultCapacity log)) := by
  have he : RegularEnc (chosenEncoding []) := SymEnc.regular (.inl rfl)
  have hmis : NoMismatch log := history_noMismatch h (h.bounded hb) he.allMatch hno.finalize
  obtain ⟨blks, hi, hc, hack, ho, hee, htt, _, hch, _⟩ := history_clean' h (h.bounded hb) hmis hno
  have hch := hch hfin
  have hoff : w.file.bytes.length = 64 ∧ acked log = [] ∨ w.file.bytes.length % 4096 = 0 ∧ acked log ≠ [] := by
    have hat := hc.atEnd
    by_cases hbl : blks = []
    · subst hbl
      left
      refine ⟨?_, by rw [← hack]; rfl⟩
      have : 64 = w.file.pos := hch
      omega
    · right
      refine ⟨by rw [← hat]; exact chain_end hch hbl, ?_⟩
      rw [← hack]
      simpa using hbl
  have hfit : ∀ n, 0 < n → n ≤ ids.length →
      (Doc.Fits (chosenEncoding []).toNat (chosenBlockSize []).toNat w.file.bytes.length
        (Doc.Pairs.first n (Doc.pairs (ids, vals))) ↔ n ≤ defaultCapacity log) := by
    intro n hn hn2
    have hl1 : (Doc.Pairs.first n (Doc.pairs (ids, vals))).1.length = n := by
      simp [Doc.Pairs.first, Doc.pairs]; omega
    have hl2 : (Doc.Pairs.first n (Doc.pairs (ids, vals))).2.length = n := by
      simp [Doc.Pairs.first, Doc.pairs]; omega
    have hsz := filledBlock_raw w.file.bytes.length _ (hl1.trans hl2.symm)
    have e0 : (chosenEncoding []).toNat = 0 := rfl
    have e1 : (chosenBlockSize []).toNat = 16384 := rfl
    unfold Doc.Fits defaultCapacity
    rw [e0, e1]
    rw [hl1] at hsz ⊢
    rcases hoff with ⟨h1, h2⟩ | ⟨h1, h2⟩
    · rw [if_pos h2]; omega
    · rw [if_neg h2]; omega
  have hpos : 0 < ids.length := List.length_pos_iff.2 hne
  rcases C05_exact hnf h hno hb he ids vals hid hlen hne with ⟨h1, h2, _⟩ | ⟨n, h1, h2, h3, h4, h5, _⟩
  · rw [h2, if_pos ((hfit _ hpos (Nat.le_refl _)).1 h1)]
  · have hn := (hfit n h1 (by omega)).1 h3
    have hbig := mt (hfit ids.length hpos (Nat.le_refl _)).2 (h4 ids.length h2 (Nat.le_refl _))
    have hmax := mt (hfit (n + 1) (by omega) (by omega)).2 (h4 (n + 1) (by omega) (by omega))
    rw [h5, if_neg hbig, show n = defaultCapacity log by omega]

/-- Non-vacuity: an empty default file, and any 1016 pairs. -/
example : ∃ w : Writer IdSet, History IdSet quietEnv [] [] [] w ∧
    (writeBlock (List.replicate 1016 7) (List.replicate 1016 5) quietEnv w).1 = .error (.blockFull 1015) := by
  obtain ⟨w0, h0⟩ := newWriter_ok (B := IdSet) quietEnv quietEnv_noFault []
  have hh : History IdSet quietEnv [] [] [] w0 := ⟨w0, h0, rfl⟩
  refine ⟨w0, hh, ?_⟩
  rw [C05_default quietEnv_noFault hh (fun _ h => absurd h (by simp)) (fun _ h => absurd h (by simp)) (by simp)
    _ _ (by rw [List.length_replicate]; decide) (by simp only [List.length_replicate])
    (List.ne_nil_of_length_pos (by rw [List.length_replicate]; omega))]
  rw [List.length_replicate]
  rfl

end VibeCol
