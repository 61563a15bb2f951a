/-
C03-C09: what `WriteBlock` does to the file, block by block.
-/
import Verif.Props.RoundTrip
set_option linter.unusedSimpArgs false
namespace VibeCol
variable {B : Type} [Bitmap B] [LawfulBitmap B]

/-- The first byte of a block, according to its index entry. -/
def FooterEntry.start (x : FooterEntry) : Nat := x.blockOffset.toNat
/-- The byte just after a block, according to its index entry. -/
def FooterEntry.stop (x : FooterEntry) : Nat := x.blockOffset.toNat + x.blockSize.toNat
/-- Where the block index starts, according to the footer of a file. -/
def Reader.footerStart (r : Reader B) : Nat := r.bytes.length - 24 - r.footerMeta.footerSize.toNat

theorem Finalized.opened {env : Env} {opts log} {file : Bytes} (h : Finalized B env opts log file)
    (hn : (acked log).length ≤ maxBlocks) (r : Reader B) (hr : newReader file = .ok r) :
    ∃ hd blks buf bo fs, FileOK file hd (chosenEncoding opts) blks buf bo fs ∧
      r = okReader file hd (chosenEncoding opts) blks ∧ blks.map Blk.pairs = acked log ∧
      (∀ b ∈ blks, b.size (chosenEncoding opts) ≤ (chosenBlockSize opts).toNat ∨ b.ids.length = 1) := by
  obtain ⟨hd, blks, buf, bo, fs, hok, hp, _, hfit⟩ := h.fileOK
  have hl : blks.length = (acked log).length := by rw [← hp, List.length_map]
  unfold maxBlocks at hn
  have h1 := hok.newReader (B := B) (by omega)
  rw [hr] at h1
  cases h1
  exact ⟨hd, blks, buf, bo, fs, hok, rfl, hp, hfit⟩

section
omit [Bitmap B] [LawfulBitmap B]
variable {bytes : Bytes} {h : FileHeader} {e : UInt32} {blks : List Blk} {buf : Bytes} {bo fs : Nat}

theorem FileOK.entry_start (H : FileOK bytes h e blks buf bo fs) (b : Blk) (hb : b ∈ blks) :
    (b.entry e).start = b.off := by
  have h1 := (H.laid.mem b hb).2
  have h2 := H.length
  have h3 := H.small
  have h4 := H.bmFits
  unfold Blk.stop at h1
  show (UInt64.ofNat b.off).toNat = _
  rw [UInt64.toNat_ofNat']; omega

theorem FileOK.entry_stop (H : FileOK bytes h e blks buf bo fs) (b : Blk) (hb : b ∈ blks) :
    (b.entry e).stop = b.stop e := by
  have h1 := H.entry_start b hb
  have h2 := Blk.size_lt e b (H.ok b hb)
  unfold FooterEntry.stop
  unfold FooterEntry.start at h1
  rw [h1]
  show _ + (UInt32.ofNat (b.size e)).toNat = _
  rw [UInt32.toNat_ofNat', Nat.mod_eq_of_lt h2]; rfl

theorem FileOK.entry_count (H : FileOK bytes h e blks buf bo fs) (b : Blk) (hb : b ∈ blks) :
    (b.entry e).count.toNat = b.ids.length := by
  have := (H.ok b hb).bound
  show (UInt32.ofNat b.ids.length).toNat = _
  rw [UInt32.toNat_ofNat']; omega

theorem FileOK.footerStart [Bitmap B] (H : FileOK bytes h e blks buf bo fs) :
    (okReader (B := B) bytes h e blks).footerStart = fs := by
  have h1 := H.length
  have h2 := H.small
  show bytes.length - 24 - (UInt64.ofNat (4 + 56 * blks.length)).toNat = fs
  rw [UInt64.toNat_ofNat']; omega
end

/-! ### C03 -/

/-- **C03.** After any history without I/O errors: if `WriteBlock` returns
`BlockFullError{n}`, then `1 ≤ n < len(ids)`, one block was added, nothing before it was touched,
and finalizing now gives the earlier blocks followed by one block with the first `n` pairs. -/
theorem C03_blockFull {env : Env} {opts : List WriterOption} {calls : List Call} {log : Log}
    {w w' : Writer B} (h : History B env opts calls log w) (hno : NoIOError log)
    (hb : ∀ ev ∈ log, ev.1.Bounded) (henc : SymEnc (chosenEncoding opts))
    (ids : List UInt64) (vals : List Int64) (hid : ids.length ≤ 2 ^ 27) (n : Nat)
    (hw : writeBlock ids vals env w = (.error (.blockFull n), w')) :
    1 ≤ n ∧ n < ids.length ∧ w'.blockCount = w.blockCount + 1 ∧
    w'.file.bytes.take w.file.bytes.length = w.file.bytes ∧
    (∀ w'', finalize env w' = (.ok (), w'') → w''.file.bytes.length < 2 ^ 63 →
      (acked log).length < maxBlocks →
      ReadsBack B w''.file.bytes (acked log ++ [(ids.take n, vals.take n)])) := by
  have hb' := writeBlock_blockFull_bounds ids vals env w w' n hw
  have hlen : ids.length = vals.length := by
    by_cases hl : ids.length = vals.length
    · exact hl
    · rw [writeBlock_lengthMismatch env w ids vals hl] at hw; cases hw
  obtain ⟨blks, hi, hc, _, _, he, _⟩ := history_clean h (h.bounded hb) henc hno
  have hout := writeBlock_out env w ids vals (by rw [he]; exact henc.known) hlen (by omega) hid hi.posLe hi.near
  rw [hw] at hout
  refine ⟨hb'.1, hb'.2, ?_⟩
  constructor
  · cases hout with
    | part _ k _ _ _ _ _ _ _ hcm => exact hcm.fields.2.1
    | fail _ _ _ _ _ _ hx => cases hx
  constructor
  · cases hout with
    | part _ k _ _ _ _ _ _ _ hcm =>
      rw [hcm.fields.1, committedFile, hc.atEnd]
      simp
    | fail _ _ _ _ _ _ hx => cases hx
  · intro w'' hf hs hm
    obtain ⟨w0, hnew, hrun⟩ := h.created
    have hh : History B env opts (calls ++ [.write ids vals])
        (log ++ [(.write ids vals, .error (.blockFull n))]) w' := by
      refine ⟨w0, hnew, ?_⟩
      rw [runCalls_append, hrun]
      show (log ++ [(Call.write ids vals, (writeBlock ids vals env w).1)], (writeBlock ids vals env w).2) = _
      rw [hw]
    have hfin : Finalized B env opts (log ++ [(.write ids vals, .error (.blockFull n))]) w''.file.bytes := by
      refine ⟨⟨_, w', w'', hh, hf, rfl⟩, ?_, ?_, hs⟩
      · intro ev hev
        rcases List.mem_append.1 hev with hev | hev
        · exact hno ev hev
        · rw [List.mem_singleton] at hev; subst hev; simp
      · intro ev hev
        rcases List.mem_append.1 hev with hev | hev
        · exact hb ev hev
        · rw [List.mem_singleton] at hev; subst hev; exact hid
    have hack : acked (log ++ [(Call.write ids vals, Except.error (Err.blockFull n))]) =
        acked log ++ [(ids.take n, vals.take n)] := by
      simp [acked, ackedBy]
    rw [← hack]
    refine C01_roundtrip hfin henc ?_
    rw [hack, List.length_append, List.length_singleton]; omega

omit [LawfulBitmap B] in
/-- **C03.** The bounds on `n` hold in any writer state and under any faults. -/
theorem C03_bounds (ids : List UInt64) (vals : List Int64) (env : Env) (w w' : Writer B) (n : Nat)
    (h : writeBlock ids vals env w = (.error (.blockFull n), w')) : 1 ≤ n ∧ n < ids.length :=
  writeBlock_blockFull_bounds ids vals env w w' n h

/-- Non-vacuity of C03: a `BlockFullError{1}` after a first block. -/
example : ∃ w w' : Writer IdSet, History IdSet quietEnv fullOpts (fullCalls.take 1) (fullLog.take 1) w ∧
    writeBlock [1, 2] [-10, 20] quietEnv w = (.error (.blockFull 1), w') := by
  obtain ⟨w0, h0⟩ := newWriter_ok (B := IdSet) quietEnv quietEnv_noFault fullOpts
  have hlog := fullLog_eq
  rw [h0] at hlog
  have hh : History IdSet quietEnv fullOpts fullCalls fullLog (runCalls quietEnv fullCalls w0).2 :=
    ⟨w0, h0, by rw [← hlog]⟩
  obtain ⟨wi, h1, h2, _⟩ := hh.split (pre := fullLog.take 1) (post := fullLog.drop 2) rfl
  exact ⟨wi, _, h1, Prod.ext h2 rfl⟩

/-! ### C04 -/

/-- **C04.** In every finalized file, each block occupies at most the configured block size,
padding included, unless it holds a single pair. -/
theorem C04_size {env : Env} {opts : List WriterOption} {log : Log} {file : Bytes}
    (h : Finalized B env opts log file) (hn : (acked log).length ≤ maxBlocks) (r : Reader B)
    (hr : newReader file = .ok r) :
    ∀ x ∈ r.blockIndex, x.blockSize.toNat ≤ (chosenBlockSize opts).toNat ∨ x.count.toNat = 1 := by
  obtain ⟨hd, blks, buf, bo, fs, hok, rfl, hp, hfit⟩ := h.opened hn r hr
  intro x hx
  obtain ⟨b, hb, rfl⟩ := List.mem_map.1 hx
  rcases hfit b hb with hf | hf
  · left
    have h2 := Blk.size_lt (chosenEncoding opts) b (hok.ok b hb)
    show (UInt32.ofNat (b.size (chosenEncoding opts))).toNat ≤ _
    rw [UInt32.toNat_ofNat', Nat.mod_eq_of_lt h2]; exact hf
  · right; rw [hok.entry_count b hb]; exact hf

/-- Non-vacuity of C04: with a target of 4095 bytes the three-pair block fits, at offset 64,
and single-pair blocks exceed the target. -/
example : ∃ file, ∃ r : Reader IdSet, Finalized IdSet quietEnv fullOpts fullLog file ∧ newReader file = .ok r ∧
    (∀ x ∈ r.blockIndex, x.blockSize.toNat ≤ 4095 ∨ x.count.toNat = 1) ∧ r.blockIndex.length = 3 := by
  obtain ⟨file, h⟩ := full_finalized
  obtain ⟨r, h1, _⟩ := C29_accessors h (by decide)
  refine ⟨file, r, h, h1, C04_size h (by decide) r h1, ?_⟩
  exact (h.reads (.inr (.inl rfl)) (by decide) r h1).index

/-! ### C05, C06 -/

omit [Bitmap B] [LawfulBitmap B] in
/-- **C06.** `EstimateBlockSize` changes nothing: the file and all fields of the writer stay as
they are (`opNo` only counts file operations). Any writer, any arguments, any faults. -/
theorem C06_noEffect (env : Env) (w : Writer B) (ids : List UInt64) (vals : List Int64) :
    ∃ o, (estimateBlockSize ids vals env w).2 = { w with opNo := o } := by
  have h : wp (estimateBlockSize ids vals) (fun _ w' => ∃ o, w' = { w with opNo := o })
      (fun _ w' => ∃ o, w' = { w with opNo := o }) env w := by
    unfold estimateBlockSize
    refine wp_ite (fun _ => wp_throw ⟨_, rfl⟩) (fun _ => wp_ite (fun _ => wp_throw ⟨_, rfl⟩) (fun _ => ?_))
    refine wp_bind (wp_get ?_)
    have hl : ∀ {α β : Type} (r : Except Err α) (f : α → WM B β) (Q : β → Writer B → Prop)
        (E : Err → Writer B → Prop), (∀ a, wp (f a) Q E env w) → (∀ e, E e w) →
        wp (WM.lift r >>= f) Q E env w := by
      intro α β r f Q E h1 h2
      cases r with
      | ok a => exact wp_bind (wp_lift_ok rfl (h1 a))
      | error e => exact wp_bind (wp_lift_error rfl (h2 e))
    refine hl _ _ _ _ (fun a => ?_) (fun _ => ⟨_, rfl⟩)
    refine hl _ _ _ _ (fun a' => ?_) (fun _ => ⟨_, rfl⟩)
    refine wp_bind (wp_seekCur ?_ ?_)
    · intro o _; exact wp_pure ⟨o, rfl⟩
    · intro o _; exact ⟨o, rfl⟩
  unfold wp at h
  rcases hr : estimateBlockSize ids vals env w with ⟨r, w'⟩
  rw [hr] at h
  cases r <;> exact h

/-- **C06.** After any history without I/O errors, if `EstimateBlockSize(ids, vals)` returns
`s` and `WriteBlock(ids, vals)` returns nil, the file has grown by exactly `s` bytes. -/
theorem C06_exact {env : Env} {opts : List WriterOption} {calls : List Call} {log : Log}
    {w : Writer B} (h : History B env opts calls log w) (hno : NoIOError log) (hmis : NoMismatch log)
    (hb : ∀ ev ∈ log, ev.1.Bounded) (ids : List UInt64) (vals : List Int64) (hid : ids.length ≤ 2 ^ 27)
    (s : Nat) (w1 w2 : Writer B) (hest : estimateBlockSize ids vals env w = (.ok s, w1))
    (hw : writeBlock ids vals env w1 = (.ok (), w2)) :
    w2.file.bytes.length = w.file.bytes.length + s := by
  have hlen : ids.length = vals.length := by
    by_cases hl : ids.length = vals.length
    · exact hl
    · rw [estimate_lengthMismatch env w ids vals hl] at hest; cases hest
  have hne : ids.length ≠ 0 := by
    intro h0
    have h1 : ids = [] := List.eq_nil_of_length_eq_zero h0
    have h2 : vals = [] := List.eq_nil_of_length_eq_zero (by omega)
    subst h1 h2
    rw [estimate_empty] at hest; cases hest
  have hk : KnownEnc w.encodingType := by
    apply Classical.byContradiction
    intro hk
    rw [estimate_unknown env w ids vals hlen hne hk] at hest; cases hest
  obtain ⟨blks, hi, hc, _, _, he, _⟩ := history_clean' h (h.bounded hb) hmis hno
  have hspec := estimateBlockSize_spec env w ids vals hk hlen (by omega) hid
  unfold wp at hspec
  rw [hest] at hspec
  obtain ⟨rfl, hs1⟩ := hspec
  have hout := writeBlock_out env w1 ids vals (by rw [hs1.enc]; exact hk) hlen (by omega) hid
    (by rw [hs1.file]; exact hi.posLe) (by rw [hs1.file]; exact hi.near)
  rw [hw] at hout
  cases hout with
  | full _ _ hm _ hcm =>
    rw [hs1.enc] at hm
    have hf := hcm.fields.1
    rw [hf, committedFile, hs1.file, hs1.enc]
    simp only [List.length_append, List.length_take, padded_length, image_length, hm.1, hm.2, hc.atEnd, estSize]
    omega

/-- **C06.** With no fault and a known encoding, `EstimateBlockSize` returns a size for all
acceptable arguments. -/
theorem C06_total {env : Env} (hnf : env.NoFault) {opts : List WriterOption} {calls : List Call} {log : Log}
    {w : Writer B} (h : History B env opts calls log w) (hb : ∀ ev ∈ log, ev.1.Bounded)
    (hk : KnownEnc (chosenEncoding opts)) (hno : NoIOError log) (ids : List UInt64) (vals : List Int64)
    (hid : ids.length ≤ 2 ^ 27) (hlen : ids.length = vals.length) (hne : ids ≠ []) :
    ∃ s, (estimateBlockSize ids vals env w).1 = .ok s := by
  obtain ⟨blks, extra, hi, _, ho, he, _⟩ := history_faulty h (h.bounded hb) hno.finalize
  have hspec := estimateBlockSize_spec env w ids vals (by rw [he]; exact hk) hlen
    (List.length_pos_iff.2 hne) hid
  unfold wp at hspec
  rcases hr : estimateBlockSize ids vals env w with ⟨r, w1⟩
  rw [hr] at hspec
  cases r with
  | ok s => exact ⟨s, rfl⟩
  | error e => exact absurd hspec.2.1 (NoFault.not_faulty hnf ho)

/-- **C05.** If no file operation fails and `WriteBlock` returns `BlockFullError{n}`, then the
first `n+1` pairs (and any longer prefix) would have exceeded the block size target, as measured
by `EstimateBlockSize` (which is exact by C06). -/
theorem C05_maximal {env : Env} (hnf : env.NoFault) {opts : List WriterOption} {calls : List Call} {log : Log}
    {w w' : Writer B} (h : History B env opts calls log w) (hb : ∀ ev ∈ log, ev.1.Bounded)
    (hno : NoIOError log) (ids : List UInt64) (vals : List Int64) (hid : ids.length ≤ 2 ^ 27) (n : Nat)
    (hw : writeBlock ids vals env w = (.error (.blockFull n), w')) (m : Nat) (hm : n < m) :
    ∃ s, (estimateBlockSize (ids.take m) (vals.take m) env w).1 = .ok s ∧ (chosenBlockSize opts).toNat < s := by
  have hb' := writeBlock_blockFull_bounds ids vals env w w' n hw
  have hlen : ids.length = vals.length := by
    by_cases hl : ids.length = vals.length
    · exact hl
    · rw [writeBlock_lengthMismatch env w ids vals hl] at hw; cases hw
  obtain ⟨blks, extra, hi, _, ho, he, ht, _⟩ := history_faulty h (h.bounded hb) hno.finalize
  have hnF := NoFault.not_faulty (w := w) hnf ho
  have hk : KnownEnc w.encodingType := by
    apply Classical.byContradiction
    intro hk
    rw [writeBlock_unknown env w ids vals hlen (by omega) hk] at hw; cases hw
  have hout := writeBlock_out env w ids vals hk hlen (by omega) hid hi.posLe hi.near
  rw [hw] at hout
  have hmax : w.blockSizeTarget.toNat < estSize w.encodingType w.file.pos (ids.take (n + 1)) (vals.take (n + 1)) := by
    cases hout with
    | part _ k _ _ _ _ hmax _ _ _ => exact hmax hnF
    | fail _ _ _ _ _ _ hx => cases hx
  have hmono := estSize_mono w.encodingType w.file.pos ids vals (n + 1) m hm
  have hspec := estimateBlockSize_spec env w (ids.take m) (vals.take m) hk
    (by simp; omega) (by simp; omega) (by simp; omega)
  unfold wp at hspec
  rcases hr : estimateBlockSize (ids.take m) (vals.take m) env w with ⟨r, w1⟩
  rw [hr] at hspec
  cases r with
  | ok s => exact ⟨s, rfl, by rw [hspec.1, ← ht]; omega⟩
  | error e => exact absurd hspec.2.1 hnF

/-! ### C07, C08 -/

/-- **C07.** In a finalized file every block ends on a page boundary, and so does what precedes
the block index. -/
theorem C07_ends {env : Env} {opts : List WriterOption} {log : Log} {file : Bytes}
    (h : Finalized B env opts log file) (hn : (acked log).length ≤ maxBlocks) (r : Reader B)
    (hr : newReader file = .ok r) :
    (∀ x ∈ r.blockIndex, x.stop % 4096 = 0) ∧ r.footerStart % 4096 = 0 := by
  obtain ⟨hd, blks, buf, bo, fs, hok, rfl, hp, hfit⟩ := h.opened hn r hr
  constructor
  · intro x hx
    obtain ⟨b, hb, rfl⟩ := List.mem_map.1 hx
    rw [hok.entry_stop b hb]
    exact Blk.stop_aligned _ _
  · rw [hok.footerStart]; exact hok.aligned

omit [Bitmap B] [LawfulBitmap B] in
theorem Chain.starts {e : UInt32} {lo hi : Nat} {bs : List Blk} (h : Chain e lo bs hi) (i : Nat)
    (hi' : i < bs.length) : bs[i].off = if _ : i = 0 then lo else (bs[i - 1]'(by omega)).stop e := by
  induction bs generalizing lo i with
  | nil => simp at hi'
  | cons b bs ih =>
    cases i with
    | zero => exact h.1
    | succ i =>
      have := ih h.2 i (by simpa using hi')
      simp only [List.getElem_cons_succ, this]
      cases i <;> simp

/-- **C07.** If no `Finalize` came in between, the first block starts right after the 64-byte
header, and every other one where its predecessor ends, on a page boundary. -/
theorem C07_starts {env : Env} {opts : List WriterOption} {log : Log} {file : Bytes}
    (h : Finalized B env opts log file) (hn : (acked log).length ≤ maxBlocks) (hmis : NoMismatch log)
    (hnf : ∀ ev ∈ log, ev.1 ≠ .finalize) (r : Reader B) (hr : newReader file = .ok r)
    (i : Nat) (hi : i < r.blockIndex.length) :
    (i = 0 → r.blockIndex[i].start = 64) ∧
    (∀ _ : 0 < i, r.blockIndex[i].start = (r.blockIndex[i - 1]'(by omega)).stop ∧
      r.blockIndex[i].start % 4096 = 0) := by
  obtain ⟨hd, blks, bo, fs, hc⟩ := h.contents' hmis
  have h1 := hc.newReader hn
  rw [hr] at h1
  cases h1
  have hch := hc.chain hnf
  have hib : i < blks.length := by simpa [okReader] using hi
  have hoff := hch.starts i hib
  have hst := hc.ok.entry_start blks[i] (List.getElem_mem hib)
  have hgi : (okReader (B := B) file hd (chosenEncoding opts) blks).blockIndex[i] =
      blks[i].entry (chosenEncoding opts) := by simp [okReader]
  constructor
  · rintro rfl
    rw [hgi, hst, hoff]; rfl
  · intro h0
    have hj : i - 1 < blks.length := by omega
    have hgj : (okReader (B := B) file hd (chosenEncoding opts) blks).blockIndex[i - 1]'(by omega) =
        blks[i - 1].entry (chosenEncoding opts) := by simp [okReader]
    rw [hgi, hst, hoff, dif_neg (by omega), hgj, hc.ok.entry_stop _ (List.getElem_mem hj)]
    exact ⟨rfl, Blk.stop_aligned _ _⟩

omit [Bitmap B] [LawfulBitmap B] in
theorem Laid.pairwise {e : UInt32} {lo hi : Nat} {bs : List Blk} (h : Laid e lo bs hi) :
    bs.Pairwise fun a b => a.stop e ≤ b.off := by
  induction bs generalizing lo with
  | nil => exact .nil
  | cons b bs ih => exact .cons (fun c hc => (h.2.mem c hc).1) (ih h.2)

/-- **C08.** In a finalized file the blocks are in increasing order and disjoint, start after
the 64-byte header and end before the ID bitmap, which ends before the block index; the index is
followed by 24 bytes of metadata and nothing else. -/
theorem C08_extents {env : Env} {opts : List WriterOption} {log : Log} {file : Bytes}
    (h : Finalized B env opts log file) (hn : (acked log).length ≤ maxBlocks) (r : Reader B)
    (hr : newReader file = .ok r) :
    r.blockIndex.Pairwise (fun a b => a.stop ≤ b.start) ∧
    (∀ x ∈ r.blockIndex, 64 ≤ x.start ∧ x.start + 80 ≤ x.stop ∧ x.stop ≤ r.header.bitmapOffset.toNat) ∧
    r.header.bitmapOffset.toNat + r.header.bitmapSize.toNat ≤ r.footerStart ∧
    r.footerStart + 4 + 56 * r.blockIndex.length + 24 = file.length := by
  obtain ⟨hd, blks, buf, bo, fs, hok, rfl, hp, hfit⟩ := h.opened hn r hr
  have hlen := hok.length
  have hsm := hok.small
  have hfit' := hok.bmFits
  have hbo : hd.bitmapOffset.toNat = bo := by
    rw [hok.bmOff, UInt64.toNat_ofNat']; omega
  have hbs : hd.bitmapSize.toNat = 4 + buf.length := by
    rw [hok.bmSize, UInt64.toNat_ofNat']; omega
  refine ⟨?_, ?_, ?_, ?_⟩
  · show (blks.map (Blk.entry (chosenEncoding opts))).Pairwise _
    rw [List.pairwise_map]
    refine hok.laid.pairwise.imp_of_mem ?_
    intro a b ha hb hab
    rw [hok.entry_start b hb, hok.entry_stop a ha]
    exact hab
  · intro x hx
    obtain ⟨b, hb, rfl⟩ := List.mem_map.1 hx
    have hm := hok.laid.mem b hb
    have hsz := Blk.size_ge (chosenEncoding opts) b
    show _ ∧ _ ∧ _ ≤ hd.bitmapOffset.toNat
    rw [hok.entry_start b hb, hok.entry_stop b hb, hbo]
    exact ⟨hm.1, by unfold Blk.stop; omega, hm.2⟩
  · rw [hok.footerStart]
    show hd.bitmapOffset.toNat + hd.bitmapSize.toNat ≤ fs
    omega
  · rw [hok.footerStart]
    show fs + 4 + 56 * (blks.map _).length + 24 = _
    rw [List.length_map]; omega

/-- Non-vacuity of C07 and C08: three blocks, no `Finalize` in between. -/
example : ∃ file, ∃ r : Reader IdSet, Finalized IdSet quietEnv fullOpts fullLog file ∧ newReader file = .ok r ∧
    r.blockIndex.length = 3 ∧ (∀ ev ∈ fullLog, ev.1 ≠ .finalize) ∧ NoMismatch fullLog := by
  obtain ⟨file, h⟩ := full_finalized
  obtain ⟨r, h1, _⟩ := C29_accessors h (by decide)
  exact ⟨file, r, h, h1, (h.reads (.inr (.inl rfl)) (by decide) r h1).index, by decide, by unfold NoMismatch; decide⟩

/-! ### C09 -/

/-- The index entry `x` tells the truth about the block `b`. -/
structure ExactStats (x : FooterEntry) (b : Block) : Prop where
  count : x.count.toNat = b.1.length
  minID : x.minID ∈ b.1 ∧ ∀ id ∈ b.1, x.minID ≤ id
  maxID : x.maxID ∈ b.1 ∧ ∀ id ∈ b.1, id ≤ x.maxID
  minValue : uint64ToInt64 x.minValue ∈ b.2 ∧ ∀ v ∈ b.2, uint64ToInt64 x.minValue ≤ v
  maxValue : uint64ToInt64 x.maxValue ∈ b.2 ∧ ∀ v ∈ b.2, v ≤ uint64ToInt64 x.maxValue
  sum : uint64ToInt64 x.sum = Int64.ofInt (intSum b.2)

/-- **C09.** The block index is exact for every block whose values, and whose sum, avoid the
least `int64` (any encoding). -/
theorem C09_stats {env : Env} {opts : List WriterOption} {log : Log} {file : Bytes}
    (h : Finalized B env opts log file) (hn : (acked log).length ≤ maxBlocks) (r : Reader B)
    (hr : newReader file = .ok r) (i : Nat) (hi : i < r.blockIndex.length) :
    ∃ hi' : i < (acked log).length, (minInt64Value ∉ (acked log)[i].2 ∧
      Int64.ofInt (intSum (acked log)[i].2) ≠ minInt64Value → ExactStats r.blockIndex[i] (acked log)[i]) ∧
      r.blockIndex[i].count.toNat = (acked log)[i].1.length ∧
      (r.blockIndex[i].minID ∈ (acked log)[i].1 ∧ ∀ id ∈ (acked log)[i].1, r.blockIndex[i].minID ≤ id) ∧
      (r.blockIndex[i].maxID ∈ (acked log)[i].1 ∧ ∀ id ∈ (acked log)[i].1, id ≤ r.blockIndex[i].maxID) := by
  obtain ⟨hd, blks, buf, bo, fs, hok, rfl, hp, hfit⟩ := h.opened hn r hr
  have hib : i < blks.length := by simpa [okReader] using hi
  have hia : i < (acked log).length := by rw [← hp, List.length_map]; exact hib
  have hgi : (okReader (B := B) file hd (chosenEncoding opts) blks).blockIndex[i] =
      blks[i].entry (chosenEncoding opts) := by simp [okReader]
  have hp' : (acked log)[i] = (blks[i].ids, blks[i].vals) := by
    simp only [← hp, List.getElem_map]; rfl
  have hmem := List.getElem_mem hib
  have hbok := hok.ok _ hmem
  have hne : blks[i].ids ≠ [] := by
    intro hc; have := hbok.ne; rw [hc] at this; simp at this
  have hnev : blks[i].vals ≠ [] := by
    intro hc; have := hbok.len; rw [hc] at this
    exact hne (List.eq_nil_of_length_eq_zero this)
  have hcount := hok.entry_count _ hmem
  obtain ⟨m1, m2, m3⟩ := minMaxUint64_spec _ hne
  obtain ⟨v1, v2, v3⟩ := minMaxInt64_spec _ hnev
  refine ⟨hia, ?_⟩
  rw [hgi, hp']
  refine ⟨?_, hcount, ⟨m1, fun id hid => (m3 id hid).1⟩, ⟨m2, fun id hid => (m3 id hid).2⟩⟩
  rintro ⟨hmin, hsum⟩
  have e1 : uint64ToInt64 (blks[i].entry (chosenEncoding opts)).minValue = (calculateMinMaxInt64 blks[i].vals).1 :=
    uint64ToInt64_int64ToUint64 _ (fun h => hmin (h ▸ v1))
  have e2 : uint64ToInt64 (blks[i].entry (chosenEncoding opts)).maxValue = (calculateMinMaxInt64 blks[i].vals).2 :=
    uint64ToInt64_int64ToUint64 _ (fun h => hmin (h ▸ v2))
  have e3 : uint64ToInt64 (blks[i].entry (chosenEncoding opts)).sum = calculateSumInt64 blks[i].vals := by
    apply uint64ToInt64_int64ToUint64
    show calculateSumInt64 _ ≠ _
    rw [calculateSumInt64_spec]; exact hsum
  exact ⟨hcount, ⟨m1, fun id hid => (m3 id hid).1⟩, ⟨m2, fun id hid => (m3 id hid).2⟩,
    by rw [e1]; exact ⟨v1, fun v hv => (v3 v hv).1⟩, by rw [e2]; exact ⟨v2, fun v hv => (v3 v hv).2⟩,
    by rw [e3, calculateSumInt64_spec]⟩

/-- **C09.** The header at the start of each block repeats the statistics of the index. -/
theorem C09_blockHeader {env : Env} {opts : List WriterOption} {log : Log} {file : Bytes}
    (h : Finalized B env opts log file) (hn : (acked log).length ≤ maxBlocks) (r : Reader B)
    (hr : newReader file = .ok r) (x : FooterEntry) (hx : x ∈ r.blockIndex) :
    (file.drop x.start).take 48 = le64 x.minID ++ le64 x.maxID ++ le64 x.minValue ++ le64 x.maxValue ++
      le64 x.sum ++ le32 x.count ++ le32 (chosenEncoding opts) := by
  obtain ⟨hd, blks, buf, bo, fs, hok, rfl, hp, hfit⟩ := h.opened hn r hr
  obtain ⟨b, hb, rfl⟩ := List.mem_map.1 hx
  rw [hok.entry_start b hb]
  have himg := hok.img b hb
  have hl : 80 ≤ (b.img (chosenEncoding opts)).length := by rw [Blk.img, image_length]; omega
  have := slice_of_slice himg 0 48 (by omega)
  rw [Nat.add_zero] at this
  change slice file b.off 48 = _
  rw [this]
  simp [slice, Blk.img, image, header52, Blk.entry, entryOf, newFooterEntry, statsOf, List.take_append, List.take_of_length_le]

/-- A block whose least value is the least `int64`. -/
def minCalls : List Call := [.write [1, 2] [-9223372036854775808, 5]]
/-- It is accepted. -/
def minLog : Log := [(.write [1, 2] [-9223372036854775808, 5], .ok ())]

theorem min_finalized : ∃ file, Finalized IdSet quietEnv [] minLog file :=
  finalized_of_log [] minCalls minLog (by decide) (by decide +kernel) (by unfold NoMismatch; decide) (by decide)

/-- **C09 is refuted for the least `int64`**: the index gives 0 as the least value of the block
`[-2^63, 5]`. -/
theorem C09_refuted : ∃ file, ∃ r : Reader IdSet, Finalized IdSet quietEnv [] minLog file ∧
    newReader file = .ok r ∧ ∃ x, r.blockIndex = [x] ∧ uint64ToInt64 x.minValue = 0 ∧
      ¬ ExactStats x ([1, 2], [-9223372036854775808, 5]) := by
  obtain ⟨file, h⟩ := min_finalized
  obtain ⟨r, h1, _⟩ := C29_accessors h (by decide)
  have hr := h.reads (.inl rfl) (by decide) r h1
  have hidx := hr.index
  have hacked : acked minLog = [([1, 2], [-9223372036854775808, 5])] := rfl
  obtain ⟨x, hx⟩ : ∃ x, r.blockIndex = [x] := List.length_eq_one_iff.1 (hidx.trans (by rw [hacked]; rfl))
  obtain ⟨o, s, he⟩ := hr.entry 0 (by decide) (by rw [hx]; simp)
  have hx0 : x = entryOf (o, s, statsOf [1, 2] [-9223372036854775808, 5]) := by
    have : r.blockIndex[0]'(by rw [hx]; simp) = x := by simp [hx]
    rw [← this]; exact he
  have hz : uint64ToInt64 x.minValue = 0 := by
    rw [hx0]
    show uint64ToInt64 (int64ToUint64 (statsOf [1, 2] [-9223372036854775808, 5]).minValue) = 0
    decide
  refine ⟨file, r, h, h1, x, hx, hz, fun hs => ?_⟩
  have := hs.minValue.1
  rw [hz] at this
  revert this; decide

/-- Non-vacuity of C09: the example file's blocks satisfy its hypotheses. -/
example : ∀ b ∈ acked exampleLog, minInt64Value ∉ b.2 ∧ Int64.ofInt (intSum b.2) ≠ minInt64Value := by
  decide

end VibeCol
