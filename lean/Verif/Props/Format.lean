/-
C47: the bytes of a finalized file are those of the documented format.
-/
import Verif.Lemmas.Format
import Verif.Lemmas.Opened
import Verif.Lemmas.Refinalize
import Verif.Lemmas.PowerHist
import Verif.Props.Example
namespace VibeCol
variable {B : Type} [Bitmap B] [LawfulBitmap B]

/-! ### What the calls append -/

theorem RegularEnc.allMatch {e : UInt32} (h : RegularEnc e) : AllMatch e := by
  rcases h with h | h | h | h | h | h <;> subst h
  · exact SymEnc.allMatch (.inl rfl)
  · exact allMatch_deltaID
  · exact allMatch_deltaValue
  · exact SymEnc.allMatch (.inr (.inl rfl))
  · exact SymEnc.allMatch (.inr (.inr (.inl rfl)))
  · exact SymEnc.allMatch (.inr (.inr (.inr rfl)))

omit [LawfulBitmap B] in
theorem committed_bytes {w w' : Writer B} {ids vals} (hc : Committed w ids vals w') (hat : w.file.pos = w.file.bytes.length) :
    w'.file.bytes = w.file.bytes ++ padded w.file.bytes.length (image w.encodingType ids vals) := by
  rw [hc.fields.1]
  unfold committedFile
  dsimp only
  rw [hat, List.take_length]

/-- A call other than `Finalize` that reports neither an I/O error nor a mismatch appends the
acknowledged block or nothing. -/
theorem call_bytes {env : Env} (c : Call) (hb : c.Bounded) {w : Writer B} {blks extra} (hi : Inv w blks extra)
    (hat : w.file.pos = w.file.bytes.length)
    (h1 : (c.run env w).1 ≠ .error .io) (h2 : (c.run env w).1 ≠ .error .sectionSizeMismatch) (hnf : c ≠ .finalize) :
    (ackedBy c (c.run env w).1 = [] ∧ (c.run env w).2.file.bytes = w.file.bytes) ∨
    ∃ ids vals, ackedBy c (c.run env w).1 = [(ids, vals)] ∧ ids ≠ [] ∧ vals ≠ [] ∧
      (c.run env w).2.file.bytes = w.file.bytes ++ padded w.file.bytes.length (image w.encodingType ids vals) := by
  cases c with
  | finalize => exact absurd rfl hnf
  | estimate ids vals =>
    left
    have := estimate_quiet ids vals env w
    simp only [Call.run]
    generalize estimateBlockSize ids vals env w = res at this ⊢
    obtain ⟨r, w'⟩ := res
    cases r <;> exact ⟨rfl, this.1⟩
  | write ids vals =>
    simp only [Call.run] at h1 h2 ⊢
    rcases hr : writeBlock ids vals env w with ⟨r, w'⟩
    rw [hr] at h1 h2
    dsimp only at h1 h2 ⊢
    by_cases hl : ids.length = vals.length
    · by_cases hne : ids.length = 0
      · left
        have e1 : ids = [] := List.eq_nil_of_length_eq_zero hne
        have e2 : vals = [] := List.eq_nil_of_length_eq_zero (by omega)
        subst e1 e2
        rw [writeBlock_empty] at hr
        cases hr
        exact ⟨rfl, rfl⟩
      · by_cases hk : KnownEnc w.encodingType
        · have hout := writeBlock_out env w ids vals hk hl (by omega) hb hi.posLe hi.near
          rw [hr] at hout
          dsimp only at hout
          right
          cases hout with
          | full _ _ _ _ hc =>
            exact ⟨ids, vals, rfl, List.ne_nil_of_length_pos (by omega), List.ne_nil_of_length_pos (by omega),
              committed_bytes hc hat⟩
          | part _ k hk1 hk2 _ _ _ _ _ hc =>
            refine ⟨ids.take k, vals.take k, rfl, List.ne_nil_of_length_pos ?_, List.ne_nil_of_length_pos ?_,
              committed_bytes hc hat⟩ <;> rw [List.length_take] <;> omega
          | noop => exact absurd rfl h1
          | fail e _ k _ _ _ hw =>
            cases hw <;> first | exact absurd rfl h1 | exact absurd rfl h2
        · left
          rw [writeBlock_unknown env w ids vals hl hne hk] at hr
          cases hr
          exact ⟨rfl, rfl⟩
    · left
      rw [writeBlock_lengthMismatch env w ids vals hl] at hr
      cases hr
      exact ⟨rfl, rfl⟩

/-- Calls before the first `Finalize` append the acknowledged blocks as documented. -/
theorem runCalls_bytes {env : Env} (calls : List Call) (hb : ∀ c ∈ calls, c.Bounded) {w : Writer B} {blks}
    (hi : Inv w blks []) (hc : Clean w blks) (he : RegularEnc w.encodingType)
    (hno : NoIOError (runCalls env calls w).1) (hmis : NoMismatch (runCalls env calls w).1) (hfirst : .finalize ∉ calls) :
    (runCalls env calls w).2.file.bytes = w.file.bytes ++
      Doc.blocksAt w.encodingType.toNat w.file.bytes.length ((acked (runCalls env calls w).1).map Doc.pairs) := by
  induction calls generalizing w blks with
  | nil => simp [runCalls, acked, Doc.blocksAt]
  | cons c cs ih =>
    have hrun : runCalls env (c :: cs) w =
      ((c, (c.run env w).1) :: (runCalls env cs (c.run env w).2).1, (runCalls env cs (c.run env w).2).2) := rfl
    rw [hrun] at hno hmis ⊢
    have hbc := hb c (List.mem_cons_self ..)
    have h1 : (c.run env w).1 ≠ .error .io := hno _ (List.mem_cons_self ..)
    have h2 : (c.run env w).1 ≠ .error .sectionSizeMismatch := hmis _ (List.mem_cons_self ..)
    have hnf : c ≠ .finalize := fun hc => hfirst (hc ▸ List.mem_cons_self ..)
    obtain ⟨new, extra', _, hi', hsame, hcl, _⟩ := call_inv env c hbc w blks [] hi (fun _ => h1)
    obtain ⟨rfl, hcl2⟩ := hcl h1 h2
    have hrec := ih (fun x hx => hb x (List.mem_cons_of_mem _ hx)) hi' (hcl2 hc) (by rw [hsame.enc]; exact he)
      (fun ev hev => hno ev (List.mem_cons_of_mem _ hev)) (fun ev hev => hmis ev (List.mem_cons_of_mem _ hev))
      (fun hc => hfirst (List.mem_cons_of_mem _ hc))
    dsimp only
    rw [hrec, acked_cons, hsame.enc]
    rcases call_bytes c hbc hi hc.atEnd h1 h2 hnf with ⟨h3, h4⟩ | ⟨ids, vals, h3, h4, h5, h6⟩
    · rw [h3, h4, List.nil_append]
    · rw [h3, h6, padded_doc he _ ids vals h4 h5 (he.allMatch ids vals)]
      simp only [List.cons_append, List.nil_append, List.map_cons, Doc.blocksAt, Doc.pairs, List.length_append,
        List.append_assoc]

/-! ### The index -/

theorem Blk.size_doc {e : UInt32} (he : RegularEnc e) (b : Blk) (h : b.OK e) :
    padded b.off (b.img e) = Doc.block e.toNat (Doc.pairs b.pairs).1 (Doc.pairs b.pairs).2 ++
      Doc.pageFill (b.off + (Doc.block e.toNat (Doc.pairs b.pairs).1 (Doc.pairs b.pairs).2).length) := by
  have h1 : b.ids ≠ [] := List.ne_nil_of_length_pos h.ne
  have h2 : b.vals ≠ [] := List.ne_nil_of_length_pos (by have := h.len; have := h.ne; omega)
  exact padded_doc he b.off b.ids b.vals h1 h2 h.sec

theorem index_doc {e : UInt32} (he : RegularEnc e) {lo hi : Nat} {blks : List Blk} (hch : Chain e lo blks hi)
    (hok : ∀ b ∈ blks, b.OK e) :
    (blks.map fun b => entryBytes (b.entry e)).flatten =
      Doc.indexAt e.toNat lo ((blks.map Blk.pairs).map Doc.pairs) := by
  induction blks generalizing lo with
  | nil => rfl
  | cons b bs ih =>
    obtain ⟨rfl, hch⟩ := hch
    have hb := hok b (List.mem_cons_self ..)
    have hsz := Blk.size_doc he b hb
    have hlen : b.size e = (Doc.block e.toNat (Doc.pairs b.pairs).1 (Doc.pairs b.pairs).2 ++
      Doc.pageFill (b.off + (Doc.block e.toNat (Doc.pairs b.pairs).1 (Doc.pairs b.pairs).2).length)).length := by
      unfold Blk.size; rw [hsz]
    rw [List.map_cons, List.flatten_cons, ih hch (fun x hx => hok x (List.mem_cons_of_mem _ hx)), entry_doc b hb]
    simp only [List.map_cons, Doc.indexAt]
    rw [Blk.stop, ← hlen]
    rfl

omit [LawfulBitmap B] in
theorem header_doc (t : UInt64) (w : Writer B) :
    (finHeader t w).fields.flatten ++ [0, 0, 0, 0] =
      Doc.header w.blockCount w.blockSizeTarget.toNat w.encodingType.toNat t.toNat w.file.pos (bitmapBytes w).length := by
  have h0 : ([0, 0, 0, 0] : Bytes) = Doc.num 4 0 := rfl
  have h1 : le32 version = Doc.num 4 1 := by rw [num_le32]; rfl
  have h2 : le32 dataTypeInt64 = Doc.num 4 0 := by rw [num_le32]; rfl
  have h3 : le32 compressionNone = Doc.num 4 0 := by rw [num_le32]; rfl
  have h4 : le64 magicNumber = Doc.num 8 Doc.magic := by rw [num_le64]; rfl
  unfold Doc.header
  simp only [finHeader, FileHeader.fields, newFileHeader, h0, h1, h2, h3, h4, num_ofNat64, num_le64 t, num_le32 w.blockSizeTarget,
    num_le32 w.encodingType]
  simp [List.flatten, List.append_assoc]

omit [LawfulBitmap B] in
theorem bitmap_doc (w : Writer B) : bitmapBytes w = Doc.bitmap (Bitmap.toBuffer w.globalIDs) := by
  unfold bitmapBytes Doc.bitmap
  rw [num_ofNat32]

theorem meta_doc (n : Nat) : metaBytes n = Doc.num 8 n ++ Doc.num 8 0 ++ Doc.num 8 Doc.magic := by
  unfold metaBytes
  rw [num_ofNat64, show le64 0 = Doc.num 8 0 by rw [num_le64]; rfl, show le64 magicNumber = Doc.num 8 Doc.magic by rw [num_le64]; rfl]

omit [LawfulBitmap B] in
/-- What `Finalize` writes behind the padding. -/
theorem foot_doc {w : Writer B} {blks} (hi : Inv w blks []) (hc : Clean w blks) :
    footBytes w = Doc.num 4 blks.length ++ (blks.map fun b => entryBytes (b.entry w.encodingType)).flatten := by
  unfold footBytes indexBytes
  rw [entries_eq hi hc, hi.cnt, num_ofNat32]
  cases blks with
  | nil => rfl
  | cons b bs =>
    rw [if_pos (by simp)]
    simp [List.map_map, Function.comp_def]

omit [LawfulBitmap B] in
/-- What `Finalize` leaves, at some value of the clock. -/
theorem finalize_clock {env : Env} {w w' : Writer B} {blks} (hi : Inv w blks []) (hc : Clean w blks)
    (hf : finalize env w = (.ok (), w')) :
    ∃ i, w'.file.bytes = (finHeader (env.clock i) w).fields.flatten ++ (w.file.bytes ++ bitmapBytes w).drop 60 ++
      Doc.pageFill (w.file.bytes ++ bitmapBytes w).length ++ footBytes w ++ metaBytes (footBytes w).length := by
  have hat := hc.atEnd
  have h64 := hi.pos64
  obtain ⟨i, hs⟩ := wp_ok (finalize_from env w (by omega) (by omega)) hf
  refine ⟨i, ?_⟩
  rw [hs.file]
  show reFinal (env.clock i) w = _
  have h1 : re1 w = w.file.bytes ++ bitmapBytes w := by
    unfold re1; rw [hat, writeAt_end]
  unfold reFinal re2 rePad
  rw [h1, pageFill_eq]

/-! ### C47 -/

/-- What the first `Finalize` of a session without I/O errors leaves. -/
theorem finalize_bytes {env : Env} {opts : List WriterOption} {calls : List Call} {log : Log} {w w' : Writer B}
    (hh : History B env opts calls log w) (hb : ∀ c ∈ calls, c.Bounded) (he : RegularEnc (chosenEncoding opts))
    (hmis : NoMismatch log) (hno : NoIOError log) (hnf : Call.finalize ∉ calls) (hf : finalize env w = (.ok (), w')) :
    ∃ i, w'.file.bytes = Doc.file (chosenEncoding opts).toNat (chosenBlockSize opts).toNat (env.clock i).toNat
      ((acked log).map Doc.pairs) (Bitmap.toBuffer (bitmapOf B (acked log))) := by
  obtain ⟨blks, hi, hc, hp, ho, henc, ht, _, hchain, hg⟩ := history_clean' hh hb hmis hno
  have hchain := hchain hnf
  obtain ⟨i, hfb⟩ := finalize_clock hi hc hf
  refine ⟨i, ?_⟩
  obtain ⟨w0, hnew, hrun⟩ := hh.created
  obtain ⟨hi0, hc0, _, he0, _, hp0, _⟩ := newWriter_inv hnew
  obtain ⟨j, hs0⟩ := wp_ok (writeHeader_spec env opts) hnew
  have hb0 : w0.file.bytes = startBytes (env.clock j) opts := by rw [hs0.file]
  have hl0 := startBytes_length (env.clock j) opts
  have hbytes := runCalls_bytes calls hb hi0 hc0 (by rw [he0]; exact he) (by rw [hrun]; exact hno)
    (by rw [hrun]; exact hmis) hnf
  rw [hrun] at hbytes
  dsimp only at hbytes
  rw [hb0, hl0, he0] at hbytes
  have hdrop : (w.file.bytes ++ bitmapBytes w).drop 60 =
      [0, 0, 0, 0] ++ Doc.blocksAt (chosenEncoding opts).toNat 64 ((acked log).map Doc.pairs) ++ bitmapBytes w := by
    rw [hbytes]
    unfold startBytes
    rw [List.append_assoc, List.append_assoc, drop_append_len _ _ _ (headerFields_length _).symm, List.append_assoc]
  have hlen : w.file.bytes.length = 64 + (Doc.blocksAt (chosenEncoding opts).toNat 64 ((acked log).map Doc.pairs)).length := by
    rw [hbytes, List.length_append, hl0]
  have hhd := header_doc (env.clock i) w
  have hhl : ((finHeader (env.clock i) w).fields.flatten ++ [0, 0, 0, 0]).length = 64 := by
    rw [List.length_append, headerFields_length]; rfl
  rw [hhd] at hhl
  rw [hc.atEnd, hlen, hi.cnt, henc, ht] at hhd hhl
  rw [hfb, hdrop, foot_doc hi hc, meta_doc, henc, index_doc he (henc ▸ hchain) (henc ▸ hi.ok), hp]
  have hcount : ((acked log).map Doc.pairs).length = blks.length := by rw [List.length_map, ← hp, List.length_map]
  have hbm : bitmapBytes w = Doc.bitmap (Bitmap.toBuffer (bitmapOf B (acked log))) := by
    rw [bitmap_doc, hg, blkIDs_eq, hp]; rfl
  rw [hbm] at hhd hhl ⊢
  unfold Doc.file Doc.footer
  dsimp only
  rw [hcount, ← hhd]
  simp only [List.length_append, num_length, hlen, List.append_assoc, headerFields_length, List.length_cons, List.length_nil]
  have hadd : ∀ x y : Nat, 60 + (0 + 1 + 1 + 1 + 1 + (x + y)) = 64 + x + y := by intro x y; omega
  rw [hadd]

/-- **C47, the whole file.** A file finalized once, in any encoding but 5 and 6, is byte for byte
the documented one: it depends only on the options, the acknowledged blocks, the serialized
bitmap and one reading of the clock. -/
theorem C47_bytes {env : Env} {opts : List WriterOption} {log : Log} {file : Bytes}
    (h : Finalized B env opts log file) (he : RegularEnc (chosenEncoding opts))
    (hfirst : ∀ ev ∈ log, ev.1 ≠ .finalize) :
    ∃ i, file = Doc.file (chosenEncoding opts).toNat (chosenBlockSize opts).toNat (env.clock i).toNat
      ((acked log).map Doc.pairs) (Bitmap.toBuffer (bitmapOf B (acked log))) := by
  have hmis := h.noMismatch he.allMatch
  obtain ⟨calls, w, w', hh, hf, rfl⟩ := h.made
  have hb := hh.bounded h.bounded
  have hnf : Call.finalize ∉ calls := by
    intro hc
    rw [hh.calls_eq] at hc
    obtain ⟨ev, hev, heq⟩ := List.mem_map.1 hc
    exact hfirst ev hev heq
  exact finalize_bytes hh hb he hmis h.noIOError hnf hf

/-- **C47, every finalized file.** Also if `Finalize` was called before: all bytes of the header but
the reserved ones, the blocks at the offsets given in the index, the bitmap at the offset given in
the header and the footer (on a page boundary) are the documented ones. -/
theorem C47_layout {env : Env} {opts : List WriterOption} {log : Log} {file : Bytes}
    (h : Finalized B env opts log file) (he : RegularEnc (chosenEncoding opts)) :
    ∃ (i bo fs : Nat) (offs sizes : List Nat),
      file.take 60 = (Doc.header (acked log).length (chosenBlockSize opts).toNat (chosenEncoding opts).toNat
        (env.clock i).toNat bo (Doc.bitmap (Bitmap.toBuffer (bitmapOf B (acked log)))).length).take 60 ∧
      (file.drop bo).take (Doc.bitmap (Bitmap.toBuffer (bitmapOf B (acked log)))).length =
        Doc.bitmap (Bitmap.toBuffer (bitmapOf B (acked log))) ∧
      fs % 4096 = 0 ∧ bo + (Doc.bitmap (Bitmap.toBuffer (bitmapOf B (acked log)))).length ≤ fs ∧
      offs.length = (acked log).length ∧ sizes.length = (acked log).length ∧
      file.drop fs = Doc.footer (acked log).length
        ((List.zip (List.zip offs sizes) ((acked log).map Doc.pairs)).flatMap fun x => Doc.entry x.1.1 x.1.2 x.2.1 x.2.2) ∧
      ∀ x ∈ List.zip (List.zip offs sizes) ((acked log).map Doc.pairs),
        (file.drop x.1.1).take (Doc.block (chosenEncoding opts).toNat x.2.1 x.2.2).length =
          Doc.block (chosenEncoding opts).toNat x.2.1 x.2.2 ∧
        (Doc.block (chosenEncoding opts).toNat x.2.1 x.2.2).length ≤ x.1.2 ∧ (x.1.1 + x.1.2) % 4096 = 0 := by
  have hmis := h.noMismatch he.allMatch
  obtain ⟨calls, w, w', hh, hf, rfl⟩ := h.made
  have hb := hh.bounded h.bounded
  obtain ⟨blks, hi, hc, hp, ho, henc, ht, _, _, hg⟩ := history_clean' hh hb hmis h.noIOError
  obtain ⟨i, hfb⟩ := finalize_clock hi hc hf
  obtain ⟨_, _, _, _, _, hok, _⟩ := wp_ok (finalize_inv env w blks [] hi) hf
  obtain ⟨hd, bo, fs, hok, htgt, hbo⟩ := hok h.size
  have hbm : bitmapBytes w = Doc.bitmap (Bitmap.toBuffer (bitmapOf B (acked log))) := by
    rw [bitmap_doc, hg, blkIDs_eq, hp]; rfl
  have hhd := header_doc (env.clock i) w
  rw [hbm, hi.cnt, ht, henc] at hhd
  have hcount : (acked log).length = blks.length := by rw [← hp, List.length_map]
  have hbml : (Doc.bitmap (Bitmap.toBuffer (bitmapOf B (acked log)))).length = 4 + (Bitmap.toBuffer w.globalIDs).length := by
    rw [← hbm, bitmapBytes]; simp
  have hzip : List.zip (List.zip (blks.map Blk.off) (blks.map (Blk.size (chosenEncoding opts)))) ((acked log).map Doc.pairs) =
      blks.map fun b => ((b.off, b.size (chosenEncoding opts)), Doc.pairs b.pairs) := by
    rw [← hp, List.map_map, List.zip_map', List.zip_map']
    rfl
  refine ⟨i, bo, fs, blks.map Blk.off, blks.map (Blk.size (chosenEncoding opts)), ?_, ?_, hok.aligned, ?_,
    by rw [List.length_map, hcount], by rw [List.length_map, hcount], ?_, ?_⟩
  · rw [hfb, hcount, hbo, ← hhd]
    have hl := headerFields_length (finHeader (env.clock i) w)
    rw [List.append_assoc, List.append_assoc, List.append_assoc, take_append_len _ _ _ hl.symm, take_append_len _ _ _ hl.symm]
  · rw [hbml, ← hbm, bitmapBytes]
    exact hok.bmBytes
  · rw [hbml]; exact hok.bmFits
  · rw [hok.foot, hzip, num_ofNat32, meta_doc, hcount]
    unfold Doc.footer
    have hidx : (blks.map fun b => entryBytes (b.entry w.encodingType)).flatten =
        (blks.map fun b => ((b.off, b.size (chosenEncoding opts)), Doc.pairs b.pairs)).flatMap
          fun x => Doc.entry x.1.1 x.1.2 x.2.1 x.2.2 := by
      rw [List.flatMap_map, List.flatMap_def]
      congr 1
      refine List.map_congr_left fun b hb => ?_
      rw [henc]
      exact entry_doc b (henc ▸ hi.ok b hb)
    have hil : ((blks.map fun b => entryBytes (b.entry w.encodingType)).flatten).length = 56 * blks.length := by
      rw [flatten_map_eq _ _ 56 (fun b => entryBytes_length _)]; omega
    rw [← hidx, hil]
    simp only [List.append_assoc]
  · intro x hx
    rw [hzip] at hx
    obtain ⟨b, hb, rfl⟩ := List.mem_map.1 hx
    have hbok := henc ▸ hi.ok b hb
    have h1 : b.ids ≠ [] := List.ne_nil_of_length_pos hbok.ne
    have h2 : b.vals ≠ [] := List.ne_nil_of_length_pos (by have := hbok.len; have := hbok.ne; omega)
    have himg := image_doc he b.ids b.vals h1 h2 hbok.sec
    have hsl := hok.img b hb
    rw [henc] at hsl
    have hsz : b.size (chosenEncoding opts) = (b.img (chosenEncoding opts)).length +
        calculatePadding (b.off + (b.img (chosenEncoding opts)).length) pageSize := by
      unfold Blk.size padded; simp
    dsimp only [Doc.pairs, Blk.pairs]
    rw [← himg]
    refine ⟨hsl, ?_, ?_⟩
    · rw [hsz]; exact Nat.le_add_right _ _
    · rw [hsz]
      unfold calculatePadding pageSize
      split <;> omega

/-- **C47, consequence.** If the clock always reads the same, two files finalized once with the same
options and acknowledged blocks are identical, whatever calls produced them and whatever operations
failed in between. -/
theorem C47_deterministic {env env' : Env} {opts : List WriterOption} {log log' : Log} {file file' : Bytes}
    (h : Finalized B env opts log file) (h' : Finalized B env' opts log' file') (he : RegularEnc (chosenEncoding opts))
    (hfirst : ∀ ev ∈ log, ev.1 ≠ .finalize) (hfirst' : ∀ ev ∈ log', ev.1 ≠ .finalize)
    (hblocks : acked log = acked log') (hclock : ∀ i j, env.clock i = env'.clock j) : file = file' := by
  obtain ⟨i, h1⟩ := C47_bytes h he hfirst
  obtain ⟨j, h2⟩ := C47_bytes h' he hfirst'
  rw [h1, h2, hblocks, hclock i j]

/-- Non-vacuity of C47: a file with three blocks in variable-length encoding, finalized once. -/
example : (∃ file, Finalized IdSet quietEnv fullOpts fullLog file) ∧ RegularEnc (chosenEncoding fullOpts) ∧
    (∀ ev ∈ fullLog, ev.1 ≠ .finalize) ∧ (acked fullLog).length = 3 := by
  refine ⟨full_finalized, ?_, ?_, by decide⟩
  · unfold RegularEnc; decide
  · intro ev hev hc
    simp only [fullLog, List.mem_cons, List.not_mem_nil, or_false] at hev
    rcases hev with rfl | rfl | rfl <;> cases hc

/-- The documented bytes of the block `[300, 301] ↦ [-1, 2]` in encoding 7: statistics, encoding,
zeros, layout, IDs 300 and 1 as `ac 02` and `01`, values -1 and 3 as `01` and `06`. -/
example : Doc.block 7 [300, 301] [-1, 2] =
    [0x2c, 1, 0, 0, 0, 0, 0, 0, 0x2d, 1, 0, 0, 0, 0, 0, 0, 1, 0, 0, 0, 0, 0, 0, 0x80, 2, 0, 0, 0, 0, 0, 0, 0,
     1, 0, 0, 0, 0, 0, 0, 0, 2, 0, 0, 0, 7, 0, 0, 0, 0, 0, 0, 0, 0, 0, 0, 0, 0, 0, 0, 0, 0, 0, 0, 0,
     0, 0, 0, 0, 3, 0, 0, 0, 3, 0, 0, 0, 2, 0, 0, 0, 0xac, 2, 1, 1, 6] := by decide +kernel

end VibeCol
