/-
C53: the blocks a `SimpleWriter` makes, and the bytes of its file.
-/
import Verif.Spec.SimpleLayout
import Verif.Props.Split
import Verif.Props.SimpleProgress
namespace VibeCol
variable {B : Type} [Bitmap B]

/-! ### The specification determines the blocks -/

theorem Cut.unique {enc target : Nat} {force : Bool} {off : Nat} {pending rest rest' : List Pair} {bs bs' : List (List Pair)}
    (h : Cut enc target force off pending bs rest) (h' : Cut enc target force off pending bs' rest') :
    bs = bs' ∧ rest = rest' := by
  induction h generalizing bs' rest' with
  | wait h =>
    cases h' with
    | wait _ => exact ⟨rfl, rfl⟩
    | block n g g1 g2 _ _ _ =>
      exfalso
      rcases h with h | ⟨h, h3⟩
      · subst h; simp at g2; omega
      · rcases g with g | g
        · rw [g] at h; cases h
        · omega
  | block n h h1 h2 hfit hmax _ ih =>
    cases h' with
    | wait g =>
      exfalso
      rcases g with g | ⟨g, g3⟩
      · subst g; simp at h2; omega
      · rcases h with h | h
        · rw [h] at g; cases g
        · omega
    | block m g g1 g2 gfit gmax t =>
      have : n = m := by
        rcases Nat.lt_trichotomy n m with hlt | heq | hgt
        · exact absurd gfit (hmax m hlt g2)
        · exact heq
        · exact absurd hfit (gmax n hgt h2)
      subst this
      obtain ⟨rfl, rfl⟩ := ih t
      exact ⟨rfl, rfl⟩

theorem Cut.flatten {enc target : Nat} {force : Bool} {off : Nat} {pending rest : List Pair} {bs : List (List Pair)}
    (h : Cut enc target force off pending bs rest) : bs.flatten ++ rest = pending := by
  induction h with
  | wait _ => rfl
  | block n _ _ _ _ _ _ ih => rw [List.flatten_cons, List.append_assoc, ih, List.take_append_drop]

/-! ### The writer behind it -/

theorem blocksAt_snoc (enc off : Nat) (bs : List Doc.Pairs) (b : Doc.Pairs) :
    Doc.blocksAt enc off (bs ++ [b]) = Doc.blocksAt enc off bs ++ Doc.filledBlock enc (off + (Doc.blocksAt enc off bs).length) b := by
  induction bs generalizing off with
  | nil => simp [Doc.blocksAt, Doc.filledBlock]
  | cons a as ih =>
    simp only [List.cons_append, Doc.blocksAt]
    rw [ih]
    simp only [List.append_assoc, List.length_append, Nat.add_assoc]

theorem ofPairs_zip (ids : List UInt64) (vals : List Int64) (h : ids.length = vals.length) :
    Doc.ofPairs (ids.zip vals) = Doc.pairs (ids, vals) := by
  have e1 : (ids.zip vals).map (fun p => p.1.toNat) = ids.map UInt64.toNat := by
    have h1 : (ids.zip vals).map Prod.fst = ids := List.map_fst_zip (by omega)
    conv => rhs; rw [← h1]
    rw [List.map_map]; rfl
  have e2 : (ids.zip vals).map (fun p => p.2.toInt) = vals.map Int64.toInt := by
    have h1 : (ids.zip vals).map Prod.snd = vals := List.map_snd_zip (by omega)
    conv => rhs; rw [← h1]
    rw [List.map_map]; rfl
  unfold Doc.ofPairs Doc.pairs
  rw [e1, e2]

theorem zip_take (ids : List UInt64) (vals : List Int64) (n : Nat) : (ids.zip vals).take n = (ids.take n).zip (vals.take n) := by
  simp [List.zip, List.take_zipWith]

theorem zip_drop (ids : List UInt64) (vals : List Int64) (n : Nat) : (ids.zip vals).drop n = (ids.drop n).zip (vals.drop n) := by
  simp [List.zip, List.drop_zipWith]

/-- A writer before `Finalize` whose file has the given blocks. -/
structure Laying (opts : List WriterOption) (t : UInt64) (w : Writer B) (blks : List Blk) (blocks : List (List Pair)) : Prop where
  inv : Inv w blks []
  clean : Clean w blks
  isOpen : w.fileOpen = true
  enc : w.encodingType = chosenEncoding opts
  chain : Chain (chosenEncoding opts) 64 blks w.file.pos
  same : blks.map (fun b => b.ids.zip b.vals) = blocks
  gl : w.globalIDs = (blkIDs blks).foldl Bitmap.set Bitmap.empty
  bytes : w.file.bytes = startBytes t opts ++ Doc.blocksAt (chosenEncoding opts).toNat 64 (blocks.map Doc.ofPairs)

theorem Laying.docs {opts : List WriterOption} {t : UInt64} {w : Writer B} {blks : List Blk} {blocks : List (List Pair)}
    (h : Laying opts t w blks blocks) : (blks.map Blk.pairs).map Doc.pairs = blocks.map Doc.ofPairs := by
  rw [← h.same, List.map_map, List.map_map]
  apply List.map_congr_left
  intro b hb
  exact (ofPairs_zip b.ids b.vals (h.inv.ok b hb).len).symm

theorem Laying.length {opts : List WriterOption} {t : UInt64} {w : Writer B} {blks : List Blk} {blocks : List (List Pair)}
    (h : Laying opts t w blks blocks) :
    w.file.bytes.length = 64 + (Doc.blocksAt (chosenEncoding opts).toNat 64 (blocks.map Doc.ofPairs)).length := by
  rw [h.bytes, List.length_append, startBytes_length]

variable [LawfulBitmap B]

/-- One `WriteBlock` without faults. -/
theorem Laying.write {env : Env} (hnf : env.NoFault) {opts : List WriterOption} (he : RegularEnc (chosenEncoding opts))
    {t : UInt64} {w : Writer B} {blks : List Blk} {blocks : List (List Pair)}
    (h : Laying opts t w blks blocks) (ids : List UInt64) (vals : List Int64)
    (hlen : ids.length = vals.length) (hpos : 0 < ids.length) (hid : ids.length ≤ 2 ^ 27) :
    ∃ n, 1 ≤ n ∧ n ≤ ids.length ∧
      CanCut (chosenEncoding opts).toNat w.blockSizeTarget.toNat w.file.bytes.length (ids.zip vals) n ∧
      (∀ m, n < m → m ≤ ids.length →
        ¬ CanCut (chosenEncoding opts).toNat w.blockSizeTarget.toNat w.file.bytes.length (ids.zip vals) m) ∧
      (writeBlock ids vals env w).1 = (if n = ids.length then .ok () else .error (.blockFull n)) ∧
      ∃ b, Laying opts t (writeBlock ids vals env w).2 (blks ++ [b]) (blocks ++ [(ids.zip vals).take n]) ∧
      (writeBlock ids vals env w).2.blockSizeTarget = w.blockSizeTarget := by
  have hF := NoFault.not_faulty (w := w) hnf h.isOpen
  have hk : KnownEnc w.encodingType := by rw [h.enc]; exact he.known
  have hat := h.clean.atEnd
  have hout := writeBlock_out env w ids vals hk hlen hpos hid h.inv.posLe h.inv.near
  obtain ⟨new, extra', hadd, hinv, hcfg, hx1, hx2, hnew, hfresh⟩ := writeBlock_inv env w blks [] h.inv hk ids vals hlen hpos hid
  have hcut : ∀ n, 0 < n → (CanCut (chosenEncoding opts).toNat w.blockSizeTarget.toNat w.file.bytes.length (ids.zip vals) n ↔
      estSize w.encodingType w.file.pos (ids.take n) (vals.take n) ≤ w.blockSizeTarget.toNat ∨ (ids.take n).length = 1) := by
    intro n hn
    unfold CanCut
    rw [zip_take, ofPairs_zip _ _ (by simp [hlen]), ← pairs_first, h.enc, hat]
    exact fits_iff he _ _ n ids vals hlen hn hpos
  have hdoc : ∀ n, 0 < n → padded w.file.bytes.length (image w.encodingType (ids.take n) (vals.take n)) =
      Doc.filledBlock (chosenEncoding opts).toNat w.file.bytes.length (Doc.ofPairs ((ids.zip vals).take n)) := by
    intro n hn
    rw [h.enc, zip_take, ofPairs_zip _ _ (by simp [hlen])]
    apply filledBlock_doc he
    · rw [← List.length_pos_iff, List.length_take]; omega
    · rw [← List.length_pos_iff, List.length_take]; omega
  have key : ∀ (w' : Writer B) n, 0 < n → n ≤ ids.length → Inv w' (blks ++ [blkAt w (ids.take n) (vals.take n)]) extra' →
      extra' = [] → Clean w' (blks ++ [blkAt w (ids.take n) (vals.take n)]) → SameConfig w w' →
      Fresh w w' (blkAt w (ids.take n) (vals.take n)) →
      w'.file.bytes = w.file.bytes ++ padded w.file.bytes.length (image w.encodingType (ids.take n) (vals.take n)) →
      Laying opts t w' (blks ++ [blkAt w (ids.take n) (vals.take n)]) (blocks ++ [(ids.zip vals).take n]) := by
    intro w' n hn hn2 hi' hex hc' hcf hf hbytes
    subst hex
    refine ⟨hi', hc', hcf.opened.trans h.isOpen, hcf.enc.trans h.enc, ?_, ?_, ?_, ?_⟩
    · refine h.chain.append ?_
      refine ⟨hf.off, ?_⟩
      rw [hf.stop, h.enc]
      exact rfl
    · rw [List.map_append, h.same, zip_take]; rfl
    · rw [hf.gl, h.gl]
      simp [blkIDs, List.foldl_append]
    · rw [hbytes, hdoc n hn, List.map_append, List.map_cons, List.map_nil, blocksAt_snoc, ← List.append_assoc, ← h.bytes,
        h.length]
  generalize writeBlock ids vals env w = res at hout hadd hinv hcfg hnew hfresh ⊢
  obtain ⟨r, w'⟩ := res
  dsimp only at hout hadd hinv hcfg hnew hfresh ⊢
  cases hout with
  | full _ _ _ hfit hcm =>
    have htk : ids.take ids.length = ids := List.take_length
    have htk2 : vals.take ids.length = vals := by rw [hlen, List.take_length]
    generalize hrr : (Except.ok () : Except Err Unit) = rr at hadd
    cases hadd with
    | all =>
      obtain ⟨hex, hcl⟩ := hnew (by simp)
      have hkey := key w' ids.length hpos (Nat.le_refl _)
      rw [htk, htk2] at hkey
      refine ⟨ids.length, hpos, Nat.le_refl _, ?_, ?_, ?_, _, hkey hinv hex (hcl h.clean) hcfg (hfresh _ (by simp))
        (committed_bytes hcm hat), hcfg.target⟩
      · rw [hcut _ hpos, htk, htk2]; exact hfit
      · intro m h1 h2; omega
      · rw [if_pos rfl]
    | _ => cases hrr
  | part _ k hk1 hk2 hbig hfit hmax _ _ hcm =>
    generalize hrr : (Except.error (Err.blockFull k) : Except Err Unit) = rr at hadd
    cases hadd with
    | part k' _ _ =>
      cases hrr
      obtain ⟨hex, hcl⟩ := hnew (by simp)
      refine ⟨k, hk1, Nat.le_of_lt hk2, ?_, ?_, ?_, _, key w' k hk1 (Nat.le_of_lt hk2) hinv hex (hcl h.clean) hcfg
        (hfresh _ (by simp)) (committed_bytes hcm hat), hcfg.target⟩
      · rw [hcut _ hk1]
        rcases hfit with hfit | hfit
        · exact .inl hfit
        · right; rw [List.length_take]; omega
      · intro m hm1 hm2
        rw [hcut _ (by omega)]
        have h1 := hmax hF
        have h2 := estSize_mono w.encodingType w.file.pos ids vals (k + 1) m hm1
        rw [List.length_take]
        omega
      · rw [if_neg (by omega)]
    | all => cases hrr
    | none e he' =>
      cases hrr
      rcases he' with ⟨he', _⟩ | ⟨he', _⟩ <;> cases he'
    | torn => cases hrr
  | noop _ hFF _ => exact absurd hFF hF
  | fail e _ k hk1 hk2 _ hx =>
    cases hx with
    | early _ hFF _ => exact absurd hFF hF
    | mid _ _ hFF _ _ => exact absurd hFF hF
    | mismatch _ _ hm _ _ => exact absurd (by rw [h.enc]; exact he.allMatch _ _) hm
    | sync _ hFF _ _ => exact absurd hFF hF

omit [LawfulBitmap B] in
/-- `Finalize` makes the documented file of it. -/
theorem Laying.finalize {env : Env} {opts : List WriterOption} (he : RegularEnc (chosenEncoding opts))
    {t : UInt64} {w w' : Writer B} {blks : List Blk} {blocks : List (List Pair)}
    (h : Laying opts t w blks blocks) (hf : finalize env w = (.ok (), w')) :
    ∃ i, w'.file.bytes = Doc.file (chosenEncoding opts).toNat w.blockSizeTarget.toNat (env.clock i).toNat
      (blocks.map Doc.ofPairs) (Bitmap.toBuffer (bitmapOfPairs B blocks.flatten)) := by
  obtain ⟨i, hfb⟩ := finalize_clock h.inv h.clean hf
  refine ⟨i, ?_⟩
  have hbytes := h.bytes
  have hlen := h.length
  have hdocs := h.docs
  have hdrop : (w.file.bytes ++ bitmapBytes w).drop 60 =
      [0, 0, 0, 0] ++ Doc.blocksAt (chosenEncoding opts).toNat 64 (blocks.map Doc.ofPairs) ++ bitmapBytes w := by
    rw [hbytes]
    unfold startBytes
    rw [List.append_assoc, List.append_assoc, drop_append_len _ _ _ (headerFields_length _).symm, List.append_assoc]
  have hhd := header_doc (env.clock i) w
  have hhl : ((finHeader (env.clock i) w).fields.flatten ++ [0, 0, 0, 0]).length = 64 := by
    rw [List.length_append, headerFields_length]; rfl
  rw [hhd] at hhl
  rw [h.clean.atEnd, hlen, h.inv.cnt, h.enc] at hhd hhl
  rw [hfb, hdrop, foot_doc h.inv h.clean, meta_doc, h.enc, index_doc he h.chain (h.enc ▸ h.inv.ok), hdocs]
  have hcount : (blocks.map Doc.ofPairs).length = blks.length := by rw [← hdocs, List.length_map, List.length_map]
  have hbm : bitmapBytes w = Doc.bitmap (Bitmap.toBuffer (bitmapOfPairs B blocks.flatten)) := by
    have e : blkIDs blks = blocks.flatten.map Prod.fst := by
      rw [← h.same, List.map_flatten, List.map_map]
      unfold blkIDs
      rw [List.flatMap_def]
      congr 1
      apply List.map_congr_left
      intro b hb
      exact (List.map_fst_zip (by have := (h.inv.ok b hb).len; omega)).symm
    rw [bitmap_doc, h.gl, e]; rfl
  rw [hbm] at hhd hhl ⊢
  unfold Doc.file Doc.footer
  dsimp only
  rw [hcount, ← hhd]
  simp only [List.length_append, num_length, hlen, List.append_assoc, headerFields_length, List.length_cons, List.length_nil]
  have hadd : ∀ x y : Nat, 60 + (0 + 1 + 1 + 1 + 1 + (x + y)) = 64 + x + y := by intro x y; omega
  rw [hadd]

/-- A flush without faults. -/
theorem Laying.flush {env : Env} (hnf : env.NoFault) {opts : List WriterOption} (he : RegularEnc (chosenEncoding opts))
    {t : UInt64} (force : Bool) (sw : SimpleWriter B) {blks : List Blk} {blocks : List (List Pair)}
    (h : Laying opts t sw.writer blks blocks) (hlen : sw.pendingIDs.length = sw.pendingValues.length)
    (hb : sw.pendingIDs.length ≤ 2 ^ 27) :
    (flushIfNeeded env force sw).1 = .ok () ∧ ∃ new blks',
      Cut (chosenEncoding opts).toNat sw.writer.blockSizeTarget.toNat force sw.writer.file.bytes.length sw.pending new
        (flushIfNeeded env force sw).2.pending ∧
      Laying opts t (flushIfNeeded env force sw).2.writer blks' (blocks ++ new) ∧
      (flushIfNeeded env force sw).2.writer.blockSizeTarget = sw.writer.blockSizeTarget ∧
      (flushIfNeeded env force sw).2.pendingIDs.length = (flushIfNeeded env force sw).2.pendingValues.length ∧
      (flushIfNeeded env force sw).2.closed = sw.closed := by
  have hpl : sw.pending.length = sw.pendingIDs.length := by
    unfold SimpleWriter.pending; rw [List.length_zip]; omega
  rw [flushIfNeeded_eq]
  by_cases h0 : sw.pendingIDs.length = 0
  · rw [if_pos h0]
    exact ⟨rfl, [], blks, .wait (.inl (List.eq_nil_of_length_eq_zero (by omega))), by simpa using h, rfl, hlen, rfl⟩
  rw [if_neg h0]
  by_cases hc : force = true ∨ sw.pendingIDs.length ≥ 1000
  · rw [if_pos hc]
    obtain ⟨n, hn1, hn2, hfit, hmax, hres, b, hl, htg⟩ := h.write hnf he sw.pendingIDs sw.pendingValues hlen (by omega) hb
    rcases hw : writeBlock sw.pendingIDs sw.pendingValues env sw.writer with ⟨r, w'⟩
    rw [hw] at hres hl htg
    dsimp only at hres hl htg
    by_cases hn : n = sw.pendingIDs.length
    · rw [if_pos hn] at hres
      subst hres
      dsimp only
      have htk : sw.pending.take n = sw.pending := List.take_of_length_le (by omega)
      refine ⟨rfl, [sw.pending], blks ++ [b], ?_, ?_, htg, rfl, rfl⟩
      · have := Cut.block (enc := (chosenEncoding opts).toNat) (target := sw.writer.blockSizeTarget.toNat) (force := force)
          (off := sw.writer.file.bytes.length) (pending := sw.pending) (blocks := []) (rest := []) n (by rw [hpl]; exact hc)
          hn1 (by omega) hfit (by rw [hpl]; exact hmax)
          (by rw [List.drop_of_length_le (by omega)]; exact .wait (.inl rfl))
        rw [htk] at this
        exact this
      · rw [← htk]; exact hl
    · rw [if_neg hn] at hres
      subst hres
      dsimp only
      have hlt : (sw.pendingIDs.drop n).length < sw.pendingIDs.length := by rw [List.length_drop]; omega
      obtain ⟨hr, new, blks', hcut, hl', ht', hlen', hcl'⟩ := Laying.flush hnf he force
        { sw with writer := w', totalItems := sw.totalItems + n, pendingIDs := sw.pendingIDs.drop n,
                  pendingValues := sw.pendingValues.drop n } hl
        (by simp only [List.length_drop]; omega) (by simp only [List.length_drop]; omega)
      refine ⟨hr, sw.pending.take n :: new, blks', ?_, ?_, ht'.trans htg, hlen', hcl'⟩
      · refine Cut.block n (by rw [hpl]; exact hc) hn1 (by omega) hfit (by rw [hpl]; exact hmax) ?_
        have e1 : sw.writer.file.bytes.length + (Doc.filledBlock (chosenEncoding opts).toNat sw.writer.file.bytes.length
            (Doc.ofPairs (sw.pending.take n))).length = w'.file.bytes.length := by
          rw [hl.length, h.length, List.map_append, List.map_cons, List.map_nil, blocksAt_snoc, List.length_append, Nat.add_assoc]
          rfl
        have e2 : sw.pending.drop n = (sw.pendingIDs.drop n).zip (sw.pendingValues.drop n) := zip_drop _ _ _
        rw [e1, e2, ← htg]
        exact hcut
      · rw [List.append_cons]; exact hl'
  · rw [if_neg hc]
    refine ⟨rfl, [], blks, .wait (.inr ?_), by simpa using h, rfl, hlen, rfl⟩
    rw [hpl]
    cases force <;> simp_all
termination_by sw.pendingIDs.length

/-! ### Histories -/

/-- A `SimpleWriter` whose state is the one specified. -/
inductive Drawn (env : Env) (opts : List WriterOption) (t : UInt64) (sw : SimpleWriter B) (L : Layout) : Prop where
  | isOpen (blks : List Blk) (h1 : sw.closed = false) (h2 : L.closed = false) (h : Laying opts t sw.writer blks L.blocks)
      (ht : L.target = sw.writer.blockSizeTarget.toNat) (hp : L.pending = sw.pending)
      (hlen : sw.pendingIDs.length = sw.pendingValues.length) (hfew : sw.pendingIDs.length < 1000)
  | isClosed (blks : List Blk) (h1 : sw.closed = true) (h2 : L.closed = true) (hp : L.pending = [])
      (same : blks.map (fun b => b.ids.zip b.vals) = L.blocks)
      (hf : ∃ i, sw.writer.file.bytes = Doc.file (chosenEncoding opts).toNat L.target (env.clock i).toNat
        (L.blocks.map Doc.ofPairs) (Bitmap.toBuffer (bitmapOfPairs B L.blocks.flatten)))
      (hok : sw.writer.file.bytes.length < 2 ^ 63 → ∃ hd bo fs buf,
        FileOK sw.writer.file.bytes hd (chosenEncoding opts) blks buf bo fs)
      (hch : ∃ hi, Chain (chosenEncoding opts) 64 blks hi)

theorem Cut.rest_lt {enc target : Nat} {force : Bool} {off : Nat} {pending rest : List Pair} {bs : List (List Pair)}
    (h : Cut enc target force off pending bs rest) : rest.length < 1000 ∧ (force = true → rest = []) := by
  induction h with
  | wait h =>
    rcases h with rfl | ⟨h1, h2⟩
    · exact ⟨by simp, fun _ => rfl⟩
    · exact ⟨h2, fun h => by rw [h] at h1; cases h1⟩
  | block _ _ _ _ _ _ _ ih => exact ih

theorem target_truncated (size : Int64) : size.toUInt64.toUInt32.toNat = (size.toInt % 2 ^ 32).toNat := by
  have h1 : size.toUInt64.toUInt32.toNat = size.toBitVec.toNat % 2 ^ 32 := by
    rw [UInt64.toNat_toUInt32]; rfl
  have h2 : size.toInt = size.toBitVec.toInt := rfl
  rw [h1, h2, BitVec.toInt_eq_toNat_cond]
  have := size.toBitVec.isLt
  split <;> omega

theorem Drawn.call {env : Env} (hnf : env.NoFault) (hs : LawfulSort env.sort) {opts : List WriterOption}
    (he : RegularEnc (chosenEncoding opts)) {t : UInt64} {sw : SimpleWriter B} {L : Layout}
    (h : Drawn env opts t sw L) (c : SWCall) (hb : c.Bounded) :
    ∃ L', Layout.Step (chosenEncoding opts).toNat L c (c.run env sw).1 L' ∧ Drawn env opts t (c.run env sw).2 L' := by
  cases h with
  | isClosed blks h1 h2 hp same hf hok hch =>
    obtain ⟨e1, e2⟩ := closed_call env c sw h1
    refine ⟨L, ?_, ?_⟩
    · have : (c.run env sw).1 = c.whenClosed := by rw [e2]; cases c <;> rfl
      rw [this]; exact .closed h2
    · rw [e1]; exact .isClosed blks h1 h2 hp same hf hok hch
  | isOpen blks h1 h2 h ht hp hlen hfew =>
    have hsz : L.size (chosenEncoding opts).toNat = sw.writer.file.bytes.length := by rw [h.length]; rfl
    cases c with
    | setTarget size =>
      have e : SWCall.run env (.setTarget size) sw = (.ok (), { sw with
          targetBlockSize := size, writer := { sw.writer with blockSizeTarget := size.toUInt64.toUInt32 } }) := by
        simp [SWCall.run, setTargetBlockSize, h1]
      rw [e]
      refine ⟨_, .target h2, .isOpen blks h1 h2 ?_ ?_ hp hlen hfew⟩
      · obtain ⟨h3, h4, h5, h6, h7, h8, h9, h10⟩ := h
        exact ⟨⟨h3.pos64, h3.posLe, h3.near, h3.cnt, h3.sizes, h3.stats, h3.bitmap, h3.ok, .inl ⟨h4.positions, h4.atEnd, h4.laid, h4.img⟩⟩,
          ⟨h4.positions, h4.atEnd, h4.laid, h4.img⟩, h5, h6, h7, h8, h9, h10⟩
      · exact (target_truncated size).symm
    | write ids vals =>
      by_cases hl : ids.length = vals.length
      · by_cases hne : ids.length = 0
        · have e1 : ids = [] := List.eq_nil_of_length_eq_zero hne
          have e2 : vals = [] := List.eq_nil_of_length_eq_zero (by omega)
          subst e1 e2
          have e : SWCall.run env (.write [] []) sw = (.ok (), sw) := by
            simp [SWCall.run, SimpleWriter.write, h1]
          rw [e]
          refine ⟨_, .write (stored := []) (new := []) (rest := L.pending) h2 rfl ⟨.refl _, .nil, fun _ => rfl⟩ ?_,
            .isOpen blks h1 h2 ?_ ht hp hlen hfew⟩
          · rw [List.append_nil]
            refine .wait (.inr ⟨rfl, ?_⟩)
            rw [hp, SimpleWriter.pending, List.length_zip]; omega
          · simpa using h
        · obtain ⟨g1, g2, g3⟩ := storedBatch_spec env hs ids vals hl
          have hw := write_eq env ids vals sw h1 hl hne
          have hb' : ids.length + 999 ≤ 2 ^ 27 := hb
          simp only [SWCall.run]
          rw [hw]
          generalize hsw1 : ({ sw with
            pendingIDs := sw.pendingIDs ++ (storedBatch env ids vals).1
            pendingValues := sw.pendingValues ++ (storedBatch env ids vals).2 } : SimpleWriter B) = sw1
          have hp1 : sw1.pending = L.pending ++ (storedBatch env ids vals).1.zip (storedBatch env ids vals).2 := by
            rw [hp, ← hsw1]
            unfold SimpleWriter.pending
            exact List.zip_append hlen
          obtain ⟨hr, new, blks', hcut, hl', ht', hlen', hcl'⟩ := Laying.flush hnf he (t := t) (blks := blks) (blocks := L.blocks)
            false sw1 (by rw [← hsw1]; exact h)
            (by rw [← hsw1]; simp only [List.length_append]; omega)
            (by rw [← hsw1]; simp only [List.length_append]; omega)
          have hwr : sw1.writer = sw.writer := by rw [← hsw1]
          have hc1 : sw1.closed = sw.closed := by rw [← hsw1]
          rw [hp1, hwr, ← ht, ← hsz] at hcut
          rw [hr]
          refine ⟨_, .write h2 hl g1 hcut, .isOpen blks' (hcl'.trans (hc1.trans h1)) h2 hl' ?_ rfl hlen' ?_⟩
          · rw [ht', hwr]; exact ht
          · have := hcut.rest_lt.1
            rw [SimpleWriter.pending, List.length_zip] at this
            omega
      · have e : SWCall.run env (.write ids vals) sw = (.error .lengthMismatch, sw) := by
          simp [SWCall.run, SimpleWriter.write, h1, hl]
        rw [e]
        exact ⟨L, .mismatch h2 hl, .isOpen blks h1 h2 h ht hp hlen hfew⟩
    | close =>
      obtain ⟨hr, new, blks', hcut, hl', ht', hlen', hcl'⟩ := Laying.flush hnf he true sw h hlen (by omega)
      have hp' := hcut.rest_lt.2 rfl
      rw [hp', ← hp, ← ht, ← hsz] at hcut
      show ∃ L', Layout.Step _ L .close (sw.close env).1 L' ∧ Drawn env opts t (sw.close env).2 L'
      unfold SimpleWriter.close
      rw [if_neg (by simp [h1])]
      generalize flushIfNeeded env true sw = res at hr hl' ht' hlen' hcl' hp' ⊢
      obtain ⟨r, sw1⟩ := res
      dsimp only at hr hl' ht' hlen' hcl' hp' ⊢
      subst hr
      dsimp only
      obtain ⟨w2, hw2⟩ := finalize_noFault hnf hl'.inv hl'.clean hl'.isOpen
      obtain ⟨i, hfile⟩ := hl'.finalize he hw2
      obtain ⟨_, _, hcfg, _, _, hok, _⟩ := wp_ok (finalize_inv env sw1.writer _ [] hl'.inv) hw2
      have hfc : finalizeAndClose env sw1.writer = (.ok (), { w2 with opNo := w2.opNo + 1, fileOpen := false }) := by
        have : w2.fileOpen = true := by rw [hcfg.opened, hl'.isOpen]
        unfold finalizeAndClose
        rw [WM.bind_def, hw2]
        simp only [fclose, this, hnf w2.opNo]
        rfl
      rw [hfc]
      refine ⟨_, .close h2 hcut, .isClosed blks' rfl rfl rfl hl'.same ⟨i, ?_⟩ ?_ ⟨_, hl'.chain⟩⟩
      · show w2.file.bytes = _
        rw [hfile, ht', ← ht]
      · intro hlt
        obtain ⟨hd, bo, fs, hk, _⟩ := hok hlt
        exact ⟨hd, bo, fs, _, hl'.enc ▸ hk⟩

theorem Drawn.run {env : Env} (hnf : env.NoFault) (hs : LawfulSort env.sort) {opts : List WriterOption}
    (he : RegularEnc (chosenEncoding opts)) {t : UInt64} {sw : SimpleWriter B} {L : Layout}
    (h : Drawn env opts t sw L) (cs : List SWCall) (hb : ∀ c ∈ cs, c.Bounded) :
    ∃ L', Layout.Run (chosenEncoding opts).toNat L (runSW env cs sw).1 L' ∧ Drawn env opts t (runSW env cs sw).2 L' := by
  induction cs generalizing sw L with
  | nil => exact ⟨L, .nil, h⟩
  | cons c cs ih =>
    obtain ⟨L1, hstep, h1⟩ := h.call hnf hs he c (hb c (List.mem_cons_self ..))
    obtain ⟨L2, hrun, h2⟩ := ih h1 (fun x hx => hb x (List.mem_cons_of_mem _ hx))
    rw [runSW_cons]
    exact ⟨L2, .cons hstep hrun, h2⟩

theorem newSimpleWriter_drawn {env : Env} {opts : List WriterOption} {sw : SimpleWriter B}
    (h : newSimpleWriter opts env = .ok sw) : ∃ j, Drawn env opts (env.clock j) sw (Layout.start opts) := by
  unfold newSimpleWriter at h
  rcases hn : (newWriter opts env : Except Err Unit × Writer B) with ⟨r, w⟩
  rw [hn] at h
  cases r with
  | error e => cases h
  | ok u =>
    cases h
    obtain ⟨h1, h2, h3, h4, h5, h6, h7⟩ := newWriter_inv hn
    obtain ⟨j, hs0⟩ := wp_ok (writeHeader_spec env opts) hn
    refine ⟨j, .isOpen [] rfl rfl ⟨h1, h2, h3, h4, ?_, rfl, h7, ?_⟩ ?_ rfl rfl (by simp)⟩
    · exact h6.symm
    · show w.file.bytes = _
      rw [hs0.file]
      simp [Layout.start, Doc.blocksAt]
    · show (chosenBlockSize opts).toNat = w.blockSizeTarget.toNat
      rw [h5]

omit [LawfulBitmap B] in
theorem SWHistory.eq {env : Env} {opts : List WriterOption} {calls : List SWCall} {log : SWLog} {sw : SimpleWriter B}
    (h : SWHistory B env opts calls log sw) :
    ∃ sw0 : SimpleWriter B, newSimpleWriter opts env = .ok sw0 ∧ log = (runSW env calls sw0).1 ∧ sw = (runSW env calls sw0).2 := by
  obtain ⟨sw0, h0, hr⟩ := h.created
  exact ⟨sw0, h0, by rw [hr], by rw [hr]⟩

theorem SWHistory.drawn {env : Env} (hnf : env.NoFault) (hs : LawfulSort env.sort) {opts : List WriterOption}
    {calls : List SWCall} {log : SWLog} {sw : SimpleWriter B} (h : SWHistory B env opts calls log sw)
    (he : RegularEnc (chosenEncoding opts)) (hb : ∀ c ∈ calls, c.Bounded) :
    ∃ j L, Layout.Run (chosenEncoding opts).toNat (Layout.start opts) log L ∧ Drawn env opts (env.clock j) sw L := by
  obtain ⟨sw0, h0, rfl, rfl⟩ := h.eq
  obtain ⟨j, hd⟩ := newSimpleWriter_drawn h0
  obtain ⟨L, h1, h2⟩ := hd.run hnf hs he calls hb
  exact ⟨j, L, h1, h2⟩

theorem startBytes_doc (t : UInt64) (opts : List WriterOption) :
    startBytes t opts = Doc.header 0 (chosenBlockSize opts).toNat (chosenEncoding opts).toNat t.toNat 0 0 := by
  have h0 : ([0, 0, 0, 0] : Bytes) = Doc.num 4 0 := rfl
  have h1 : le32 version = Doc.num 4 1 := by rw [num_le32]; rfl
  have h2 : le32 dataTypeInt64 = Doc.num 4 0 := by rw [num_le32]; rfl
  have h3 : le32 compressionNone = Doc.num 4 0 := by rw [num_le32]; rfl
  have h4 : le64 magicNumber = Doc.num 8 Doc.magic := by rw [num_le64]; rfl
  have h5 : le64 0 = Doc.num 8 0 := by rw [num_le64]; rfl
  unfold Doc.header startBytes
  simp only [FileHeader.fields, newFileHeader, h0, h1, h2, h3, h4, h5, num_le64 t, num_le32 (chosenBlockSize opts),
    num_le32 (chosenEncoding opts)]
  simp [List.flatten, List.append_assoc]

/-- **C53.** Without faults, whatever calls are made on a `SimpleWriter` and whatever they return, is
what the specification `Layout.Run` says: batches are buffered in ascending ID order, and as soon as
1000 pairs are buffered (at `Close`: in any case) the longest beginnings of the buffer that fit the
block size target become blocks. Until `Close` the file is a header without blocks followed by exactly
these blocks; after `Close` it is the documented file of exactly these blocks, byte for byte. -/
theorem C53_layout {env : Env} (hnf : env.NoFault) (hs : LawfulSort env.sort) {opts : List WriterOption}
    {calls : List SWCall} {log : SWLog} {sw : SimpleWriter B} (h : SWHistory B env opts calls log sw)
    (he : RegularEnc (chosenEncoding opts)) (hb : ∀ c ∈ calls, c.Bounded) :
    let enc := (chosenEncoding opts).toNat
    ∃ (L : Layout) (i : Nat), Layout.Run enc (Layout.start opts) log L ∧
      sw.writer.file.bytes =
        if L.closed then
          Doc.file enc L.target (env.clock i).toNat (L.blocks.map Doc.ofPairs) (Bitmap.toBuffer (bitmapOfPairs B L.blocks.flatten))
        else Doc.header 0 (chosenBlockSize opts).toNat enc (env.clock i).toNat 0 0 ++ L.data enc := by
  intro enc
  obtain ⟨j, L, hrun, hd⟩ := h.drawn hnf hs he hb
  cases hd with
  | isOpen blks h1 h2 h _ _ _ _ =>
    refine ⟨L, j, hrun, ?_⟩
    rw [h2, if_neg (by simp), h.bytes, startBytes_doc]
    rfl
  | isClosed blks h1 h2 _ _ hf _ _ =>
    obtain ⟨i, hf⟩ := hf
    refine ⟨L, i, hrun, ?_⟩
    rw [h2, if_pos rfl]
    exact hf

/-- **C53, read back.** In the symmetric encodings the closed file opens, and its blocks are exactly
the specified ones. -/
theorem C53_blocks {env : Env} (hnf : env.NoFault) (hs : LawfulSort env.sort) {opts : List WriterOption}
    {calls : List SWCall} {log : SWLog} {sw : SimpleWriter B} (h : SWHistory B env opts calls log sw)
    (he : SymEnc (chosenEncoding opts)) (hb : ∀ c ∈ calls, c.Bounded)
    (hclose : (SWCall.close, Except.ok ()) ∈ log) (hsize : sw.writer.file.bytes.length ≤ maxFileSize) :
    ∃ (L : Layout) (r : Reader B), Layout.Run (chosenEncoding opts).toNat (Layout.start opts) log L ∧
      newReader sw.writer.file.bytes = .ok r ∧ r.blockCount.toNat = L.blocks.length ∧
      ∀ (i : Nat) (hi : i < L.blocks.length), ∃ ids vals, getPairs r (UInt64.ofNat i) = .ok (ids, vals) ∧
        ids.length = vals.length ∧ ids.zip vals = L.blocks[i] := by
  have hcl : sw.closed = true := by
    obtain ⟨sw0, _, hr⟩ := h.created
    have := closed_of_log env calls sw0 (by rw [hr]; exact hclose)
    rwa [hr] at this
  obtain ⟨j, L, hrun, hd⟩ := h.drawn hnf hs he.regular hb
  cases hd with
  | isOpen blks h1 _ _ _ _ _ _ => rw [h1] at hcl; cases hcl
  | isClosed blks h1 h2 _ hsame _ hok _ =>
    obtain ⟨hd, bo, fs, buf, hok⟩ := hok (by unfold maxFileSize maxBlocks at hsize; omega)
    have hfew := hok.few hsize
    have hR := hok.reads (B := B) he hfew
    refine ⟨L, _, hrun, hok.newReader (B := B) (by unfold maxBlocks at hfew; omega), ?_, ?_⟩
    · refine hR.toIndexed.count_toNat.trans ?_
      rw [← hsame, List.length_map, List.length_map]
    · intro i hi
      have hib : i < blks.length := by rw [← hsame, List.length_map] at hi; exact hi
      have hr := hR.read i (by rw [List.length_map]; exact hib)
      rw [List.getElem_map] at hr
      refine ⟨_, _, hr, (hok.ok blks[i] (List.getElem_mem hib)).len, ?_⟩
      simp only [← hsame, List.getElem_map]

/-! ### What the specification says -/

theorem Cut.fits {enc target : Nat} {force : Bool} {off : Nat} {pending rest : List Pair} {bs : List (List Pair)}
    (h : Cut enc target force off pending bs rest) : ∀ b ∈ bs, b ≠ [] ∧ ∃ off, Doc.Fits enc target off (Doc.ofPairs b) := by
  induction h with
  | wait _ => intro b hb; cases hb
  | block n _ h1 h2 hfit _ _ ih =>
    intro b hb
    rcases List.mem_cons.1 hb with rfl | hb
    · exact ⟨List.ne_nil_of_length_pos (by rw [List.length_take]; omega), _, hfit⟩
    · exact ih b hb

theorem Each.append {R : α → β → Prop} {a c : List α} {b d : List β} (h1 : Each R a b)
    (h2 : Each R c d) : Each R (a ++ c) (b ++ d) := by
  induction h1 with
  | nil => exact h2
  | cons h _ ih => exact .cons h ih

/-- Blocks and buffer hold exactly the accepted batches, in order. -/
theorem Layout.Run.stream {enc : Nat} {L L' : Layout} {log : SWLog} (h : Layout.Run enc L log L')
    (hL : L.closed = true → L.pending = []) :
    ∃ stored, Each SortedBatch (accepted log) stored ∧
      L'.blocks.flatten ++ L'.pending = L.blocks.flatten ++ L.pending ++ stored.flatten := by
  induction h with
  | nil => exact ⟨[], .nil, by simp⟩
  | @cons L L1 L2 c r log h t ih =>
    have hacc : accepted ((c, r) :: log) = acceptedBy c r ++ accepted log := rfl
    rw [hacc]
    cases h with
    | write hopen hlen hs hc =>
      rename_i ids vals stored new rest
      obtain ⟨st, h1, h2⟩ := ih (fun hc => absurd (hopen.symm.trans hc) (by simp))
      refine ⟨stored :: st, .cons hs h1, ?_⟩
      rw [h2]
      simp only [List.flatten_append, List.append_assoc, List.flatten_cons]
      rw [← List.append_assoc (List.flatten new), hc.flatten, List.append_assoc]
    | mismatch hopen hlen =>
      obtain ⟨st, h1, h2⟩ := ih hL
      exact ⟨st, h1, h2⟩
    | target hopen =>
      obtain ⟨st, h1, h2⟩ := ih (fun hc => absurd (hopen.symm.trans hc) (by simp))
      exact ⟨st, h1, h2⟩
    | close hopen hc =>
      rename_i new
      obtain ⟨st, h1, h2⟩ := ih (fun _ => rfl)
      refine ⟨st, h1, ?_⟩
      rw [h2]
      have := hc.flatten
      rw [List.append_nil] at this
      simp only [List.flatten_append, List.append_nil, this]
    | closed hclosed =>
      obtain ⟨st, h1, h2⟩ := ih hL
      refine ⟨st, ?_, h2⟩
      cases c <;> exact h1

/-- **C53, block sizes.** Every block takes at most as many bytes as a block size target that was set,
or has a single pair: the one given as an option, or one set by `SetTargetBlockSize`, modulo 2^32. -/
theorem C53_fits {enc : Nat} {opts : List WriterOption} {log : SWLog} {L : Layout}
    (h : Layout.Run enc (Layout.start opts) log L) :
    ∀ b ∈ L.blocks, b ≠ [] ∧ ∃ target off, Doc.Fits enc target off (Doc.ofPairs b) ∧
      (target = (chosenBlockSize opts).toNat ∨
        ∃ size, (SWCall.setTarget size, Except.ok ()) ∈ log ∧ target = (size.toInt % 2 ^ 32).toNat) := by
  have gen : ∀ {L L' : Layout} {log : SWLog}, Layout.Run enc L log L' → ∀ b ∈ L'.blocks, b ∉ L.blocks → b ≠ [] ∧
      ∃ target off, Doc.Fits enc target off (Doc.ofPairs b) ∧
      (target = L.target ∨ ∃ size, (SWCall.setTarget size, Except.ok ()) ∈ log ∧ target = (size.toInt % 2 ^ 32).toNat) := by
    intro L L' log h
    induction h with
    | nil => intro b hb hn; exact absurd hb hn
    | @cons L L1 L2 c r log h t ih =>
      intro b hb hn
      have lift : ∀ {target : Nat}, (target = L1.target ∨ ∃ size, (SWCall.setTarget size, Except.ok ()) ∈ log ∧ target = (size.toInt % 2 ^ 32).toNat) →
          L1.target = L.target → (target = L.target ∨ ∃ size, (SWCall.setTarget size, Except.ok ()) ∈ (c, r) :: log ∧ target = (size.toInt % 2 ^ 32).toNat) := by
        rintro target (h | ⟨size, h1, h2⟩) he
        · exact .inl (h.trans he)
        · exact .inr ⟨size, List.mem_cons_of_mem _ h1, h2⟩
      by_cases hb1 : b ∈ L1.blocks
      · cases h with
        | write hopen hlen hs hc =>
          rcases List.mem_append.1 hb1 with hb1 | hb1
          · exact absurd hb1 hn
          · obtain ⟨h1, off, h2⟩ := hc.fits b hb1
            exact ⟨h1, _, off, h2, .inl rfl⟩
        | mismatch => exact absurd hb1 hn
        | target => exact absurd hb1 hn
        | close hopen hc =>
          rcases List.mem_append.1 hb1 with hb1 | hb1
          · exact absurd hb1 hn
          · obtain ⟨h1, off, h2⟩ := hc.fits b hb1
            exact ⟨h1, _, off, h2, .inl rfl⟩
        | closed => exact absurd hb1 hn
      · obtain ⟨h1, target, off, h2, h3⟩ := ih b hb hb1
        refine ⟨h1, target, off, h2, ?_⟩
        cases h with
        | write => exact lift h3 rfl
        | mismatch => exact lift h3 rfl
        | @target size hopen =>
          rcases h3 with h3 | ⟨size', h4, h5⟩
          · exact .inr ⟨size, List.mem_cons_self .., h3⟩
          · exact .inr ⟨size', List.mem_cons_of_mem _ h4, h5⟩
        | close => exact lift h3 rfl
        | closed => exact lift h3 rfl
  intro b hb
  exact gen h b hb (by simp [Layout.start])

theorem Each.sorted_eq {as bs : List (List Pair)} (h : Each SortedBatch as bs)
    (hs : as.flatten.Pairwise fun a b => a.1 ≤ b.1) : bs = as := by
  induction h with
  | nil => rfl
  | cons h _ ih =>
    rw [List.flatten_cons, List.pairwise_append] at hs
    rw [h.same hs.1, ih hs.2.1]

/-- **C53, ordered input.** If the accepted pairs, taken together, come in ascending ID order, then
the blocks followed by the buffer are these pairs, unchanged; so the ID ranges of the blocks
follow each other. -/
theorem C53_ordered {enc : Nat} {opts : List WriterOption} {log : SWLog} {L : Layout}
    (h : Layout.Run enc (Layout.start opts) log L)
    (hs : (accepted log).flatten.Pairwise fun a b => a.1 ≤ b.1) :
    L.blocks.flatten ++ L.pending = (accepted log).flatten ∧
    L.blocks.Pairwise fun a b => ∀ p ∈ a, ∀ q ∈ b, p.1 ≤ q.1 := by
  obtain ⟨stored, h1, h2⟩ := h.stream (fun hc => absurd hc (by simp [Layout.start]))
  rw [h1.sorted_eq hs] at h2
  have h2 : L.blocks.flatten ++ L.pending = (accepted log).flatten := by simpa [Layout.start] using h2
  refine ⟨h2, ?_⟩
  rw [← h2, List.pairwise_append, List.pairwise_flatten] at hs
  exact hs.1.2

/-- With a block size target of 0 every pair becomes a block. -/
theorem Cut.zero {enc off : Nat} {pending rest : List Pair} {bs : List (List Pair)} (h : Cut enc 0 true off pending bs rest) :
    bs = pending.map fun p => [p] := by
  generalize ht : 0 = target at h
  generalize hf : true = force at h
  induction h with
  | wait h =>
    rcases h with rfl | ⟨h, _⟩
    · rfl
    · rw [← hf] at h; cases h
  | @block off pending bs rest n _ h1 h2 hfit _ _ ih =>
    subst ht
    have hn : n = 1 := by
      have hpos : 0 < (Doc.filledBlock enc off (Doc.ofPairs (pending.take n))).length := by
        simp only [Doc.filledBlock, Doc.block, Doc.stats, List.length_append, num_length]; omega
      rcases hfit with hfit | hfit
      · omega
      · simp only [Doc.ofPairs, List.length_map, List.length_take] at hfit; omega
    subst hn
    rw [ih]
    cases pending with
    | nil => simp at h2
    | cons p ps => rfl

theorem singletons_flatten (l : List Pair) : (l.map fun p => [p]).flatten = l := by
  induction l with
  | nil => rfl
  | cons a as ih => rw [List.map_cons, List.flatten_cons, ih]; rfl

theorem Cut.small {enc target off : Nat} {pending rest : List Pair} {bs : List (List Pair)}
    (h : Cut enc target false off pending bs rest) (hlt : pending.length < 1000) : bs = [] ∧ rest = pending := by
  cases h with
  | wait _ => exact ⟨rfl, rfl⟩
  | block n h _ _ _ _ _ => rcases h with h | h <;> first | cases h | omega

/-- Non-vacuity of C53: the example of C20 to C22 is closed without faults, and each of its five pairs
is a block of its own, because the block size target was set to 0. -/
example : ∃ (sw : SimpleWriter IdSet) (L : Layout),
    SWHistory IdSet quietEnv [.withEncoding encVarIntBoth] exampleSW exampleSWLog sw ∧
    Layout.Run 7 (Layout.start [.withEncoding encVarIntBoth]) exampleSWLog L ∧ L.closed = true ∧
    L.blocks = L.blocks.flatten.map (fun p => [p]) ∧ L.blocks.flatten.length = 5 := by
  obtain ⟨sw, h, henc, hb, _, _⟩ := exampleSW_history
  obtain ⟨L, i, hrun, _⟩ := C53_layout quietEnv_noFault sortByInsertion_lawful h henc.regular hb
  have hst := hrun.stream (fun hc => absurd hc (by simp [Layout.start]))
  have hrun : Layout.Run 7 (Layout.start [.withEncoding encVarIntBoth]) exampleSWLog L := hrun
  refine ⟨sw, L, h, hrun, ?_⟩
  obtain ⟨stored, h1, h2⟩ := hst
  have hlen : stored.flatten.length = 5 := by rw [h1.perm.length_eq]; decide
  have key : L.closed = true ∧ L.pending = [] ∧ L.blocks = L.blocks.flatten.map (fun p => [p]) := by
    clear h1 h2 hlen
    unfold exampleSWLog at hrun
    cases hrun with | cons s1 hrun =>
    cases hrun with | cons s2 hrun =>
    cases hrun with | cons s3 hrun =>
    cases hrun with | cons s4 hrun =>
    cases hrun with | cons s5 hrun =>
    cases hrun with | cons s6 hrun =>
    cases hrun
    cases s1 with | write o1 l1 b1 c1 =>
    have k1 := c1.small (by have := b1.perm.length_eq; simp [Layout.start] at *; omega)
    obtain ⟨rfl, rfl⟩ := k1
    cases s2 with | target o2 =>
    cases s3 with
    | mismatch o3 l3 =>
      cases s4 with | write o4 l4 b4 c4 =>
      have k4 := c4.small (by have := b1.perm.length_eq; have := b4.perm.length_eq; simp [Layout.start] at *; omega)
      obtain ⟨rfl, rfl⟩ := k4
      cases s5 with
      | close o5 c5 =>
        cases s6 with
        | closed _ =>
          have hz := Cut.zero c5
          subst hz
          refine ⟨rfl, rfl, ?_⟩
          simp only [Layout.start, List.append_nil, List.nil_append, singletons_flatten]
      | closed o5 => cases o5
  obtain ⟨k1, k2, k3⟩ := key
  refine ⟨k1, k3, ?_⟩
  rw [k2, List.append_nil] at h2
  rw [h2, ← hlen]
  simp [Layout.start]

end VibeCol
