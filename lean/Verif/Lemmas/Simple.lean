/-
The `SimpleWriter` invariant.
-/
import Verif.Spec.Simple
import Verif.Lemmas.Hist
import Verif.Lemmas.Progress
set_option linter.unusedSimpArgs false
namespace VibeCol
variable {B : Type} [Bitmap B]

/-- All pairs of the blocks, in order. -/
def blkPairs (blks : List Blk) : List Pair := blks.flatMap fun b => b.ids.zip b.vals

theorem blkPairs_append (as bs : List Blk) : blkPairs (as ++ bs) = blkPairs as ++ blkPairs bs := by
  simp [blkPairs]

/-- Blocks are not empty. -/
theorem blkPairs_length {e : UInt32} {blks : List Blk} (h : ∀ b ∈ blks, b.OK e) : blks.length ≤ (blkPairs blks).length := by
  induction blks with
  | nil => exact Nat.le_refl _
  | cons b bs ih =>
    have h1 := ih fun b' hb' => h b' (List.mem_cons_of_mem _ hb')
    have h2 := h b List.mem_cons_self
    have h3 := h2.ne
    have h4 := h2.len
    have : blkPairs (b :: bs) = b.ids.zip b.vals ++ blkPairs bs := by simp [blkPairs]
    rw [this, List.length_append, List.length_zip, List.length_cons]
    omega

/-- The buffered pairs. -/
def SimpleWriter.pending (sw : SimpleWriter B) : List Pair := sw.pendingIDs.zip sw.pendingValues

theorem zip_split (as : List UInt64) (bs : List Int64) (k : Nat) :
    as.zip bs = (as.take k).zip (bs.take k) ++ (as.drop k).zip (bs.drop k) := by
  have h : (as.take k).zip (bs.take k) = (as.zip bs).take k := by
    simp [List.zip, List.take_zipWith]
  have h' : (as.drop k).zip (bs.drop k) = (as.zip bs).drop k := by
    simp [List.zip, List.drop_zipWith]
  rw [h, h', List.take_append_drop]

/-- `flushIfNeeded` without the termination argument. -/
theorem flushIfNeeded_eq (env : Env) (force : Bool) (sw : SimpleWriter B) : flushIfNeeded env force sw =
    if sw.pendingIDs.length = 0 then (.ok (), sw)
    else if force = true ∨ sw.pendingIDs.length ≥ 1000 then
      match writeBlock sw.pendingIDs sw.pendingValues env sw.writer with
      | (.error (.blockFull n), w') =>
        flushIfNeeded env force { sw with
          writer := w'
          totalItems := sw.totalItems + n
          pendingIDs := sw.pendingIDs.drop n
          pendingValues := sw.pendingValues.drop n }
      | (.error e, w') => (.error e, { sw with writer := w' })
      | (.ok _, w') => (.ok (), { sw with
          writer := w'
          totalItems := sw.totalItems + sw.pendingIDs.length
          pendingIDs := []
          pendingValues := [] })
    else (.ok (), sw) := by
  rw [flushIfNeeded]
  by_cases h0 : sw.pendingIDs.length = 0
  · rw [if_pos h0, if_pos h0]
  · rw [if_neg h0, if_neg h0]
    have hc : ((if (!force) = true then decide (sw.pendingIDs.length ≥ 1000) else force) = true) ↔
        (force = true ∨ sw.pendingIDs.length ≥ 1000) := by
      cases force <;> simp
    by_cases h1 : force = true ∨ sw.pendingIDs.length ≥ 1000
    · rw [if_pos h1]
      simp only [if_pos (hc.2 h1)]
      split <;> simp_all
    · rw [if_neg h1]
      simp only [if_neg (fun h => h1 (hc.1 h))]

/-- What a flush does. -/
structure Flushed (env : Env) (force : Bool) (sw : SimpleWriter B) (blks : List Blk) (extra : List UInt64)
    (r : Result) (sw' : SimpleWriter B) (new : List Blk) (extra' : List UInt64) : Prop where
  inv : Inv sw'.writer (blks ++ new) extra'
  config : SameConfig sw.writer sw'.writer
  lens : sw'.pendingIDs.length = sw'.pendingValues.length
  shrink : sw'.pendingIDs.length ≤ sw.pendingIDs.length
  closed : sw'.closed = sw.closed
  outcome : r = .ok () ∨ (r = .error .io ∧ Faulty env sw.writer)
  keep : List.Sublist sw.pending (blkPairs new ++ sw'.pending)
  only : ∀ p ∈ blkPairs new, p ∈ sw.pending
  fit : AllFit sw.writer new
  ok : r = .ok () → extra' = extra ∧ (Clean sw.writer blks → Clean sw'.writer (blks ++ new)) ∧
    sw.pending = blkPairs new ++ sw'.pending ∧ sw'.totalItems = sw.totalItems + (blkPairs new).length ∧
    sw'.pendingIDs.length < 1000 ∧ (force = true → sw'.pendingIDs = []) ∧
    sw'.writer.file.pos ≤ sw.writer.file.pos + 4195 * (blkPairs new).length ∧
    sw'.writer.globalIDs = ((blkPairs new).map Prod.fst).foldl Bitmap.set sw.writer.globalIDs

/-- How far one block moves the cursor, and what it does to the bitmap. -/
theorem Fresh.advance {w w' : Writer B} {b : Blk} (h : Fresh w w' b) (hok : b.OK w.encodingType) :
    w'.file.pos ≤ w.file.pos + 4195 * (blkPairs [b]).length ∧
    w'.globalIDs = ((blkPairs [b]).map Prod.fst).foldl Bitmap.set w.globalIDs := by
  have h1 := b.size_le w.encodingType hok
  have h2 := hok.ne
  have h3 := hok.len
  have hp : blkPairs [b] = b.ids.zip b.vals := by simp [blkPairs]
  have hm : (b.ids.zip b.vals).map Prod.fst = b.ids := List.map_fst_zip (by omega)
  refine ⟨?_, by rw [hp, hm]; exact h.gl⟩
  rw [h.stop, Blk.stop, h.off, hp, List.length_zip]
  omega

theorem flush_spec [LawfulBitmap B] (env : Env) (force : Bool) (sw : SimpleWriter B) (blks : List Blk)
    (extra : List UInt64) (hi : Inv sw.writer blks extra) (henc : SymEnc sw.writer.encodingType)
    (hlen : sw.pendingIDs.length = sw.pendingValues.length) (hb : sw.pendingIDs.length ≤ 2 ^ 27) :
    ∃ new extra', Flushed env force sw blks extra (flushIfNeeded env force sw).1 (flushIfNeeded env force sw).2 new extra' := by
  have hk : KnownEnc sw.writer.encodingType := by
    rcases henc with h | h | h | h <;> rw [h] <;> unfold KnownEnc <;> decide
  have idle : (sw.pendingIDs.length < 1000) → (force = true → sw.pendingIDs = []) →
      Flushed env force sw blks extra (.ok ()) sw [] extra := by
    intro h1 h2
    exact ⟨by rw [List.append_nil]; exact hi, .refl _, hlen, Nat.le_refl _, rfl, .inl rfl, by simp [blkPairs],
      by simp [blkPairs], (by intro b hb; cases hb),
      fun _ => ⟨rfl, by rw [List.append_nil]; exact id, by simp [blkPairs], by simp [blkPairs], h1, h2, by simp [blkPairs], by simp [blkPairs]⟩⟩
  rw [flushIfNeeded_eq]
  split
  · rename_i h0
    exact ⟨[], extra, idle (by omega) (fun _ => List.eq_nil_of_length_eq_zero h0)⟩
  rename_i h0
  split
  · rename_i hsw
    obtain ⟨new, extra', hadd, hinv, hcfg, hx1, hx2, hnew, hfresh⟩ :=
      writeBlock_inv env sw.writer blks extra hi hk sw.pendingIDs sw.pendingValues hlen (by omega) hb
    have fits : AllFit sw.writer new := fun b hb => (hfresh b hb).fits
    rcases hw : writeBlock sw.pendingIDs sw.pendingValues env sw.writer with ⟨res, w'⟩
    rw [hw] at hadd hinv hcfg hnew
    cases hadd with
    | part k hk1 hk2 =>
      obtain ⟨hex, hcl⟩ := hnew (by simp)
      subst hex
      have hlt : (sw.pendingIDs.drop k).length < sw.pendingIDs.length := by
        rw [List.length_drop]; omega
      obtain ⟨new2, extra2, F⟩ := flush_spec env force
        { sw with writer := w', totalItems := sw.totalItems + k, pendingIDs := sw.pendingIDs.drop k,
                  pendingValues := sw.pendingValues.drop k }
        _ _ hinv (by rw [hcfg.enc]; exact henc) (by simp only [List.length_drop]; omega)
        (by simp only [List.length_drop]; omega)
      have hz := zip_split sw.pendingIDs sw.pendingValues k
      have hbp : blkPairs [blkAt sw.writer (sw.pendingIDs.take k) (sw.pendingValues.take k)] =
          (sw.pendingIDs.take k).zip (sw.pendingValues.take k) := by simp [blkPairs, blkAt]
      refine ⟨[blkAt sw.writer (sw.pendingIDs.take k) (sw.pendingValues.take k)] ++ new2, extra2, ?_⟩
      refine ⟨by rw [← List.append_assoc]; exact F.inv, hcfg.trans F.config, F.lens,
        Nat.le_trans F.shrink (Nat.le_of_lt hlt), F.closed, ?_, ?_, ?_, ?_, ?_⟩
      · rcases F.outcome with h | ⟨h, h'⟩
        · exact .inl h
        · refine .inr ⟨h, ?_⟩
          rcases h' with h' | h'
          · exact .inl (by rw [← hcfg.opened]; exact h')
          · exact .inr h'
      · rw [blkPairs_append, hbp, List.append_assoc]
        rw [show sw.pending = _ from hz]
        exact List.Sublist.append (List.Sublist.refl _) F.keep
      · intro p hp
        rw [blkPairs_append, hbp, List.mem_append] at hp
        unfold SimpleWriter.pending
        rw [hz, List.mem_append]
        exact hp.imp id (F.only p)
      · intro b hb
        rcases List.mem_append.1 hb with hb | hb
        · exact fits b hb
        · have := F.fit b hb
          rw [hcfg.enc, hcfg.target] at this
          exact this
      · intro hr
        obtain ⟨h1, h2, h3, h4, h5, h6, h7, h8⟩ := F.ok hr
        have hadv := (hfresh _ List.mem_cons_self).advance (hcfg.enc ▸ hinv.ok _ (List.mem_append_right _ List.mem_cons_self))
        refine ⟨h1, ?_, ?_, ?_, h5, h6, ?_, ?_⟩
        · intro c; rw [← List.append_assoc]; exact h2 (hcl c)
        · rw [blkPairs_append, hbp, List.append_assoc, ← h3]
          exact hz
        · rw [h4, blkPairs_append, hbp]
          simp only [List.length_append, List.length_zip, List.length_take]
          omega
        · have := hadv.1
          rw [blkPairs_append, List.length_append]
          rw [hw] at this
          simp only at h7 this ⊢
          omega
        · have := hadv.2
          rw [hw] at this
          rw [h8, this, blkPairs_append, List.map_append, List.foldl_append]
    | none e he =>
      rcases he with ⟨rfl, hF⟩ | ⟨_, he⟩
      · exact ⟨[], extra', ⟨hinv, hcfg, hlen, Nat.le_refl _, rfl, .inr ⟨rfl, hF⟩, by simp [blkPairs, SimpleWriter.pending],
          by simp [blkPairs], fits, by intro h; cases h⟩⟩
      · exact absurd henc.allMatch he
    | torn k hk1 hk2 hF =>
      have hz := zip_split sw.pendingIDs sw.pendingValues k
      have hbp : blkPairs [blkAt sw.writer (sw.pendingIDs.take k) (sw.pendingValues.take k)] =
          (sw.pendingIDs.take k).zip (sw.pendingValues.take k) := by simp [blkPairs, blkAt]
      refine ⟨_, extra', ⟨hinv, hcfg, hlen, Nat.le_refl _, rfl, .inr ⟨rfl, hF⟩, ?_, ?_, fits, by intro h; cases h⟩⟩
      · exact List.sublist_append_right _ _
      · intro p hp
        rw [hbp] at hp
        unfold SimpleWriter.pending
        rw [hz, List.mem_append]
        exact .inl hp
    | all =>
      obtain ⟨hex, hcl⟩ := hnew (by simp)
      subst hex
      have hbp : blkPairs [blkAt sw.writer sw.pendingIDs sw.pendingValues] = sw.pending := by
        simp [blkPairs, blkAt, SimpleWriter.pending]
      refine ⟨_, _, ⟨hinv, hcfg, rfl, Nat.zero_le _, rfl, .inl rfl, ?_, ?_, fits, fun _ => ⟨rfl, hcl, ?_, ?_, by simp, fun _ => rfl, ?_, ?_⟩⟩⟩
      · rw [hbp]; simp [SimpleWriter.pending]
      · rw [hbp]; exact fun p hp => hp
      · rw [hbp]; simp [SimpleWriter.pending]
      · rw [hbp]
        simp only [SimpleWriter.pending, List.length_zip]
        omega
      · have := ((hfresh _ List.mem_cons_self).advance (hcfg.enc ▸ hinv.ok _ (List.mem_append_right _ List.mem_cons_self))).1
        rw [hw] at this
        exact this
      · have := ((hfresh _ List.mem_cons_self).advance (hcfg.enc ▸ hinv.ok _ (List.mem_append_right _ List.mem_cons_self))).2
        rw [hw] at this
        exact this
  · rename_i hsw
    refine ⟨[], extra, idle ?_ ?_⟩
    · omega
    · intro hf; exact absurd (.inl hf) hsw
termination_by sw.pendingIDs.length

/-! ### Histories without I/O errors -/

/-- An open `SimpleWriter` that has stored the pairs `S`. -/
structure SWOpen (opts : List WriterOption) (sw : SimpleWriter B) (S : List Pair) (blks : List Blk) : Prop where
  isOpen : sw.closed = false
  fileOpen : sw.writer.fileOpen = true
  inv : Inv sw.writer blks []
  clean : Clean sw.writer blks
  enc : sw.writer.encodingType = chosenEncoding opts
  stream : S = blkPairs blks ++ sw.pending
  lens : sw.pendingIDs.length = sw.pendingValues.length
  few : sw.pendingIDs.length < 1000
  total : sw.totalItems = (blkPairs blks).length
  pos : sw.writer.file.pos ≤ 64 + 4195 * (blkPairs blks).length
  gl : sw.writer.globalIDs = ((blkPairs blks).map Prod.fst).foldl Bitmap.set Bitmap.empty

/-- The bitmap obtained by setting the IDs of the pairs one by one. -/
def bitmapOfPairs (B : Type) [Bitmap B] (ps : List Pair) : B := (ps.map Prod.fst).foldl Bitmap.set Bitmap.empty

/-- A closed one. -/
structure SWClosed (opts : List WriterOption) (sw : SimpleWriter B) (S : List Pair) (blks : List Blk) : Prop where
  isClosed : sw.closed = true
  stream : S = blkPairs blks
  none : sw.pendingIDs = []
  total : sw.totalItems = S.length
  blocks : sw.writer.blockCount = blks.length
  file : sw.writer.file.bytes.length < 2 ^ 63 → ∃ hd bo fs,
    FileOK sw.writer.file.bytes hd (chosenEncoding opts) blks (Bitmap.toBuffer (bitmapOfPairs B S)) bo fs
  size : sw.writer.file.bytes.length ≤ 4191 + 4251 * S.length + (Bitmap.toBuffer (bitmapOfPairs B S)).length

/-- The stored form of a batch. -/
def storedBatch (env : Env) (ids : List UInt64) (vals : List Int64) : List UInt64 × List Int64 :=
  if !isSorted ids then sortByID env ids vals else (ids, vals)

theorem isSorted_iff (ids : List UInt64) : isSorted ids = true ↔ ids.Pairwise (· ≤ ·) := by
  induction ids with
  | nil => simp [isSorted]
  | cons a as ih =>
    cases as with
    | nil => simp [isSorted]
    | cons b bs =>
      rw [isSorted, List.pairwise_cons]
      by_cases h : b < a
      · simp only [h, if_true, Bool.false_eq_true, false_iff, not_and]
        intro hc
        exact absurd (hc b List.mem_cons_self) (UInt64.not_le.2 h)
      · rw [if_neg h, ih]
        constructor
        · intro hp
          refine ⟨?_, hp⟩
          intro x hx
          have hab : a ≤ b := UInt64.not_lt.1 h
          rcases List.mem_cons.1 hx with rfl | hx
          · exact hab
          · exact UInt64.le_trans hab ((List.pairwise_cons.1 hp).1 x hx)
        · exact fun hp => hp.2

theorem zip_map_fst_snd (l : List Pair) : (l.map Prod.fst).zip (l.map Prod.snd) = l := by
  induction l with
  | nil => rfl
  | cons a as ih => simp [ih]

theorem storedBatch_spec (env : Env) (hs : LawfulSort env.sort) (ids : List UInt64) (vals : List Int64)
    (hl : ids.length = vals.length) :
    SortedBatch (ids.zip vals) ((storedBatch env ids vals).1.zip (storedBatch env ids vals).2) ∧
      (storedBatch env ids vals).1.length = ids.length ∧ (storedBatch env ids vals).2.length = ids.length := by
  have hiff : (ids.zip vals).Pairwise (fun a b => a.1 ≤ b.1) ↔ ids.Pairwise (· ≤ ·) := by
    have : (ids.zip vals).map Prod.fst = ids := List.map_fst_zip (by omega)
    conv => rhs; rw [← this]
    rw [List.pairwise_map]
  unfold storedBatch
  by_cases h : isSorted ids = true
  · rw [h]
    simp only [Bool.not_true, Bool.false_eq_true, if_false]
    exact ⟨⟨.refl _, hiff.2 ((isSorted_iff ids).1 h), fun _ => rfl⟩, ⟨⟩, hl.symm⟩
  · have hb : isSorted ids = false := by simpa using h
    rw [hb]
    simp only [Bool.not_false, if_true, sortByID]
    obtain ⟨hp, hsorted⟩ := hs (ids.zip vals)
    refine ⟨?_, ?_, ?_⟩
    · rw [zip_map_fst_snd]
      exact ⟨hp, hsorted, fun hc => absurd ((isSorted_iff ids).2 (hiff.1 hc)) h⟩
    · rw [List.length_map, hp.length_eq, List.length_zip]; omega
    · rw [List.length_map, hp.length_eq, List.length_zip]; omega

theorem write_eq (env : Env) (ids : List UInt64) (vals : List Int64) (sw : SimpleWriter B) (ho : sw.closed = false)
    (hl : ids.length = vals.length) (hne : ids.length ≠ 0) : sw.write env ids vals =
    flushIfNeeded env false { sw with
      pendingIDs := sw.pendingIDs ++ (storedBatch env ids vals).1
      pendingValues := sw.pendingValues ++ (storedBatch env ids vals).2 } := by
  unfold SimpleWriter.write
  rw [ho]
  simp only [Bool.false_eq_true, if_false, hl, ne_eq, not_true_eq_false]
  rw [if_neg (by omega)]
  rfl

/-- Inserting a batch into the buffer, and what a flush without I/O error then does. -/
theorem SWOpen.flush [LawfulBitmap B] {env : Env} {opts : List WriterOption} {sw : SimpleWriter B} {S : List Pair}
    {blks : List Blk} (h : SWOpen opts sw S blks) (henc : SymEnc (chosenEncoding opts)) (force : Bool)
    (ids : List UInt64) (vals : List Int64) (hl : ids.length = vals.length) (hb : ids.length + 999 ≤ 2 ^ 27)
    (hno : (flushIfNeeded env force { sw with pendingIDs := sw.pendingIDs ++ ids, pendingValues := sw.pendingValues ++ vals }).1 ≠ .error .io) :
    (flushIfNeeded env force { sw with pendingIDs := sw.pendingIDs ++ ids, pendingValues := sw.pendingValues ++ vals }).1 = .ok () ∧
    ∃ new, SWOpen opts (flushIfNeeded env force { sw with pendingIDs := sw.pendingIDs ++ ids, pendingValues := sw.pendingValues ++ vals }).2
        (S ++ ids.zip vals) (blks ++ new) ∧
      (force = true → (flushIfNeeded env force { sw with pendingIDs := sw.pendingIDs ++ ids, pendingValues := sw.pendingValues ++ vals }).2.pendingIDs = []) := by
  obtain ⟨new, extra, F⟩ := flush_spec env force
    { sw with pendingIDs := sw.pendingIDs ++ ids, pendingValues := sw.pendingValues ++ vals } blks []
    h.inv (by rw [h.enc]; exact henc) (by simp only [List.length_append, h.lens]; omega)
    (by have := h.few; simp only [List.length_append]; omega)
  have hr := F.outcome.resolve_right fun hc => hno hc.1
  obtain ⟨rfl, hcl, hst, htot, hfew, hforce, hpos, hgl⟩ := F.ok hr
  refine ⟨hr, new, ⟨F.closed.trans h.isOpen, F.config.opened.trans h.fileOpen, F.inv, hcl h.clean, F.config.enc.trans h.enc, ?_, F.lens, hfew, ?_, ?_, ?_⟩, hforce⟩
  · rw [h.stream, blkPairs_append, List.append_assoc, List.append_assoc, ← hst]
    congr 1
    show _ = (sw.pendingIDs ++ ids).zip (sw.pendingValues ++ vals)
    rw [List.zip_append h.lens]
    rfl
  · rw [htot, blkPairs_append, List.length_append]
    show sw.totalItems + _ = _
    rw [h.total]
  · have := h.pos
    simp only at hpos
    rw [blkPairs_append, List.length_append]
    omega
  · rw [hgl, blkPairs_append, List.map_append, List.foldl_append, ← h.gl]

omit [Bitmap B] in
theorem fclose_spec (env : Env) (w : Writer B) : ((fclose env w).1 = .error .io ∨ (fclose env w).1 = .ok ()) ∧
    (fclose env w).2.file = w.file ∧ (fclose env w).2.blockCount = w.blockCount := by
  unfold fclose
  simp only
  split
  · exact ⟨.inl rfl, rfl, rfl⟩
  · split
    · exact ⟨.inl rfl, rfl, rfl⟩
    · exact ⟨.inr rfl, rfl, rfl⟩

/-- `FinalizeAndClose` fails like `Finalize`, or leaves the finalized file. -/
theorem finalizeAndClose_spec (env : Env) (w : Writer B) :
    (∃ e w2, finalize env w = (.error e, w2) ∧ finalizeAndClose env w = (.error e, w2)) ∨
    (∃ w2, finalize env w = (.ok (), w2) ∧
      ((finalizeAndClose env w).1 = .error .io ∨ (finalizeAndClose env w).1 = .ok ()) ∧
      (finalizeAndClose env w).2.file = w2.file ∧ (finalizeAndClose env w).2.blockCount = w2.blockCount) := by
  unfold finalizeAndClose
  rw [WM.bind_def]
  rcases hff : finalize env w with ⟨r2, w2⟩
  cases r2 with
  | error e => exact .inl ⟨e, w2, rfl, rfl⟩
  | ok u => exact .inr ⟨w2, rfl, fclose_spec env w2⟩

/-- One call on an open `SimpleWriter`. -/
theorem SWOpen.call [LawfulBitmap B] {env : Env} (hs : LawfulSort env.sort) {opts : List WriterOption}
    {sw : SimpleWriter B} {S : List Pair} {blks : List Blk} (h : SWOpen opts sw S blks)
    (henc : SymEnc (chosenEncoding opts)) (c : SWCall) (hb : c.Bounded) (hno : (c.run env sw).1 ≠ .error .io) :
    ∃ stored new, Each SortedBatch (acceptedBy c (c.run env sw).1) stored ∧
      (SWOpen opts (c.run env sw).2 (S ++ stored.flatten) (blks ++ new) ∨
        (c = .close ∧ (c.run env sw).1 = .ok () ∧ SWClosed opts (c.run env sw).2 (S ++ stored.flatten) (blks ++ new))) := by
  cases c with
  | setTarget size =>
    refine ⟨[], [], .nil, .inl ?_⟩
    simp only [SWCall.run, setTargetBlockSize, h.isOpen, Bool.false_eq_true, if_false, List.flatten_nil, List.append_nil]
    obtain ⟨h1, h2, h3, h4, h5, h6, h7, h8, h9, h10, h11⟩ := h
    exact ⟨rfl, h2, ⟨h3.pos64, h3.posLe, h3.near, h3.cnt, h3.sizes, h3.stats, h3.bitmap, h3.ok, .inl ⟨h4.positions, h4.atEnd, h4.laid, h4.img⟩⟩,
      ⟨h4.positions, h4.atEnd, h4.laid, h4.img⟩, h5, h6, h7, h8, h9, h10, h11⟩
  | write ids vals =>
    by_cases hl : ids.length = vals.length
    · by_cases hne : ids.length = 0
      · have e1 : ids = [] := List.eq_nil_of_length_eq_zero hne
        have e2 : vals = [] := List.eq_nil_of_length_eq_zero (by omega)
        subst e1 e2
        have : SWCall.run env (.write [] []) sw = (.ok (), sw) := by
          simp [SWCall.run, SimpleWriter.write, h.isOpen]
        rw [this]
        refine ⟨[[]], [], .cons ⟨.refl _, .nil, fun _ => rfl⟩ .nil, .inl ?_⟩
        simpa using h
      · obtain ⟨h1, h2, h3⟩ := storedBatch_spec env hs ids vals hl
        have hw := write_eq env ids vals sw h.isOpen hl hne
        simp only [SWCall.run] at hno ⊢
        rw [hw] at hno ⊢
        obtain ⟨hr, new, ho, _⟩ := h.flush henc false _ _ (h2.trans h3.symm)
          (by rw [h2]; exact hb) hno
        refine ⟨[(storedBatch env ids vals).1.zip (storedBatch env ids vals).2], new, ?_, .inl ?_⟩
        · rw [hr]; exact .cons h1 .nil
        · simpa using ho
    · have : SWCall.run env (.write ids vals) sw = (.error .lengthMismatch, sw) := by
        simp [SWCall.run, SimpleWriter.write, h.isOpen, hl]
      rw [this]
      exact ⟨[], [], .nil, .inl (by simpa using h)⟩
  | close =>
    have hfl := h.flush (env := env) henc true [] [] rfl (by decide)
    simp only [List.append_nil] at hfl
    have hid : ({ sw with pendingIDs := sw.pendingIDs, pendingValues := sw.pendingValues } : SimpleWriter B) = sw := rfl
    rw [hid] at hfl
    simp only [SWCall.run, SimpleWriter.close, h.isOpen, Bool.false_eq_true, if_false] at hno ⊢
    rcases hf : flushIfNeeded env true sw with ⟨r, sw1⟩
    rw [hf] at hfl hno
    have hr : r ≠ .error .io := by
      rintro rfl; exact hno rfl
    obtain ⟨rfl, new, ho, hp⟩ := hfl hr
    simp only at hno ⊢
    rw [show ([] : List UInt64).zip ([] : List Int64) = [] from rfl, List.append_nil] at ho
    have hp := hp trivial
    simp only at hp ho
    have hfin := finalize_inv env sw1.writer (blks ++ new) [] ho.inv
    have hfc := finalizeAndClose_spec env sw1.writer
    rcases hff : finalizeAndClose env sw1.writer with ⟨r2, w3⟩
    rw [hff] at hno hfc
    rcases hfc with ⟨e, w2, he, hrw⟩ | ⟨w2, he, hcase⟩
    · cases hrw
      exfalso
      rcases finalize_tracking_inv env ho.inv he with ⟨rfl, _⟩ | ⟨_, hnc, _⟩
      · exact hno rfl
      · exact hnc ho.clean
    · obtain ⟨hopen, hinv, hcfg, hgl, _, hok, hlen⟩ := wp_ok hfin he
      obtain ⟨hres, hf1, hf2⟩ := hcase
      simp only at hres hf1 hf2
      rcases hres with rfl | rfl
      · exact absurd rfl hno
      · refine ⟨[], new, .nil, .inr ⟨⟨⟩, rfl, ?_⟩⟩
        simp only [List.flatten_nil, List.append_nil]
        have hpend : sw1.pending = [] := by unfold SimpleWriter.pending; rw [hp]; rfl
        have hst := ho.stream
        rw [hpend, List.append_nil] at hst
        have hbm : sw1.writer.globalIDs = bitmapOfPairs B S := by
          rw [ho.gl, hst]; rfl
        refine ⟨rfl, hst, hp, by rw [hst]; exact ho.total, ?_, ?_, ?_⟩
        · show w3.blockCount = _
          rw [hf2, hinv.cnt]
        · show w3.file.bytes.length < 2 ^ 63 → _
          rw [hf1]
          intro hsz
          obtain ⟨hd, bo, fs, hfo, _⟩ := hok hsz
          refine ⟨hd, bo, fs, ?_⟩
          rw [← ho.enc, ← hbm]
          exact hfo
        · show w3.file.bytes.length ≤ _
          have h1 := ho.pos
          have h2 := blkPairs_length (fun b hb => ho.inv.ok b hb)
          rw [hf1, ← hbm, hst]
          omega

/-- Nothing happens on a closed `SimpleWriter`. -/
theorem closed_call (env : Env) (c : SWCall) (sw : SimpleWriter B) (hc : sw.closed = true) :
    (c.run env sw).2 = sw ∧ (c.run env sw).1 = (match c with | .close => .ok () | _ => .error .closed) := by
  cases c <;> simp [SWCall.run, SimpleWriter.write, SimpleWriter.close, setTargetBlockSize, hc]

theorem runSW_cons (env : Env) (c : SWCall) (cs : List SWCall) (sw : SimpleWriter B) :
    runSW env (c :: cs) sw = ((c, (c.run env sw).1) :: (runSW env cs (c.run env sw).2).1, (runSW env cs (c.run env sw).2).2) := rfl

theorem closed_run (env : Env) (cs : List SWCall) (sw : SimpleWriter B) (hc : sw.closed = true) :
    (runSW env cs sw).2 = sw ∧ accepted (runSW env cs sw).1 = [] := by
  induction cs with
  | nil => exact ⟨rfl, rfl⟩
  | cons c cs ih =>
    obtain ⟨h1, h2⟩ := closed_call env c sw hc
    rw [runSW_cons, h1]
    refine ⟨ih.1, ?_⟩
    show acceptedBy _ _ ++ accepted (runSW env cs sw).1 = []
    rw [ih.2, h2]
    cases c <;> rfl

theorem forall2_append {α β : Type} {R : α → β → Prop} {a c : List α} {b d : List β} (h1 : Each R a b)
    (h2 : Each R c d) : Each R (a ++ c) (b ++ d) := by
  induction h1 with
  | nil => exact h2
  | cons h _ ih => exact .cons h ih

theorem SWOpen.run [LawfulBitmap B] {env : Env} (hs : LawfulSort env.sort) {opts : List WriterOption}
    {sw : SimpleWriter B} {S : List Pair} {blks : List Blk} (h : SWOpen opts sw S blks)
    (henc : SymEnc (chosenEncoding opts)) (cs : List SWCall) (hb : ∀ c ∈ cs, c.Bounded)
    (hno : SWNoIOError (runSW env cs sw).1) :
    ∃ stored new, Each SortedBatch (accepted (runSW env cs sw).1) stored ∧
      (SWOpen opts (runSW env cs sw).2 (S ++ stored.flatten) (blks ++ new) ∨
        SWClosed opts (runSW env cs sw).2 (S ++ stored.flatten) (blks ++ new)) := by
  induction cs generalizing sw S blks with
  | nil => exact ⟨[], [], .nil, .inl (by simpa [runSW] using h)⟩
  | cons c cs ih =>
    rw [runSW_cons] at hno ⊢
    obtain ⟨st1, new1, hf1, hcase⟩ := h.call hs henc c (hb c (by simp)) (hno _ List.mem_cons_self)
    show ∃ stored new, Each SortedBatch (acceptedBy c (c.run env sw).1 ++ accepted (runSW env cs (c.run env sw).2).1) stored ∧ _
    rcases hcase with ho | ⟨_, _, hcl⟩
    · obtain ⟨st2, new2, hf2, h2⟩ := ih ho (fun c' hc' => hb c' (by simp [hc']))
        (fun ev hev => hno ev (List.mem_cons_of_mem _ hev))
      refine ⟨st1 ++ st2, new1 ++ new2, forall2_append hf1 hf2, ?_⟩
      rw [List.flatten_append, ← List.append_assoc, ← List.append_assoc]
      exact h2
    · obtain ⟨h1, h2⟩ := closed_run env cs _ hcl.isClosed
      refine ⟨st1, new1, ?_, .inr ?_⟩
      · rw [h2, List.append_nil]; exact hf1
      · simp only [h1]; exact hcl

theorem newSimpleWriter_open [LawfulBitmap B] {env : Env} {opts : List WriterOption} {sw : SimpleWriter B}
    (h : newSimpleWriter opts env = .ok sw) : SWOpen opts sw [] [] := by
  unfold newSimpleWriter at h
  rcases hn : (newWriter opts env : Except Err Unit × Writer B) with ⟨r, w⟩
  rw [hn] at h
  cases r with
  | error e => cases h
  | ok u =>
    cases h
    obtain ⟨h1, h2, h3, h4, _, h5, h6⟩ := newWriter_inv hn
    exact ⟨rfl, h3, h1, h2, h4, rfl, rfl, Nat.lt_of_sub_pos (by simp), rfl, by simp only; omega, h6⟩

/-- Everything known after a history without I/O errors. -/
theorem SWHistory.result [LawfulBitmap B] {env : Env} (hs : LawfulSort env.sort) {opts : List WriterOption}
    {calls : List SWCall} {log : SWLog} {sw : SimpleWriter B} (h : SWHistory B env opts calls log sw)
    (henc : SymEnc (chosenEncoding opts)) (hb : ∀ c ∈ calls, c.Bounded) (hno : SWNoIOError log) :
    ∃ stored blks, Each SortedBatch (accepted log) stored ∧
      (SWOpen opts sw stored.flatten blks ∨ SWClosed opts sw stored.flatten blks) := by
  obtain ⟨sw0, h0, hr⟩ := h.created
  have hl : log = (runSW env calls sw0).1 := by rw [hr]
  have hw : sw = (runSW env calls sw0).2 := by rw [hr]
  subst hl hw
  obtain ⟨stored, new, h1, h2⟩ := (newSimpleWriter_open h0).run hs henc calls hb hno
  exact ⟨stored, new, h1, by simpa using h2⟩

end VibeCol
