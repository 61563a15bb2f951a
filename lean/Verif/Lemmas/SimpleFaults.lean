/-
`SimpleWriter` when the file system fails.
-/
import Verif.Lemmas.Simple
set_option linter.unusedSimpArgs false
namespace VibeCol
variable {B : Type} [Bitmap B]

/-- An open `SimpleWriter` to which the pairs `S` were handed over. -/
structure SWLive (opts : List WriterOption) (sw : SimpleWriter B) (S : List Pair) (blks : List Blk)
    (extra : List UInt64) : Prop where
  isOpen : sw.closed = false
  inv : Inv sw.writer blks extra
  enc : sw.writer.encodingType = chosenEncoding opts
  lens : sw.pendingIDs.length = sw.pendingValues.length
  few : sw.pendingIDs.length ≤ S.length
  keep : List.Sublist S (blkPairs blks ++ sw.pending)
  only : ∀ p ∈ blkPairs blks ++ sw.pending, p ∈ S

/-- A closed one. -/
structure SWDone (opts : List WriterOption) (sw : SimpleWriter B) (S : List Pair) (blks : List Blk) : Prop where
  isClosed : sw.closed = true
  keep : List.Sublist S (blkPairs blks)
  only : ∀ p ∈ blkPairs blks, p ∈ S
  blocks : sw.writer.blockCount = blks.length
  file : sw.writer.file.bytes.length < 2 ^ 63 → ∃ hd buf bo fs,
    FileOK sw.writer.file.bytes hd (chosenEncoding opts) blks buf bo fs

theorem mem_zip_drop {as : List UInt64} {bs : List Int64} {k : Nat} {p : Pair} (h : p ∈ (as.drop k).zip (bs.drop k)) :
    p ∈ as.zip bs := by
  rw [zip_split as bs k]
  exact List.mem_append_right _ h

/-- A flush only removes pairs from the buffer. -/
theorem flush_pending (env : Env) (force : Bool) (sw : SimpleWriter B) (p : Pair)
    (h : p ∈ (flushIfNeeded env force sw).2.pending) : p ∈ sw.pending := by
  rw [flushIfNeeded_eq] at h
  split at h
  · exact h
  split at h
  · rcases hw : writeBlock sw.pendingIDs sw.pendingValues env sw.writer with ⟨r, w'⟩
    rw [hw] at h
    cases r with
    | ok u => cases h
    | error e =>
      cases e with
      | blockFull k =>
        have hb := writeBlock_blockFull_bounds _ _ _ _ _ _ hw
        exact mem_zip_drop (flush_pending env force _ p h)
      | _ => exact h
  · exact h
termination_by sw.pendingIDs.length
decreasing_by simp only [List.length_drop]; omega

/-- A flush, whatever happens. -/
theorem SWLive.flush [LawfulBitmap B] {env : Env} {opts : List WriterOption} {sw : SimpleWriter B} {S : List Pair}
    {blks : List Blk} {extra : List UInt64} (h : SWLive opts sw S blks extra) (henc : SymEnc (chosenEncoding opts))
    (force : Bool) (ids : List UInt64) (vals : List Int64) (hl : ids.length = vals.length)
    (hb : (S ++ ids.zip vals).length ≤ 2 ^ 27) :
    ∃ new extra', SWLive opts (flushIfNeeded env force { sw with pendingIDs := sw.pendingIDs ++ ids, pendingValues := sw.pendingValues ++ vals }).2
        (S ++ ids.zip vals) (blks ++ new) extra' ∧
      ((flushIfNeeded env force { sw with pendingIDs := sw.pendingIDs ++ ids, pendingValues := sw.pendingValues ++ vals }).1 = .ok () → force = true →
        (flushIfNeeded env force { sw with pendingIDs := sw.pendingIDs ++ ids, pendingValues := sw.pendingValues ++ vals }).2.pendingIDs = []) ∧
      ((flushIfNeeded env force { sw with pendingIDs := sw.pendingIDs ++ ids, pendingValues := sw.pendingValues ++ vals }).1 = .ok () ∨
       (flushIfNeeded env force { sw with pendingIDs := sw.pendingIDs ++ ids, pendingValues := sw.pendingValues ++ vals }).1 = .error .io) := by
  have hlen := h.few
  rw [List.length_append, List.length_zip] at hb
  obtain ⟨new, extra', F⟩ := flush_spec env force
    { sw with pendingIDs := sw.pendingIDs ++ ids, pendingValues := sw.pendingValues ++ vals } blks extra
    h.inv (by rw [h.enc]; exact henc) (by simp only [List.length_append, h.lens]; omega)
    (by simp only [List.length_append]; omega)
  have hp : SimpleWriter.pending { sw with pendingIDs := sw.pendingIDs ++ ids, pendingValues := sw.pendingValues ++ vals } =
      sw.pending ++ ids.zip vals := by
    show (sw.pendingIDs ++ ids).zip (sw.pendingValues ++ vals) = _
    rw [List.zip_append h.lens]
    rfl
  have hk := F.keep
  rw [hp] at hk
  have ho := F.only
  rw [hp] at ho
  refine ⟨new, extra', ⟨F.closed.trans h.isOpen, F.inv, F.config.enc.trans h.enc, F.lens, ?_, ?_, ?_⟩,
    fun hr hf => (F.ok hr).2.2.2.2.2.1 hf, F.outcome.imp id And.left⟩
  · refine Nat.le_trans F.shrink ?_
    simp only [List.length_append, List.length_zip]
    omega
  · rw [blkPairs_append, List.append_assoc]
    refine List.Sublist.trans (List.Sublist.append h.keep (List.Sublist.refl (ids.zip vals))) ?_
    rw [List.append_assoc]
    exact List.Sublist.append (List.Sublist.refl _) hk
  · intro p hpm
    rw [blkPairs_append, List.append_assoc, List.mem_append, List.mem_append] at hpm
    have hin : p ∈ sw.pending ++ ids.zip vals → p ∈ S ++ ids.zip vals := by
      intro hm
      rcases List.mem_append.1 hm with hm | hm
      · exact List.mem_append_left _ (h.only p (List.mem_append_right _ hm))
      · exact List.mem_append_right _ hm
    rcases hpm with hpm | hpm | hpm
    · exact List.mem_append_left _ (h.only p (List.mem_append_left _ hpm))
    · exact hin (ho p hpm)
    · refine hin ?_
      have : p ∈ SimpleWriter.pending (flushIfNeeded env force { sw with pendingIDs := sw.pendingIDs ++ ids, pendingValues := sw.pendingValues ++ vals }).2 := hpm
      rw [← hp]
      exact flush_pending env force _ p this

/-- One call. -/
theorem SWLive.call [LawfulBitmap B] {env : Env} (hs : LawfulSort env.sort) {opts : List WriterOption}
    {sw : SimpleWriter B} {S : List Pair} {blks : List Blk} {extra : List UInt64} (h : SWLive opts sw S blks extra)
    (henc : SymEnc (chosenEncoding opts)) (c : SWCall)
    (hb : S.length + c.pairs ≤ 2 ^ 27)
    (hno : c = .close → (c.run env sw).1 ≠ .error .io) :
    ∃ stored new extra', Each SortedBatch (handedBy c (c.run env sw).1) stored ∧
      (SWLive opts (c.run env sw).2 (S ++ stored.flatten) (blks ++ new) extra' ∨
        SWDone opts (c.run env sw).2 (S ++ stored.flatten) (blks ++ new)) := by
  cases c with
  | setTarget size =>
    refine ⟨[], [], extra, .nil, .inl ?_⟩
    simp only [SWCall.run, setTargetBlockSize, h.isOpen, Bool.false_eq_true, if_false, List.flatten_nil, List.append_nil]
    obtain ⟨h1, h3, h5, h6, h7, h8, h9⟩ := h
    exact ⟨rfl, ⟨h3.pos64, h3.posLe, h3.near, h3.cnt, h3.sizes, h3.stats, h3.bitmap, h3.ok,
      h3.tracked.imp (fun h4 => ⟨h4.positions, h4.atEnd, h4.laid, h4.img⟩) id⟩, h5, h6, h7, h8, h9⟩
  | write ids vals =>
    by_cases hl : ids.length = vals.length
    · by_cases hne : ids.length = 0
      · have e1 : ids = [] := List.eq_nil_of_length_eq_zero hne
        have e2 : vals = [] := List.eq_nil_of_length_eq_zero (by omega)
        subst e1 e2
        have : SWCall.run env (.write [] []) sw = (.ok (), sw) := by
          simp [SWCall.run, SimpleWriter.write, h.isOpen]
        rw [this]
        refine ⟨[[]], [], extra, .cons ⟨.refl _, .nil, fun _ => rfl⟩ .nil, .inl ?_⟩
        simpa using h
      · obtain ⟨h1, h2, h3⟩ := storedBatch_spec env hs ids vals hl
        have hw := write_eq env ids vals sw h.isOpen hl hne
        simp only [SWCall.run, SWCall.pairs] at hb ⊢
        rw [hw]
        obtain ⟨new, extra', ho, _, hout⟩ := h.flush (env := env) henc false (storedBatch env ids vals).1
          (storedBatch env ids vals).2 (h2.trans h3.symm) (by rw [List.length_append, List.length_zip]; omega)
        have hh : handedBy (.write ids vals) (flushIfNeeded env false { sw with pendingIDs := sw.pendingIDs ++ (storedBatch env ids vals).1, pendingValues := sw.pendingValues ++ (storedBatch env ids vals).2 }).1 = [ids.zip vals] := by
          rcases hout with h | h <;> rw [h] <;> rfl
        refine ⟨[(storedBatch env ids vals).1.zip (storedBatch env ids vals).2], new, extra', ?_, .inl ?_⟩
        · rw [hh]; exact .cons h1 .nil
        · simpa using ho
    · have : SWCall.run env (.write ids vals) sw = (.error .lengthMismatch, sw) := by
        simp [SWCall.run, SimpleWriter.write, h.isOpen, hl]
      rw [this]
      exact ⟨[], [], extra, .nil, .inl (by simpa using h)⟩
  | close =>
    have hno := hno rfl
    obtain ⟨new, extra', ho, hp, hout⟩ := h.flush (env := env) henc true [] [] rfl (by simpa [SWCall.pairs] using hb)
    simp only [List.append_nil] at ho hp hout
    have hid : ({ sw with pendingIDs := sw.pendingIDs, pendingValues := sw.pendingValues } : SimpleWriter B) = sw := rfl
    rw [hid] at ho hp hout
    simp only [SWCall.run, SimpleWriter.close, h.isOpen, Bool.false_eq_true, if_false] at hno ⊢
    rcases hf : flushIfNeeded env true sw with ⟨r, sw1⟩
    rw [hf] at ho hp hout hno
    rcases hout with hr | hr
    · simp only at hr
      subst hr
      have hp := hp rfl trivial
      simp only at hno hp ⊢
      rw [show ([] : List UInt64).zip ([] : List Int64) = [] from rfl, List.append_nil] at ho
      simp only at ho
      have hfin := finalize_inv env sw1.writer (blks ++ new) extra' ho.inv
      have hfc := finalizeAndClose_spec env sw1.writer
      rcases hff : finalizeAndClose env sw1.writer with ⟨r2, w3⟩
      rw [hff] at hno hfc
      rcases hfc with ⟨e, w2, he, hrw⟩ | ⟨w2, he, hcase⟩
      · cases hrw
        rcases finalize_tracking_inv env ho.inv he with ⟨rfl, _⟩ | ⟨rfl, hnc, hi2, hcfg2, _⟩
        · exact absurd rfl hno
        · refine ⟨[], new, extra', .nil, .inl ?_⟩
          simp only [List.flatten_nil, List.append_nil]
          exact ⟨ho.isOpen, hi2, by rw [hcfg2.enc]; exact ho.enc, ho.lens, ho.few, ho.keep, ho.only⟩
      · obtain ⟨hopen, hinv, hcfg, hgl, _, hok, hlen⟩ := wp_ok hfin he
        obtain ⟨hres, hf1, hf2⟩ := hcase
        simp only at hres hf1 hf2
        rcases hres with rfl | rfl
        · exact absurd rfl hno
        · refine ⟨[], new, extra', .nil, .inr ?_⟩
          simp only [List.flatten_nil, List.append_nil]
          have hpend : sw1.pending = [] := by unfold SimpleWriter.pending; rw [hp]; rfl
          have hk := ho.keep
          have hon := ho.only
          rw [hpend, List.append_nil] at hk hon
          refine ⟨rfl, hk, hon, ?_, ?_⟩
          · show w3.blockCount = _
            rw [hf2, hinv.cnt]
          show w3.file.bytes.length < 2 ^ 63 → _
          rw [hf1]
          intro hsz
          obtain ⟨hd, bo, fs, hfo, _⟩ := hok hsz
          refine ⟨hd, Bitmap.toBuffer sw1.writer.globalIDs, bo, fs, ?_⟩
          rw [← ho.enc]
          exact hfo
    · simp only at hr
      subst hr
      exact absurd rfl hno

theorem SortedBatch.length {a b : List Pair} (h : SortedBatch a b) : b.length = a.length := h.perm.length_eq

theorem handedBy_pairs (c : SWCall) (r : Result) : (handedBy c r).flatten.length ≤ c.pairs := by
  unfold handedBy
  split <;> simp [SWCall.pairs] <;> omega

theorem Each.flatten_length {as bs : List (List Pair)} (h : Each SortedBatch as bs) : bs.flatten.length = as.flatten.length := by
  induction h with
  | nil => rfl
  | cons h _ ih => simp only [List.flatten_cons, List.length_append, ih, h.length]

theorem closed_run_handed (env : Env) (cs : List SWCall) (sw : SimpleWriter B) (hc : sw.closed = true) :
    handed (runSW env cs sw).1 = [] := by
  induction cs with
  | nil => rfl
  | cons c cs ih =>
    obtain ⟨h1, h2⟩ := closed_call env c sw hc
    rw [runSW_cons, h1]
    show handedBy _ _ ++ handed (runSW env cs sw).1 = []
    rw [ih, h2]
    cases c <;> rfl

theorem SWLive.run [LawfulBitmap B] {env : Env} (hs : LawfulSort env.sort) {opts : List WriterOption}
    {sw : SimpleWriter B} {S : List Pair} {blks : List Blk} {extra : List UInt64} (h : SWLive opts sw S blks extra)
    (henc : SymEnc (chosenEncoding opts)) (cs : List SWCall) (hb : S.length + (cs.map SWCall.pairs).sum ≤ 2 ^ 27)
    (hno : CloseNoIOError (runSW env cs sw).1) :
    ∃ stored new extra', Each SortedBatch (handed (runSW env cs sw).1) stored ∧
      (SWLive opts (runSW env cs sw).2 (S ++ stored.flatten) (blks ++ new) extra' ∨
        SWDone opts (runSW env cs sw).2 (S ++ stored.flatten) (blks ++ new)) := by
  induction cs generalizing sw S blks extra with
  | nil => exact ⟨[], [], extra, .nil, .inl (by simpa [runSW] using h)⟩
  | cons c cs ih =>
    rw [runSW_cons] at hno ⊢
    rw [List.map_cons, List.sum_cons] at hb
    obtain ⟨st1, new1, ex1, hf1, hcase⟩ := h.call hs henc c (by omega) (by
      rintro rfl hc
      exact hno (by rw [hc]; exact List.mem_cons_self))
    show ∃ stored new extra', Each SortedBatch (handedBy c (c.run env sw).1 ++ handed (runSW env cs (c.run env sw).2).1) stored ∧ _
    have hl := hf1.flatten_length
    have hl2 := handedBy_pairs c (c.run env sw).1
    rcases hcase with ho | hcl
    · obtain ⟨st2, new2, ex2, hf2, h2⟩ := ih ho (by rw [List.length_append]; omega)
        (fun hev => hno (List.mem_cons_of_mem _ hev))
      refine ⟨st1 ++ st2, new1 ++ new2, ex2, forall2_append hf1 hf2, ?_⟩
      rw [List.flatten_append, ← List.append_assoc, ← List.append_assoc]
      exact h2
    · obtain ⟨h1, _⟩ := closed_run env cs _ hcl.isClosed
      refine ⟨st1, new1, ex1, ?_, .inr ?_⟩
      · rw [closed_run_handed env cs _ hcl.isClosed, List.append_nil]; exact hf1
      · simp only [h1]; exact hcl

/-- An open `SimpleWriter` without faults so far. -/
theorem SWOpen.live {opts : List WriterOption} {sw : SimpleWriter B} {S : List Pair} {blks : List Blk}
    (h : SWOpen opts sw S blks) : SWLive opts sw S blks [] := by
  refine ⟨h.isOpen, h.inv, h.enc, h.lens, ?_, by rw [h.stream]; exact List.Sublist.refl _, by rw [h.stream]; exact fun p hp => hp⟩
  rw [h.stream, List.length_append, SimpleWriter.pending, List.length_zip]
  have := h.lens
  omega

end VibeCol
