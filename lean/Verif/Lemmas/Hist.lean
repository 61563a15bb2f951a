/-
The writer invariant along every history.
-/
import Verif.Lemmas.Inv
import Verif.Spec.History
namespace VibeCol
variable {B : Type} [Bitmap B]

/-! ### `NewWriter` -/

omit [Bitmap B] in
theorem options_enc (opts : List WriterOption) (w : Writer B) :
    (opts.foldl (fun w o => WriterOption.apply o w) w).encodingType =
      opts.foldl (fun e o => match o with | .withEncoding e' => e' | .withBlockSize _ => e) w.encodingType := by
  induction opts generalizing w with
  | nil => rfl
  | cons o os ih => rw [List.foldl_cons, List.foldl_cons, ih]; cases o <;> rfl

omit [Bitmap B] in
theorem options_target (opts : List WriterOption) (w : Writer B) :
    (opts.foldl (fun w o => WriterOption.apply o w) w).blockSizeTarget =
      opts.foldl (fun s o => match o with | .withEncoding _ => s | .withBlockSize s' => s')
        w.blockSizeTarget := by
  induction opts generalizing w with
  | nil => rfl
  | cons o os ih => rw [List.foldl_cons, List.foldl_cons, ih]; cases o <;> rfl

omit [Bitmap B] in
theorem options_rest (opts : List WriterOption) (w : Writer B) :
    ∃ e s, opts.foldl (fun w o => WriterOption.apply o w) w =
      { w with encodingType := e, blockSizeTarget := s } := by
  induction opts generalizing w with
  | nil => exact ⟨_, _, rfl⟩
  | cons o os ih =>
    rw [List.foldl_cons]
    obtain ⟨e, s, h⟩ := ih (o.apply w)
    refine ⟨e, s, ?_⟩
    rw [h]; cases o <;> rfl

/-- The writer struct before the header is written. -/
def startWriter (opts : List WriterOption) : Writer B :=
  opts.foldl (fun w o => WriterOption.apply o w) initWriter

theorem startWriter_eq (opts : List WriterOption) : (startWriter opts : Writer B) =
    { initWriter with encodingType := chosenEncoding opts, blockSizeTarget := chosenBlockSize opts } := by
  obtain ⟨e, s, h⟩ := options_rest opts (initWriter : Writer B)
  have he := options_enc opts (initWriter : Writer B)
  have hs := options_target opts (initWriter : Writer B)
  rw [h] at he hs
  rw [startWriter, h]
  rw [show chosenEncoding opts = e from he.symm, show chosenBlockSize opts = s from hs.symm]

/-- The 64 bytes `NewWriter` writes. -/
def startBytes (t : UInt64) (opts : List WriterOption) : Bytes :=
  (newFileHeader t 0 (chosenBlockSize opts) (chosenEncoding opts)).fields.flatten ++ [0, 0, 0, 0]

theorem startBytes_length (t : UInt64) (opts : List WriterOption) : (startBytes t opts).length = 64 := by
  have := headerFields_length (newFileHeader t 0 (chosenBlockSize opts) (chosenEncoding opts))
  rw [startBytes, List.length_append, this]; rfl

theorem writeHeader_spec (env : Env) (opts : List WriterOption) :
    wp writeHeader
      (fun _ w => ∃ i, St (startWriter opts : Writer B)
        { bytes := startBytes (env.clock i) opts, pos := (startBytes (env.clock i) opts).length } w)
      (fun e w => e = .io ∧ (∃ n k, env.fault n = some k) ∧ ∃ i k, St (startWriter opts : Writer B)
        { bytes := (startBytes (env.clock i) opts).take k
          pos := ((startBytes (env.clock i) opts).take k).length } w)
      env (startWriter opts : Writer B) := by
  have hs := St.refl (startWriter opts : Writer B)
  have hf : (startWriter opts : Writer B).file = { bytes := [], pos := ([] : Bytes).length } := by
    rw [startWriter_eq]; rfl
  rw [hf] at hs
  have hF : Faulty env (startWriter opts : Writer B) → ∃ n k, env.fault n = some k := by
    rintro (h | h)
    · rw [startWriter_eq] at h; cases h
    · exact h
  have hput : ∀ d, File.put { bytes := ([] : Bytes), pos := ([] : Bytes).length } d =
      { bytes := d, pos := d.length } := by
    intro d; rw [put_end]; simp
  unfold writeHeader
  refine wp_bind (st_seekCur hs ?_ (fun w' h hf => ⟨rfl, hF hf, 0, 0, by simpa using h⟩))
  clear hs; intro w1 hs _
  refine wp_bind (wp_now' ?_)
  obtain ⟨t, ht⟩ : ∃ t, env.clock w1.opNo = t := ⟨_, rfl⟩
  rw [ht]
  have hi : ∃ i, env.clock i = t := ⟨_, ht⟩
  clear ht
  obtain ⟨i, hi⟩ := hi
  refine wp_bind (wp_get ?_)
  have he : w1.encodingType = chosenEncoding opts := by rw [hs.enc, startWriter_eq]
  have ht : w1.blockSizeTarget = chosenBlockSize opts := by
    rw [hs.same.target, startWriter_eq]
  rw [he, ht]
  have hl := headerFields_length (newFileHeader t 0 (chosenBlockSize opts) (chosenEncoding opts))
  refine wp_bind (st_fwriteAll hs (by simp) ?_ ?_)
  rotate_left
  · intro w' k h hf
    rw [hput] at h
    refine ⟨rfl, hF hf, i, min k 60, ?_⟩
    rw [hi, startBytes, List.take_append_of_le_length (by omega)]
    by_cases hk : k ≤ 60
    · rw [Nat.min_eq_left hk]; exact h
    · rw [Nat.min_eq_right (by omega), List.take_of_length_le (by omega)]
      rw [List.take_of_length_le (by omega)] at h; exact h
  clear hs; intro w2 hs
  rw [hput] at hs
  refine wp_bind (st_fwrite hs ?_ ?_)
  rotate_left
  · intro w' k h hf
    rw [put_end, take_append_take_ge] at h
    exact ⟨rfl, hF hf, i, _, hi ▸ h⟩
  clear hs; intro w3 hs _
  rw [put_end, show List.replicate _ (0 : UInt8) = [0, 0, 0, 0] from rfl] at hs
  refine wp_bind (st_seekCur hs ?_ (fun w' h hf => ⟨rfl, hF hf, i, 64, ?_⟩))
  rotate_left
  · rw [hi, List.take_of_length_le (by rw [startBytes_length]; omega)]; exact h
  clear hs; intro w4 hs _
  have hc : (({ bytes := (newFileHeader t 0 (chosenBlockSize opts) (chosenEncoding opts)).fields.flatten ++
      [0, 0, 0, 0], pos := ((newFileHeader t 0 (chosenBlockSize opts) (chosenEncoding opts)).fields.flatten ++
      [0, 0, 0, 0]).length } : File).pos -
      ({ bytes := ([] : Bytes), pos := ([] : Bytes).length } : File).pos) = 64 := by
    show ((_ ++ _ : Bytes).length - _) = 64
    rw [List.length_append, hl]; rfl
  rw [hc]
  exact wp_ite (fun hc => absurd rfl hc) (fun _ => wp_pure ⟨i, hi ▸ hs⟩)

theorem newWriter_inv [LawfulBitmap B] {env : Env} {opts : List WriterOption} {w : Writer B}
    (h : newWriter opts env = (.ok (), w)) :
    Inv w [] [] ∧ Clean w [] ∧ w.fileOpen = true ∧ w.encodingType = chosenEncoding opts ∧
      w.blockSizeTarget = chosenBlockSize opts ∧ w.file.pos = 64 ∧ w.globalIDs = Bitmap.empty := by
  obtain ⟨t, hs⟩ := wp_ok (writeHeader_spec env opts) h
  rw [startWriter_eq] at hs
  have hl := startBytes_length (env.clock t) opts
  have hfile := hs.file
  have hfp : w.file.pos = 64 := by rw [hfile]; exact hl
  have hfl : w.file.bytes.length = 64 := by rw [hfile]; exact hl
  have hc : Clean w [] := by
    refine ⟨?_, by omega, ?_, fun b hb => by cases hb⟩
    · obtain ⟨o, _, rfl⟩ := hs; rfl
    · rw [hfp]; exact Nat.le_refl 64
  refine ⟨⟨by omega, by omega, by omega, ?_, ?_, ?_, ?_, fun b hb => (by cases hb), .inl hc⟩, hc, ?_, ?_, ?_, hfp, ?_⟩
  · obtain ⟨o, _, rfl⟩ := hs; rfl
  · obtain ⟨o, _, rfl⟩ := hs; rfl
  · obtain ⟨o, _, rfl⟩ := hs; rfl
  · intro x
    have : w.globalIDs = Bitmap.empty := by obtain ⟨o, _, rfl⟩ := hs; rfl
    rw [this, LawfulBitmap.contains_empty]; simp
  · obtain ⟨o, _, rfl⟩ := hs; rfl
  · obtain ⟨o, _, rfl⟩ := hs; rfl
  · obtain ⟨o, _, rfl⟩ := hs; rfl
  · obtain ⟨o, _, rfl⟩ := hs; rfl

theorem newWriter_ok (env : Env) (hn : env.NoFault) (opts : List WriterOption) :
    ∃ w : Writer B, newWriter opts env = (.ok (), w) := by
  have h := writeHeader_spec (B := B) env opts
  rcases hr : (newWriter opts env : Except Err Unit × Writer B) with ⟨r, w⟩
  cases r with
  | ok u => exact ⟨w, rfl⟩
  | error e =>
    obtain ⟨_, ⟨n, k, hf⟩, _⟩ := wp_error h hr
    rw [hn n] at hf; cases hf

/-! ### Calls without effect -/

omit [Bitmap B] in
theorem estimate_lengthMismatch (env : Env) (w : Writer B) (ids : List UInt64) (vals : List Int64)
    (h : ids.length ≠ vals.length) : estimateBlockSize ids vals env w = (.error .lengthMismatch, w) := by
  simp [estimateBlockSize, h, WM.throw]

omit [Bitmap B] in
theorem estimate_empty (env : Env) (w : Writer B) :
    estimateBlockSize [] [] env w = (.error .emptyBlock, w) := by
  simp [estimateBlockSize, WM.throw]

theorem writeBlock_lengthMismatch (env : Env) (w : Writer B) (ids : List UInt64) (vals : List Int64)
    (h : ids.length ≠ vals.length) : writeBlock ids vals env w = (.error .lengthMismatch, w) := by
  simp [writeBlock, h, WM.throw]

theorem writeBlock_empty (env : Env) (w : Writer B) :
    writeBlock [] [] env w = (.error .emptyBlock, w) := by
  simp [writeBlock, WM.throw]

theorem encodeData_unknown {T : Type} (e : UInt32) (h : ¬ KnownEnc e) (data : List T)
    (f : List T → List T) (g : T → Bytes) : encodeData e data f g = .error .unsupportedEncoding := by
  have hne : ∀ c : UInt32, c.toNat ≤ 7 → e ≠ c := by rintro c hc rfl; exact h hc
  unfold encodeData
  simp [hne encRaw (by decide), hne encVarInt (by decide), hne encVarIntID (by decide),
    hne encDeltaID (by decide), hne encDeltaValue (by decide), hne encDeltaBoth (by decide),
    hne encVarIntValue (by decide), hne encVarIntBoth (by decide)]

omit [Bitmap B] in
theorem estimate_unknown (env : Env) (w : Writer B) (ids : List UInt64) (vals : List Int64)
    (hl : ids.length = vals.length) (hne : ids.length ≠ 0) (h : ¬ KnownEnc w.encodingType) :
    estimateBlockSize ids vals env w = (.error .unsupportedEncoding, w) := by
  unfold estimateBlockSize
  rw [if_neg (by simpa using hl), if_neg hne]
  simp only [WM.bind_def, WM.get, encodeIDs, encodeData_unknown _ h, WM.lift]

theorem writeBlock_unknown (env : Env) (w : Writer B) (ids : List UInt64) (vals : List Int64)
    (hl : ids.length = vals.length) (hne : ids.length ≠ 0) (h : ¬ KnownEnc w.encodingType) :
    writeBlock ids vals env w = (.error .unsupportedEncoding, w) := by
  unfold writeBlock
  rw [if_neg (by simpa using hl), if_neg hne]
  simp only [WM.bind_def, estimate_unknown env w ids vals hl hne h]

/-! ### A failed Finalize that keeps the invariant -/

theorem finalize_tracking_inv (env : Env) {w w' : Writer B} {blks extra} {e : Err}
    (h : Inv w blks extra) (hf : finalize env w = (.error e, w')) :
    (e = .io ∧ Faulty env w) ∨ (e = .positionTracking ∧ ¬ Clean w blks ∧ Inv w' blks extra ∧
      SameConfig w w' ∧ w'.globalIDs = w.globalIDs) := by
  obtain ⟨f, hfe, hs⟩ := wp_error (finalize_inv env w blks extra h) hf
  cases hfe
  case bitmap k hF => exact .inl ⟨rfl, hF⟩
  case header t k hF => exact .inl ⟨rfl, hF⟩
  case foot t k hF _ => exact .inl ⟨rfl, hF⟩
  case tracking t hc =>
    right
    have hnc : ¬ Clean w blks := by
      intro c; apply hc.2; rw [c.positions, h.cnt]; simp
    refine ⟨rfl, hnc, ?_, hs.same, by obtain ⟨o, _, rfl⟩ := hs; rfl⟩
    have hst := h.tracked.resolve_left hnc
    have hl2 := phase2_length t w h.pos64 h.posLe
    have hl1 := phase1_length w h.posLe
    have h64 := h.pos64
    have hfp : 64 ≤ w'.file.pos := by
      rw [hs.file]
      simp only [List.length_append, hl2]; omega
    have hpl : w'.file.pos = w'.file.bytes.length := by rw [hs.file]
    have hsame := hs.same
    refine ⟨hfp, by omega, by omega, ?_, ?_, ?_, ?_, ?_, .inr ?_⟩
    · rw [← h.cnt]; obtain ⟨o, _, rfl⟩ := hs; rfl
    · rw [hsame.enc, ← h.sizes]; obtain ⟨o, _, rfl⟩ := hs; rfl
    · rw [← h.stats]; obtain ⟨o, _, rfl⟩ := hs; rfl
    · have : w'.globalIDs = w.globalIDs := by obtain ⟨o, _, rfl⟩ := hs; rfl
      rw [this]; exact h.bitmap
    · rw [hsame.enc]; exact h.ok
    · have : w'.blockPositions = w.blockPositions := by obtain ⟨o, _, rfl⟩ := hs; rfl
      rw [this]; exact hst

/-! ### Histories -/

/-- The pairs of a block. -/
def Blk.pairs (b : Blk) : Block := (b.ids, b.vals)

/-- What a call may do to the cursor. -/
structure Advance (w w' : Writer B) (c : Call) (r : Result) (new : List Blk) : Prop where
  fresh : ∀ b ∈ new, Fresh w w' b
  one : new.length ≤ 1
  still : new = [] → c ≠ .finalize → r ≠ .error .io → r ≠ .error .sectionSizeMismatch → w'.file = w.file
  same : new = [] → r ≠ .error .io → r ≠ .error .sectionSizeMismatch → w'.globalIDs = w.globalIDs

/-- One call keeps the invariant, unless it is a `Finalize` with an I/O error. -/
theorem call_inv [LawfulBitmap B] (env : Env) (c : Call) (hb : c.Bounded) (w : Writer B)
    (blks : List Blk) (extra : List UInt64) (h : Inv w blks extra)
    (hfin : c = .finalize → (c.run env w).1 ≠ .error .io) :
    ∃ new extra', Left c (c.run env w).1 (new.map Blk.pairs) ∧ Inv (c.run env w).2 (blks ++ new) extra' ∧
      SameConfig w (c.run env w).2 ∧
      ((c.run env w).1 ≠ .error .io → (c.run env w).1 ≠ .error .sectionSizeMismatch →
        extra' = extra ∧ (Clean w blks → Clean (c.run env w).2 (blks ++ new))) ∧
      (AllMatch w.encodingType → (c.run env w).1 ≠ .error .sectionSizeMismatch) ∧
      Advance w (c.run env w).2 c (c.run env w).1 new := by
  have idle : ∀ (r : Result) (w' : Writer B), St w w.file w' → ackedBy c r = [] →
      r ≠ .error .sectionSizeMismatch → c.run env w = (r, w') →
    ∃ new extra', Left c (c.run env w).1 (new.map Blk.pairs) ∧ Inv (c.run env w).2 (blks ++ new) extra' ∧
      SameConfig w (c.run env w).2 ∧
      ((c.run env w).1 ≠ .error .io → (c.run env w).1 ≠ .error .sectionSizeMismatch →
        extra' = extra ∧ (Clean w blks → Clean (c.run env w).2 (blks ++ new))) ∧
      (AllMatch w.encodingType → (c.run env w).1 ≠ .error .sectionSizeMismatch) ∧
      Advance w (c.run env w).2 c (c.run env w).1 new := by
    intro r w' hs ha hr he
    rw [he]
    refine ⟨[], extra, ?_, by simpa using h.of_st hs, hs.same, fun _ _ => ⟨rfl, fun hc => ?_⟩, fun _ => hr,
      ⟨fun _ hb => (by cases hb), Nat.zero_le _, fun _ _ _ _ => hs.file, fun _ _ _ => hs.gl⟩⟩
    · have := Left.acked c r; rw [ha] at this; exact this
    · simpa using hc.of_st hs
  cases c with
  | estimate ids vals =>
    by_cases hl : ids.length = vals.length
    · by_cases hne : ids.length = 0
      · refine idle (.error .emptyBlock) w (St.refl w) rfl (by simp) ?_
        have : ids = [] := List.eq_nil_of_length_eq_zero hne
        have : vals = [] := List.eq_nil_of_length_eq_zero (by omega)
        subst_vars
        simp [Call.run, estimate_empty]
      · by_cases hk : KnownEnc w.encodingType
        · have hest := estimateBlockSize_spec env w ids vals hk hl (by omega) hb
          unfold wp at hest
          rcases hr : estimateBlockSize ids vals env w with ⟨r, w'⟩
          rw [hr] at hest
          cases r with
          | ok s => exact idle (.ok ()) w' hest.2 rfl (by simp) (by simp [Call.run, hr])
          | error e =>
            exact idle (.error e) w' hest.2.2 rfl (by rw [hest.1]; simp) (by simp [Call.run, hr])
        · exact idle (.error .unsupportedEncoding) w (St.refl w) rfl (by simp)
            (by simp only [Call.run, estimate_unknown env w ids vals hl hne hk])
    · exact idle (.error .lengthMismatch) w (St.refl w) rfl (by simp)
        (by simp only [Call.run, estimate_lengthMismatch env w ids vals hl])
  | finalize =>
    rcases hr : Call.run env .finalize w with ⟨r, w'⟩
    rw [hr] at hfin
    have hr' : finalize env w = (r, w') := hr
    cases r with
    | ok u =>
      obtain ⟨_, h1, h2, hg, h3, _⟩ := wp_ok (finalize_inv env w blks extra h) hr'
      exact ⟨[], extra, .acked _ _, by simpa using h1, h2,
        fun _ _ => ⟨rfl, fun c => by simpa using h3 c⟩, fun _ => by simp,
        ⟨fun _ hb => (by cases hb), Nat.zero_le _, fun _ hc => absurd rfl hc, fun _ _ _ => hg⟩⟩
    | error e =>
      rcases finalize_tracking_inv env h hr' with ⟨rfl, _⟩ | ⟨rfl, hnc, h1, h2, hg⟩
      · exact absurd rfl (hfin rfl)
      · exact ⟨[], extra, .acked _ _, by simpa using h1, h2,
          fun _ _ => ⟨rfl, fun c => absurd c hnc⟩, fun _ => by simp,
          ⟨fun _ hb => (by cases hb), Nat.zero_le _, fun _ hc => absurd rfl hc, fun _ _ _ => hg⟩⟩
  | write ids vals =>
    by_cases hl : ids.length = vals.length
    · by_cases hne : ids.length = 0
      · refine idle (.error .emptyBlock) w (St.refl w) rfl (by simp) ?_
        have : ids = [] := List.eq_nil_of_length_eq_zero hne
        have : vals = [] := List.eq_nil_of_length_eq_zero (by omega)
        subst_vars
        simp [Call.run, writeBlock_empty]
      · by_cases hk : KnownEnc w.encodingType
        · obtain ⟨new, extra', ha, h1, h2, h3, h4, h5, h6⟩ :=
            writeBlock_inv env w blks extra h hk ids vals hl (by omega) hb
          refine ⟨new, extra', ?_, h1, h2, ?_, ?_, ⟨h6, ?_, ?_, ?_⟩⟩
          · show Left _ (writeBlock ids vals env w).1 _
            generalize (writeBlock ids vals env w).1 = r at ha
            cases ha
            case all => exact .acked (.write ids vals) (.ok ())
            case part k _ _ => exact .acked (.write ids vals) (.error (.blockFull k))
            case none e he =>
              rcases he with ⟨rfl, _⟩ | ⟨rfl, _⟩
              · exact .acked (.write ids vals) (.error .io)
              · exact .acked (.write ids vals) (.error .sectionSizeMismatch)
            case torn k hk1 hk2 _ => exact .torn ids vals k hk1 hk2
          · intro hio hsm
            apply h5
            rintro rfl
            change (writeBlock ids vals env w).1 ≠ _ at hio
            change (writeBlock ids vals env w).1 ≠ _ at hsm
            generalize (writeBlock ids vals env w).1 = r at ha hio hsm
            cases ha
            case none e he =>
              rcases he with ⟨rfl, _⟩ | ⟨rfl, _⟩
              · exact hio rfl
              · exact hsm rfl
          · intro hsym
            show (writeBlock ids vals env w).1 ≠ _
            generalize (writeBlock ids vals env w).1 = r at ha
            cases ha
            case all => simp
            case part k _ _ => simp
            case none e he =>
              rcases he with ⟨rfl, _⟩ | ⟨rfl, hn⟩
              · simp
              · exact absurd hsym hn
            case torn => simp
          · generalize (writeBlock ids vals env w).1 = r at ha
            cases ha <;> simp
          · rintro rfl _ hio hsm
            change (writeBlock ids vals env w).1 ≠ _ at hio
            change (writeBlock ids vals env w).1 ≠ _ at hsm
            generalize (writeBlock ids vals env w).1 = r at ha hio hsm
            cases ha
            case none e he =>
              rcases he with ⟨rfl, _⟩ | ⟨rfl, _⟩
              · exact absurd rfl hio
              · exact absurd rfl hsm
          · rintro rfl hio hsm
            change (writeBlock ids vals env w).1 ≠ _ at hio
            change (writeBlock ids vals env w).1 ≠ _ at hsm
            generalize (writeBlock ids vals env w).1 = r at ha hio hsm
            cases ha
            case none e he =>
              rcases he with ⟨rfl, _⟩ | ⟨rfl, _⟩
              · exact absurd rfl hio
              · exact absurd rfl hsm
        · exact idle (.error .unsupportedEncoding) w (St.refl w) rfl (by simp) (writeBlock_unknown env w ids vals hl hne hk)
    · exact idle (.error .lengthMismatch) w (St.refl w) rfl (by simp) (writeBlock_lengthMismatch env w ids vals hl)

/-- Blocks back to back, from offset `lo` to offset `hi`. -/
def Chain (e : UInt32) : Nat → List Blk → Nat → Prop
  | lo, [], hi => lo = hi
  | lo, b :: bs, hi => b.off = lo ∧ Chain e (b.stop e) bs hi

theorem Chain.append {e : UInt32} {lo mid hi : Nat} {as bs : List Blk} (h1 : Chain e lo as mid)
    (h2 : Chain e mid bs hi) : Chain e lo (as ++ bs) hi := by
  induction as generalizing lo with
  | nil => cases h1; exact h2
  | cons a as ih => exact ⟨h1.1, ih h1.2⟩

/-- All blocks fit the target, unless they hold a single pair. -/
def AllFit (w : Writer B) (blks : List Blk) : Prop :=
  ∀ b ∈ blks, b.size w.encodingType ≤ w.blockSizeTarget.toNat ∨ b.ids.length = 1

/-- The IDs of the blocks, in order. -/
def blkIDs (blks : List Blk) : List UInt64 := blks.flatMap Blk.ids

/-- The invariant along a history. -/
theorem runCalls_inv [LawfulBitmap B] (env : Env) (calls : List Call) (hb : ∀ c ∈ calls, c.Bounded)
    (w : Writer B) (blks : List Blk) (extra : List UInt64) (h : Inv w blks extra)
    (hfin : FinalizeNoIOError (runCalls env calls w).1) :
    ∃ new extra', LeftBy (runCalls env calls w).1 (new.map Blk.pairs) ∧
      Inv (runCalls env calls w).2 (blks ++ new) extra' ∧
      SameConfig w (runCalls env calls w).2 ∧
      (NoIOError (runCalls env calls w).1 → NoMismatch (runCalls env calls w).1 →
        extra' = extra ∧ (Clean w blks → Clean (runCalls env calls w).2 (blks ++ new)) ∧
        (runCalls env calls w).2.globalIDs = (blkIDs new).foldl Bitmap.set w.globalIDs ∧
        (Call.finalize ∉ calls →
          Chain w.encodingType w.file.pos new (runCalls env calls w).2.file.pos)) ∧
      AllFit w new ∧ (AllMatch w.encodingType → NoMismatch (runCalls env calls w).1) := by
  induction calls generalizing w blks extra with
  | nil =>
    exact ⟨[], extra, .nil, by simpa [runCalls] using h, SameConfig.refl w,
      fun _ _ => ⟨rfl, fun c => by simpa [runCalls] using c, rfl, fun _ => rfl⟩, fun _ hb => (by cases hb),
      fun _ _ hev => (by cases hev)⟩
  | cons c cs ih =>
    have hlog : (runCalls env (c :: cs) w).1 = (c, (c.run env w).1) :: (runCalls env cs (c.run env w).2).1 := rfl
    have hst : (runCalls env (c :: cs) w).2 = (runCalls env cs (c.run env w).2).2 := rfl
    rw [hlog] at hfin ⊢
    rw [hst]
    obtain ⟨new, extra1, h1, h2, h3, h4, h5, h6⟩ := call_inv env c (hb c (by simp)) w blks extra h
      (fun hc => hfin _ (List.mem_cons_self ..) hc)
    obtain ⟨new2, extra2, g1, g2, g3, g4, g5, g6⟩ := ih (fun c' hc' => hb c' (by simp [hc'])) _ _ _ h2
      (fun ev hev => hfin ev (List.mem_cons_of_mem _ hev))
    refine ⟨new ++ new2, extra2, ?_, by rw [← List.append_assoc]; exact g2, h3.trans g3, ?_, ?_, ?_⟩
    · rw [List.map_append]; exact .cons h1 g1
    · intro hno hmis
      have hio : (c.run env w).1 ≠ .error .io := hno _ (List.mem_cons_self ..)
      have hmi : (c.run env w).1 ≠ .error .sectionSizeMismatch := hmis _ (List.mem_cons_self ..)
      obtain ⟨rfl, hcl⟩ := h4 hio hmi
      obtain ⟨rfl, hcl2, hgl2, hch2⟩ := g4 (fun ev hev => hno ev (List.mem_cons_of_mem _ hev))
        (fun ev hev => hmis ev (List.mem_cons_of_mem _ hev))
      refine ⟨rfl, fun hc => by rw [← List.append_assoc]; exact hcl2 (hcl hc), ?_, ?_⟩
      · rw [hgl2, blkIDs, blkIDs, List.flatMap_append, List.foldl_append]
        congr 1
        match new, h6 with
        | [], h6 => exact h6.same rfl hio hmi
        | [b], h6 => simpa using (h6.fresh b (by simp)).gl
        | _ :: _ :: _, h6 => exact absurd h6.one (by simp)
      · intro hnf
        have hc := hch2 (fun hm => hnf (List.mem_cons_of_mem _ hm))
        rw [h3.enc] at hc
        refine Chain.append ?_ hc
        match new, h6 with
        | [], h6 =>
          have := h6.still rfl (fun hcf => hnf (hcf ▸ List.mem_cons_self ..)) hio hmi
          show _ = _
          rw [this]
        | [b], h6 =>
          have := h6.fresh b (by simp)
          exact ⟨this.off, this.stop.symm⟩
        | _ :: _ :: _, h6 => exact absurd h6.one (by simp)
    · intro b hb
      rcases List.mem_append.1 hb with hb | hb
      · exact (h6.fresh b hb).fits
      · have := g5 b hb; rwa [h3.enc, h3.target] at this
    · intro hsym ev hev
      rcases List.mem_cons.1 hev with rfl | hev
      · exact h5 hsym
      · exact g6 (by rw [h3.enc]; exact hsym) ev hev

theorem LeftBy.eq_acked {log : Log} {bs : List Block} (h : LeftBy log bs) (hno : NoIOError log) :
    bs = acked log := by
  induction h with
  | nil => rfl
  | @cons c r bs log rest hl t ih =>
    have h1 := ih (fun ev hev => hno ev (List.mem_cons_of_mem _ hev))
    have h2 : r ≠ .error .io := hno _ (List.mem_cons_self ..)
    unfold acked at *
    rw [List.flatMap_cons, ← h1]
    congr 1
    cases hl
    · rfl
    · exact absurd rfl h2

theorem NoIOError.finalize {log : Log} (h : NoIOError log) : FinalizeNoIOError log :=
  fun ev hev _ => h ev hev

/-- Everything known after a history without I/O errors and section mismatches. -/
theorem history_clean' [LawfulBitmap B] {env : Env} {opts : List WriterOption} {calls : List Call}
    {log : Log} {w : Writer B} (h : History B env opts calls log w) (hb : ∀ c ∈ calls, c.Bounded)
    (hmis : NoMismatch log) (hno : NoIOError log) :
    ∃ blks, Inv w blks [] ∧ Clean w blks ∧ blks.map Blk.pairs = acked log ∧ w.fileOpen = true ∧
      w.encodingType = chosenEncoding opts ∧ w.blockSizeTarget = chosenBlockSize opts ∧ AllFit w blks ∧
      (Call.finalize ∉ calls → Chain w.encodingType 64 blks w.file.pos) ∧
      w.globalIDs = (blkIDs blks).foldl Bitmap.set Bitmap.empty := by
  obtain ⟨w0, hnew, hrun⟩ := h.created
  obtain ⟨hi, hc, ho, he, ht, hp, hg⟩ := newWriter_inv hnew
  have hl : log = (runCalls env calls w0).1 := by rw [hrun]
  have hw : w = (runCalls env calls w0).2 := by rw [hrun]
  subst hl hw
  obtain ⟨new, extra, h1, h2, h3, h4, h6, h7⟩ := runCalls_inv env calls hb w0 [] [] hi hno.finalize
  obtain ⟨rfl, h5, h8, h9⟩ := h4 hno hmis
  exact ⟨new, by simpa using h2, by simpa using h5 hc, h1.eq_acked hno, by rw [h3.opened, ho],
    by rw [h3.enc, he], by rw [h3.target, ht], fun b hb => by rw [h3.enc, h3.target]; exact h6 b hb,
    fun hnf => by have := h9 hnf; rwa [hp, ← h3.enc] at this, by rw [h8, hg]⟩

/-- Sections never mismatch, except with `VarIntID` and `VarIntValue`. -/
theorem history_noMismatch [LawfulBitmap B] {env : Env} {opts : List WriterOption} {calls : List Call}
    {log : Log} {w : Writer B} (h : History B env opts calls log w) (hb : ∀ c ∈ calls, c.Bounded)
    (henc : AllMatch (chosenEncoding opts)) (hno : FinalizeNoIOError log) : NoMismatch log := by
  obtain ⟨w0, hnew, hrun⟩ := h.created
  obtain ⟨hi, hc, ho, he, ht, hp, hg⟩ := newWriter_inv hnew
  have hl : log = (runCalls env calls w0).1 := by rw [hrun]
  subst hl
  obtain ⟨new, extra, h1, h2, h3, h4, h6, h7⟩ := runCalls_inv env calls hb w0 [] [] hi hno
  exact h7 (by rw [he]; exact henc)

/-- Everything known after a history without I/O errors, symmetric encoding. -/
theorem history_clean [LawfulBitmap B] {env : Env} {opts : List WriterOption} {calls : List Call}
    {log : Log} {w : Writer B} (h : History B env opts calls log w) (hb : ∀ c ∈ calls, c.Bounded)
    (henc : SymEnc (chosenEncoding opts)) (hno : NoIOError log) :
    ∃ blks, Inv w blks [] ∧ Clean w blks ∧ blks.map Blk.pairs = acked log ∧ w.fileOpen = true ∧
      w.encodingType = chosenEncoding opts ∧ w.blockSizeTarget = chosenBlockSize opts ∧ AllFit w blks ∧
      (Call.finalize ∉ calls → Chain w.encodingType 64 blks w.file.pos) ∧
      w.globalIDs = (blkIDs blks).foldl Bitmap.set Bitmap.empty :=
  history_clean' h hb (history_noMismatch h hb henc.allMatch hno.finalize) hno

/-- Everything known after a history in which `WriteBlock` may have failed. -/
theorem history_faulty [LawfulBitmap B] {env : Env} {opts : List WriterOption} {calls : List Call}
    {log : Log} {w : Writer B} (h : History B env opts calls log w) (hb : ∀ c ∈ calls, c.Bounded)
    (hno : FinalizeNoIOError log) :
    ∃ blks extra, Inv w blks extra ∧ LeftBy log (blks.map Blk.pairs) ∧ w.fileOpen = true ∧
      w.encodingType = chosenEncoding opts ∧ w.blockSizeTarget = chosenBlockSize opts ∧ AllFit w blks := by
  obtain ⟨w0, hnew, hrun⟩ := h.created
  obtain ⟨hi, hc, ho, he, ht, _⟩ := newWriter_inv hnew
  have hl : log = (runCalls env calls w0).1 := by rw [hrun]
  have hw : w = (runCalls env calls w0).2 := by rw [hrun]
  subst hl hw
  obtain ⟨new, extra, h1, h2, h3, h4, h6, _⟩ := runCalls_inv env calls hb w0 [] [] hi hno
  exact ⟨new, extra, by simpa using h2, h1, by rw [h3.opened, ho],
    by rw [h3.enc, he], by rw [h3.target, ht], fun b hb => by rw [h3.enc, h3.target]; exact h6 b hb⟩

/-! ### Nothing fails without a fault -/

theorem call_noFault [LawfulBitmap B] (env : Env) (hn : env.NoFault) (c : Call) (hb : c.Bounded)
    (w : Writer B) (ho : w.fileOpen = true) (blks : List Blk) (extra : List UInt64) (h : Inv w blks extra) :
    (c.run env w).1 ≠ .error .io := by
  have hnf := NoFault.not_faulty (w := w) hn ho
  cases c with
  | estimate ids vals =>
    by_cases hl : ids.length = vals.length
    · by_cases hne : ids.length = 0
      · have : ids = [] := List.eq_nil_of_length_eq_zero hne
        have : vals = [] := List.eq_nil_of_length_eq_zero (by omega)
        subst_vars
        simp [Call.run, estimate_empty]
      · by_cases hk : KnownEnc w.encodingType
        · have hest := estimateBlockSize_spec env w ids vals hk hl (by omega) hb
          unfold wp at hest
          rcases hr : estimateBlockSize ids vals env w with ⟨r, w'⟩
          rw [hr] at hest
          cases r with
          | ok s => simp [Call.run, hr]
          | error e => exact absurd hest.2.1 hnf
        · simp [Call.run, estimate_unknown env w ids vals hl hne hk]
    · simp [Call.run, estimate_lengthMismatch env w ids vals hl]
  | finalize =>
    rcases hr : Call.run env .finalize w with ⟨r, w'⟩
    cases r with
    | ok u => simp
    | error e =>
      rcases finalize_tracking_inv env h hr with ⟨_, hF⟩ | ⟨rfl, _⟩
      · exact absurd hF hnf
      · simp
  | write ids vals =>
    by_cases hl : ids.length = vals.length
    · by_cases hne : ids.length = 0
      · have : ids = [] := List.eq_nil_of_length_eq_zero hne
        have : vals = [] := List.eq_nil_of_length_eq_zero (by omega)
        subst_vars
        simp [Call.run, writeBlock_empty]
      · by_cases hk : KnownEnc w.encodingType
        · obtain ⟨new, extra', ha, _hrest⟩ :=
            writeBlock_inv env w blks extra h hk ids vals hl (by omega) hb
          show (writeBlock ids vals env w).1 ≠ _
          generalize (writeBlock ids vals env w).1 = r at ha
          cases ha
          case all => simp
          case part => simp
          case none e he =>
            rcases he with ⟨_, hF⟩ | ⟨rfl, _⟩
            · exact absurd hF hnf
            · simp
          case torn k _ _ hF => exact absurd hF hnf
        · simp [Call.run, writeBlock_unknown env w ids vals hl hne hk]
    · simp [Call.run, writeBlock_lengthMismatch env w ids vals hl]

/-- Without faults no call of a history reports an I/O error. -/
theorem runCalls_noFault [LawfulBitmap B] (env : Env) (hn : env.NoFault) (calls : List Call)
    (hb : ∀ c ∈ calls, c.Bounded) (w : Writer B) (ho : w.fileOpen = true) (blks : List Blk)
    (extra : List UInt64) (h : Inv w blks extra) : NoIOError (runCalls env calls w).1 := by
  induction calls generalizing w blks extra with
  | nil => intro ev hev; cases hev
  | cons c cs ih =>
    have h1 := call_noFault env hn c (hb c (by simp)) w ho blks extra h
    obtain ⟨new, extra', _, h2, h3, _⟩ := call_inv env c (hb c (by simp)) w blks extra h (fun _ => h1)
    intro ev hev
    rcases List.mem_cons.1 hev with rfl | hev
    · exact h1
    · exact ih (fun c' hc' => hb c' (by simp [hc'])) _ (by rw [h3.opened, ho]) _ _ h2 ev hev

theorem history_noFault [LawfulBitmap B] {env : Env} (hn : env.NoFault) (opts : List WriterOption)
    (calls : List Call) (hb : ∀ c ∈ calls, c.Bounded) :
    ∃ (log : Log) (w : Writer B), History B env opts calls log w ∧ NoIOError log := by
  obtain ⟨w0, h0⟩ := newWriter_ok (B := B) env hn opts
  obtain ⟨hi, _, ho, _⟩ := newWriter_inv h0
  exact ⟨_, _, ⟨w0, h0, rfl⟩, runCalls_noFault env hn calls hb w0 ho [] [] hi⟩

/-- Without faults `Finalize` succeeds in a clean state. -/
theorem finalize_noFault {env : Env} (hn : env.NoFault) {w : Writer B} {blks extra} (h : Inv w blks extra)
    (hc : Clean w blks) (ho : w.fileOpen = true) : ∃ w', finalize env w = (.ok (), w') := by
  rcases hr : finalize env w with ⟨r, w'⟩
  cases r with
  | ok u => exact ⟨w', rfl⟩
  | error e =>
    rcases finalize_tracking_inv env h hr with ⟨_, hF⟩ | ⟨_, hnc, _⟩
    · exact absurd hF (NoFault.not_faulty hn ho)
    · exact absurd hc hnc

end VibeCol
