/-
Exact effect of `writeBlockInternal` on the file and the writer, for every fault schedule.
-/
import Verif.Lemmas.WP
import Verif.Lemmas.Sections
namespace VibeCol
variable {B : Type} [Bitmap B]

/-- The statistics `WriteBlock` computes for a block. -/
def statsOf (ids : List UInt64) (vals : List Int64) : BlockStats where
  minID := (calculateMinMaxUint64 ids).1
  maxID := (calculateMinMaxUint64 ids).2
  minValue := (calculateMinMaxInt64 vals).1
  maxValue := (calculateMinMaxInt64 vals).2
  sum := calculateSumInt64 vals
  count := UInt32.ofNat ids.length

/-- The 52 bytes written by `writeBlockHeader`. -/
def header52 (e : UInt32) (ids : List UInt64) (vals : List Int64) : Bytes :=
  let s := statsOf ids vals
  [le64 s.minID, le64 s.maxID, le64 (int64ToUint64 s.minValue), le64 (int64ToUint64 s.maxValue),
    le64 (int64ToUint64 s.sum), le32 s.count, le32 e, le32 compressionNone].flatten

/-- The 16-byte layout. -/
def layoutBytes (e : UInt32) (ids : List UInt64) (vals : List Int64) : Bytes :=
  le32 0 ++ le32 (UInt32.ofNat (idSize e ids)) ++ le32 (UInt32.ofNat (idSize e ids)) ++
    le32 (UInt32.ofNat (valSize e vals))

/-- All bytes of a block up to the padding. -/
def image (e : UInt32) (ids : List UInt64) (vals : List Int64) : Bytes :=
  header52 e ids vals ++ le32 0 ++ le32 0 ++ le32 0 ++ layoutBytes e ids vals ++
    idSection e ids ++ valSection e vals

/-- A block as laid out at file offset `off`: image and padding. -/
def padded (off : Nat) (img : Bytes) : Bytes :=
  img ++ List.replicate (calculatePadding (off + img.length) pageSize) 0

/-- Both sections have the size the encoder announced (always true of the symmetric
encodings). -/
def SectionsMatch (e : UInt32) (ids : List UInt64) (vals : List Int64) : Prop :=
  (idSection e ids).length = idSize e ids ∧ (valSection e vals).length = valSize e vals

theorem SymEnc.sectionsMatch {e : UInt32} (h : SymEnc e) (ids : List UInt64) (vals : List Int64) :
    SectionsMatch e ids vals := ⟨idSection_length e h ids, valSection_length e h vals⟩

/-- An encoding for which sections always have the computed size. -/
def AllMatch (e : UInt32) : Prop := ∀ ids vals, SectionsMatch e ids vals

theorem SymEnc.allMatch {e : UInt32} (h : SymEnc e) : AllMatch e := fun ids vals => h.sectionsMatch ids vals

set_option linter.unusedSimpArgs false in
theorem allMatch_deltaID : AllMatch encDeltaID := by
  intro ids vals
  have h1 := flatten_map_eq le64 (deltaEncode ids) 8 le64_length
  have h2 := flatten_map_eq leI64 (deltaEncodeInt64 vals) 8 leI64_length
  simp at h1 h2
  constructor <;>
  simp [idSection, idSize, valSection, valSize, useVarIntForIDs, useVarIntForValues, isVarIntEnc, encIDs,
    encVals, deltaEnc, encRaw, encDeltaBoth, encDeltaID, encDeltaValue, encVarInt, encVarIntID, encVarIntBoth,
    encVarIntValue, h1, h2] <;> omega

set_option linter.unusedSimpArgs false in
theorem allMatch_deltaValue : AllMatch encDeltaValue := by
  intro ids vals
  have h1 := flatten_map_eq le64 (deltaEncode ids) 8 le64_length
  have h2 := flatten_map_eq leI64 (deltaEncodeInt64 vals) 8 leI64_length
  simp at h1 h2
  constructor <;>
  simp [idSection, idSize, valSection, valSize, useVarIntForIDs, useVarIntForValues, isVarIntEnc, encIDs,
    encVals, deltaEnc, encRaw, encDeltaBoth, encDeltaID, encDeltaValue, encVarInt, encVarIntID, encVarIntBoth,
    encVarIntValue, h1, h2] <;> omega

/-- The file after an interrupted write that started in state `F`: everything before the
start is untouched and the cursor is at most 4 bytes before the end. -/
structure PartialFile (F f : File) : Prop where
  take : f.bytes.take F.pos = F.bytes.take F.pos
  ge : F.pos ≤ f.pos
  le : f.pos ≤ f.bytes.length
  near : f.bytes.length ≤ f.pos + 4

theorem PartialFile.refl {F : File} (h : F.pos ≤ F.bytes.length) (h' : F.bytes.length ≤ F.pos + 4) :
    PartialFile F F := ⟨rfl, Nat.le_refl _, h, h'⟩

theorem PartialFile.put {F f : File} (h : PartialFile F f) (d : Bytes) : PartialFile F (f.put d) := by
  have h1 := h.ge
  have h2 := h.le
  have h3 := h.near
  refine ⟨?_, ?_, ?_, ?_⟩
  · simp only [File.put]; rw [writeAt_take _ _ _ _ h1 h2, h.take]
  · simp only [File.put]; omega
  · simp only [File.put, writeAt_length _ _ _ h2]; omega
  · simp only [File.put, writeAt_length _ _ _ h2]; omega

theorem le64_zero : le64 0 = le32 0 ++ le32 0 := by decide

theorem header52_length (e : UInt32) (ids : List UInt64) (vals : List Int64) :
    (header52 e ids vals).length = 52 := by simp [header52]

theorem layoutBytes_length (e : UInt32) (ids : List UInt64) (vals : List Int64) :
    (layoutBytes e ids vals).length = 16 := by simp [layoutBytes]

theorem image_length (e : UInt32) (ids : List UInt64) (vals : List Int64) :
    (image e ids vals).length = 80 + (idSection e ids).length + (valSection e vals).length := by
  simp [image, header52_length, layoutBytes_length]; omega

/-- Overwriting the tail of what was just written. -/
theorem writeAt_overlap (b : Bytes) (p : Nat) (x y z : Bytes) (h : p ≤ b.length)
    (hyz : y.length ≤ z.length) :
    writeAt (writeAt b p (x ++ y)) (p + x.length) z = writeAt b p (x ++ z) := by
  rw [← writeAt_writeAt b p x y h, ← writeAt_writeAt b p x z h]
  have hl := writeAt_length b p x h
  have hl2 := writeAt_length (writeAt b p x) (p + x.length) y (by omega)
  rw [writeAt_eq (writeAt _ _ y) _ z (by omega), writeAt_eq (writeAt b p x) _ z (by omega),
    writeAt_take _ _ _ _ (Nat.le_refl _) (by omega), writeAt_drop _ _ _ _ (by omega) (by omega)]

theorem useVar_isVar_ids (e : UInt32) (h : useVarIntForIDs e = true) : isVarIntEnc e = true := by
  simp only [useVarIntForIDs, isVarIntEnc, Bool.or_eq_true] at *; grind

theorem useVar_isVar_vals (e : UInt32) (h : useVarIntForValues e = true) : isVarIntEnc e = true := by
  simp only [useVarIntForValues, isVarIntEnc, Bool.or_eq_true] at *; grind

theorem ofNat32_inj (a b : Nat) (ha : a < 2 ^ 32) (hb : b < 2 ^ 32) :
    UInt32.ofNat a = UInt32.ofNat b ↔ a = b := by
  rw [← UInt32.toNat_inj]; simp; omega

theorem ofNat32_toNat (a : Nat) (ha : a < 2 ^ 32) : (UInt32.ofNat a).toNat = a := by
  simp; omega

theorem padded_length (off : Nat) (img : Bytes) :
    (padded off img).length = img.length + calculatePadding (off + img.length) pageSize := by
  simp [padded]

theorem fixed_flatten_lt {e : UInt32} {ids : List UInt64} (h : ids.length ≤ 2 ^ 27) :
    (idSection e ids).length < 2 ^ 32 := by
  unfold idSection; split
  · have := flatten_map_le encodeVarInt (encIDs e ids) 10 encodeVarInt_length_le_10
    rw [encIDs_length] at this; omega
  · have := flatten_map_eq le64 (encIDs e ids) 8 le64_length
    rw [encIDs_length] at this; omega

theorem fixed_flatten_lt_vals {e : UInt32} {vals : List Int64} (h : vals.length ≤ 2 ^ 27) :
    (valSection e vals).length < 2 ^ 32 := by
  unfold valSection; split
  · have := flatten_map_le encodeSignedVarInt (encVals e vals) 10 encodeSignedVarInt_length_le_10
    rw [encVals_length] at this; omega
  · have := flatten_map_eq leI64 (encVals e vals) 8 leI64_length
    rw [encVals_length] at this; omega

/-- The writer once the IDs are in the bitmap. -/
def withIDs (w : Writer B) (ids : List UInt64) : Writer B :=
  { w with globalIDs := ids.foldl Bitmap.set w.globalIDs }

/-- The writer once the block position is recorded. -/
def withPos (w : Writer B) (ids : List UInt64) : Writer B :=
  { withIDs w ids with blockPositions := w.blockPositions ++ [UInt64.ofNat w.file.pos] }

/-- The writer once the block is recorded. -/
def withBlock (w : Writer B) (ids : List UInt64) (vals : List Int64) (size : Nat) : Writer B :=
  { withPos w ids with
    blockSizes := w.blockSizes ++ [UInt32.ofNat size]
    blockStats := w.blockStats ++ [statsOf ids vals]
    blockCount := w.blockCount + 1 }

/-- The file after a block was completely written. -/
def committedFile (w : Writer B) (ids : List UInt64) (vals : List Int64) : File :=
  let full := padded w.file.pos (image w.encodingType ids vals)
  { bytes := w.file.bytes.take w.file.pos ++ full, pos := w.file.pos + full.length }

/-- `w'` is the writer after a block was completely written from `w`. -/
def Committed (w : Writer B) (ids : List UInt64) (vals : List Int64) (w' : Writer B) : Prop :=
  St (withBlock w ids vals (padded w.file.pos (image w.encodingType ids vals)).length)
    (committedFile w ids vals) w'

/-- The outcomes of a failed `writeBlockInternal` started in `w`. -/
inductive WriteErr (env : Env) (w : Writer B) (ids : List UInt64) (vals : List Int64) :
    Err → Writer B → Prop where
  /-- Failed before anything was recorded. -/
  | early (w' : Writer B) (hF : Faulty env w) (h : St (withIDs w ids) w.file w') :
      WriteErr env w ids vals .io w'
  /-- Failed while writing. -/
  | mid (w' : Writer B) (f : File) (hF : Faulty env w) (hf : PartialFile w.file f)
      (h : St (withPos w ids) f w') : WriteErr env w ids vals .io w'
  /-- Section sizes disagree. -/
  | mismatch (w' : Writer B) (f : File) (hm : ¬ SectionsMatch w.encodingType ids vals)
      (hf : PartialFile w.file f) (h : St (withPos w ids) f w') :
      WriteErr env w ids vals .sectionSizeMismatch w'
  /-- Only the final `Sync` failed: the block is there. -/
  | sync (w' : Writer B) (hF : Faulty env w) (hm : SectionsMatch w.encodingType ids vals)
      (h : Committed w ids vals w') : WriteErr env w ids vals .io w'

theorem writeBlockInternal_gen (env : Env) (w : Writer B) (ids : List UInt64) (vals : List Int64)
    (hk : KnownEnc w.encodingType) (hidl : idSize w.encodingType ids < 2 ^ 32)
    (hvall : valSize w.encodingType vals < 2 ^ 32) (hids32 : (idSection w.encodingType ids).length < 2 ^ 32)
    (hval32 : (valSection w.encodingType vals).length < 2 ^ 32)
    (hne : ids ≠ []) (hnev : vals ≠ [])
    (hpos : w.file.pos ≤ w.file.bytes.length) (hnear : w.file.bytes.length ≤ w.file.pos + 4) :
    wp (writeBlockInternal ids vals)
      (fun _ w' => SectionsMatch w.encodingType ids vals ∧ w.fileOpen = true ∧
        Committed w ids vals w')
      (WriteErr env w ids vals) env w := by
  have hidge := idSize_ge w.encodingType ids
  have hvalge := valSize_ge w.encodingType vals
  have hlpos : 0 < ids.length := List.length_pos_iff.2 hne
  have hvpos : 0 < vals.length := List.length_pos_iff.2 hnev
  have hids := encodeIDs_eq w.encodingType hk ids (by omega)
  have hvals := encodeValues_eq w.encodingType hk vals (by omega)
  have hP0 : PartialFile w.file w.file := .refl hpos hnear
  have hl52 := header52_length w.encodingType ids vals
  have hh52 : [le64 (calculateMinMaxUint64 ids).1, le64 (calculateMinMaxUint64 ids).2,
      le64 (int64ToUint64 (calculateMinMaxInt64 vals).1),
      le64 (int64ToUint64 (calculateMinMaxInt64 vals).2),
      le64 (int64ToUint64 (calculateSumInt64 vals)), le32 (UInt32.ofNat ids.length),
      le32 w.encodingType, le32 compressionNone].flatten = header52 w.encodingType ids vals := rfl
  have hidsec : (if useVarIntForIDs w.encodingType then
      (if isVarIntEnc w.encodingType then (encIDs w.encodingType ids).map encodeVarInt else [])
      else (encIDs w.encodingType ids).map le64).flatten = idSection w.encodingType ids := by
    unfold idSection
    cases hu : useVarIntForIDs w.encodingType
    · simp
    · simp [useVar_isVar_ids _ hu]
  have hvalsec : (if useVarIntForValues w.encodingType then
      (if isVarIntEnc w.encodingType then (encVals w.encodingType vals).map encodeSignedVarInt else [])
      else (encVals w.encodingType vals).map leI64).flatten = valSection w.encodingType vals := by
    unfold valSection
    cases hu : useVarIntForValues w.encodingType
    · simp
    · simp [useVar_isVar_vals _ hu]
  have himg : header52 w.encodingType ids vals ++ le32 0 ++ le32 0 ++ le32 0 ++
      layoutBytes w.encodingType ids vals ++ idSection w.encodingType ids ++
      valSection w.encodingType vals = image w.encodingType ids vals := rfl
  have himgl := image_length w.encodingType ids vals
  have hputf : w.file.put (padded w.file.pos (image w.encodingType ids vals)) =
      committedFile w ids vals := by
    have hl := padded_length w.file.pos (image w.encodingType ids vals)
    simp only [File.put, writeAt_eq _ _ _ hpos, committedFile, File.mk.injEq, and_true]
    rw [List.drop_eq_nil_of_le (by omega)]; simp
  unfold writeBlockInternal
  refine wp_bind (wp_modify ?_)
  refine wp_bind (wp_get ?_)
  dsimp only
  refine wp_bind (wp_lift_ok hids ?_)
  refine wp_bind (wp_lift_ok hvals ?_)
  dsimp only
  have hs0 : St (withIDs w ids) w.file
      { w with globalIDs := ids.foldl Bitmap.set w.globalIDs } := ⟨w.opNo, w.disk, rfl⟩
  refine wp_bind (st_seekCur hs0 ?_ (fun w' h hF => .early w' hF h))
  intro w1 hs1 hopen
  replace hopen : w.fileOpen = true := hopen
  refine wp_bind (wp_modify ?_)
  replace hs1 : St (withPos w ids) w.file
      { w1 with blockPositions := w1.blockPositions ++ [UInt64.ofNat w.file.pos] } := by
    obtain ⟨o, d, rfl⟩ := hs1; exact ⟨o, d, rfl⟩
  -- from here on every failure is a `mid` failure unless stated otherwise
  have midE : ∀ f, PartialFile w.file f → ∀ w', St (withPos w ids) f w' →
      Faulty env (withPos w ids) → WriteErr env w ids vals .io w' :=
    fun f hf w' h hF => .mid w' f hF hf h
  refine wp_bind (wp_bind (st_seekCur hs1 ?_ (midE _ hP0)))
  clear hs1; intro w3 hs3 _
  refine wp_bind (wp_get ?_)
  rw [hs3.enc, show (withPos w ids).encodingType = w.encodingType from rfl]
  refine wp_bind (st_fwriteAll hs3 hpos ?_ (fun w' k => midE _ (hP0.put _) w'))
  clear hs3; intro w4 hs4
  rw [hh52] at hs4
  refine wp_bind (st_seekCur hs4 ?_ (midE _ (hP0.put _)))
  clear hs4; intro w5 hs5 _
  have hw52 : (w.file.put (header52 w.encodingType ids vals)).pos - w.file.pos = 52 := by
    simp only [File.put, hl52]; omega
  dsimp only
  rw [hw52]
  refine wp_ite (fun hc => absurd rfl hc) (fun _ => wp_pure ?_)
  refine wp_bind (st_fwrite hs5 ?_ (fun w' k => midE _ ((hP0.put _).put _) w'))
  clear hs5; intro w6 hs6 _
  rw [File.put_put _ _ _ hpos] at hs6
  refine wp_bind (st_fwrite hs6 ?_ (fun w' k => midE _ ((hP0.put _).put _) w'))
  clear hs6; intro w7 hs7 _
  rw [File.put_put _ _ _ hpos] at hs7
  refine wp_bind (st_seekCur hs7 ?_ (midE _ (hP0.put _)))
  clear hs7; intro w8 hs8 _
  refine wp_bind (st_fwrite hs8 ?_ (fun w' k => midE _ ((hP0.put _).put _) w'))
  clear hs8; intro w9 hs9 _
  rw [File.put_put _ _ _ hpos, le64_zero, ← List.append_assoc] at hs9
  have hl64 : (header52 w.encodingType ids vals ++ le32 0 ++ le32 0 ++ le32 0).length = 64 := by
    simp [hl52]
  have hposv : (w.file.put (header52 w.encodingType ids vals ++ le32 0 ++ le32 0 ++ le32 0 ++
      le32 0)).pos = w.file.pos + 68 := by
    simp [File.put, hl52]
  have hres : (((w.file.pos + 68 : Nat) : Int) + ((blockHeaderSize : Int) -
      ((52 + 4 + 4 + 8 : Nat) : Int))).toNat = w.file.pos + 64 := by
    simp only [blockHeaderSize]; omega
  refine wp_bind (st_seekRel hs9 ?_ ?_ (midE _ (hP0.put _)))
  · rw [hposv]; simp only [blockHeaderSize]; omega
  clear hs9; intro w10 hs10 _
  rw [hposv, hres] at hs10
  have hP1 : PartialFile w.file { (w.file.put (header52 w.encodingType ids vals ++ le32 0 ++ le32 0 ++
      le32 0 ++ le32 0)) with pos := w.file.pos + 64 } := by
    have := hP0.put (header52 w.encodingType ids vals ++ le32 0 ++ le32 0 ++ le32 0 ++ le32 0)
    refine ⟨this.take, by simp, ?_, ?_⟩
    · have h2 := this.le
      rw [hposv] at h2
      exact Nat.le_trans (Nat.add_le_add_left (by decide) _) h2
    · show (File.bytes _).length ≤ _
      simp only [File.put, writeAt_length _ _ _ hpos]
      simp [hl52]; omega
  refine wp_ite (fun hc => absurd (by simp only [blockHeaderSize]; omega) hc) (fun _ => ?_)
  refine wp_ite (fun hc => absurd ((ofNat32_zero_iff _ (by omega)).1 hc) (by omega)) (fun _ => ?_)
  refine wp_ite (fun hc => absurd ((ofNat32_zero_iff _ (by omega)).1 hc) (by omega)) (fun _ => ?_)
  refine wp_bind (st_fwrite hs10 ?_ (fun w' k => midE _ (hP1.put _) w'))
  clear hs10; intro w11 hs11 _
  -- the file now holds the 64-byte header and the layout
  have hf80 : ({ (w.file.put (header52 w.encodingType ids vals ++ le32 0 ++ le32 0 ++
      le32 0 ++ le32 0)) with pos := w.file.pos + 64 } : File).put
        (layoutBytes w.encodingType ids vals) =
      w.file.put (header52 w.encodingType ids vals ++ le32 0 ++ le32 0 ++ le32 0 ++
        layoutBytes w.encodingType ids vals) := by
    simp only [File.put, File.mk.injEq]
    constructor
    · have := writeAt_overlap w.file.bytes w.file.pos
        (header52 w.encodingType ids vals ++ le32 0 ++ le32 0 ++ le32 0) (le32 0)
        (layoutBytes w.encodingType ids vals) hpos (by simp [layoutBytes_length])
      rw [hl64] at this
      exact this
    · rw [List.length_append, hl64]; omega
  replace hs11 : St (withPos w ids) (w.file.put (header52 w.encodingType ids vals ++ le32 0 ++
      le32 0 ++ le32 0 ++ layoutBytes w.encodingType ids vals)) w11 := by
    rw [← hf80]; exact hs11
  refine wp_bind (st_seekCur hs11 ?_ (midE _ (hP0.put _)))
  clear hs11; intro w12 hs12 _
  refine wp_bind (st_fwriteAll hs12 (File.put_bound _ _ hpos) ?_
    (fun w' k => midE _ ((hP0.put _).put _) w'))
  clear hs12; intro w13 hs13
  rw [hidsec] at hs13 ⊢
  rw [File.put_put _ _ _ hpos] at hs13
  refine wp_ite (fun hc => wp_throw ?_) (fun hc => ?_)
  · refine .mismatch _ _ (fun hm => hc ?_) (hP0.put _) hs13
    rw [hm.1]
  have hid1 : (idSection w.encodingType ids).length = idSize w.encodingType ids := by
    rw [Decidable.not_not] at hc
    exact (ofNat32_inj _ _ hids32 (by omega)).1 hc
  refine wp_bind (st_fwriteAll hs13 (File.put_bound _ _ hpos) ?_
    (fun w' k => midE _ ((hP0.put _).put _) w'))
  clear hs13; intro w14 hs14
  rw [hvalsec] at hs14 ⊢
  rw [File.put_put _ _ _ hpos, himg] at hs14
  refine wp_ite (fun hc => wp_throw ?_) (fun hc => ?_)
  · refine .mismatch _ _ (fun hm => hc ?_) (hP0.put _) hs14
    rw [hm.2]
  have hval1 : (valSection w.encodingType vals).length = valSize w.encodingType vals := by
    rw [Decidable.not_not] at hc
    exact (ofNat32_inj _ _ hval32 (by omega)).1 hc
  have hmatch : SectionsMatch w.encodingType ids vals := ⟨hid1, hval1⟩
  refine wp_bind (st_seekCur hs14 ?_ (midE _ (hP0.put _)))
  clear hs14; intro w15 hs15 _
  have hpi : (w.file.put (image w.encodingType ids vals)).pos =
      w.file.pos + (image w.encodingType ids vals).length := rfl
  rw [hpi]
  have hpl := padded_length w.file.pos (image w.encodingType ids vals)
  have hpz : w.file.put (image w.encodingType ids vals ++ List.replicate
      (calculatePadding (w.file.pos + (image w.encodingType ids vals).length) pageSize) 0) =
      committedFile w ids vals := hputf
  generalize hpad : calculatePadding (w.file.pos + (image w.encodingType ids vals).length) pageSize
    = pad at *
  have hbs : w.file.pos + (image w.encodingType ids vals).length - w.file.pos + pad =
      (padded w.file.pos (image w.encodingType ids vals)).length := by omega
  rw [hbs]
  have hsz : ¬ ((padded w.file.pos (image w.encodingType ids vals)).length - pad ≠
      blockHeaderSize + blockLayoutSize + (UInt32.ofNat (idSize w.encodingType ids)).toNat +
        (UInt32.ofNat (valSize w.encodingType vals)).toNat) := by
    rw [ofNat32_toNat _ (by omega), ofNat32_toNat _ (by omega)]
    simp only [blockHeaderSize, blockLayoutSize]
    omega
  have hfin : ∀ w', St (withPos w ids) (committedFile w ids vals) w' →
      St (withBlock w ids vals (padded w.file.pos (image w.encodingType ids vals)).length)
        (committedFile w ids vals)
        { w' with
          blockSizes := w'.blockSizes ++
            [UInt32.ofNat (padded w.file.pos (image w.encodingType ids vals)).length]
          blockStats := w'.blockStats ++ [{
            minID := (calculateMinMaxUint64 ids).1, maxID := (calculateMinMaxUint64 ids).2,
            minValue := (calculateMinMaxInt64 vals).1, maxValue := (calculateMinMaxInt64 vals).2,
            sum := calculateSumInt64 vals, count := UInt32.ofNat ids.length }]
          blockCount := w'.blockCount + 1 } := by
    rintro w' ⟨o, d, rfl⟩; exact ⟨o, d, rfl⟩
  refine wp_ite (fun hp => ?_) (fun hp => ?_)
  · refine wp_bind (st_fwrite hs15 ?_ (fun w' k => midE _ ((hP0.put _).put _) w'))
    clear hs15; intro w16 hs16 _
    rw [File.put_put _ _ _ hpos, hpz] at hs16
    refine wp_ite (fun hc => absurd hc hsz) (fun _ => ?_)
    refine wp_bind (wp_modify ?_)
    exact st_fsync (hfin w16 hs16) (fun w' h _ => ⟨hmatch, hopen, h⟩)
      (fun w' h hF => .sync w' hF hmatch h)
  · have hp0 : pad = 0 := by omega
    rw [hp0, List.replicate_zero, List.append_nil] at hpz
    rw [hpz] at hs15
    refine wp_ite (fun hc => absurd hc hsz) (fun _ => ?_)
    refine wp_bind (wp_modify ?_)
    exact st_fsync (hfin w15 hs15) (fun w' h _ => ⟨hmatch, hopen, h⟩)
      (fun w' h hF => .sync w' hF hmatch h)

theorem writeBlockInternal_spec (env : Env) (w : Writer B) (ids : List UInt64) (vals : List Int64)
    (hk : KnownEnc w.encodingType) (hid : ids.length ≤ 2 ^ 27) (hval : vals.length ≤ 2 ^ 27)
    (hne : ids ≠ []) (hnev : vals ≠ [])
    (hpos : w.file.pos ≤ w.file.bytes.length) (hnear : w.file.bytes.length ≤ w.file.pos + 4) :
    wp (writeBlockInternal ids vals)
      (fun _ w' => SectionsMatch w.encodingType ids vals ∧ w.fileOpen = true ∧
        Committed w ids vals w')
      (WriteErr env w ids vals) env w := by
  have hidl := idSize_le w.encodingType ids
  have hvall := valSize_le w.encodingType vals
  exact writeBlockInternal_gen env w ids vals hk (by omega) (by omega) (fixed_flatten_lt hid)
    (fixed_flatten_lt_vals hval) hne hnev hpos hnear

end VibeCol
