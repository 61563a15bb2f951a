/-
C76: files laid out as documented, made by other programs.
-/
import Verif.Spec.Foreign
import Verif.Props.Aggregation
import Verif.Props.Format
import Verif.Props.Multi
namespace VibeCol.Foreign
variable {B : Type} [Bitmap B]
open Doc (Holds Place FileOf IsVarint Spelled Spells IdSection ValueSection)

/-- The encodings the reader understands as documented. -/
def Readable (enc : Nat) : Prop := enc < 8 ∧ enc ≠ 5 ∧ enc ≠ 6

/-! ### Sections -/

/-- A variable-length number has bytes. -/
theorem _root_.VibeCol.Doc.IsVarint.pos {n : Nat} {bs : Bytes} (h : IsVarint n bs) : 0 < bs.length := by
  cases h <;> simp

/-- `binary.Uvarint` reads any spelling of a number. -/
theorem _root_.VibeCol.Doc.IsVarint.uvarintLoop {n : Nat} {bs : Bytes} (h : IsVarint n bs) (rest : Bytes) (i : Nat) (x : UInt64)
    (hl : i + bs.length ≤ 10) (hx : x.toNat < 2 ^ (7 * i)) (hs : x.toNat + n * 2 ^ (7 * i) < 2 ^ 64) :
    uvarintLoop (bs ++ rest) i x (7 * i) =
      (UInt64.ofNat (x.toNat + n * 2 ^ (7 * i)), (i : Int) + (bs.length : Int)) := by
  induction h generalizing i x with
  | last b hb =>
    simp only [List.length_cons, List.length_nil] at hl
    simp only [List.cons_append, VibeCol.uvarintLoop, List.length_cons, List.length_nil]
    rw [if_neg (by omega), if_pos (by rw [UInt8.lt_iff_toNat_lt]; simpa using hb)]
    have h9 : ¬ (i = 9 ∧ b > 1) := by
      rintro ⟨rfl, hgt⟩
      have : 1 < b.toNat := by
        have := (UInt8.lt_iff_toNat_lt (a := 1) (b := b)).1 hgt; simpa using this
      have : 2 * 2 ^ (7 * 9) ≤ b.toNat * 2 ^ (7 * 9) := Nat.mul_le_mul_right _ (by omega)
      omega
    rw [if_neg h9]
    have hor : (x ||| goShl b.toUInt64 (7 * i)).toNat = x.toNat + b.toNat * 2 ^ (7 * i) := by
      rw [or_goShl_toNat _ _ _ hx (by rw [UInt8.toNat_toUInt64]; omega), UInt8.toNat_toUInt64]
    rw [← hor]; simp
  | @more b n bs hb _ ih =>
    simp only [List.length_cons] at hl
    simp only [List.cons_append, VibeCol.uvarintLoop, List.length_cons]
    rw [if_neg (by omega), if_neg (by rw [UInt8.lt_iff_toNat_lt]; simpa using hb)]
    have hm : (b &&& 0x7F).toUInt64.toNat = b.toNat % 128 := by
      rw [UInt8.toNat_toUInt64, and7f8_toNat]
    have hsplit : (b.toNat % 128 + 128 * n) * 2 ^ (7 * i) = b.toNat % 128 * 2 ^ (7 * i) + n * (128 * 2 ^ (7 * i)) := by
      rw [Nat.add_mul, Nat.mul_comm 128 n, Nat.mul_assoc]
    have hor : (x ||| goShl (b &&& 0x7F).toUInt64 (7 * i)).toNat = x.toNat + b.toNat % 128 * 2 ^ (7 * i) := by
      rw [or_goShl_toNat _ _ _ hx (by rw [hm]; omega), hm]
    have hp := pow_succ7 i
    have hmul : b.toNat % 128 * 2 ^ (7 * i) ≤ 127 * 2 ^ (7 * i) := Nat.mul_le_mul_right _ (by omega)
    have := ih (i + 1) (x ||| goShl (b &&& 0x7F).toUInt64 (7 * i)) (by omega) (by rw [hor, hp]; omega)
      (by rw [hor, hp]; omega)
    rw [show 7 * i + 7 = 7 * (i + 1) by omega, this, hor, hp]
    refine Prod.ext (congrArg UInt64.ofNat ?_) ?_
    · show _ = x.toNat + (b.toNat % 128 + 128 * n) * 2 ^ (7 * i)
      omega
    · show _ = _
      push_cast; omega

/-- So does the decoder of the values. -/
theorem _root_.VibeCol.Doc.IsVarint.decodeLoop {n : Nat} {bs : Bytes} (h : IsVarint n bs) (rest : Bytes) (i : Nat) (x : UInt64)
    (hl : i + bs.length ≤ 10) (hx : x.toNat < 2 ^ (7 * i)) (hs : x.toNat + n * 2 ^ (7 * i) < 2 ^ 64) :
    decodeVarIntLoop (bs ++ rest) x (7 * i) i =
      (UInt64.ofNat (x.toNat + n * 2 ^ (7 * i)), i + bs.length) := by
  induction h generalizing i x with
  | last b hb =>
    simp only [List.length_cons, List.length_nil] at hl
    simp only [List.cons_append, decodeVarIntLoop, List.length_cons, List.length_nil, and80_zero]
    rw [if_pos hb]
    have hm : (b &&& 0x7F).toUInt64.toNat = b.toNat := by
      rw [UInt8.toNat_toUInt64, and7f8_toNat]; omega
    have hor : (x ||| goShl (b &&& 0x7F).toUInt64 (7 * i)).toNat = x.toNat + b.toNat * 2 ^ (7 * i) := by
      rw [or_goShl_toNat _ _ _ hx (by rw [hm]; omega), hm]
    rw [← hor]; simp
  | @more b n bs hb htl ih =>
    simp only [List.length_cons] at hl
    have hpos := htl.pos
    simp only [List.cons_append, decodeVarIntLoop, List.length_cons, and80_zero]
    rw [if_neg (by omega), if_neg (by omega)]
    have hm : (b &&& 0x7F).toUInt64.toNat = b.toNat % 128 := by
      rw [UInt8.toNat_toUInt64, and7f8_toNat]
    have hsplit : (b.toNat % 128 + 128 * n) * 2 ^ (7 * i) = b.toNat % 128 * 2 ^ (7 * i) + n * (128 * 2 ^ (7 * i)) := by
      rw [Nat.add_mul, Nat.mul_comm 128 n, Nat.mul_assoc]
    have hor : (x ||| goShl (b &&& 0x7F).toUInt64 (7 * i)).toNat = x.toNat + b.toNat % 128 * 2 ^ (7 * i) := by
      rw [or_goShl_toNat _ _ _ hx (by rw [hm]; omega), hm]
    have hp := pow_succ7 i
    have hmul : b.toNat % 128 * 2 ^ (7 * i) ≤ 127 * 2 ^ (7 * i) := Nat.mul_le_mul_right _ (by omega)
    have := ih (i + 1) (x ||| goShl (b &&& 0x7F).toUInt64 (7 * i)) (by omega) (by rw [hor, hp]; omega)
      (by rw [hor, hp]; omega)
    rw [show 7 * i + 7 = 7 * (i + 1) by omega, this, hor, hp]
    refine Prod.ext (congrArg UInt64.ofNat ?_) ?_
    · show _ = x.toNat + (b.toNat % 128 + 128 * n) * 2 ^ (7 * i)
      omega
    · show _ = i + (_ + 1)
      omega

theorem uvarint_any {v : UInt64} {bs : Bytes} (h : Spelled true v.toNat bs) (rest : Bytes) :
    uvarint (bs ++ rest) = (v, (bs.length : Int)) := by
  obtain ⟨h1, h2⟩ := h
  have := h1.uvarintLoop rest 0 0 (by omega) (by decide) (by simpa using v.toNat_lt)
  simpa [uvarint] using this

theorem decodeVarInt_any {v : UInt64} {bs : Bytes} (h : Spelled true v.toNat bs) (rest : Bytes) :
    decodeVarInt (bs ++ rest) = (v, bs.length) := by
  obtain ⟨h1, h2⟩ := h
  have := h1.decodeLoop rest 0 0 (by omega) (by decide) (by simpa using v.toNat_lt)
  simpa [decodeVarInt] using this

/-- The IDs of a variable-length section. -/
theorem ids_any {l : List UInt64} {bs : Bytes} (h : Spells true (l.map UInt64.toNat) bs) (i : Nat) :
    decodeUVarIntsLoop l.length i bs = .ok (l, false) := by
  induction l generalizing i bs with
  | nil => rfl
  | cons v vs ih =>
    obtain _ | @⟨_, _, a, rest, h1, h2⟩ := h
    have hu := uvarint_any h1 rest
    have hpos := h1.1.pos
    rcases hl : a ++ rest with _ | ⟨b, tl⟩
    · have := congrArg List.length hl
      simp only [List.length_append, List.length_nil] at this
      omega
    · rw [hl] at hu
      simp only [List.length_cons, decodeUVarIntsLoop, hu]
      rw [if_neg (by omega), ← hl]
      simp [ih h2]

/-- The values of a variable-length section. -/
theorem values_any {l : List Int64} {bs : Bytes} (h : Spells true ((l.map Int64.toInt).map Doc.zigzag) bs) (i : Nat) :
    decodeValuesLoop l.length i bs = l := by
  induction l generalizing i bs with
  | nil => rfl
  | cons v vs ih =>
    obtain _ | @⟨_, _, a, rest, h1, h2⟩ := h
    rw [← zigzag_doc] at h1
    have hu : decodeSignedVarInt (a ++ rest) = (v, a.length) := by
      simp only [decodeSignedVarInt, decodeVarInt_any h1 rest, unzigzag_zigzag]
    have hpos := h1.1.pos
    rcases hl : a ++ rest with _ | ⟨b, tl⟩
    · have := congrArg List.length hl
      simp only [List.length_append, List.length_nil] at this
      omega
    · rw [hl] at hu
      simp only [List.length_cons, decodeValuesLoop, hu]
      rw [if_neg (by omega), ← hl]
      simp [ih h2]

/-- A section of fixed width. -/
theorem fixed_any {T : Type} (f : T → Nat) (g : T → Bytes) (hg : ∀ x, g x = Doc.num 8 (f x)) {l : List T} {bs : Bytes}
    (h : Spells false (l.map f) bs) : bs = (l.map g).flatten := by
  induction l generalizing bs with
  | nil => cases h; rfl
  | cons v vs ih =>
    obtain _ | @⟨_, _, a, rest, h1, h2⟩ := h
    rw [List.map_cons, List.flatten_cons, ← ih h2, hg]
    exact congrArg (· ++ rest) h1

/-- The numbers of an ID section. -/
theorem idNumbers (enc : Nat) (ids : List UInt64) :
    (if Doc.idsAreDifferences enc then (Doc.deltas ((ids.map UInt64.toNat).map Int.ofNat)).map Doc.wrapU
      else ids.map UInt64.toNat) =
      (if Doc.idsAreDifferences enc then deltaEncode ids else ids).map UInt64.toNat := by
  split
  · rw [deltaEncode_doc]
  · rfl

/-- The numbers of a value section. -/
theorem valueNumbers (enc : Nat) (vals : List Int64) :
    (if Doc.valuesAreDifferences enc then (Doc.deltas (vals.map Int64.toInt)).map Doc.wrapS
      else vals.map Int64.toInt) =
      (if Doc.valuesAreDifferences enc then deltaEncodeInt64 vals else vals).map Int64.toInt := by
  split
  · rw [deltaEncodeInt64_doc]
  · rfl

theorem ids_fixed {enc : Nat} {ids : List UInt64} {I : Bytes} (h : IdSection enc (ids.map UInt64.toNat) I)
    (hv : Doc.idsAreVarints enc = false) :
    I = ((if Doc.idsAreDifferences enc then deltaEncode ids else ids).map le64).flatten := by
  unfold IdSection at h
  rw [idNumbers, hv] at h
  exact fixed_any UInt64.toNat le64 num_le64 h

theorem values_fixed {enc : Nat} {vals : List Int64} {V : Bytes} (h : ValueSection enc (vals.map Int64.toInt) V)
    (hv : Doc.valuesAreVarints enc = false) :
    V = ((if Doc.valuesAreDifferences enc then deltaEncodeInt64 vals else vals).map leI64).flatten := by
  unfold ValueSection at h
  rw [valueNumbers, hv, if_neg (by decide), List.map_map] at h
  exact fixed_any _ leI64 num_leI64 h

theorem decode_var (e : UInt32) (hv : isVarIntEnc e = true) (ids : List UInt64) (vals : List Int64) (I V : Bytes)
    (hI : Spells true (ids.map UInt64.toNat) I) (hV : Spells true ((vals.map Int64.toInt).map Doc.zigzag) V)
    (hlen : ids.length = vals.length) :
    decodeBlockData I V ids.length e =
      .ok (if e = encVarIntBoth ∨ e = encVarIntID then deltaDecode ids else ids,
           if e = encVarIntBoth ∨ e = encVarIntValue then deltaDecodeInt64 vals else vals) := by
  have hfi : decodeUVarInts I ids.length = .ok ids := by simp [decodeUVarInts, ids_any hI 0]
  have hfv := values_any hV 0
  rw [← hlen] at hfv
  have hb : isVarIntEnc encDeltaBoth = false := by decide
  have hi : isVarIntEnc encDeltaID = false := by decide
  have hva : isVarIntEnc encDeltaValue = false := by decide
  have n1 : e ≠ encDeltaBoth := by rintro rfl; rw [hb] at hv; cases hv
  have n2 : e ≠ encDeltaID := by rintro rfl; rw [hi] at hv; cases hv
  have n3 : e ≠ encDeltaValue := by rintro rfl; rw [hva] at hv; cases hv
  simp only [decodeBlockData, hv, hfi, hfv, if_true, Res.ok_bind, n1, n2, n3, false_or]
  by_cases c1 : e = encVarIntBoth
  · subst c1; simp
  · by_cases c2 : e = encVarIntID
    · subst c2; simp [encVarIntID, encVarIntBoth, encVarIntValue]
    · by_cases c3 : e = encVarIntValue
      · subst c3; simp [encVarIntID, encVarIntBoth, encVarIntValue]
      · simp [c1, c2, c3]

/-- The decoder undoes the documented encoding. -/
theorem decode_doc (enc : Nat) (h : Readable enc) (ids : List UInt64) (vals : List Int64)
    (hl : ids.length = vals.length) {I V : Bytes} (hI : IdSection enc (ids.map UInt64.toNat) I)
    (hV : ValueSection enc (vals.map Int64.toInt) V) :
    decodeBlockData I V ids.length (UInt32.ofNat enc) = .ok (ids, vals) := by
  obtain ⟨h8, h5, h6⟩ := h
  have hc : enc = 0 ∨ enc = 1 ∨ enc = 2 ∨ enc = 3 ∨ enc = 4 ∨ enc = 7 := by omega
  have l1 := deltaEncode_length ids
  have l2 := deltaEncodeInt64_length vals
  rcases hc with rfl | rfl | rfl | rfl | rfl | rfl
  · rw [ids_fixed hI rfl, values_fixed hV rfl]
    have := decodeBlockData_fixed (UInt32.ofNat 0) (by decide) ids vals hl
    rw [if_neg (by decide), if_neg (by decide)] at this
    exact this
  · rw [ids_fixed hI rfl, values_fixed hV rfl]
    have := decodeBlockData_fixed (UInt32.ofNat 1) (by decide) (deltaEncode ids) vals (by omega)
    rw [if_pos (by decide), if_neg (by decide), deltaDecode_deltaEncode, l1] at this
    exact this
  · rw [ids_fixed hI rfl, values_fixed hV rfl]
    have := decodeBlockData_fixed (UInt32.ofNat 2) (by decide) ids (deltaEncodeInt64 vals) (by omega)
    rw [if_neg (by decide), if_pos (by decide), deltaDecodeInt64_deltaEncodeInt64] at this
    exact this
  · rw [ids_fixed hI rfl, values_fixed hV rfl]
    have := decodeBlockData_fixed (UInt32.ofNat 3) (by decide) (deltaEncode ids) (deltaEncodeInt64 vals) (by omega)
    rw [if_pos (by decide), if_pos (by decide), deltaDecode_deltaEncode, deltaDecodeInt64_deltaEncodeInt64, l1] at this
    exact this
  · have hI' : Spells true (ids.map UInt64.toNat) I := hI
    have hV' : Spells true ((vals.map Int64.toInt).map Doc.zigzag) V := hV
    have := decode_var (UInt32.ofNat 4) (by decide) ids vals I V hI' hV' hl
    rw [if_neg (by decide), if_neg (by decide)] at this
    exact this
  · have hI' : Spells true ((deltaEncode ids).map UInt64.toNat) I := by
      have := hI; unfold IdSection at this; rw [idNumbers] at this; exact this
    have hV' : Spells true (((deltaEncodeInt64 vals).map Int64.toInt).map Doc.zigzag) V := by
      have := hV; unfold ValueSection at this; rw [valueNumbers] at this; exact this
    have := decode_var (UInt32.ofNat 7) (by decide) (deltaEncode ids) (deltaEncodeInt64 vals) I V hI' hV' (by omega)
    rw [if_pos (by decide), if_pos (by decide), deltaDecode_deltaEncode, deltaDecodeInt64_deltaEncodeInt64, l1] at this
    exact this

/-- A section with numbers in it has bytes. -/
theorem spells_pos {v : Bool} {l : List Nat} {bs : Bytes} (h : Spells v l bs) (hl : l ≠ []) : 0 < bs.length := by
  cases h with
  | nil => exact absurd rfl hl
  | @cons n ns a rest h1 _ =>
    have : 0 < a.length := by
      cases v
      · rw [show a = Doc.num 8 n from h1]; simp
      · exact h1.1.pos
    rw [List.length_append]; omega

theorem idSection_pos {enc : Nat} {ids : List Nat} {I : Bytes} (h : IdSection enc ids I) (hn : ids ≠ []) : 0 < I.length := by
  refine spells_pos h ?_
  cases ids with
  | nil => exact absurd rfl hn
  | cons x xs => split <;> simp [Doc.deltas]

theorem valueSection_pos {enc : Nat} {vals : List Int} {V : Bytes} (h : ValueSection enc vals V) (hn : vals ≠ []) : 0 < V.length := by
  refine spells_pos h ?_
  cases vals with
  | nil => exact absurd rfl hn
  | cons x xs =>
    intro hc
    have := congrArg List.length hc
    rw [List.length_map] at this
    split at this <;> simp [Doc.deltas] at this

/-! ### Blocks -/

theorem Holds.slice {file : Bytes} {off : Nat} {bs : Bytes} (h : Holds file off bs) :
    slice file off bs.length = bs := h

/-- The index entry of a block. -/
def entryAt (p : Place) (b : Block) : FooterEntry :=
  entryOf (UInt64.ofNat p.off, UInt32.ofNat p.size, statsOf b.1 b.2)

/-- A part of what a file holds. -/
theorem Holds.part {file : Bytes} {off : Nat} {a b c : Bytes} (h : Holds file off (a ++ b ++ c)) :
    VibeCol.slice file (off + a.length) b.length = b := by
  have h1 := slice_of_slice (Holds.slice h) a.length b.length (by simp only [List.length_append]; omega)
  rw [h1, slice_append_left _ _ _ _ (by simp), slice_append_right _ _ _ _ (Nat.le_refl _), Nat.sub_self]
  simp [VibeCol.slice]

omit [Bitmap B] in
theorem readBlock_at {file : Bytes} {enc : Nat} {p : Place} (hp : p.In file enc) (hf : file.length < 2 ^ 63)
    (b : Block) (hb : Doc.pairs b = p.pairs) (r : Reader B) (hr : r.bytes = file) (i : Nat) (hi : i < 2 ^ 63)
    (hx : r.blockIndex[i]? = some (entryAt p b)) :
    ∃ I V, IdSection enc p.pairs.1 I ∧ ValueSection enc p.pairs.2 V ∧
      readBlock r (Int64.ofNat i) = decodeBlockData I V b.1.length r.header.encodingType := by
  obtain ⟨io, vo, I, V, hI, hV, hl, hid, hval, fi, fv⟩ := hp.sections
  refine ⟨I, V, hI, hV, ?_⟩
  have hin := hp.inside
  have hsz := hp.size
  have hfew := hp.few
  have hsame := hp.same
  have hne := hp.some
  have hcount : b.1.length = p.pairs.1.length := by rw [← hb]; simp [Doc.pairs]
  have hpi := idSection_pos hI hne
  have hpv := valueSection_pos hV (by
    intro hc; rw [hc] at hsame; exact hne (List.eq_nil_of_length_eq_zero hsame))
  unfold VibeCol.readBlock
  rw [if_neg (int64_ofNat_not_neg i (by omega)), int64_toInt_ofNat _ (by omega), Int.toNat_natCast, hx]
  dsimp only
  have eo : (entryAt p b).blockOffset = UInt64.ofNat p.off := rfl
  have es : (entryAt p b).blockSize = UInt32.ofNat p.size := rfl
  have ec : (entryAt p b).count = UInt32.ofNat b.1.length := rfl
  rw [eo, es, ec, ofNat32_toNat _ hsz, ofNat32_toNat _ (by omega), uint64_ofNat_toInt64,
    show (64 : Int64) = Int64.ofNat 64 from rfl, int64_ofNat_add, int64_ofNat_sub _ _ (by omega) (by omega),
    hr, readBytesAt_ok _ _ _ (by omega) hf]
  simp only [Res.ok_bind]
  have hdl : (slice file (p.off + 64) (p.size - 64)).length = p.size - 64 := slice_length _ _ _ (by omega)
  rw [goSlice_ok _ _ _ (by omega) (by omega), goSlice_ok _ _ _ (by omega) (by omega),
    goSlice_ok _ _ _ (by omega) (by omega), goSlice_ok _ _ _ (by omega) (by omega)]
  simp only [Res.ok_bind]
  have r0 : rd32 (slice file (p.off + 64) (p.size - 64)) 0 = UInt32.ofNat io := by
    refine rd32_slice_of _ _ _ _ _ (by omega) ?_
    rw [num_ofNat32]
    have := Holds.part (a := []) (b := Doc.num 4 io) (c := Doc.num 4 I.length ++ (Doc.num 4 vo ++ Doc.num 4 V.length)) (by
      simpa [List.append_assoc] using hl)
    simpa using this
  have r1 : rd32 (slice file (p.off + 64) (p.size - 64)) 4 = UInt32.ofNat I.length := by
    refine rd32_slice_of _ _ _ _ _ (by omega) ?_
    rw [num_ofNat32]
    have := Holds.part (a := Doc.num 4 io) (b := Doc.num 4 I.length) (c := Doc.num 4 vo ++ Doc.num 4 V.length) (by
      simpa [List.append_assoc] using hl)
    simpa using this
  have r2 : rd32 (slice file (p.off + 64) (p.size - 64)) 8 = UInt32.ofNat vo := by
    refine rd32_slice_of _ _ _ _ _ (by omega) ?_
    rw [num_ofNat32]
    have := Holds.part (a := Doc.num 4 io ++ Doc.num 4 I.length) (b := Doc.num 4 vo) (c := Doc.num 4 V.length) (by
      simpa [List.append_assoc] using hl)
    simpa using this
  have r3 : rd32 (slice file (p.off + 64) (p.size - 64)) 12 = UInt32.ofNat V.length := by
    refine rd32_slice_of _ _ _ _ _ (by omega) ?_
    rw [num_ofNat32]
    have := Holds.part (a := Doc.num 4 io ++ Doc.num 4 I.length ++ Doc.num 4 vo) (b := Doc.num 4 V.length) (c := []) (by
      simpa [List.append_assoc] using hl)
    simpa using this
  rw [r0, r1, r2, r3, if_neg (by rw [ofNat32_zero_iff _ (by omega)]; omega),
    if_neg (by rw [ofNat32_zero_iff _ (by omega)]; omega), ofNat32_toNat _ (by omega),
    ofNat32_toNat _ (by omega), ofNat32_toNat _ (by omega), ofNat32_toNat _ (by omega), hdl,
    if_neg (by omega), goSlice_ok _ _ _ (by omega) (by omega), goSlice_ok _ _ _ (by omega) (by omega)]
  simp only [Res.ok_bind]
  have e1 : slice (slice file (p.off + 64) (p.size - 64)) (16 + io) (16 + io + I.length - (16 + io)) = I := by
    rw [slice_slice _ _ _ _ _ (by omega), Nat.add_sub_cancel_left,
      show p.off + 64 + (16 + io) = p.off + 80 + io by omega]
    exact hid
  have e2 : slice (slice file (p.off + 64) (p.size - 64)) (16 + vo) (16 + vo + V.length - (16 + vo)) = V := by
    rw [slice_slice _ _ _ _ _ (by omega), Nat.add_sub_cancel_left,
      show p.off + 64 + (16 + vo) = p.off + 80 + vo by omega]
    exact hval
  rw [e1, e2]

/-! ### Opening -/

/-- Each place holds the block of the same number. -/
def Match (places : List Place) (blocks : List Block) : Prop := places.map Place.pairs = blocks.map Doc.pairs

theorem Match.length {places : List Place} {blocks : List Block} (h : Match places blocks) :
    places.length = blocks.length := by
  have := congrArg List.length h
  simpa using this

theorem Match.get {places : List Place} {blocks : List Block} (h : Match places blocks) (i : Nat)
    (hi : i < places.length) (hi' : i < blocks.length) : Doc.pairs blocks[i] = places[i].pairs := by
  have h1 : (places.map Place.pairs)[i]? = (blocks.map Doc.pairs)[i]? := by rw [h]
  rw [List.getElem?_map, List.getElem?_map, List.getElem?_eq_getElem hi, List.getElem?_eq_getElem hi'] at h1
  simpa using h1.symm

/-- The index entries. -/
def entries (places : List Place) (blocks : List Block) : List FooterEntry :=
  List.zipWith entryAt places blocks

theorem entry_bytes (p : Place) (b : Block) (hb : Doc.pairs b = p.pairs) (hn : b.1 ≠ []) (hv : b.2 ≠ []) :
    entryBytes (entryAt p b) = Doc.entry p.off p.size p.pairs.1 p.pairs.2 := by
  rw [← hb]
  unfold Doc.entry Doc.pairs
  rw [← stats_doc b.1 b.2 hn hv]
  simp only [entryBytes, entryAt, entryOf, newFooterEntry, FooterEntry.fields, num_ofNat64, num_ofNat32]
  simp [List.flatten, List.append_assoc]

theorem block_ok {file : Bytes} {enc : Nat} {p : Place} (hp : p.In file enc) {b : Block} (hb : Doc.pairs b = p.pairs) :
    b.1 ≠ [] ∧ b.1.length = b.2.length ∧ b.1.length ≤ 2 ^ 27 := by
  have h1 : b.1.length = p.pairs.1.length := by rw [← hb]; simp [Doc.pairs]
  have h2 : b.2.length = p.pairs.2.length := by rw [← hb]; simp [Doc.pairs]
  have h3 := hp.some
  have h4 := hp.same
  have h5 := hp.few
  refine ⟨?_, by omega, by omega⟩
  intro hc
  rw [hc] at h1
  exact h3 (List.eq_nil_of_length_eq_zero h1.symm)

theorem index_bytes {file : Bytes} {enc : Nat} {places : List Place} {blocks : List Block} (hm : Match places blocks)
    (hp : ∀ p ∈ places, p.In file enc) :
    Doc.indexOf places = ((entries places blocks).map entryBytes).flatten := by
  induction places generalizing blocks with
  | nil => rfl
  | cons p ps ih =>
    cases blocks with
    | nil => exact absurd hm.length (by simp)
    | cons b bs =>
      have hb : Doc.pairs b = p.pairs := (List.cons.inj hm).1.symm
      obtain ⟨h1, h2, _⟩ := block_ok (hp p (List.mem_cons_self ..)) hb
      have hv : b.2 ≠ [] := by
        intro hc; rw [hc] at h2; exact h1 (List.eq_nil_of_length_eq_zero h2)
      show Doc.entry p.off p.size p.pairs.1 p.pairs.2 ++ Doc.indexOf ps = _
      rw [ih (blocks := bs) (List.cons.inj hm).2 (fun q hq => hp q (List.mem_cons_of_mem _ hq)),
        ← entry_bytes p b hb h1 hv]
      rfl

theorem entries_length {places : List Place} {blocks : List Block} (hm : Match places blocks) :
    (entries places blocks).length = blocks.length := by
  unfold entries; rw [List.length_zipWith, hm.length]; omega

omit [Bitmap B] in
/-- Opening such a file: the header with the number of blocks in the index, and the index. -/
theorem opens {file : Bytes} {enc : Nat} {places : List Place} {bm : Option Bytes} {blocks : List Block}
    (H : FileOf file enc places bm) (hm : Match places blocks) :
    ∃ r : Reader B, newReader file = .ok r ∧ r.bytes = file ∧ r.globalIDs = none ∧ r.cacheGlobalIDs = false ∧
      r.blockIndex = entries places blocks ∧ r.header.blockCount = UInt64.ofNat blocks.length ∧
      r.header.encodingType = UInt32.ofNat enc ∧ r.header.version = 1 ∧
      ∃ bitmapOff bitmapSize : Nat, r.header.bitmapOffset = UInt64.ofNat bitmapOff ∧
        r.header.bitmapSize = UInt64.ofNat bitmapSize ∧
        Doc.BitmapIn file bitmapOff bitmapSize bm := by
  obtain ⟨column, cnt, target, compression, time, bo, bs, hhd, hcnt, hbm⟩ := H.header
  obtain ⟨before, checksum, h64, hfile⟩ := H.footer
  have hsm := H.size
  have hfew := H.few
  have hlen := hm.length
  have hidx := index_bytes hm H.blocks
  have hil : (Doc.indexOf places).length = 56 * places.length := by
    rw [hidx, flatten_map_eq _ _ 56 (fun x => entryBytes_length x), entries_length hm]; omega
  -- the header
  let hd : FileHeader := {
    magic := magicNumber
    version := version
    columnType := UInt32.ofNat column
    blockCount := UInt64.ofNat cnt
    blockSizeTarget := UInt32.ofNat target
    compressionType := UInt32.ofNat compression
    encodingType := UInt32.ofNat enc
    creationTime := UInt64.ofNat time
    bitmapOffset := UInt64.ofNat bo
    bitmapSize := UInt64.ofNat bs }
  have hfields : hd.fields.flatten = Doc.num 8 Doc.magic ++ Doc.num 4 1 ++ Doc.num 4 column ++ Doc.num 8 cnt ++
      Doc.num 4 target ++ Doc.num 4 compression ++ Doc.num 4 enc ++ Doc.num 8 time ++ Doc.num 8 bo ++ Doc.num 8 bs := by
    have h1 : le32 version = Doc.num 4 1 := by rw [num_le32]; rfl
    have h4 : le64 magicNumber = Doc.num 8 Doc.magic := by rw [num_le64]; rfl
    simp only [hd, FileHeader.fields, h1, h4, num_ofNat64, num_ofNat32]
    simp [List.flatten, List.append_assoc]
  rw [← hfields] at hhd
  have hfl : hd.fields.flatten.length = 60 := headerFields_length hd
  have hflen : file.length = before.length + (4 + 56 * places.length) + 24 := by
    have := congrArg List.length hfile
    simp only [List.length_append, num_length, hil] at this
    omega
  have hread : readHeader file = .ok hd := by
    unfold VibeCol.readHeader
    rw [show (0 : Int64) = Int64.ofNat 0 from rfl, readBytesAt_ok _ _ _ (by simp [headerSize]; omega) hsm]
    have hp : parseHeader (slice file 0 headerSize) = hd := by
      apply parseHeader_fields
      have h0 : (file.drop 0).take hd.fields.flatten.length = hd.fields.flatten := hhd
      rw [hfl, List.drop_zero] at h0
      rw [slice_zero_take, List.take_take]
      exact h0
    simp only [Res.ok_bind, hp]
    rfl
  -- the footer
  have hsf : ∀ o n, slice file (before.length + o) n = slice (Doc.num 4 places.length ++ Doc.indexOf places ++
      Doc.num 8 (4 + (Doc.indexOf places).length) ++ Doc.num 8 checksum ++ Doc.num 8 Doc.magic) o n := by
    intro o n
    conv => lhs; rw [hfile]
    rw [slice_append_right _ _ _ _ (by omega), Nat.add_sub_cancel_left]
  have hm4 : slice file (file.length - 24) 24 = Doc.num 8 (4 + (Doc.indexOf places).length) ++ Doc.num 8 checksum ++
      Doc.num 8 Doc.magic := by
    rw [show file.length - 24 = before.length + (4 + 56 * places.length) by omega, hsf,
      List.append_assoc, List.append_assoc, slice_append_right _ _ _ _ (by
        simp only [List.length_append, num_length, hil]; omega)]
    simp only [List.length_append, num_length, hil, Nat.sub_self]
    unfold slice; rw [List.drop_zero, List.take_of_length_le (by simp), ← List.append_assoc]
  have hm0 : rd64 (slice file (file.length - 24) 24) 0 = UInt64.ofNat (4 + 56 * places.length) := by
    rw [hm4]
    apply rd64_of_slice; rw [num_ofNat64, hil]; simp
  have hm16 : rd64 (slice file (file.length - 24) 24) 16 = magicNumber := by
    rw [hm4]
    apply rd64_of_slice
    rw [show le64 magicNumber = Doc.num 8 Doc.magic by rw [num_le64]; rfl]
    simp [List.drop_append, List.drop_eq_nil_of_le, List.take_of_length_le]
  have hc : rd32 (slice file before.length 4) 0 = UInt32.ofNat places.length := by
    have := hsf 0 4
    rw [Nat.add_zero] at this
    rw [this]
    apply rd32_of_slice
    rw [num_ofNat32]
    simp [slice, List.take_of_length_le]
  have hcn : (UInt32.ofNat places.length).toNat = places.length := ofNat32_toNat _ (by omega)
  have hc64 : (UInt32.ofNat places.length).toUInt64 = UInt64.ofNat places.length := by
    apply UInt64.toNat_inj.1
    rw [UInt32.toNat_toUInt64, hcn]; simp; omega
  let rd : Reader B := {
    bytes := file
    header := { hd with blockCount := UInt64.ofNat blocks.length }
    footerMeta :=
      { footerSize := UInt64.ofNat (4 + 56 * places.length)
        checksum := rd64 (slice file (file.length - 24) 24) 8
        magic := magicNumber }
    blockIndex := entries places blocks
    globalIDs := none
    cacheGlobalIDs := false }
  refine ⟨rd, ?_, rfl, rfl, rfl, rfl, rfl,
      rfl, rfl, bo, bs, rfl, rfl, hbm⟩
  unfold VibeCol.newReader
  rw [hread]
  simp only [Res.ok_bind]
  unfold readFooter
  dsimp only
  rw [show (24 : Int64) = Int64.ofNat 24 from rfl, if_neg (by
    rw [int64_ofNat_lt _ _ hsm (by decide)]; omega),
    int64_ofNat_sub _ _ (by omega) hsm, readBytesAt_ok _ _ _ (by omega) hsm]
  simp only [Res.ok_bind, hm0, hm16, ne_eq, not_true, if_false]
  rw [uint64_ofNat_toInt64, int64_ofNat_sub _ _ (by omega) (by omega),
    show (64 : Int64) = Int64.ofNat 64 from rfl, if_neg (by
      rw [int64_ofNat_lt _ _ (by omega) (by decide)]; omega),
    show file.length - 24 - (4 + 56 * places.length) = before.length by omega,
    show (4 : Int64) = Int64.ofNat 4 from rfl, readBytesAt_ok _ _ _ (by omega) hsm]
  simp only [Res.ok_bind, hc, hc64, hcn]
  rw [int64_ofNat_add, readBytesAt_ok _ _ _ (by omega) hsm]
  simp only [Res.ok_bind, Res.ok.injEq, Reader.mk.injEq, true_and, and_true, rd]
  constructor
  · have hcu : hd.blockCount = UInt64.ofNat cnt := rfl
    rw [hcu, hlen]
    by_cases he : UInt64.ofNat blocks.length = UInt64.ofNat cnt
    · rw [if_neg (by simp [he]), he]
    · rw [if_pos he, if_pos]
      show UInt64.ofNat cnt < UInt64.ofNat blocks.length
      rw [UInt64.lt_iff_toNat_lt]
      have : cnt ≠ blocks.length := fun hh => he (by rw [hh])
      simp only [UInt64.toNat_ofNat']
      omega
  · apply List.ext_getElem
    · simp [entries_length hm, hlen]
    · intro i h1 h2
      simp only [List.length_map, List.length_range] at h1
      simp only [List.getElem_map, List.getElem_range]
      refine parseEntry_fields _ _ _ (by omega) ?_
      rw [slice_slice _ _ _ _ _ (by omega), Nat.add_assoc, hsf, List.append_assoc, List.append_assoc,
        slice_append_left _ _ _ _ (by simp only [List.length_append, hil, num_length]; omega),
        slice_append_right _ _ _ _ (by simp)]
      simp only [num_length, Nat.add_sub_cancel_left]
      rw [hidx]
      exact slice_chunks entryBytes 56 (by simp) (entries places blocks) i h2

omit [Bitmap B] in
/-- A reader of such a file delivers its blocks and has their index. -/
theorem reads {file : Bytes} {enc : Nat} {places : List Place} {bm : Option Bytes} {blocks : List Block}
    (H : FileOf file enc places bm) (hm : Match places blocks) (he : Readable enc) (r : Reader B)
    (hr : newReader file = .ok r) : Reads r blocks := by
  obtain ⟨r', h1, hb, _, _, hx, hc, henc, _⟩ := opens (B := B) H hm
  rw [hr] at h1
  cases h1
  have hlen := hm.length
  have hfew := H.few
  have hel := entries_length hm
  have hget : ∀ i (h : i < blocks.length), r.blockIndex[i]? = some (entryAt (places[i]'(by omega)) blocks[i]) := by
    intro i h
    rw [hx, entries, List.getElem?_zipWith, List.getElem?_eq_getElem (by omega), List.getElem?_eq_getElem h]
  refine ⟨⟨by unfold maxBlocks; omega, hc, by rw [hx, hel], ?_, ?_⟩, ?_⟩
  · intro i h h'
    have := hget i h
    rw [List.getElem?_eq_getElem h'] at this
    exact ⟨_, _, Option.some.inj this⟩
  · intro b hbm
    obtain ⟨i, hi, rfl⟩ := List.getElem_of_mem hbm
    exact block_ok (H.blocks _ (List.getElem_mem (by omega : i < places.length))) (hm.get i (by omega) hi)
  · intro i h
    have hp := H.blocks _ (List.getElem_mem (by omega : i < places.length))
    have hpb := hm.get i (by omega) h
    unfold getPairs
    obtain ⟨I, V, hI, hV, hrd⟩ := readBlock_at hp H.size _ hpb r hb i (by omega) (hget i h)
    rw [← hpb] at hI hV
    rw [uint64_ofNat_toInt64, hrd, henc]
    exact decode_doc enc he _ _ (block_ok hp hpb).2.1 hI hV

/-- **C76.** Every file laid out as documented, in any encoding but 5 and 6, is opened and read back
exactly. -/
theorem C76_pairs {file : Bytes} {enc : Nat} {places : List Place} {bm : Option Bytes} {blocks : List Block}
    (H : FileOf file enc places bm) (hm : places.map Place.pairs = blocks.map Doc.pairs)
    (he : enc ≠ 5 ∧ enc ≠ 6) : ReadsBack B file blocks := by
  obtain ⟨r, h1, _⟩ := opens (B := B) H hm
  have hr := reads H hm ⟨H.encoding, he⟩ r h1
  exact ⟨r, h1, hr.count_toNat, hr.read⟩

theorem _root_.VibeCol.Reads.general [LawfulBitmap B] {r : Reader B} {blocks : List Block} (H : Reads r blocks)
    (sched : Sched) (hs : sched.Fair) (o : AggregateOptions B)
    (ho : o.filter.isSome ∨ o.denyFilter.isSome ∨ o.skipPreCalculated = true ∨ StatsRepresentable blocks) :
    ∃ res, aggregateWithOptions sched r o = .ok res ∧
      IsAggregate res (selectedValues o.filter o.denyFilter blocks) := by
  rw [H.parallel_eq sched hs]
  by_cases hf : o.filter.isSome ∨ o.denyFilter.isSome
  · obtain ⟨h1, h2⟩ := H.withFilter { o with parallel := 0 } hf
    refine ⟨_, h1, ?_⟩
    split
    · rename_i hc
      rw [show selectedValues o.filter o.denyFilter blocks = [] from h2 hc]
      exact zero_isAggregate
    · exact accOf_isAggregate _
  · have h1 : o.filter = none := by
      cases hh : o.filter with
      | none => rfl
      | some f => exact absurd (.inl (by rw [hh]; rfl)) hf
    have h2 : o.denyFilter = none := by
      cases hh : o.denyFilter with
      | none => rfl
      | some f => exact absurd (.inr (by rw [hh]; rfl)) hf
    rw [h1, h2, selectedValues_none]
    refine ⟨_, ?_, accOf_isAggregate _⟩
    cases hsk : o.skipPreCalculated with
    | true => exact H.skip _ rfl rfl (.inl rfl)
    | false =>
      refine H.footer _ rfl rfl rfl ?_
      rcases ho with ho | ho | ho | ho
      · exact absurd (.inl ho) hf
      · exact absurd (.inr ho) hf
      · rw [hsk] at ho; cases ho
      · exact ho

/-- **C76.** Its aggregates, with all options, any number of workers and any schedule, are those of
the blocks. -/
theorem C76_aggregate [LawfulBitmap B] {file : Bytes} {enc : Nat} {places : List Place} {bm : Option Bytes}
    {blocks : List Block} (H : FileOf file enc places bm) (hm : places.map Place.pairs = blocks.map Doc.pairs)
    (he : enc ≠ 5 ∧ enc ≠ 6) (r : Reader B) (hr : newReader file = .ok r) (sched : Sched) (hs : sched.Fair)
    (o : AggregateOptions B)
    (ho : o.filter.isSome ∨ o.denyFilter.isSome ∨ o.skipPreCalculated = true ∨ StatsRepresentable blocks) :
    ∃ res, aggregateWithOptions sched r o = .ok res ∧
      IsAggregate res (selectedValues o.filter o.denyFilter blocks) :=
  (reads H hm ⟨H.encoding, he⟩ r hr).general sched hs o ho

/-- **C76.** Its bitmap is the one stored in it, and the empty one if there is none. -/
theorem C76_bitmap {file : Bytes} {enc : Nat} {places : List Place} {bm : Option Bytes} {blocks : List Block}
    (H : FileOf file enc places bm) (hm : places.map Place.pairs = blocks.map Doc.pairs)
    (r : Reader B) (hr : newReader file = .ok r) :
    (getGlobalIDBitmap r).1 = .ok ((bm.map Bitmap.fromBuffer).getD Bitmap.empty) := by
  obtain ⟨r', h1, hb, hn, _, _, _, _, _, bo, bs, hbo, hbs, hbm⟩ := opens (B := B) H hm
  rw [hr] at h1
  cases h1
  have hsm := H.size
  unfold getGlobalIDBitmap
  rw [hn, hbo, hbs]
  cases bm with
  | none =>
    have h0 : bo = 0 := hbm
    subst h0
    simp
  | some data =>
    obtain ⟨hb0, hs0, hs64, hd, hin, hh⟩ := hbm
    have e1 : UInt64.ofNat bo ≠ 0 := by
      intro hc
      have := congrArg UInt64.toNat hc
      rw [UInt64.toNat_ofNat'] at this
      simp at this; omega
    have e2 : UInt64.ofNat bs ≠ 0 := by
      intro hc
      have := congrArg UInt64.toNat hc
      rw [UInt64.toNat_ofNat'] at this
      simp at this; omega
    simp only [e1, e2, or_self, if_false, hb]
    have h4 : rd32 (slice file bo 4) 0 = UInt32.ofNat data.length := by
      have := Holds.part (a := []) (b := Doc.num 4 data.length) (c := data) hh
      rw [show bo + ([] : Bytes).length = bo from rfl, num_length] at this
      rw [this]
      apply rd32_of_slice
      rw [num_ofNat32]; simp [List.take_of_length_le]
    have hrest : slice file (bo + 4) data.length = data := by
      have := Holds.part (a := Doc.num 4 data.length) (b := data) (c := []) (by
        rw [List.append_nil]; exact hh)
      rwa [num_length] at this
    rw [uint64_ofNat_toInt64, show (4 : Int64) = Int64.ofNat 4 from rfl, readBytesAt_ok _ _ _ (by omega) hsm]
    simp only [h4, ofNat32_toNat _ hd]
    rw [int64_ofNat_add, readBytesAt_ok _ _ _ (by omega) hsm]
    simp only [hrest, Option.map_some, Option.getD_some]

/-- `r` is a reader opened on a file laid out as documented that holds `blocks` and a bitmap of exactly their IDs. -/
structure Documented (r : Reader B) (blocks : List Block) : Prop where
  file : ∃ (file : Bytes) (enc : Nat) (places : List Place) (data : Bytes), FileOf file enc places (some data) ∧
    places.map Place.pairs = blocks.map Doc.pairs ∧ enc ≠ 5 ∧ enc ≠ 6 ∧ newReader file = .ok r ∧
    ∀ x, Bitmap.contains (Bitmap.fromBuffer data : B) x = true ↔ ∃ v, (x, v) ∈ pairsOf blocks

/-- **C76.** A stack of such files: the newest file that has an ID wins. -/
theorem C76_stack [LawfulBitmap B] (sched : Sched) (hs : sched.Fair) (readers : List (Reader B)) (files : List (List Block))
    (h : Each Documented readers files) (skip : Bool) (filter : Option B) :
    ∃ res, multiAggregate sched readers skip filter = .ok res ∧
      IsAggregate res ((visible (allowedBy filter) files).map Prod.snd) := by
  refine multiAggregate_spec sched readers files skip filter (h.imp fun r blocks hr deny => ?_)
  obtain ⟨file, enc, places, data, H, hm, h5, h6, hop, hx⟩ := hr.file
  exact ⟨C76_aggregate H hm ⟨h5, h6⟩ r hop sched hs _ (.inr (.inl rfl)), _, C76_bitmap H hm r hop, hx⟩

/-! ### Files of this program -/

/-- The shortest form is a spelling. -/
theorem isVarint_shortest (n : Nat) : IsVarint n (Doc.varint n) := by
  induction n using Nat.strongRecOn with
  | _ n ih =>
    rw [Doc.varint]
    split
    · rename_i h
      have := IsVarint.last (UInt8.ofNat n) (by simp; omega)
      rw [show (UInt8.ofNat n).toNat = n by simp; omega] at this
      exact this
    · rename_i h
      have e : (UInt8.ofNat (128 + n % 128)).toNat = 128 + n % 128 := by simp; omega
      have := IsVarint.more (UInt8.ofNat (128 + n % 128)) (by omega) (ih (n / 128) (by omega))
      rw [e, show (128 + n % 128) % 128 + 128 * (n / 128) = n by omega] at this
      exact this

theorem spelled_shortest (v : UInt64) : Spelled true v.toNat (encodeVarInt v) := by
  refine ⟨?_, (encodeVarInt_bounds v).2⟩
  rw [encodeVarInt_doc]
  exact isVarint_shortest _

theorem spells_of {T : Type} (v : Bool) (f : T → Nat) (g : T → Bytes) (hg : ∀ x, Spelled v (f x) (g x)) (l : List T) :
    Spells v (l.map f) (l.map g).flatten := by
  induction l with
  | nil => exact .nil
  | cons x xs ih => exact .cons (hg x) ih

theorem idSection_ours (e : UInt32) (h : SymEnc e) (ids : List UInt64) :
    IdSection e.toNat (ids.map UInt64.toNat) (Doc.idData e.toNat (ids.map UInt64.toNat)) := by
  rw [← idSection_doc h.regular]
  unfold IdSection
  rw [idNumbers]
  rcases h with rfl | rfl | rfl | rfl
  · exact spells_of false _ _ num_le64 _
  · exact spells_of false _ _ num_le64 _
  · exact spells_of true _ _ spelled_shortest _
  · exact spells_of true _ _ spelled_shortest _

theorem valueSection_ours (e : UInt32) (h : SymEnc e) (vals : List Int64) :
    ValueSection e.toNat (vals.map Int64.toInt) (Doc.valueData e.toNat (vals.map Int64.toInt)) := by
  rw [← valSection_doc h.regular]
  unfold ValueSection
  rw [valueNumbers, List.map_map]
  have hz : ∀ v : Int64, Spelled true (Doc.zigzag v.toInt) (encodeSignedVarInt v) := by
    intro v
    have := spelled_shortest (zigzag v)
    rw [zigzag_doc] at this
    exact this
  rcases h with rfl | rfl | rfl | rfl
  · exact spells_of false _ _ num_leI64 _
  · exact spells_of false _ _ num_leI64 _
  · exact spells_of true _ _ hz _
  · exact spells_of true _ _ hz _

/-- **C76.** The files of this program in the four symmetric encodings are such files. -/
theorem C76_ours [LawfulBitmap B] {env : Env} {opts : List WriterOption} {log : Log} {file : Bytes}
    (h : Finalized B env opts log file) (henc : SymEnc (chosenEncoding opts))
    (hn : (acked log).length ≤ maxBlocks) (hbuf : (Bitmap.toBuffer (bitmapOf B (acked log))).length < 2 ^ 32) :
    ∃ places, FileOf file (chosenEncoding opts).toNat places (some (Bitmap.toBuffer (bitmapOf B (acked log)))) ∧
      places.map Place.pairs = (acked log).map Doc.pairs := by
  obtain ⟨hd, blks, bo, fs, hc⟩ := h.contents henc
  have hcnt := hc.count
  have hlen := hc.ok.length
  have hil := hc.ok.index_length
  have hfs := hc.ok.fs_ge
  have hfit := hc.ok.bmFits
  have hbo := hc.ok.bo64
  have hreg := henc.regular
  have hE : (chosenEncoding opts).toNat = 0 ∨ (chosenEncoding opts).toNat = 3 ∨ (chosenEncoding opts).toNat = 4 ∨
      (chosenEncoding opts).toNat = 7 := by
    rcases henc with h | h | h | h <;> rw [h] <;> decide
  unfold maxBlocks at hn
  refine ⟨blks.map fun b => ⟨b.off, b.size (chosenEncoding opts), Doc.pairs b.pairs⟩, ⟨h.size, ?_, by omega, ?_, ?_, ?_⟩, ?_⟩
  · rw [List.length_map]; omega
  · refine ⟨hd.columnType.toNat, blks.length, hd.blockSizeTarget.toNat, hd.compressionType.toNat, hd.creationTime.toNat,
      bo, 4 + (Bitmap.toBuffer (bitmapOf B (acked log))).length, ?_, by rw [List.length_map]; omega, by omega, by omega, by omega, hbuf,
      by omega, ?_⟩
    · have hf : hd.fields.flatten = Doc.num 8 Doc.magic ++ Doc.num 4 1 ++ Doc.num 4 hd.columnType.toNat ++
          Doc.num 8 blks.length ++ Doc.num 4 hd.blockSizeTarget.toNat ++ Doc.num 4 hd.compressionType.toNat ++
          Doc.num 4 (chosenEncoding opts).toNat ++ Doc.num 8 hd.creationTime.toNat ++ Doc.num 8 bo ++
          Doc.num 8 (4 + (Bitmap.toBuffer (bitmapOf B (acked log))).length) := by
        have h1 : le32 version = Doc.num 4 1 := by rw [num_le32]; rfl
        have h4 : le64 magicNumber = Doc.num 8 Doc.magic := by rw [num_le64]; rfl
        simp only [FileHeader.fields, hc.ok.magic, hc.ok.ver, hc.ok.enc, hc.ok.count, hc.ok.bmOff, hc.ok.bmSize, h1, h4,
          num_ofNat64, num_le32 hd.columnType, num_le32 hd.blockSizeTarget, num_le32 hd.compressionType,
          num_le64 hd.creationTime, num_le32 (chosenEncoding opts)]
        simp [List.flatten, List.append_assoc]
      rw [← hf]
      unfold Holds
      rw [headerFields_length]
      exact hc.ok.hdr
    · unfold Holds Doc.bitmap
      have := hc.ok.bmBytes
      rw [num_ofNat32] at this
      rw [List.length_append, num_length]
      exact this
  · refine ⟨file.take fs, 0, by rw [List.length_take]; omega, ?_⟩
    have hidx : Doc.indexOf (blks.map fun b => ⟨b.off, b.size (chosenEncoding opts), Doc.pairs b.pairs⟩) =
        (blks.map fun b => entryBytes (b.entry (chosenEncoding opts))).flatten := by
      unfold Doc.indexOf
      rw [List.flatMap_map, List.flatMap_def]
      congr 1
      exact List.map_congr_left fun b hb => (entry_doc b (hc.ok.ok b hb)).symm
    rw [hidx, hil, List.length_map]
    have hfoot := hc.ok.foot
    rw [num_ofNat32, meta_doc] at hfoot
    conv => lhs; rw [← List.take_append_drop fs file, hfoot]
    simp only [List.append_assoc]
  · intro p hp
    obtain ⟨b, hb, rfl⟩ := List.mem_map.1 hp
    have hok := hc.ok.ok b hb
    have hn1 : b.ids ≠ [] := List.ne_nil_of_length_pos hok.ne
    have hl : b.ids.length = b.vals.length := hok.len
    have hn2 : b.vals ≠ [] := List.ne_nil_of_length_pos (by have := hok.ne; omega)
    have hlaid := hc.ok.laid.mem b hb
    have himg := image_doc hreg b.ids b.vals hn1 hn2 hok.sec
    have hsl := hc.ok.img b hb
    have hle := Blk.img_le_size (chosenEncoding opts) b
    rw [Blk.img, himg] at hsl hle
    have hstop : b.off + b.size (chosenEncoding opts) ≤ file.length := by
      have := hlaid.2; unfold Blk.stop at this; omega
    have hblk : ∀ ids : List Nat, ∀ vals : List Int, (Doc.block (chosenEncoding opts).toNat ids vals).length =
        80 + (Doc.idData (chosenEncoding opts).toNat ids).length + (Doc.valueData (chosenEncoding opts).toNat vals).length := by
      intro ids vals
      simp only [Doc.block, Doc.stats, List.length_append, num_length]
    have hpre : ∀ ids : List Nat, ∀ vals : List Int, (Doc.stats ids vals ++ Doc.num 4 (chosenEncoding opts).toNat ++
        Doc.num 4 0 ++ Doc.num 4 0 ++ Doc.num 4 0 ++ Doc.num 4 0).length = 64 := by
      intro ids vals
      simp only [Doc.stats, List.length_append, num_length]
    refine ⟨by simp [Doc.pairs, Blk.pairs, hl], by simpa [Doc.pairs, Blk.pairs] using hn1,
      by simpa [Doc.pairs, Blk.pairs] using hok.bound, Blk.size_lt _ b hok, hstop, 0,
      (Doc.idData (chosenEncoding opts).toNat (b.ids.map UInt64.toNat)).length, _, _,
      idSection_ours _ henc _, valueSection_ours _ henc _, ?_⟩
    rw [hblk] at hle
    have hh : Holds file b.off (Doc.block (chosenEncoding opts).toNat (b.ids.map UInt64.toNat) (b.vals.map Int64.toInt)) := hsl
    dsimp only [Doc.pairs, Blk.pairs]
    unfold Doc.block at hh
    revert hle hh
    have hpre := hpre (b.ids.map UInt64.toNat) (b.vals.map Int64.toInt)
    revert hpre
    generalize Doc.idData (chosenEncoding opts).toNat (b.ids.map UInt64.toNat) = I
    generalize Doc.valueData (chosenEncoding opts).toNat (b.vals.map Int64.toInt) = V
    generalize (Doc.stats (b.ids.map UInt64.toNat) (b.vals.map Int64.toInt) ++ Doc.num 4 (chosenEncoding opts).toNat ++
        Doc.num 4 0 ++ Doc.num 4 0 ++ Doc.num 4 0 ++ Doc.num 4 0) = P
    intro hP hle hh
    refine ⟨?_, ?_, ?_, by omega, by omega⟩
    · have := Holds.part (a := P) (b := Doc.num 4 0 ++ Doc.num 4 I.length ++ Doc.num 4 I.length ++ Doc.num 4 V.length)
        (c := I ++ V) (by simpa [List.append_assoc] using hh)
      rw [hP] at this
      exact this
    · have := Holds.part (a := P ++ (Doc.num 4 0 ++ Doc.num 4 I.length ++ Doc.num 4 I.length ++ Doc.num 4 V.length))
        (b := I) (c := V) (by simpa [List.append_assoc] using hh)
      simp only [List.length_append, hP, num_length] at this
      exact this
    · have := Holds.part (a := P ++ (Doc.num 4 0 ++ Doc.num 4 I.length ++ Doc.num 4 I.length ++ Doc.num 4 V.length) ++ I)
        (b := V) (c := []) (by simpa [List.append_assoc] using hh)
      simp only [List.length_append, hP, num_length] at this
      rw [show b.off + 80 + I.length = b.off + (64 + (4 + 4 + 4 + 4) + I.length) by omega]
      exact this
  · rw [List.map_map, ← hc.pairs, List.map_map]
    rfl

/-! ### A file of another program -/

/-- A block: 64 bytes of anything (here `0xEE`), the layout, the values *before* the IDs, and `rest`. -/
def swappedBlock (i v rest : Bytes) : Bytes :=
  List.replicate 64 0xEE ++ (Doc.num 4 v.length ++ Doc.num 4 i.length ++ Doc.num 4 0 ++ Doc.num 4 v.length) ++ v ++ i ++ rest

/-- The blocks `[10, 7] ↦ [-5, 100]` and `[3] ↦ [9]` in encoding 1 (differences for the IDs only), written by
some other program: bitmap first, second block before the first, nothing aligned, unusual values in all fields for
information, and a header that counts no blocks. -/
def otherFile : Bytes :=
  (Doc.num 8 Doc.magic ++ Doc.num 4 1 ++ Doc.num 4 77 ++ Doc.num 8 0 ++ Doc.num 4 1 ++ Doc.num 4 9 ++ Doc.num 4 1 ++
    Doc.num 8 123 ++ Doc.num 8 66 ++ Doc.num 8 24) ++ [0xAA, 0xBB, 0xCC, 0xDD, 1, 2] ++
  Doc.bitmap (Doc.num 8 3 ++ Doc.num 8 7 ++ Doc.num 8 10) ++ [1, 2, 3] ++
  swappedBlock (Doc.num 8 3) (Doc.num 8 9) [] ++
  swappedBlock (Doc.num 8 10 ++ Doc.num 8 (2 ^ 64 - 3)) (Doc.num 8 (2 ^ 64 - 5) ++ Doc.num 8 100) [4, 5, 6] ++ [7, 7, 7] ++
  (Doc.num 4 2 ++ (Doc.entry 193 115 [10, 7] [-5, 100] ++ Doc.entry 97 96 [3] [9]) ++ Doc.num 8 116 ++ Doc.num 8 5 ++
    Doc.num 8 Doc.magic)

/-- Where its blocks are. -/
def otherPlaces : List Place := [⟨193, 115, ([10, 7], [-5, 100])⟩, ⟨97, 96, ([3], [9])⟩]

theorem fixed_one (n : Nat) : Spells false [n] (Doc.num 8 n) := by
  have := Spells.cons (varints := false) (n := n) (bs := Doc.num 8 n) (rest := []) rfl .nil
  rwa [List.append_nil] at this

theorem fixed_two (n m : Nat) : Spells false [n, m] (Doc.num 8 n ++ Doc.num 8 m) :=
  .cons rfl (fixed_one m)

theorem other_file : FileOf otherFile 1 otherPlaces (some (Doc.num 8 3 ++ Doc.num 8 7 ++ Doc.num 8 10)) := by
  refine ⟨by decide +kernel, by decide, by decide, ⟨77, 0, 1, 9, 123, 66, 24, ?_, by decide, by decide, by decide, by decide,
    by decide +kernel, by decide +kernel, ?_⟩, ⟨otherFile.take 311, 5, by decide +kernel, by decide +kernel⟩, ?_⟩
  · unfold Holds; decide +kernel
  · unfold Holds; decide +kernel
  · intro p hp
    simp only [otherPlaces, List.mem_cons, List.not_mem_nil, or_false] at hp
    rcases hp with rfl | rfl
    · refine ⟨rfl, by simp, by decide, by decide, by decide +kernel, 16, 0, Doc.num 8 10 ++ Doc.num 8 (2 ^ 64 - 3),
        Doc.num 8 (2 ^ 64 - 5) ++ Doc.num 8 100, fixed_two _ _, fixed_two _ _, ?_, ?_, ?_, by decide +kernel, by decide +kernel⟩ <;>
      · unfold Holds; decide +kernel
    · refine ⟨rfl, by simp, by decide, by decide, by decide +kernel, 8, 0, Doc.num 8 3, Doc.num 8 9, fixed_one _, fixed_one _,
        ?_, ?_, ?_, by decide +kernel, by decide +kernel⟩ <;>
      · unfold Holds; decide +kernel

/-- `[5, 300] ↦ [-1, 64]` in encoding 4, no bitmap, with numbers that are not in shortest form: 5 in three bytes, and -1 (which is
1 after zigzag) in ten. -/
def longFile : Bytes :=
  (Doc.num 8 Doc.magic ++ Doc.num 4 1 ++ Doc.num 4 0 ++ Doc.num 8 1 ++ Doc.num 4 0 ++ Doc.num 4 0 ++ Doc.num 4 4 ++
    Doc.num 8 0 ++ Doc.num 8 0 ++ Doc.num 8 0) ++ Doc.num 4 0 ++
  swappedBlock [0x85, 0x80, 0, 0xAC, 2] [0x81, 0x80, 0x80, 0x80, 0x80, 0x80, 0x80, 0x80, 0x80, 0, 0x80, 1] [] ++
  (Doc.num 4 1 ++ Doc.entry 64 97 [5, 300] [-1, 64] ++ Doc.num 8 60 ++ Doc.num 8 0 ++ Doc.num 8 Doc.magic)

theorem varint_zero {n : Nat} {bs : Bytes} (h : IsVarint n bs) (b : UInt8) (hb : 128 ≤ b.toNat) (m : Nat)
    (hm : b.toNat % 128 + 128 * n = m) : IsVarint m (b :: bs) := hm ▸ .more b hb h

theorem long_file : FileOf longFile 4 [⟨64, 97, ([5, 300], [-1, 64])⟩] none := by
  have z : IsVarint 0 [0] := .last 0 (by decide)
  have five : IsVarint 5 [0x85, 0x80, 0] :=
    varint_zero (varint_zero z 0x80 (by decide) 0 (by decide)) 0x85 (by decide) 5 (by decide)
  have threeHundred : IsVarint 300 [0xAC, 2] := varint_zero (.last 2 (by decide)) 0xAC (by decide) 300 (by decide)
  have minusOne : IsVarint 1 [0x81, 0x80, 0x80, 0x80, 0x80, 0x80, 0x80, 0x80, 0x80, 0] := by
    refine varint_zero ?_ 0x81 (by decide) 1 (n := 0) (by decide)
    iterate 8 refine varint_zero ?_ 0x80 (by decide) 0 (n := 0) (by decide)
    exact z
  have sixtyFour : IsVarint 128 [0x80, 1] := varint_zero (.last 1 (by decide)) 0x80 (by decide) 128 (by decide)
  refine ⟨by decide +kernel, by decide, by decide, ⟨0, 1, 0, 0, 0, 0, 0, ?_, by decide, rfl⟩,
    ⟨longFile.take 161, 0, by decide +kernel, by decide +kernel⟩, ?_⟩
  · unfold Holds; decide +kernel
  · intro p hp
    obtain rfl := List.mem_singleton.1 hp
    refine ⟨rfl, by simp, by decide, by decide, by decide +kernel, 12, 0, _, _,
      Spells.cons ⟨five, by decide⟩ (.cons ⟨threeHundred, by decide⟩ .nil),
      Spells.cons ⟨minusOne, by decide⟩ (.cons ⟨sixtyFour, by decide⟩ .nil), ?_, ?_, ?_, by decide +kernel, by decide +kernel⟩ <;>
    · unfold Holds; decide +kernel

/-- Numbers that are not in shortest form are read back too. -/
theorem C76_example_long : ReadsBack IdSet longFile [([5, 300], [-1, 64])] :=
  C76_pairs long_file (by decide) ⟨by decide, by decide⟩

/-- The example is read back. -/
theorem C76_example : ReadsBack IdSet otherFile [([10, 7], [-5, 100]), ([3], [9])] ∧
    ∀ r : Reader IdSet, newReader otherFile = .ok r →
      (∃ res, aggregate inOrder r = .ok res ∧ IsAggregate res [-5, 100, 9]) ∧
      (getGlobalIDBitmap r).1 = .ok ⟨[3, 7, 10]⟩ := by
  refine ⟨C76_pairs other_file (by decide) ⟨by decide, by decide⟩, fun r hr => ⟨?_, ?_⟩⟩
  · exact C76_aggregate other_file (blocks := [([10, 7], [-5, 100]), ([3], [9])]) (by decide) ⟨by decide, by decide⟩ r hr
      inOrder inOrder_fair {} (.inr (.inr (.inr (by
        intro b hb
        simp only [List.mem_cons, List.not_mem_nil, or_false] at hb
        rcases hb with rfl | rfl <;> decide))))
  · have := C76_bitmap other_file (blocks := [([10, 7], [-5, 100]), ([3], [9])]) (by decide) r hr
    rw [this]
    rfl

/-- Non-vacuity of `C76_stack`: the file below a file of this program that replaces the value of ID 7. -/
theorem C76_stack_example : ∃ r1 r2 : Reader IdSet, ∃ env opts log file,
    newReader otherFile = .ok r1 ∧ Finalized IdSet env opts log file ∧ newReader file = .ok r2 ∧
    acked log = [([7], [1])] ∧ Each Documented [r1, r2] [[([10, 7], [-5, 100]), ([3], [9])], acked log] ∧
    ∃ res, multiAggregate inOrder [r1, r2] false none = .ok res ∧ IsAggregate res [-5, 9, 1] := by
  obtain ⟨r1, h1, _⟩ := (C76_example.1).opens
  obtain ⟨file, h⟩ : ∃ file, Finalized IdSet quietEnv [] [(.write [7] [1], .ok ())] file :=
    finalized_of_log [] [.write [7] [1]] [(.write [7] [1], .ok ())] (by decide) (by decide +kernel) (by unfold NoMismatch; decide)
      (by decide)
  obtain ⟨places, H, hm⟩ := C76_ours h (.inl rfl) (by decide) (by decide)
  obtain ⟨r2, h2, _⟩ := opens (B := IdSet) H hm
  have hE : Each Documented [r1, r2] [[([10, 7], [-5, 100]), ([3], [9])], acked [(.write [7] [1], .ok ())]] := by
    refine .cons ⟨otherFile, 1, otherPlaces, _, other_file, by decide, by decide, by decide, h1, ?_⟩
      (.cons ⟨file, 0, places, _, H, hm, by decide, by decide, h2, ?_⟩ .nil)
    · intro x
      have e1 : (Bitmap.fromBuffer (Doc.num 8 3 ++ Doc.num 8 7 ++ Doc.num 8 10) : IdSet) = ⟨[3, 7, 10]⟩ := by rfl
      have e2 : pairsOf [([10, 7], [-5, 100]), ([3], [9])] = [(10, -5), (7, 100), (3, 9)] := rfl
      rw [e1, e2]
      show List.elem x [3, 7, 10] = true ↔ _
      rw [List.elem_iff]
      simp only [List.mem_cons, List.not_mem_nil, or_false, Prod.mk.injEq]
      constructor
      · rintro (rfl | rfl | rfl)
        · exact ⟨9, by decide⟩
        · exact ⟨100, by decide⟩
        · exact ⟨-5, by decide⟩
      · rintro ⟨v, ⟨rfl, _⟩ | ⟨rfl, _⟩ | ⟨rfl, _⟩⟩ <;> decide
    · intro x
      rw [LawfulBitmap.contains_fromBuffer_toBuffer, contains_bitmapOf]
      show x ∈ [7] ↔ ∃ v, (x, v) ∈ [((7 : UInt64), (1 : Int64))]
      simp
  refine ⟨r1, r2, quietEnv, [], _, file, h1, h, h2, rfl, hE, ?_⟩
  exact C76_stack inOrder inOrder_fair _ _ hE false none

/-! ### What is not understood -/

/-- A file of encoding 5, which by the document stores variable-length IDs and fixed-width values: `[1] ↦ [100]`. -/
def file5 : Bytes :=
  (Doc.num 8 Doc.magic ++ Doc.num 4 1 ++ Doc.num 4 0 ++ Doc.num 8 1 ++ Doc.num 4 0 ++ Doc.num 4 0 ++ Doc.num 4 5 ++
    Doc.num 8 0 ++ Doc.num 8 0 ++ Doc.num 8 0) ++ Doc.num 4 0 ++
  List.replicate 64 0 ++ (Doc.num 4 0 ++ Doc.num 4 1 ++ Doc.num 4 1 ++ Doc.num 4 8) ++ [1] ++ Doc.num 8 100 ++
  (Doc.num 4 1 ++ Doc.entry 64 89 [1] [100] ++ Doc.num 8 60 ++ Doc.num 8 0 ++ Doc.num 8 Doc.magic)

theorem file5_of : FileOf file5 5 [⟨64, 89, ([1], [100])⟩] none := by
  refine ⟨by decide +kernel, by decide, by decide, ⟨0, 1, 0, 0, 0, 0, 0, ?_, by decide, rfl⟩,
    ⟨file5.take 153, 0, by decide +kernel, by decide +kernel⟩, ?_⟩
  · unfold Holds; decide +kernel
  · intro p hp
    obtain rfl := List.mem_singleton.1 hp
    refine ⟨rfl, by simp, by decide, by decide, by decide +kernel, 0, 1, _, _,
      Spells.cons ⟨.last 1 (by decide), by decide⟩ .nil, fixed_one 100, ?_, ?_, ?_, by decide +kernel, by decide +kernel⟩ <;>
    · unfold Holds; decide +kernel

/-- A file of encoding 6, which by the document stores fixed-width IDs and variable-length values: `[1, 2] ↦ [5, 6]`. -/
def file6 : Bytes :=
  (Doc.num 8 Doc.magic ++ Doc.num 4 1 ++ Doc.num 4 0 ++ Doc.num 8 1 ++ Doc.num 4 0 ++ Doc.num 4 0 ++ Doc.num 4 6 ++
    Doc.num 8 0 ++ Doc.num 8 0 ++ Doc.num 8 0) ++ Doc.num 4 0 ++
  List.replicate 64 0 ++ (Doc.num 4 0 ++ Doc.num 4 16 ++ Doc.num 4 16 ++ Doc.num 4 2) ++ (Doc.num 8 1 ++ Doc.num 8 2) ++ [10, 2] ++
  (Doc.num 4 1 ++ Doc.entry 64 98 [1, 2] [5, 6] ++ Doc.num 8 60 ++ Doc.num 8 0 ++ Doc.num 8 Doc.magic)

theorem file6_of : FileOf file6 6 [⟨64, 98, ([1, 2], [5, 6])⟩] none := by
  refine ⟨by decide +kernel, by decide, by decide, ⟨0, 1, 0, 0, 0, 0, 0, ?_, by decide, rfl⟩,
    ⟨file6.take 162, 0, by decide +kernel, by decide +kernel⟩, ?_⟩
  · unfold Holds; decide +kernel
  · intro p hp
    obtain rfl := List.mem_singleton.1 hp
    refine ⟨rfl, by simp, by decide, by decide, by decide +kernel, 0, 16, _, _, fixed_two 1 2,
      Spells.cons ⟨.last 10 (by decide), by decide⟩ (.cons ⟨.last 2 (by decide), by decide⟩ .nil), ?_, ?_, ?_,
      by decide +kernel, by decide +kernel⟩ <;>
    · unfold Holds; decide +kernel

/-- What block 0 of a file reads as, without an error on the way. -/
def firstBlock (file : Bytes) : Res (List UInt64 × List Int64) :=
  newReader (B := IdSet) file >>= fun r => getPairs r 0

/-- **C76 is refuted for the encodings 5 and 6**: the reader takes both sections for variable-length
numbers; documented files read back wrong, without an error. -/
theorem C76_refuted :
    (FileOf file5 5 [⟨64, 89, ([1], [100])⟩] none ∧ firstBlock file5 = .ok ([1], [50])) ∧
    (FileOf file6 6 [⟨64, 98, ([1, 2], [5, 6])⟩] none ∧ firstBlock file6 = .ok ([1, 0], [5, 6])) :=
  ⟨⟨file5_of, by decide +kernel⟩, ⟨file6_of, by decide +kernel⟩⟩

/-- A file without encoding whose only block overrides this: its own header says encoding 4 (section 4.1), and its sections
hold the variable-length numbers 1 and 3 for `[1, 3] ↦ [5, 6]`. -/
def overrideFile : Bytes :=
  (Doc.num 8 Doc.magic ++ Doc.num 4 1 ++ Doc.num 4 0 ++ Doc.num 8 1 ++ Doc.num 4 0 ++ Doc.num 4 0 ++ Doc.num 4 0 ++
    Doc.num 8 0 ++ Doc.num 8 0 ++ Doc.num 8 0) ++ Doc.num 4 0 ++
  (Doc.stats [1, 3] [5, 6] ++ Doc.num 4 4 ++ Doc.num 4 0 ++ Doc.num 4 0 ++ Doc.num 4 0 ++ Doc.num 4 0) ++
  (Doc.num 4 0 ++ Doc.num 4 2 ++ Doc.num 4 2 ++ Doc.num 4 2) ++ [1, 3] ++ [10, 12] ++
  (Doc.num 4 1 ++ Doc.entry 64 84 [1, 3] [5, 6] ++ Doc.num 8 60 ++ Doc.num 8 0 ++ Doc.num 8 Doc.magic)

/-- The value -1, with the statistics in two's complement instead of sign and magnitude; the document does not say which. -/
def twosFile : Bytes :=
  (Doc.num 8 Doc.magic ++ Doc.num 4 1 ++ Doc.num 4 0 ++ Doc.num 8 1 ++ Doc.num 4 0 ++ Doc.num 4 0 ++ Doc.num 4 0 ++
    Doc.num 8 0 ++ Doc.num 8 0 ++ Doc.num 8 0) ++ Doc.num 4 0 ++ List.replicate 64 0 ++
  (Doc.num 4 0 ++ Doc.num 4 8 ++ Doc.num 4 8 ++ Doc.num 4 8) ++ Doc.num 8 7 ++ Doc.num 8 (Doc.wrapU (-1)) ++
  (Doc.num 4 1 ++ (Doc.num 8 64 ++ Doc.num 4 96 ++ Doc.num 8 7 ++ Doc.num 8 7 ++ Doc.num 8 (Doc.wrapU (-1)) ++
    Doc.num 8 (Doc.wrapU (-1)) ++ Doc.num 8 (Doc.wrapU (-1)) ++ Doc.num 4 1) ++ Doc.num 8 60 ++ Doc.num 8 0 ++
    Doc.num 8 Doc.magic)

/-- A block without pairs. -/
def emptyFile : Bytes :=
  (Doc.num 8 Doc.magic ++ Doc.num 4 1 ++ Doc.num 4 0 ++ Doc.num 8 1 ++ Doc.num 4 0 ++ Doc.num 4 0 ++ Doc.num 4 0 ++
    Doc.num 8 0 ++ Doc.num 8 0 ++ Doc.num 8 0) ++ Doc.num 4 0 ++ List.replicate 80 0 ++
  (Doc.num 4 1 ++ Doc.entry 64 80 [] [] ++ Doc.num 8 60 ++ Doc.num 8 0 ++ Doc.num 8 Doc.magic)

/-- What `Aggregate` says about a file. -/
def total (file : Bytes) (o : AggregateOptions IdSet) : Res AggregateResult :=
  newReader (B := IdSet) file >>= fun r => aggregateWithOptions inOrder r o

/-- **C76, the conditions are needed.** The encoding in a block's own header is ignored: the block reads as empty, without
an error, and aggregates differ. Statistics in two's complement are misread: `Aggregate` says that the least value is
-(2^63 - 1), `SkipPreCalculated` says -1. A block without pairs cannot be read. -/
theorem C76_conditions :
    (firstBlock overrideFile = .ok ([], []) ∧
      total overrideFile {} = .ok { count := 2, min := 5, max := 6, sum := 11, avg := .quot 11 2 } ∧
      ∃ a, total overrideFile { skipPreCalculated := true } = .ok a ∧ a.count = 0) ∧
    (firstBlock twosFile = .ok ([7], [-1]) ∧
      total twosFile { skipPreCalculated := true } = .ok { count := 1, min := -1, max := -1, sum := -1, avg := .quot (-1) 1 } ∧
      ∃ a, total twosFile {} = .ok a ∧ a.min = -9223372036854775807 ∧ a.sum = -9223372036854775807) ∧
    firstBlock emptyFile = .err .zeroSection := by
  refine ⟨⟨by decide +kernel, by decide +kernel, ?_⟩, ⟨by decide +kernel, by decide +kernel, ?_⟩, by decide +kernel⟩
  · exact ⟨{ count := 0, min := 9223372036854775807, max := -9223372036854775808, sum := 0, avg := .zero }, by decide +kernel, rfl⟩
  · exact ⟨{ count := 1, min := -9223372036854775807, max := -9223372036854775807, sum := -9223372036854775807, avg := .quot (-9223372036854775807) 1 }, by decide +kernel, rfl, rfl⟩

/-- A block in encoding 4 with these sections and pairs. -/
def elevenFile (i v : Bytes) (ids : List Nat) (vals : List Int) : Bytes :=
  (Doc.num 8 Doc.magic ++ Doc.num 4 1 ++ Doc.num 4 0 ++ Doc.num 8 1 ++ Doc.num 4 0 ++ Doc.num 4 0 ++ Doc.num 4 4 ++
    Doc.num 8 0 ++ Doc.num 8 0 ++ Doc.num 8 0) ++ Doc.num 4 0 ++ swappedBlock i v [] ++
  (Doc.num 4 1 ++ Doc.entry 64 (80 + i.length + v.length) ids vals ++ Doc.num 8 60 ++ Doc.num 8 0 ++ Doc.num 8 Doc.magic)

/-- **C76, at most ten bytes are needed.** An ID in eleven bytes cannot be read, and of two values of which the first has eleven
bytes, `-1` and `3`, the second is read as `0`, without an error. -/
theorem C76_eleven :
    firstBlock (elevenFile [0x85, 0x80, 0x80, 0x80, 0x80, 0x80, 0x80, 0x80, 0x80, 0x80, 0] [1] [5] [-1]) = .err .badVarint ∧
    firstBlock (elevenFile [5, 6] [0x81, 0x80, 0x80, 0x80, 0x80, 0x80, 0x80, 0x80, 0x80, 0x80, 0, 6] [5, 6] [-1, 3]) =
      .ok ([5, 6], [-1, 0]) := by
  refine ⟨by decide +kernel, by decide +kernel⟩
end VibeCol.Foreign
