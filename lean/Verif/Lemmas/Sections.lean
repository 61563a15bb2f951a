/-
What the encoder produces for a section, and what the decoder makes of it.
-/
import Verif.Model.Reader
import Verif.Spec.Encodings
import Verif.Lemmas.Bytes
import Verif.Lemmas.Varint
namespace VibeCol

theorem knownEnc_cases {e : UInt32} (h : KnownEnc e) :
    e = encRaw ∨ e = encDeltaID ∨ e = encDeltaValue ∨ e = encDeltaBoth ∨ e = encVarInt ∨
    e = encVarIntID ∨ e = encVarIntValue ∨ e = encVarIntBoth := by
  unfold KnownEnc at h
  have : ∀ k : UInt32, e = k ↔ e.toNat = k.toNat := fun k => UInt32.toNat_inj.symm
  simp only [this]
  have : encRaw.toNat = 0 := rfl
  have : encDeltaID.toNat = 1 := rfl
  have : encDeltaValue.toNat = 2 := rfl
  have : encDeltaBoth.toNat = 3 := rfl
  have : encVarInt.toNat = 4 := rfl
  have : encVarIntID.toNat = 5 := rfl
  have : encVarIntValue.toNat = 6 := rfl
  have : encVarIntBoth.toNat = 7 := rfl
  omega

/-- Whether the encoder takes differences first. -/
def deltaEnc (e : UInt32) : Bool := !(e == encRaw || e == encVarInt || e == encVarIntID)

/-- The numbers stored for `ids`. -/
def encIDs (e : UInt32) (ids : List UInt64) : List UInt64 :=
  if deltaEnc e then deltaEncode ids else ids

/-- The numbers stored for `values`. -/
def encVals (e : UInt32) (vals : List Int64) : List Int64 :=
  if deltaEnc e then deltaEncodeInt64 vals else vals

@[simp] theorem encIDs_length (e : UInt32) (ids : List UInt64) : (encIDs e ids).length = ids.length := by
  unfold encIDs; split <;> simp
@[simp] theorem encVals_length (e : UInt32) (l : List Int64) : (encVals e l).length = l.length := by
  unfold encVals; split <;> simp

/-- The bytes written for the ID section. -/
def idSection (e : UInt32) (ids : List UInt64) : Bytes :=
  if useVarIntForIDs e then ((encIDs e ids).map encodeVarInt).flatten
  else ((encIDs e ids).map le64).flatten

/-- The bytes written for the value section. -/
def valSection (e : UInt32) (vals : List Int64) : Bytes :=
  if useVarIntForValues e then ((encVals e vals).map encodeSignedVarInt).flatten
  else ((encVals e vals).map leI64).flatten

/-- The section size computed by `encodeIDs`, before truncation to `uint32`. -/
def idSize (e : UInt32) (ids : List UInt64) : Nat :=
  if isVarIntEnc e then ((encIDs e ids).map encodeVarInt).flatten.length else ids.length * 8

/-- The section size computed by `encodeValues`, before truncation to `uint32`. -/
def valSize (e : UInt32) (vals : List Int64) : Nat :=
  if isVarIntEnc e then ((encVals e vals).map encodeSignedVarInt).flatten.length else vals.length * 8

theorem flatten_map_le {T : Type} (f : T → Bytes) (l : List T) (k : Nat)
    (h : ∀ x, (f x).length ≤ k) : (l.map f).flatten.length ≤ l.length * k := by
  induction l with
  | nil => simp
  | cons x xs ih => simp only [List.map_cons, List.flatten_cons, List.length_append, List.length_cons]
                    have := h x
                    rw [Nat.add_mul]; omega

theorem flatten_map_ge {T : Type} (f : T → Bytes) (l : List T) (k : Nat)
    (h : ∀ x, k ≤ (f x).length) : l.length * k ≤ (l.map f).flatten.length := by
  induction l with
  | nil => simp
  | cons x xs ih => simp only [List.map_cons, List.flatten_cons, List.length_append, List.length_cons]
                    have := h x
                    rw [Nat.add_mul]; omega

theorem flatten_map_eq {T : Type} (f : T → Bytes) (l : List T) (k : Nat)
    (h : ∀ x, (f x).length = k) : (l.map f).flatten.length = l.length * k :=
  Nat.le_antisymm (flatten_map_le f l k (fun x => Nat.le_of_eq (h x)))
    (flatten_map_ge f l k (fun x => Nat.le_of_eq (h x).symm))

theorem encodeSignedVarInt_length_pos (v : Int64) : 1 ≤ (encodeSignedVarInt v).length :=
  encodeVarInt_length_pos _
theorem encodeSignedVarInt_length_le_10 (v : Int64) : (encodeSignedVarInt v).length ≤ 10 :=
  encodeVarInt_length_le_10 _

theorem idSize_le (e : UInt32) (ids : List UInt64) : idSize e ids ≤ ids.length * 10 := by
  unfold idSize; split
  · have := flatten_map_le encodeVarInt (encIDs e ids) 10 encodeVarInt_length_le_10
    simpa using this
  · omega

theorem valSize_le (e : UInt32) (l : List Int64) : valSize e l ≤ l.length * 10 := by
  unfold valSize; split
  · have := flatten_map_le encodeSignedVarInt (encVals e l) 10 encodeSignedVarInt_length_le_10
    simpa using this
  · omega

theorem idSize_ge (e : UInt32) (ids : List UInt64) : ids.length ≤ idSize e ids := by
  unfold idSize; split
  · have := flatten_map_ge encodeVarInt (encIDs e ids) 1 encodeVarInt_length_pos
    simpa using this
  · omega

theorem valSize_ge (e : UInt32) (l : List Int64) : l.length ≤ valSize e l := by
  unfold valSize; split
  · have := flatten_map_ge encodeSignedVarInt (encVals e l) 1 encodeSignedVarInt_length_pos
    simpa using this
  · omega

/-- The size loop of the encoder. -/
theorem encodeVarLoop_eq {T : Type} (enc : T → Bytes) (henc : ∀ x, 1 ≤ (enc x).length ∧ (enc x).length ≤ 10)
    (l : List T) (s : UInt32) :
    encodeVarLoop enc l s = .ok (l.map enc, s + UInt32.ofNat (l.map enc).flatten.length) := by
  induction l generalizing s with
  | nil => simp [encodeVarLoop]
  | cons x xs ih =>
    have h0 : UInt32.ofNat (enc x).length ≠ 0 := by
      rw [Ne, ← UInt32.toNat_inj]
      have := henc x
      simp; omega
    simp only [encodeVarLoop, h0, if_false, ih, List.map_cons, List.flatten_cons,
      List.length_append, UInt32.ofNat_add, UInt32.add_assoc]

theorem encodeVarInt_bounds (v : UInt64) : 1 ≤ (encodeVarInt v).length ∧ (encodeVarInt v).length ≤ 10 :=
  ⟨encodeVarInt_length_pos v, encodeVarInt_length_le_10 v⟩

theorem ofNat32_zero_iff (n : Nat) (h : n < 2 ^ 32) : UInt32.ofNat n = 0 ↔ n = 0 := by
  rw [← UInt32.toNat_inj]; simp; omega

/-- The result of `encodeIDs` for a known encoding: the stored numbers, the byte strings
(variable-length encodings only), and the truncated size. -/
theorem encodeIDs_eq (e : UInt32) (h : KnownEnc e) (ids : List UInt64)
    (hsz : idSize e ids < 2 ^ 32) :
    encodeIDs e ids = .ok (encIDs e ids,
      if isVarIntEnc e then (encIDs e ids).map encodeVarInt else [], UInt32.ofNat (idSize e ids)) := by
  have hge := idSize_ge e ids
  have hz := ofNat32_zero_iff _ hsz
  rcases knownEnc_cases h with rfl | rfl | rfl | rfl | rfl | rfl | rfl | rfl <;>
  · simp only [encodeIDs, encodeData, encIDs, deltaEnc, isVarIntEnc, idSize, encRaw, encDeltaID, encDeltaValue,
      encDeltaBoth, encVarInt, encVarIntID, encVarIntValue, encVarIntBoth,
      encodeVarLoop_eq _ encodeVarInt_bounds] at *
    simp at *
    try (intro hh; have := hz.1 hh; apply List.eq_nil_of_length_eq_zero; omega)

/-- The result of `encodeValues` for a known encoding. -/
theorem encodeValues_eq (e : UInt32) (h : KnownEnc e) (vals : List Int64)
    (hsz : valSize e vals < 2 ^ 32) :
    encodeValues e vals = .ok (encVals e vals,
      if isVarIntEnc e then (encVals e vals).map encodeSignedVarInt else [],
      UInt32.ofNat (valSize e vals)) := by
  have hge := valSize_ge e vals
  have hz := ofNat32_zero_iff _ hsz
  rcases knownEnc_cases h with rfl | rfl | rfl | rfl | rfl | rfl | rfl | rfl <;>
  · simp only [encodeValues, encodeData, encVals, deltaEnc, isVarIntEnc, valSize, encRaw, encDeltaID, encDeltaValue,
      encDeltaBoth, encVarInt, encVarIntID, encVarIntValue, encVarIntBoth,
      encodeVarLoop_eq encodeSignedVarInt (fun v => encodeVarInt_bounds (zigzag v))] at *
    simp at *
    try (intro hh; have := hz.1 hh; apply List.eq_nil_of_length_eq_zero; omega)

/-! ### Decoding -/

theorem uvarint_ne_nil (v : UInt64) (rest : Bytes) : encodeVarInt v ++ rest ≠ [] := by
  have := encodeVarInt_length_pos v
  intro h
  have h2 := congrArg List.length h
  rw [List.length_append] at h2
  simp only [List.length_nil] at h2
  omega

theorem decodeUVarIntsLoop_enc (l : List UInt64) (i : Nat) (rest : Bytes) :
    decodeUVarIntsLoop l.length i ((l.map encodeVarInt).flatten ++ rest) = .ok (l, false) := by
  induction l generalizing i with
  | nil => rfl
  | cons v vs ih =>
    simp only [List.map_cons, List.flatten_cons, List.append_assoc, List.length_cons]
    have hu := uvarint_encodeVarInt v ((vs.map encodeVarInt).flatten ++ rest)
    have hne := uvarint_ne_nil v ((vs.map encodeVarInt).flatten ++ rest)
    have hpos := encodeVarInt_length_pos v
    rcases hl : encodeVarInt v ++ ((vs.map encodeVarInt).flatten ++ rest) with _ | ⟨b, bs⟩
    · exact absurd hl hne
    · rw [hl] at hu
      simp only [decodeUVarIntsLoop, hu]
      rw [if_neg (by omega), ← hl]
      simp [ih]

/-- Decoding a varint ID section gives back the stored numbers. -/
theorem decodeUVarInts_enc (l : List UInt64) :
    decodeUVarInts ((l.map encodeVarInt).flatten) l.length = .ok l := by
  have := decodeUVarIntsLoop_enc l 0 []
  rw [List.append_nil] at this
  simp [decodeUVarInts, this]

theorem decodeValuesLoop_enc (l : List Int64) (i : Nat) (rest : Bytes) :
    decodeValuesLoop l.length i ((l.map encodeSignedVarInt).flatten ++ rest) = l := by
  induction l generalizing i with
  | nil => rfl
  | cons v vs ih =>
    simp only [List.map_cons, List.flatten_cons, List.append_assoc, List.length_cons]
    have hu := decodeSignedVarInt_encode v ((vs.map encodeSignedVarInt).flatten ++ rest)
    have hne : encodeSignedVarInt v ++ ((vs.map encodeSignedVarInt).flatten ++ rest) ≠ [] :=
      uvarint_ne_nil _ _
    have hpos := encodeSignedVarInt_length_pos v
    rcases hl : encodeSignedVarInt v ++ ((vs.map encodeSignedVarInt).flatten ++ rest) with _ | ⟨b, bs⟩
    · exact absurd hl hne
    · rw [hl] at hu
      simp only [decodeValuesLoop, hu]
      rw [if_neg (by omega), ← hl]
      simp [ih]

/-- Slice of a concatenation of fixed-width chunks. -/
theorem slice_chunks {T : Type} (f : T → Bytes) (k : Nat) (hf : ∀ x, (f x).length = k)
    (l : List T) (i : Nat) (h : i < l.length) :
    (((l.map f).flatten).drop (i * k)).take k = f l[i] := by
  induction l generalizing i with
  | nil => simp at h
  | cons x xs ih =>
    cases i with
    | zero => simp [hf x]
    | succ i =>
      simp only [List.map_cons, List.flatten_cons, List.getElem_cons_succ]
      rw [List.drop_append, List.drop_eq_nil_of_le (by rw [hf, Nat.add_mul]; omega), hf, List.nil_append]
      have : (i + 1) * k - k = i * k := by rw [Nat.add_mul]; omega
      rw [this]
      exact ih i (by simpa using h)

/-- Decoding a fixed-width ID section gives back the stored numbers. -/
theorem decodeFixedIDs_enc (l : List UInt64) :
    decodeFixedIDs ((l.map le64).flatten) l.length = l := by
  have hlen := flatten_map_eq le64 l 8 le64_length
  unfold decodeFixedIDs
  apply List.ext_getElem
  · simp
  · intro i h1 h2
    simp only [List.getElem_map, List.getElem_range]
    rw [if_pos (by rw [hlen]; omega)]
    exact rd64_of_slice _ _ _ (slice_chunks le64 8 le64_length l i h2)

theorem leI64_slice_toInt64 (x : UInt64) (v : Int64) (h : x = v.toUInt64) : x.toInt64 = v := by
  subst h; simp

/-- Decoding a fixed-width value section gives back the stored numbers. -/
theorem decodeFixedValues_enc (l : List Int64) :
    decodeFixedValues ((l.map leI64).flatten) l.length = l := by
  have hlen := flatten_map_eq leI64 l 8 leI64_length
  unfold decodeFixedValues
  apply List.ext_getElem
  · simp
  · intro i h1 h2
    simp only [List.getElem_map, List.getElem_range]
    rw [if_pos (by rw [hlen]; omega)]
    apply leI64_slice_toInt64
    apply rd64_of_slice
    exact slice_chunks leI64 8 leI64_length l i h2

/-- What the decoder returns for fixed-width sections. -/
theorem decodeBlockData_fixed (e : UInt32) (hv : isVarIntEnc e = false) (ids : List UInt64)
    (vals : List Int64) (hlen : ids.length = vals.length) :
    decodeBlockData ((ids.map le64).flatten) ((vals.map leI64).flatten) ids.length e =
      .ok (if e = encDeltaBoth ∨ e = encDeltaID then deltaDecode ids else ids,
           if e = encDeltaBoth ∨ e = encDeltaValue then deltaDecodeInt64 vals else vals) := by
  have h1 := flatten_map_eq le64 ids 8 le64_length
  have h2 := flatten_map_eq leI64 vals 8 leI64_length
  have h3 : ids.length * 8 / 8 = ids.length := by omega
  have h4 : vals.length * 8 / 8 = ids.length := by omega
  have hfi := decodeFixedIDs_enc ids
  have hfv := decodeFixedValues_enc vals
  rw [← hlen] at hfv
  have hb : isVarIntEnc encVarIntBoth = true := by decide
  have hi : isVarIntEnc encVarIntID = true := by decide
  have hva : isVarIntEnc encVarIntValue = true := by decide
  have n1 : e ≠ encVarIntBoth := by rintro rfl; rw [hb] at hv; cases hv
  have n2 : e ≠ encVarIntID := by rintro rfl; rw [hi] at hv; cases hv
  have n3 : e ≠ encVarIntValue := by rintro rfl; rw [hva] at hv; cases hv
  simp only [decodeBlockData, hv, h1, h2, h3, h4, Nat.lt_irrefl, gt_iff_lt, if_false, hfi, hfv,
    Res.ok_bind, n1, n2, n3, or_false, Bool.false_eq_true]
  by_cases c1 : e = encDeltaBoth
  · subst c1; simp
  · by_cases c2 : e = encDeltaID
    · subst c2; simp [encDeltaID, encDeltaBoth, encDeltaValue]
    · by_cases c3 : e = encDeltaValue
      · subst c3; simp [encDeltaID, encDeltaBoth, encDeltaValue]
      · simp [c1, c2, c3]

/-- What the decoder returns for varint sections. -/
theorem decodeBlockData_var (e : UInt32) (hv : isVarIntEnc e = true) (ids : List UInt64)
    (vals : List Int64) (hlen : ids.length = vals.length) :
    decodeBlockData ((ids.map encodeVarInt).flatten) ((vals.map encodeSignedVarInt).flatten)
        ids.length e =
      .ok (if e = encVarIntBoth ∨ e = encVarIntID then deltaDecode ids else ids,
           if e = encVarIntBoth ∨ e = encVarIntValue then deltaDecodeInt64 vals else vals) := by
  have hfi := decodeUVarInts_enc ids
  have hfv := decodeValuesLoop_enc vals 0 []
  rw [← hlen, List.append_nil] at hfv
  have hb : isVarIntEnc encDeltaBoth = false := by decide
  have hi : isVarIntEnc encDeltaID = false := by decide
  have hva : isVarIntEnc encDeltaValue = false := by decide
  have n1 : e ≠ encDeltaBoth := by rintro rfl; rw [hb] at hv; cases hv
  have n2 : e ≠ encDeltaID := by rintro rfl; rw [hi] at hv; cases hv
  have n3 : e ≠ encDeltaValue := by rintro rfl; rw [hva] at hv; cases hv
  simp only [decodeBlockData, hv, hfi, hfv, if_true,
    Res.ok_bind, n1, n2, n3, false_or]
  by_cases c1 : e = encVarIntBoth
  · subst c1; simp
  · by_cases c2 : e = encVarIntID
    · subst c2; simp [encVarIntID, encVarIntBoth, encVarIntValue]
    · by_cases c3 : e = encVarIntValue
      · subst c3; simp [encVarIntID, encVarIntBoth, encVarIntValue]
      · simp [c1, c2, c3]


theorem SymEnc.known {e : UInt32} (h : SymEnc e) : KnownEnc e := by
  unfold KnownEnc; rcases h with rfl | rfl | rfl | rfl <;> decide

/-- Round trip of both sections for the symmetric encodings. -/
theorem decodeBlockData_sections (e : UInt32) (h : SymEnc e) (ids : List UInt64) (vals : List Int64)
    (hlen : ids.length = vals.length) :
    decodeBlockData (idSection e ids) (valSection e vals) ids.length e = .ok (ids, vals) := by
  rcases h with rfl | rfl | rfl | rfl
  · have := decodeBlockData_fixed encRaw (by decide) ids vals hlen
    simpa [idSection, valSection, useVarIntForIDs, useVarIntForValues, encIDs, encVals, deltaEnc,
      encRaw, encDeltaBoth, encDeltaID, encDeltaValue, encVarInt, encVarIntID, encVarIntBoth,
      encVarIntValue] using this
  · have := decodeBlockData_fixed encDeltaBoth (by decide) (deltaEncode ids) (deltaEncodeInt64 vals)
      (by simpa using hlen)
    simpa [idSection, valSection, useVarIntForIDs, useVarIntForValues, encIDs, encVals, deltaEnc,
      encRaw, encDeltaBoth, encDeltaID, encDeltaValue, encVarInt, encVarIntID, encVarIntBoth,
      encVarIntValue, deltaDecode_deltaEncode, deltaDecodeInt64_deltaEncodeInt64] using this
  · have := decodeBlockData_var encVarInt (by decide) ids vals hlen
    simpa [idSection, valSection, useVarIntForIDs, useVarIntForValues, encIDs, encVals, deltaEnc,
      encRaw, encDeltaBoth, encDeltaID, encDeltaValue, encVarInt, encVarIntID, encVarIntBoth,
      encVarIntValue] using this
  · have := decodeBlockData_var encVarIntBoth (by decide) (deltaEncode ids) (deltaEncodeInt64 vals)
      (by simpa using hlen)
    simpa [idSection, valSection, useVarIntForIDs, useVarIntForValues, encIDs, encVals, deltaEnc,
      encRaw, encDeltaBoth, encDeltaID, encDeltaValue, encVarInt, encVarIntID, encVarIntBoth,
      encVarIntValue, deltaDecode_deltaEncode, deltaDecodeInt64_deltaEncodeInt64] using this

/-- For the symmetric encodings the section written has the size computed. -/
theorem idSection_length (e : UInt32) (h : SymEnc e) (ids : List UInt64) :
    (idSection e ids).length = idSize e ids := by
  rcases h with rfl | rfl | rfl | rfl <;>
  simp [idSection, idSize, useVarIntForIDs, isVarIntEnc, encRaw, encDeltaBoth,
      encVarInt, encVarIntID, encVarIntBoth, encVarIntValue] <;>
  · have := flatten_map_eq le64 (encIDs encRaw ids) 8 le64_length
    have := flatten_map_eq le64 (encIDs encDeltaBoth ids) 8 le64_length
    simp_all [encRaw, encDeltaBoth]

theorem valSection_length (e : UInt32) (h : SymEnc e) (vals : List Int64) :
    (valSection e vals).length = valSize e vals := by
  rcases h with rfl | rfl | rfl | rfl <;>
  simp [valSection, valSize, useVarIntForValues, isVarIntEnc, encRaw, encDeltaBoth,
      encVarInt, encVarIntID, encVarIntBoth, encVarIntValue] <;>
  · have := flatten_map_eq leI64 (encVals encRaw vals) 8 leI64_length
    have := flatten_map_eq leI64 (encVals encDeltaBoth vals) 8 leI64_length
    simp_all [encRaw, encDeltaBoth]

end VibeCol
