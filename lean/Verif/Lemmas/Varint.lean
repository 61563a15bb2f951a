/-
Variable-length integers: both decoders invert the encoder, sizes, zigzag and delta inverses.
-/
import Verif.Model.Encoding
namespace VibeCol

theorem u64_pos (v : UInt64) : (v > 0) ↔ 0 < v.toNat := by
  show (0 : UInt64) < v ↔ _
  rw [UInt64.lt_iff_toNat_lt]; simp

theorem shr7 (v : UInt64) : (v >>> 7).toNat = v.toNat / 128 := by
  rw [UInt64.toNat_shiftRight]; simp [Nat.shiftRight_eq_div_pow]

theorem and7f_toNat (v : UInt64) : ((v &&& 0x7F).toUInt8).toNat = v.toNat % 128 := by
  rw [UInt64.toNat_toUInt8, UInt64.toNat_and]
  have : (0x7F : UInt64).toNat = 2 ^ 7 - 1 := rfl
  rw [this, Nat.and_two_pow_sub_one_eq_mod]
  omega

/-- The head byte produced by one iteration of the encoder, as a number. -/
theorem or80_toNat (b : UInt8) (h : b.toNat < 128) : (b ||| 0x80).toNat = b.toNat + 128 := by
  rw [UInt8.toNat_or]
  have : (0x80 : UInt8).toNat = 2 ^ 7 * 1 := rfl
  rw [this, Nat.or_comm, ← Nat.two_pow_add_eq_or_of_lt (by omega)]
  omega

theorem and7f8_toNat (b : UInt8) : (b &&& 0x7F).toNat = b.toNat % 128 := by
  rw [UInt8.toNat_and]
  have : (0x7F : UInt8).toNat = 2 ^ 7 - 1 := rfl
  rw [this, Nat.and_two_pow_sub_one_eq_mod]

theorem and80_zero (b : UInt8) : (b &&& 0x80 = 0) ↔ b.toNat < 128 := by
  rw [← UInt8.toNat_inj, UInt8.toNat_and]
  have h : ∀ n, n < 256 → ((n &&& 128 = 0) ↔ n < 128) := by decide +kernel
  exact h b.toNat b.toNat_lt

/-- Unfolding the encoder loop into numbers. -/
theorem encodeVarIntLoop_cons (v : UInt64) (h : 0 < v.toNat) :
    ∃ b : UInt8, encodeVarIntLoop v = b :: encodeVarIntLoop (v >>> 7) ∧
      b.toNat = v.toNat % 128 + (if 128 ≤ v.toNat then 128 else 0) := by
  refine ⟨_, by rw [encodeVarIntLoop]; rw [dif_pos ((u64_pos v).2 h)], ?_⟩
  have h1 := and7f_toNat v
  have h2 : (v >>> 7 > 0) ↔ 128 ≤ v.toNat := by
    rw [u64_pos, shr7]; omega
  by_cases hc : 128 ≤ v.toNat
  · rw [if_pos (h2.2 hc), or80_toNat _ (by omega), h1, if_pos hc]
  · rw [if_neg (fun hh => hc (h2.1 hh)), h1, if_neg hc]; omega

theorem encodeVarIntLoop_zero (v : UInt64) (h : v.toNat = 0) : encodeVarIntLoop v = [] := by
  rw [encodeVarIntLoop]
  rw [dif_neg]
  rw [u64_pos]; omega

theorem goShl_toNat (x : UInt64) (s : Nat) (h : x.toNat * 2 ^ s < 2 ^ 64) :
    (goShl x s).toNat = x.toNat * 2 ^ s := by
  unfold goShl
  show (x.toBitVec <<< s).toNat = _
  rw [BitVec.toNat_shiftLeft, Nat.shiftLeft_eq]
  exact Nat.mod_eq_of_lt h

theorem or_goShl_toNat (x b : UInt64) (s : Nat) (hx : x.toNat < 2 ^ s)
    (h : b.toNat * 2 ^ s < 2 ^ 64) :
    (x ||| goShl b s).toNat = x.toNat + b.toNat * 2 ^ s := by
  rw [UInt64.toNat_or, goShl_toNat _ _ h, Nat.or_comm, Nat.mul_comm,
    ← Nat.two_pow_add_eq_or_of_lt hx]
  omega

theorem pow7_le9 (v i : Nat) (hv : 0 < v) (h : v * 2 ^ (7 * i) < 2 ^ 64) : i ≤ 9 := by
  have h1 : 2 ^ (7 * i) ≤ v * 2 ^ (7 * i) := Nat.le_mul_of_pos_left _ hv
  have h2 : 2 ^ (7 * i) < 2 ^ 64 := Nat.lt_of_le_of_lt h1 h
  have := (Nat.pow_lt_pow_iff_right (by decide)).1 h2
  omega

theorem pow_succ7 (i : Nat) : 2 ^ (7 * (i + 1)) = 128 * 2 ^ (7 * i) := by
  rw [Nat.mul_add, Nat.pow_add]; omega

theorem split128 (v p : Nat) : v * p = v % 128 * p + v / 128 * (128 * p) := by
  conv => lhs; rw [← Nat.mod_add_div v 128]
  rw [Nat.add_mul]; congr 1
  rw [Nat.mul_comm 128, Nat.mul_assoc]

/-- `binary.Uvarint` reads back what `encodeVarInt`'s loop produced. -/
theorem uvarintLoop_encode (v : UInt64) (rest : Bytes) (i : Nat) (x : UInt64)
    (hv : 0 < v.toNat) (hx : x.toNat < 2 ^ (7 * i))
    (hb : v.toNat * 2 ^ (7 * i) < 2 ^ 64) (hs : x.toNat + v.toNat * 2 ^ (7 * i) < 2 ^ 64) :
    uvarintLoop (encodeVarIntLoop v ++ rest) i x (7 * i) =
      (UInt64.ofNat (x.toNat + v.toNat * 2 ^ (7 * i)),
        (i : Int) + ((encodeVarIntLoop v).length : Int)) := by
  obtain ⟨b, hb1, hb2⟩ := encodeVarIntLoop_cons v hv
  have hi := pow7_le9 _ _ hv hb
  rw [hb1]
  simp only [List.cons_append, uvarintLoop, List.length_cons]
  rw [if_neg (by omega)]
  have hsplit := split128 v.toNat (2 ^ (7 * i))
  by_cases hc : 128 ≤ v.toNat
  · rw [if_pos hc] at hb2
    rw [if_neg (by rw [UInt8.lt_iff_toNat_lt]; simp; omega)]
    have hm : (b &&& 0x7F).toUInt64.toNat = v.toNat % 128 := by
      rw [UInt8.toNat_toUInt64, and7f8_toNat, hb2]; omega
    have hor : (x ||| goShl (b &&& 0x7F).toUInt64 (7 * i)).toNat =
        x.toNat + v.toNat % 128 * 2 ^ (7 * i) := by
      rw [or_goShl_toNat _ _ _ hx (by rw [hm]; omega), hm]
    have hp := pow_succ7 i
    have hmul : v.toNat % 128 * 2 ^ (7 * i) ≤ 127 * 2 ^ (7 * i) :=
      Nat.mul_le_mul_right _ (by omega)
    have := uvarintLoop_encode (v >>> 7) rest (i + 1)
      (x ||| goShl (b &&& 0x7F).toUInt64 (7 * i)) (by rw [shr7]; omega)
      (by rw [hor, hp]; omega) (by rw [shr7, hp]; omega) (by rw [hor, shr7, hp]; omega)
    have e : 7 * i + 7 = 7 * (i + 1) := by omega
    rw [e, this, hor, shr7, hp]
    refine Prod.ext (congrArg UInt64.ofNat ?_) ?_
    · show _ = x.toNat + v.toNat * 2 ^ (7 * i)
      omega
    · show _ = _
      push_cast; omega
  · rw [if_neg hc] at hb2
    have hvb : b.toNat = v.toNat := by omega
    rw [if_pos (by rw [UInt8.lt_iff_toNat_lt]; simp; omega)]
    have hz : encodeVarIntLoop (v >>> 7) = [] := encodeVarIntLoop_zero _ (by rw [shr7]; omega)
    rw [hz]
    have h9 : ¬ (i = 9 ∧ b > 1) := by
      rintro ⟨rfl, hgt⟩
      have : 1 < b.toNat := by
        have := (UInt8.lt_iff_toNat_lt (a := 1) (b := b)).1 hgt; simpa using this
      have : 2 * 2 ^ (7 * 9) ≤ v.toNat * 2 ^ (7 * 9) := Nat.mul_le_mul_right _ (by omega)
      omega
    rw [if_neg h9]
    have hor : (x ||| goShl b.toUInt64 (7 * i)).toNat = x.toNat + v.toNat * 2 ^ (7 * i) := by
      rw [or_goShl_toNat _ _ _ hx (by rw [UInt8.toNat_toUInt64, hvb]; exact hb),
        UInt8.toNat_toUInt64, hvb]
    rw [← hor]; simp
termination_by v.toNat
decreasing_by rw [shr7]; omega

/-- The hand-written decoder reads back what the encoder loop produced. -/
theorem decodeVarIntLoop_encode (v : UInt64) (rest : Bytes) (i : Nat) (x : UInt64)
    (hv : 0 < v.toNat) (hx : x.toNat < 2 ^ (7 * i))
    (hb : v.toNat * 2 ^ (7 * i) < 2 ^ 64) (hs : x.toNat + v.toNat * 2 ^ (7 * i) < 2 ^ 64) :
    decodeVarIntLoop (encodeVarIntLoop v ++ rest) x (7 * i) i =
      (UInt64.ofNat (x.toNat + v.toNat * 2 ^ (7 * i)), i + (encodeVarIntLoop v).length) := by
  obtain ⟨b, hb1, hb2⟩ := encodeVarIntLoop_cons v hv
  have hi := pow7_le9 _ _ hv hb
  rw [hb1]
  simp only [List.cons_append, decodeVarIntLoop, List.length_cons, and80_zero]
  have hsplit := split128 v.toNat (2 ^ (7 * i))
  have hm : (b &&& 0x7F).toUInt64.toNat = v.toNat % 128 := by
    rw [UInt8.toNat_toUInt64, and7f8_toNat, hb2]; split <;> omega
  have hor : (x ||| goShl (b &&& 0x7F).toUInt64 (7 * i)).toNat =
      x.toNat + v.toNat % 128 * 2 ^ (7 * i) := by
    rw [or_goShl_toNat _ _ _ hx (by rw [hm]; omega), hm]
  by_cases hc : 128 ≤ v.toNat
  · rw [if_pos hc] at hb2
    rw [if_neg (by omega)]
    have hp := pow_succ7 i
    have hmul : v.toNat % 128 * 2 ^ (7 * i) ≤ 127 * 2 ^ (7 * i) :=
      Nat.mul_le_mul_right _ (by omega)
    have hi' := pow7_le9 (v.toNat / 128) (i + 1) (by omega) (by rw [hp]; omega)
    rw [if_neg (by omega)]
    have := decodeVarIntLoop_encode (v >>> 7) rest (i + 1)
      (x ||| goShl (b &&& 0x7F).toUInt64 (7 * i)) (by rw [shr7]; omega)
      (by rw [hor, hp]; omega) (by rw [shr7, hp]; omega) (by rw [hor, shr7, hp]; omega)
    have e : 7 * i + 7 = 7 * (i + 1) := by omega
    rw [e, this, hor, shr7, hp]
    refine Prod.ext (congrArg UInt64.ofNat ?_) ?_
    · show _ = x.toNat + v.toNat * 2 ^ (7 * i)
      omega
    · show _ = i + (_ + 1)
      omega
  · rw [if_neg hc] at hb2
    rw [if_pos (by omega)]
    have hz : encodeVarIntLoop (v >>> 7) = [] := encodeVarIntLoop_zero _ (by rw [shr7]; omega)
    rw [hz]
    have : v.toNat % 128 = v.toNat := by omega
    rw [this] at hor
    rw [← hor]; simp
termination_by v.toNat
decreasing_by rw [shr7]; omega

theorem u64_eq_zero (v : UInt64) : v = 0 ↔ v.toNat = 0 := by
  rw [← UInt64.toNat_inj]; simp

/-- `binary.Uvarint` inverts `encodeVarInt`, whatever follows. -/
theorem uvarint_encodeVarInt (v : UInt64) (rest : Bytes) :
    uvarint (encodeVarInt v ++ rest) = (v, ((encodeVarInt v).length : Int)) := by
  unfold uvarint encodeVarInt
  split
  · rename_i h; subst h; rfl
  · rename_i h
    rw [u64_eq_zero] at h
    have := uvarintLoop_encode v rest 0 0 (by omega) (by decide)
      (by simpa using v.toNat_lt) (by simpa using v.toNat_lt)
    simpa using this

/-- The hand-written decoder inverts `encodeVarInt`, whatever follows. -/
theorem decodeVarInt_encodeVarInt (v : UInt64) (rest : Bytes) :
    decodeVarInt (encodeVarInt v ++ rest) = (v, (encodeVarInt v).length) := by
  unfold decodeVarInt encodeVarInt
  split
  · rename_i h; subst h; rfl
  · rename_i h
    rw [u64_eq_zero] at h
    have := decodeVarIntLoop_encode v rest 0 0 (by omega) (by decide)
      (by simpa using v.toNat_lt) (by simpa using v.toNat_lt)
    simpa using this

/-- Length of the encoder loop's output. -/
theorem encodeVarIntLoop_length_le (v : UInt64) (k : Nat) (h : v.toNat < 2 ^ (7 * k)) :
    (encodeVarIntLoop v).length ≤ k := by
  induction k generalizing v with
  | zero => rw [encodeVarIntLoop_zero v (by simp at h; omega)]; simp
  | succ k ih =>
    by_cases hv : 0 < v.toNat
    · obtain ⟨b, hb1, _⟩ := encodeVarIntLoop_cons v hv
      rw [hb1]
      have := ih (v >>> 7) (by rw [shr7]; rw [pow_succ7] at h; omega)
      simp; omega
    · rw [encodeVarIntLoop_zero v (by omega)]; simp

theorem encodeVarIntLoop_length_ge (v : UInt64) (k : Nat) (h : 2 ^ (7 * k) ≤ v.toNat) :
    k + 1 ≤ (encodeVarIntLoop v).length := by
  induction k generalizing v with
  | zero =>
    obtain ⟨b, hb1, _⟩ := encodeVarIntLoop_cons v (by simp at h; omega)
    rw [hb1]; simp
  | succ k ih =>
    obtain ⟨b, hb1, _⟩ := encodeVarIntLoop_cons v (by
      have : 0 < 2 ^ (7 * (k + 1)) := Nat.two_pow_pos _
      omega)
    rw [hb1]
    have := ih (v >>> 7) (by rw [shr7]; rw [pow_succ7] at h; omega)
    simp; omega

theorem encodeVarInt_length_pos (v : UInt64) : 1 ≤ (encodeVarInt v).length := by
  unfold encodeVarInt; split
  · simp
  · rename_i h; rw [u64_eq_zero] at h
    exact encodeVarIntLoop_length_ge v 0 (by simp; omega)

theorem encodeVarInt_length_le (v : UInt64) (k : Nat) (hk : 1 ≤ k) (h : v.toNat < 2 ^ (7 * k)) :
    (encodeVarInt v).length ≤ k := by
  unfold encodeVarInt; split
  · simpa
  · exact encodeVarIntLoop_length_le v k h

theorem encodeVarInt_length_le_10 (v : UInt64) : (encodeVarInt v).length ≤ 10 :=
  encodeVarInt_length_le v 10 (by omega) (Nat.lt_trans v.toNat_lt (by decide))

theorem encodeVarInt_length_ge (v : UInt64) (k : Nat) (h : 2 ^ (7 * k) ≤ v.toNat) :
    k + 1 ≤ (encodeVarInt v).length := by
  unfold encodeVarInt; split
  · rename_i h0; rw [u64_eq_zero] at h0
    have : 0 < 2 ^ (7 * k) := Nat.two_pow_pos _
    omega
  · exact encodeVarIntLoop_length_ge v k h

/-! ### Zigzag -/

theorem zigzag_bv (x : BitVec 64) :
    (((x <<< 1 ^^^ x.sshiftRight 63) >>> 1) ^^^ (-((x <<< 1 ^^^ x.sshiftRight 63) &&& 1#64))) = x := by
  have hneg : (-((x <<< 1 ^^^ x.sshiftRight 63) &&& 1#64)) =
      if x.msb then BitVec.allOnes 64 else 0#64 := by
    have hand : ((x <<< 1 ^^^ x.sshiftRight 63) &&& 1#64) = if x.msb then 1#64 else 0#64 := by
      apply BitVec.eq_of_getLsbD_eq
      intro i hi
      have hm : x.msb = x.getLsbD 63 := by rw [BitVec.msb_eq_getLsbD_last]
      rw [BitVec.getLsbD_and, BitVec.getLsbD_xor, BitVec.getLsbD_shiftLeft, BitVec.getLsbD_sshiftRight,
        hm]
      by_cases h0 : i = 0
      · subst h0; cases x.getLsbD 63 <;> simp
      · have h1 : (1#64).getLsbD i = false := by simp [BitVec.getLsbD_one, h0]
        rw [h1]; cases x.getLsbD 63 <;> simp [BitVec.getLsbD_one, h0]
    rw [hand]; cases x.msb <;> rfl
  rw [hneg]
  apply BitVec.eq_of_getLsbD_eq
  intro i hi
  have hm : x.msb = x.getLsbD 63 := by rw [BitVec.msb_eq_getLsbD_last]
  rw [BitVec.getLsbD_xor, BitVec.getLsbD_ushiftRight, BitVec.getLsbD_xor, BitVec.getLsbD_shiftLeft,
    BitVec.getLsbD_sshiftRight]
  by_cases h63 : i = 63
  · subst h63; rw [hm]; cases h : x.getLsbD 63 <;> simp
  · have hlt : 1 + i < 64 := by omega
    have e1 : decide (64 ≤ 1 + i) = false := by simp; omega
    have e2 : decide (1 + i < 64) = true := by simp; omega
    have e3 : decide (1 + i < 1) = false := by simp
    have e4 : 1 + i - 1 = i := by omega
    rw [e1, e2, e3, e4]
    by_cases hi0 : 63 + (1 + i) < 64
    · omega
    · rw [if_neg hi0]
      cases hmx : x.msb
      · simp
      · simp only [↓reduceIte, BitVec.getLsbD_allOnes, hi, decide_true, Bool.not_false,
          Bool.true_and]
        cases x.getLsbD i <;> rfl

/-- Zigzag decoding inverts zigzag encoding. -/
theorem unzigzag_zigzag (v : Int64) : unzigzag (zigzag v) = v := by
  have := zigzag_bv v.toBitVec
  apply Int64.toBitVec_inj.1
  exact this

/-- `decodeSignedVarInt` inverts `encodeSignedVarInt`, whatever follows. -/
theorem decodeSignedVarInt_encode (v : Int64) (rest : Bytes) :
    decodeSignedVarInt (encodeSignedVarInt v ++ rest) = (v, (encodeSignedVarInt v).length) := by
  unfold decodeSignedVarInt encodeSignedVarInt
  rw [decodeVarInt_encodeVarInt]
  simp [unzigzag_zigzag]

/-! ### Delta coding -/

theorem deltaDecodeFrom_encode (p : UInt64) (l : List UInt64) :
    deltaDecodeFrom p (deltaEncodeFrom p l) = l := by
  induction l generalizing p with
  | nil => rfl
  | cons v vs ih => simp [deltaEncodeFrom, deltaDecodeFrom, UInt64.sub_add_cancel, ih]

theorem deltaDecode_deltaEncode (l : List UInt64) : deltaDecode (deltaEncode l) = l := by
  cases l with
  | nil => rfl
  | cons v vs => simp [deltaEncode, deltaDecode, deltaDecodeFrom_encode]

theorem deltaDecodeInt64From_encode (p : Int64) (l : List Int64) :
    deltaDecodeInt64From p (deltaEncodeInt64From p l) = l := by
  induction l generalizing p with
  | nil => rfl
  | cons v vs ih => simp [deltaEncodeInt64From, deltaDecodeInt64From, Int64.sub_add_cancel, ih]

theorem deltaDecodeInt64_deltaEncodeInt64 (l : List Int64) :
    deltaDecodeInt64 (deltaEncodeInt64 l) = l := by
  cases l with
  | nil => rfl
  | cons v vs => simp [deltaEncodeInt64, deltaDecodeInt64, deltaDecodeInt64From_encode]

@[simp] theorem deltaEncodeFrom_length (p : UInt64) (l : List UInt64) :
    (deltaEncodeFrom p l).length = l.length := by
  induction l generalizing p with
  | nil => rfl
  | cons v vs ih => simp [deltaEncodeFrom, ih]

@[simp] theorem deltaEncode_length (l : List UInt64) : (deltaEncode l).length = l.length := by
  cases l <;> simp [deltaEncode]

@[simp] theorem deltaEncodeInt64From_length (p : Int64) (l : List Int64) :
    (deltaEncodeInt64From p l).length = l.length := by
  induction l generalizing p with
  | nil => rfl
  | cons v vs ih => simp [deltaEncodeInt64From, ih]

@[simp] theorem deltaEncodeInt64_length (l : List Int64) :
    (deltaEncodeInt64 l).length = l.length := by
  cases l <;> simp [deltaEncodeInt64]

end VibeCol
