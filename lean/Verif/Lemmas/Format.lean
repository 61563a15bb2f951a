/-
The bytes written by the model are those of the documented format.
-/
import Verif.Spec.Format
import Verif.Lemmas.FileOK
import Verif.Lemmas.Stats
import Verif.Lemmas.Finalize
namespace VibeCol

/-! ### Numbers -/

theorem num_eq (k n : Nat) : Doc.num k n = natToLE k n := by
  induction k generalizing n with
  | zero => rfl
  | succ k ih => rw [Doc.num, natToLE, ih]

theorem natToLE_mod (k n : Nat) : natToLE k (n % 256 ^ k) = natToLE k n := by
  induction k generalizing n with
  | zero => rfl
  | succ k ih =>
    have hp : 256 ^ (k + 1) = 256 * 256 ^ k := by rw [Nat.pow_succ, Nat.mul_comm]
    rw [natToLE, natToLE, hp, Nat.mod_mul_right_mod, Nat.mod_mul_right_div_self, ih]

@[simp] theorem num_length (k n : Nat) : (Doc.num k n).length = k := by rw [num_eq, natToLE_length]

theorem num_le64 (x : UInt64) : le64 x = Doc.num 8 x.toNat := by rw [num_eq]; rfl
theorem num_le32 (x : UInt32) : le32 x = Doc.num 4 x.toNat := by rw [num_eq]; rfl
theorem num_ofNat64 (n : Nat) : le64 (UInt64.ofNat n) = Doc.num 8 n := by
  rw [num_le64, num_eq, num_eq, UInt64.toNat_ofNat', ← natToLE_mod 8 n]
theorem num_ofNat32 (n : Nat) : le32 (UInt32.ofNat n) = Doc.num 4 n := by
  rw [num_le32, num_eq, num_eq, UInt32.toNat_ofNat', ← natToLE_mod 4 n]

theorem i64_toUInt64_toNat (v : Int64) : v.toUInt64.toNat = Doc.wrapU v.toInt := by
  have h : (v.toUInt64.toNat : Int) = v.toInt % 2 ^ 64 := by
    have h1 : v.toInt = (v.toUInt64.toNat : Int).bmod (2 ^ 64) := by
      show BitVec.toInt _ = _
      rw [BitVec.toInt_eq_toNat_bmod]; rfl
    have h2 := v.toUInt64.toNat_lt
    rw [h1, Int.bmod_def]
    omega
  unfold Doc.wrapU
  omega

theorem num_leI64 (v : Int64) : leI64 v = Doc.num 8 (Doc.wrapU v.toInt) := by
  rw [← i64_toUInt64_toNat, ← num_le64]; rfl

/-! ### Variable-length numbers -/

theorem encodeVarIntLoop_doc (v : UInt64) (h : 0 < v.toNat) : encodeVarIntLoop v = Doc.varint v.toNat := by
  obtain ⟨n, hn⟩ : ∃ n, v.toNat = n := ⟨_, rfl⟩
  induction n using Nat.strongRecOn generalizing v with
  | ind n ih =>
    obtain ⟨b, h1, h2⟩ := encodeVarIntLoop_cons v h
    rw [h1, Doc.varint]
    by_cases hc : v.toNat < 128
    · rw [if_pos hc, encodeVarIntLoop_zero _ (by rw [shr7]; omega)]
      rw [if_neg (by omega)] at h2
      congr 1
      apply UInt8.toNat_inj.1
      rw [UInt8.toNat_ofNat', h2]; omega
    · rw [if_neg hc, ih (v >>> 7).toNat (by rw [shr7]; omega) _ (by rw [shr7]; omega) rfl, shr7]
      rw [if_pos (by omega)] at h2
      congr 1
      apply UInt8.toNat_inj.1
      rw [UInt8.toNat_ofNat', h2]; omega

theorem encodeVarInt_doc (v : UInt64) : encodeVarInt v = Doc.varint v.toNat := by
  unfold encodeVarInt
  split
  · rename_i h; subst h; rw [Doc.varint]; rfl
  · rename_i h
    rw [u64_eq_zero] at h
    exact encodeVarIntLoop_doc v (by omega)

theorem zigzag_split (x : BitVec 64) :
    (x <<< 1 ^^^ x.sshiftRight 63) = if x.msb then ~~~(x <<< 1) else x <<< 1 := by
  apply BitVec.eq_of_getLsbD_eq
  intro i hi
  have hm : x.msb = x.getLsbD 63 := by rw [BitVec.msb_eq_getLsbD_last]
  rw [BitVec.getLsbD_xor, BitVec.getLsbD_sshiftRight]
  have hs : (decide (64 ≤ i)) = false := by simp; omega
  have hv : (if 63 + i < 64 then x.getLsbD (63 + i) else x.msb) = x.msb := by
    split
    · have : i = 0 := by omega
      subst this; rw [hm]
    · rfl
  rw [hs, hv]
  cases hx : x.msb <;> simp [hi]

theorem zigzag_doc (v : Int64) : (zigzag v).toNat = Doc.zigzag v.toInt := by
  have h1 : (zigzag v).toNat = (v.toBitVec <<< 1 ^^^ v.toBitVec.sshiftRight 63).toNat := rfl
  rw [h1, zigzag_split]
  have hti : v.toInt = v.toBitVec.toInt := rfl
  rw [hti]
  generalize v.toBitVec = x
  have hx := x.isLt
  have hsh : (x <<< 1).toNat = 2 * x.toNat % 2 ^ 64 := by
    rw [BitVec.toNat_shiftLeft, Nat.shiftLeft_eq]; omega
  have hmi := BitVec.msb_eq_decide x
  unfold Doc.zigzag
  have hti := BitVec.toInt_eq_toNat_bmod x
  rw [Int.bmod_def] at hti
  by_cases hm : x.msb = true
  · rw [if_pos hm, BitVec.toNat_not, hsh]
    rw [hm] at hmi
    have hge : 2 ^ 63 ≤ x.toNat := by simpa using hmi.symm
    rw [if_neg (by omega)]
    omega
  · rw [if_neg hm, hsh]
    have hlt : x.toNat < 2 ^ 63 := by
      simp only [Bool.not_eq_true] at hm
      rw [hm] at hmi
      simpa using hmi.symm
    rw [if_pos (by omega)]
    omega

theorem encodeSignedVarInt_doc (v : Int64) : encodeSignedVarInt v = Doc.varint (Doc.zigzag v.toInt) := by
  unfold encodeSignedVarInt
  rw [encodeVarInt_doc, zigzag_doc]

/-! ### Differences -/

theorem u64_sub_wrap (a b : UInt64) : (b - a).toNat = Doc.wrapU ((b.toNat : Int) - a.toNat) := by
  have ha := a.toNat_lt
  have hb := b.toNat_lt
  rw [UInt64.toNat_sub, Doc.wrapU]
  omega

theorem u64_wrap (a : UInt64) : a.toNat = Doc.wrapU (a.toNat : Int) := by
  have ha := a.toNat_lt
  rw [Doc.wrapU]; omega

theorem i64_wrap (a : Int64) : a.toInt = Doc.wrapS a.toInt := by
  have h1 := i64_lo a
  have h2 := i64_hi a
  rw [Doc.wrapS]; omega

theorem i64_sub_wrap (a b : Int64) : (b - a).toInt = Doc.wrapS (b.toInt - a.toInt) := by
  rw [Int64.toInt_sub, Int.bmod_def, Doc.wrapS]
  have h1 := i64_lo a
  have h2 := i64_hi a
  have h3 := i64_lo b
  have h4 := i64_hi b
  omega

theorem deltaEncodeFrom_doc (p : UInt64) (l : List UInt64) : (deltaEncodeFrom p l).map UInt64.toNat =
    (List.zipWith (fun a b => b - a) (((p :: l).map UInt64.toNat).map Int.ofNat) ((l.map UInt64.toNat).map Int.ofNat)).map
      Doc.wrapU := by
  induction l generalizing p with
  | nil => rfl
  | cons v vs ih =>
    simp only [deltaEncodeFrom, List.map_cons, List.zipWith_cons_cons]
    rw [ih v, u64_sub_wrap]
    rfl

theorem deltaEncode_doc (l : List UInt64) : (deltaEncode l).map UInt64.toNat =
    (Doc.deltas ((l.map UInt64.toNat).map Int.ofNat)).map Doc.wrapU := by
  cases l with
  | nil => rfl
  | cons v vs =>
    simp only [deltaEncode, List.map_cons, Doc.deltas]
    rw [deltaEncodeFrom_doc]
    congr 1
    exact u64_wrap v

theorem deltaEncodeInt64From_doc (p : Int64) (l : List Int64) : (deltaEncodeInt64From p l).map Int64.toInt =
    (List.zipWith (fun a b => b - a) ((p :: l).map Int64.toInt) (l.map Int64.toInt)).map Doc.wrapS := by
  induction l generalizing p with
  | nil => rfl
  | cons v vs ih =>
    simp only [deltaEncodeInt64From, List.map_cons, List.zipWith_cons_cons]
    rw [ih v, i64_sub_wrap]
    rfl

theorem deltaEncodeInt64_doc (l : List Int64) : (deltaEncodeInt64 l).map Int64.toInt =
    (Doc.deltas (l.map Int64.toInt)).map Doc.wrapS := by
  cases l with
  | nil => rfl
  | cons v vs =>
    simp only [deltaEncodeInt64, List.map_cons, Doc.deltas]
    rw [deltaEncodeInt64From_doc]
    congr 1
    exact i64_wrap v

/-! ### Sections -/

theorem SymEnc.regular {e : UInt32} (h : SymEnc e) : RegularEnc e := by
  rcases h with h | h | h | h <;> subst h <;> simp [RegularEnc]

theorem RegularEnc.flags {e : UInt32} (h : RegularEnc e) :
    deltaEnc e = Doc.isDelta e.toNat ∧ useVarIntForIDs e = Doc.isVarint e.toNat ∧
    useVarIntForValues e = Doc.isVarint e.toNat := by
  rcases h with h | h | h | h | h | h <;> subst h <;> decide

theorem flatten_map_map {α β : Type} (f : α → β) (g : β → Bytes) (l : List α) :
    (l.map fun x => g (f x)).flatten = (l.map f).flatMap g := by
  rw [List.flatMap_def, List.map_map]; rfl

theorem idSection_doc {e : UInt32} (h : RegularEnc e) (ids : List UInt64) :
    idSection e ids = Doc.idData e.toNat (ids.map UInt64.toNat) := by
  obtain ⟨h1, h2, _⟩ := h.flags
  unfold idSection encIDs Doc.idData
  rw [h1, h2]
  have key : (if Doc.isDelta e.toNat then (Doc.deltas ((ids.map UInt64.toNat).map Int.ofNat)).map Doc.wrapU
      else ids.map UInt64.toNat) = (if Doc.isDelta e.toNat then deltaEncode ids else ids).map UInt64.toNat := by
    split
    · rw [deltaEncode_doc]
    · rfl
  dsimp only
  rw [key]
  generalize (if Doc.isDelta e.toNat then deltaEncode ids else ids) = xs
  rw [← flatten_map_map]
  cases Doc.isVarint e.toNat
  · simp only [Bool.false_eq_true, if_false]
    exact congrArg List.flatten (List.map_congr_left fun x _ => num_le64 x)
  · simp only [if_true]
    exact congrArg List.flatten (List.map_congr_left fun x _ => encodeVarInt_doc x)

theorem valSection_doc {e : UInt32} (h : RegularEnc e) (vals : List Int64) :
    valSection e vals = Doc.valueData e.toNat (vals.map Int64.toInt) := by
  obtain ⟨h1, _, h2⟩ := h.flags
  unfold valSection encVals Doc.valueData
  rw [h1, h2]
  have key : (if Doc.isDelta e.toNat then (Doc.deltas (vals.map Int64.toInt)).map Doc.wrapS
      else vals.map Int64.toInt) = (if Doc.isDelta e.toNat then deltaEncodeInt64 vals else vals).map Int64.toInt := by
    split
    · rw [deltaEncodeInt64_doc]
    · rfl
  dsimp only
  rw [key]
  generalize (if Doc.isDelta e.toNat then deltaEncodeInt64 vals else vals) = xs
  rw [← flatten_map_map]
  cases Doc.isVarint e.toNat
  · simp only [Bool.false_eq_true, if_false]
    exact congrArg List.flatten (List.map_congr_left fun x _ => num_leI64 x)
  · simp only [if_true]
    exact congrArg List.flatten (List.map_congr_left fun x _ => encodeSignedVarInt_doc x)

/-! ### Statistics -/

theorem int64ToUint64_doc (v : Int64) : (int64ToUint64 v).toNat = Doc.signMagnitude v.toInt := by
  have hlo := i64_lo v
  have hhi := i64_hi v
  unfold int64ToUint64 Doc.signMagnitude
  by_cases hv : v ≥ 0
  · have h0 : 0 ≤ v.toInt := by have := (i64_le 0 v).1 hv; simpa using this
    rw [if_pos hv, if_pos h0, i64_toUInt64_nonneg v h0]
  · have h0 : v.toInt < 0 := by
      have h' : ¬ (0 : Int64) ≤ v := hv
      rw [i64_le] at h'
      simpa using h'
    rw [if_neg hv, if_neg (by omega), int64_neg_lnot, one_shl_63]
    by_cases hm : v.toInt = -9223372036854775808
    · have : v = minInt64Value := i64_ext (by rw [hm]; rfl)
      subst this
      decide
    · have hneg : (-v).toInt = - v.toInt := by
        rw [Int64.toInt_neg, Int.bmod_eq_of_le] <;> omega
      have hn := i64_toUInt64_nonneg (-v) (by omega)
      rw [low_or_63 _ (by omega), hn, hneg]
      omega

theorem min_nat_doc (l : List UInt64) (h : l ≠ []) :
    (calculateMinMaxUint64 l).1.toNat = (l.map UInt64.toNat).min?.getD 0 ∧
    (calculateMinMaxUint64 l).2.toNat = (l.map UInt64.toNat).max?.getD 0 := by
  obtain ⟨h1, h2, h3⟩ := minMaxUint64_spec l h
  have e1 : (l.map UInt64.toNat).min? = some (calculateMinMaxUint64 l).1.toNat := by
    rw [List.min?_eq_some_iff]
    refine ⟨List.mem_map_of_mem h1, fun b hb => ?_⟩
    obtain ⟨x, hx, rfl⟩ := List.mem_map.1 hb
    exact UInt64.le_iff_toNat_le.1 (h3 x hx).1
  have e2 : (l.map UInt64.toNat).max? = some (calculateMinMaxUint64 l).2.toNat := by
    rw [List.max?_eq_some_iff]
    refine ⟨List.mem_map_of_mem h2, fun b hb => ?_⟩
    obtain ⟨x, hx, rfl⟩ := List.mem_map.1 hb
    exact UInt64.le_iff_toNat_le.1 (h3 x hx).2
  rw [e1, e2]; exact ⟨rfl, rfl⟩

theorem min_int_doc (l : List Int64) (h : l ≠ []) :
    (calculateMinMaxInt64 l).1.toInt = (l.map Int64.toInt).min?.getD 0 ∧
    (calculateMinMaxInt64 l).2.toInt = (l.map Int64.toInt).max?.getD 0 := by
  obtain ⟨h1, h2, h3⟩ := minMaxInt64_spec l h
  have e1 : (l.map Int64.toInt).min? = some (calculateMinMaxInt64 l).1.toInt := by
    rw [List.min?_eq_some_iff]
    refine ⟨List.mem_map_of_mem h1, fun b hb => ?_⟩
    obtain ⟨x, hx, rfl⟩ := List.mem_map.1 hb
    exact (i64_le _ _).1 (h3 x hx).1
  have e2 : (l.map Int64.toInt).max? = some (calculateMinMaxInt64 l).2.toInt := by
    rw [List.max?_eq_some_iff]
    refine ⟨List.mem_map_of_mem h2, fun b hb => ?_⟩
    obtain ⟨x, hx, rfl⟩ := List.mem_map.1 hb
    exact (i64_le _ _).1 (h3 x hx).2
  rw [e1, e2]; exact ⟨rfl, rfl⟩

theorem sum_doc (l : List Int64) : (calculateSumInt64 l).toInt = Doc.wrapS (l.map Int64.toInt).sum := by
  rw [calculateSumInt64_spec, Int64.toInt_ofInt, Int.bmod_def, Doc.wrapS]
  show _ = ((l.map Int64.toInt).sum + _) % _ - _
  unfold intSum
  have hsz : (Int64.size : Int) = 18446744073709551616 := rfl
  rw [hsz]
  omega

theorem stats_doc (ids : List UInt64) (vals : List Int64) (h1 : ids ≠ []) (h2 : vals ≠ []) :
    [le64 (statsOf ids vals).minID, le64 (statsOf ids vals).maxID, le64 (int64ToUint64 (statsOf ids vals).minValue),
      le64 (int64ToUint64 (statsOf ids vals).maxValue), le64 (int64ToUint64 (statsOf ids vals).sum),
      le32 (statsOf ids vals).count].flatten = Doc.stats (ids.map UInt64.toNat) (vals.map Int64.toInt) := by
  unfold Doc.stats statsOf
  obtain ⟨e1, e2⟩ := min_nat_doc ids h1
  obtain ⟨e3, e4⟩ := min_int_doc vals h2
  simp only [num_le64, int64ToUint64_doc, e1, e2, e3, e4, sum_doc, num_ofNat32, List.length_map]
  simp [List.flatten]

theorem image_doc {e : UInt32} (he : RegularEnc e) (ids : List UInt64) (vals : List Int64) (h1 : ids ≠ []) (h2 : vals ≠ [])
    (hm : SectionsMatch e ids vals) :
    image e ids vals = Doc.block e.toNat (ids.map UInt64.toNat) (vals.map Int64.toInt) := by
  have hs := stats_doc ids vals h1 h2
  unfold image layoutBytes Doc.block
  rw [← hm.1, ← hm.2, idSection_doc he, valSection_doc he, ← hs]
  have h0 : le32 0 = Doc.num 4 0 := by rw [num_le32]; rfl
  simp only [header52, num_ofNat32, h0, num_le32 e, show le32 compressionNone = Doc.num 4 0 from h0]
  simp [List.flatten, List.append_assoc]

theorem pageFill_eq (pos : Nat) : Doc.pageFill pos = List.replicate (calculatePadding pos pageSize) 0 := by
  unfold Doc.pageFill calculatePadding pageSize
  congr 1
  split <;> omega

theorem padded_doc {e : UInt32} (he : RegularEnc e) (off : Nat) (ids : List UInt64) (vals : List Int64) (h1 : ids ≠ [])
    (h2 : vals ≠ []) (hm : SectionsMatch e ids vals) :
    padded off (image e ids vals) = Doc.block e.toNat (ids.map UInt64.toNat) (vals.map Int64.toInt) ++
      Doc.pageFill (off + (Doc.block e.toNat (ids.map UInt64.toNat) (vals.map Int64.toInt)).length) := by
  unfold padded
  rw [image_doc he ids vals h1 h2 hm, pageFill_eq]

theorem entry_doc {e : UInt32} (b : Blk) (h : b.OK e) :
    entryBytes (b.entry e) = Doc.entry b.off (b.size e) (b.ids.map UInt64.toNat) (b.vals.map Int64.toInt) := by
  have h1 : b.ids ≠ [] := List.ne_nil_of_length_pos h.ne
  have h2 : b.vals ≠ [] := List.ne_nil_of_length_pos (by have := h.len; have := h.ne; omega)
  unfold Doc.entry
  rw [← stats_doc b.ids b.vals h1 h2]
  simp only [entryBytes, Blk.entry, entryOf, newFooterEntry, FooterEntry.fields, num_ofNat64, num_ofNat32]
  simp [List.flatten, List.append_assoc]

end VibeCol
