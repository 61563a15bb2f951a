/-
C26, C30, C31, C38: readers on arbitrary byte strings.
-/
import Verif.Lemmas.Ints
import Verif.Lemmas.FileOK
import Verif.Lemmas.Par
namespace VibeCol
variable {B : Type}

/-! ### Helpers -/

theorem Res.bind_ok {α β : Type} {x : Res α} {f : α → Res β} {b : β} (h : (x >>= f) = .ok b) :
    ∃ a, x = .ok a ∧ f a = .ok b := by
  cases x with
  | ok a => exact ⟨a, rfl, h⟩
  | err e => cases h
  | panic => cases h

theorem Res.bind_panic {α β : Type} {x : Res α} {f : α → Res β} (h : (x >>= f) = .panic) :
    x = .panic ∨ ∃ a, x = .ok a ∧ f a = .panic := by
  cases x with
  | ok a => exact .inr ⟨a, rfl, h⟩
  | err e => cases h
  | panic => exact .inl rfl

theorem readBytesAt_panic {file : Bytes} {o n : Int64} : readBytesAt file o n = .panic ↔ n < 0 := by
  unfold readBytesAt
  split
  · simp_all
  · split
    · simp_all
    · simp_all

/-- What `readBytesAt` returns when it succeeds. -/
theorem readBytesAt_eq {file buf : Bytes} {o n : Int64} (h : readBytesAt file o n = .ok buf) :
    0 ≤ o.toInt ∧ 0 ≤ n.toInt ∧ buf.length = n.toInt.toNat ∧
      buf = slice file o.toInt.toNat n.toInt.toNat ++
        List.replicate (n.toInt.toNat - (slice file o.toInt.toNat n.toInt.toNat).length) 0 := by
  unfold readBytesAt at h
  split at h
  · cases h
  split at h
  · cases h
  rename_i h1 h2
  rw [Int64.lt_iff_toInt_lt] at h1 h2
  have hz : (0 : Int64).toInt = 0 := by decide
  rw [hz] at h1 h2
  simp only [Res.ok.injEq] at h
  subst h
  refine ⟨by omega, by omega, ?_, rfl⟩
  simp only [List.length_append, List.length_replicate, List.length_take, List.length_drop]
  omega

theorem rd64_slice (b : Bytes) (off : Nat) (h : off + 8 ≤ b.length) : slice b off 8 = le64 (rd64 b off) := by
  have hl := slice_length b off 8 h
  have h1 := natToLE_leToNat (slice b off 8)
  have h2 := leToNat_lt (slice b off 8)
  rw [hl] at h1 h2
  unfold le64 rd64
  rw [show ((b.drop off).take 8) = slice b off 8 from rfl]
  rw [UInt64.toNat_ofNat_of_lt' (by omega), h1]

theorem rd32_slice (b : Bytes) (off : Nat) (h : off + 4 ≤ b.length) : slice b off 4 = le32 (rd32 b off) := by
  have hl := slice_length b off 4 h
  have h1 := natToLE_leToNat (slice b off 4)
  have h2 := leToNat_lt (slice b off 4)
  rw [hl] at h1 h2
  unfold le32 rd32
  rw [show ((b.drop off).take 4) = slice b off 4 from rfl]
  rw [UInt32.toNat_ofNat_of_lt' (by omega), h1]

/-! ### C26 -/

/-- What a successful `readHeader` has checked. -/
theorem readHeader_checked {file : Bytes} {h : FileHeader} (hr : readHeader file = .ok h) (hlen : 12 ≤ file.length) :
    file.take 8 = le64 magicNumber ∧ slice file 8 4 = le32 1 := by
  unfold readHeader at hr
  obtain ⟨buf, hb, hr⟩ := Res.bind_ok hr
  obtain ⟨_, _, hbl, hbuf⟩ := readBytesAt_eq hb
  have h64 : (Int64.ofNat headerSize).toInt.toNat = 64 := by decide
  have h0 : (0 : Int64).toInt.toNat = 0 := by decide
  rw [h64] at hbl hbuf
  rw [h0] at hbuf
  dsimp only at hr
  split at hr
  · cases hr
  split at hr
  · cases hr
  rename_i h1 h2
  have hm : rd64 buf 0 = magicNumber := Decidable.not_not.1 h1
  have hv : rd32 buf 8 = version := Decidable.not_not.1 h2
  have hs : ∀ o n, o + n ≤ 12 → slice buf o n = slice file o n := by
    intro o n hon
    rw [hbuf, slice_append_left _ _ _ _ (by simp only [slice, List.length_take, List.length_drop]; omega),
      slice_slice _ _ _ _ _ (by omega), Nat.zero_add]
  refine ⟨?_, ?_⟩
  · rw [← slice_zero_take, ← hs 0 8 (by omega), rd64_slice _ _ (by omega), hm]
  · rw [← hs 8 4 (by omega), rd32_slice _ _ (by omega), hv]; rfl

/-- What a successful `readFooter` has checked. -/
theorem readFooter_checked {file : Bytes} {h : FileHeader} {x} (hsmall : file.length < 2 ^ 63)
    (hr : readFooter file h = .ok x) :
    24 ≤ file.length ∧ file.drop (file.length - 8) = le64 magicNumber := by
  unfold readFooter at hr
  dsimp only at hr
  split at hr
  · cases hr
  rename_i h1
  rw [show (24 : Int64) = Int64.ofNat 24 from rfl, int64_ofNat_lt _ _ hsmall (by omega)] at h1
  have h24 : 24 ≤ file.length := by omega
  refine ⟨h24, ?_⟩
  obtain ⟨buf, hb, hr⟩ := Res.bind_ok hr
  rw [show (24 : Int64) = Int64.ofNat 24 from rfl, int64_ofNat_sub _ _ h24 hsmall,
    readBytesAt_ok _ _ _ (by omega) hsmall] at hb
  cases hb
  split at hr
  · cases hr
  rename_i h2
  have hm : rd64 (slice file (file.length - 24) 24) 16 = magicNumber := Decidable.not_not.1 h2
  have hl := slice_length file (file.length - 24) 24 (by omega)
  have := rd64_slice (slice file (file.length - 24) 24) 16 (by omega)
  rw [hm, slice_slice _ _ _ _ _ (by omega), show file.length - 24 + 16 = file.length - 8 by omega] at this
  rw [← this, slice, List.take_of_length_le (by rw [List.length_drop]; omega)]

/-- **C26.** If `NewReader` accepts a file (of any contents), then the file has at least 24
bytes, it starts with the magic number and the version 1, and it ends with the magic number. -/
theorem C26_validation (file : Bytes) (hsmall : file.length < 2 ^ 63) (r : Reader B) (hr : newReader file = .ok r) :
    24 ≤ file.length ∧ file.take 8 = le64 magicNumber ∧ (file.drop 8).take 4 = le32 1 ∧
      file.drop (file.length - 8) = le64 magicNumber := by
  unfold newReader at hr
  obtain ⟨h, h1, hr⟩ := Res.bind_ok hr
  obtain ⟨x, h2, hr⟩ := Res.bind_ok hr
  obtain ⟨h3, h4⟩ := readFooter_checked hsmall h2
  obtain ⟨h5, h6⟩ := readHeader_checked h1 (by omega)
  exact ⟨h3, h5, h6, h4⟩

/-- A file that is not a column file is rejected with an error, not with a panic: see
`C31_newReader`. The contrapositive of C26 in the form used for C27. -/
theorem C26_rejected (file : Bytes) (hsmall : file.length < 2 ^ 63)
    (h : file.drop (file.length - 8) ≠ le64 magicNumber) (r : Reader B) : newReader file ≠ .ok r :=
  fun hr => h (C26_validation file hsmall r hr).2.2.2

/-! ### C31 -/

theorem readHeader_no_panic (file : Bytes) : readHeader file ≠ .panic := by
  intro h
  unfold readHeader at h
  rcases Res.bind_panic h with h | ⟨buf, _, h⟩
  · rw [readBytesAt_panic] at h; revert h; decide
  · dsimp only at h
    split at h
    · cases h
    · split at h <;> cases h

theorem count56_nonneg (n : UInt32) : ¬ Int64.ofNat (n.toNat * 56) < 0 := by
  have := n.toNat_lt
  exact int64_ofNat_not_neg _ (by omega)

theorem readFooter_no_panic (file : Bytes) (h : FileHeader) : readFooter file h ≠ .panic := by
  intro hp
  unfold readFooter at hp
  dsimp only at hp
  split at hp
  · cases hp
  rcases Res.bind_panic hp with hp | ⟨buf, _, hp⟩
  · rw [readBytesAt_panic] at hp; revert hp; decide
  split at hp
  · cases hp
  split at hp
  · cases hp
  rcases Res.bind_panic hp with hp | ⟨buf2, _, hp⟩
  · rw [readBytesAt_panic] at hp; revert hp; decide
  rcases Res.bind_panic hp with hp | ⟨buf3, _, hp⟩
  · rw [readBytesAt_panic] at hp; exact count56_nonneg _ hp
  cases hp

/-- **C31.** `NewReader` does not panic, whatever the file contains. -/
theorem C31_newReader (file : Bytes) : (newReader file : Res (Reader B)) ≠ .panic := by
  intro h
  unfold newReader at h
  rcases Res.bind_panic h with h | ⟨x, _, h⟩
  · exact readHeader_no_panic file h
  rcases Res.bind_panic h with h | ⟨x, _, h⟩
  · exact readFooter_no_panic _ _ h
  cases h

/-- **C31, index parsing.** The model reads the index entries with total functions; this is
justified because every slice the code takes is in range: the `n` entries occupy `56*n` bytes,
and the (wrapping, 32-bit) offset of each field plus its width is within them. -/
theorem C31_index_in_range (n i off width : UInt32) (hi : i < n) (ho : off.toNat + width.toNat ≤ 56) :
    (i * 56 + off).toNat + width.toNat ≤ n.toNat * 56 := by
  have hi' : i.toNat < n.toNat := UInt32.lt_iff_toNat_lt.1 hi
  rw [UInt32.toNat_add, UInt32.toNat_mul]
  have h1 : (i.toNat * (56 : UInt32).toNat % 2 ^ 32 + off.toNat) % 2 ^ 32 ≤ i.toNat * 56 + off.toNat := by
    refine Nat.le_trans (Nat.mod_le _ _) ?_
    exact Nat.add_le_add_right (Nat.mod_le _ _) _
  omega

/-- Decoding does not panic. -/
theorem decodeUVarIntsLoop_no_panic (k i : Nat) (buf : Bytes) : decodeUVarIntsLoop k i buf ≠ .panic := by
  induction k generalizing i buf with
  | zero => intro h; cases h
  | succ k ih =>
    intro h
    cases buf with
    | nil => cases h
    | cons b bs =>
      unfold decodeUVarIntsLoop at h
      dsimp only at h
      split at h
      · split at h <;> cases h
      · rcases Res.bind_panic h with h | ⟨x, _, h⟩
        · exact ih _ _ h
        · cases h

@[simp] theorem deltaDecodeFrom_length (p : UInt64) (l : List UInt64) : (deltaDecodeFrom p l).length = l.length := by
  induction l generalizing p with
  | nil => rfl
  | cons d ds ih => simp [deltaDecodeFrom, ih]

@[simp] theorem deltaDecode_length (l : List UInt64) : (deltaDecode l).length = l.length := by
  cases l <;> simp [deltaDecode]

@[simp] theorem deltaDecodeInt64From_length (p : Int64) (l : List Int64) : (deltaDecodeInt64From p l).length = l.length := by
  induction l generalizing p with
  | nil => rfl
  | cons d ds ih => simp [deltaDecodeInt64From, ih]

@[simp] theorem deltaDecodeInt64_length (l : List Int64) : (deltaDecodeInt64 l).length = l.length := by
  cases l <;> simp [deltaDecodeInt64]

/-- The last step of `decodeBlockData`. -/
theorem undelta (e : UInt32) (ids : List UInt64) (vals : List Int64) :
    ∃ is vs, (if e = encDeltaBoth ∨ e = encVarIntBoth then Res.ok (deltaDecode ids, deltaDecodeInt64 vals)
      else if e = encDeltaID ∨ e = encVarIntID then Res.ok (deltaDecode ids, vals)
      else if e = encDeltaValue ∨ e = encVarIntValue then Res.ok (ids, deltaDecodeInt64 vals)
      else Res.ok (ids, vals)) = .ok (is, vs) ∧ is.length = ids.length ∧ vs.length = vals.length := by
  split
  · exact ⟨_, _, rfl, by simp, by simp⟩
  split
  · exact ⟨_, _, rfl, by simp, by simp⟩
  split
  · exact ⟨_, _, rfl, by simp, by simp⟩
  · exact ⟨_, _, rfl, by simp, by simp⟩

theorem decodeUVarIntsLoop_length (k i : Nat) (buf : Bytes) {vs early} (h : decodeUVarIntsLoop k i buf = .ok (vs, early)) :
    vs.length ≤ k := by
  induction k generalizing i buf vs early with
  | zero => cases h; simp
  | succ k ih =>
    cases buf with
    | nil => cases h; simp
    | cons b bs =>
      unfold decodeUVarIntsLoop at h
      dsimp only at h
      split at h
      · split at h <;> cases h
        simp
      · obtain ⟨⟨ws, e'⟩, h1, h2⟩ := Res.bind_ok h
        have := ih _ _ h1
        cases h2
        simp only [List.length_cons]; omega

theorem decodeUVarInts_length {buf : Bytes} {count : Nat} {ids} (h : decodeUVarInts buf count = .ok ids) : ids.length ≤ count := by
  unfold decodeUVarInts at h
  obtain ⟨⟨vs, early⟩, h1, h2⟩ := Res.bind_ok h
  have := decodeUVarIntsLoop_length _ _ _ h1
  dsimp only at h2
  split at h2
  · cases h2; exact this
  · cases h2; simp only [List.length_append, List.length_map, List.length_range]; omega

theorem decodeValuesLoop_length (k i : Nat) (buf : Bytes) : (decodeValuesLoop k i buf).length = k := by
  induction k generalizing i buf with
  | zero => rfl
  | succ k ih =>
    cases buf with
    | nil => simp [decodeValuesLoop]
    | cons b bs =>
      unfold decodeValuesLoop
      dsimp only
      split <;> simp [ih]

/-- Decoding a block returns an error (only for variable-length encodings) or pairs: equally many
IDs and values for fixed-width encodings, at most as many IDs as values otherwise. -/
theorem decodeBlockData_cases (ib vb : Bytes) (count : Nat) (e : UInt32) :
    (isVarIntEnc e = true ∧ ∃ err, decodeBlockData ib vb count e = .err err) ∨
    ∃ ids vals, decodeBlockData ib vb count e = .ok (ids, vals) ∧ ids.length ≤ vals.length ∧ vals.length ≤ count ∧
      (isVarIntEnc e = false → ids.length = vals.length) := by
  unfold decodeBlockData
  cases hv : isVarIntEnc e
  · right
    simp only [Bool.false_eq_true, if_false]
    rw [Res.ok_bind]
    dsimp only
    obtain ⟨is, vs, h1, h2, h3⟩ := undelta e
      (if (if count > ib.length / 8 then ib.length / 8 else count) > vb.length / 8 then
        if (decodeFixedIDs ib (if count > ib.length / 8 then ib.length / 8 else count)).length >
          (if (if count > ib.length / 8 then ib.length / 8 else count) > vb.length / 8 then vb.length / 8 else
            (if count > ib.length / 8 then ib.length / 8 else count)) then
          List.take (if (if count > ib.length / 8 then ib.length / 8 else count) > vb.length / 8 then vb.length / 8 else
            (if count > ib.length / 8 then ib.length / 8 else count))
            (decodeFixedIDs ib (if count > ib.length / 8 then ib.length / 8 else count))
        else decodeFixedIDs ib (if count > ib.length / 8 then ib.length / 8 else count)
      else decodeFixedIDs ib (if count > ib.length / 8 then ib.length / 8 else count))
      (decodeFixedValues vb (if (if count > ib.length / 8 then ib.length / 8 else count) > vb.length / 8 then vb.length / 8 else
            (if count > ib.length / 8 then ib.length / 8 else count)))
    refine ⟨is, vs, h1, ?_⟩
    have hi : ∀ n, (decodeFixedIDs ib n).length = n := by intro n; simp [decodeFixedIDs]
    have hw : ∀ n, (decodeFixedValues vb n).length = n := by intro n; simp [decodeFixedValues]
    have heq : is.length = vs.length := by
      rw [h2, h3, hw]
      generalize (if count > ib.length / 8 then ib.length / 8 else count) = c1
      by_cases hgt : c1 > vb.length / 8
      · rw [if_pos hgt, if_pos hgt, hi, if_pos hgt, List.length_take, hi]; omega
      · rw [if_neg hgt, if_neg hgt, hi]
    refine ⟨by omega, ?_, fun _ => heq⟩
    rw [h3, hw]
    split <;> split <;> omega
  · simp only [if_true]
    cases hd : decodeUVarInts ib count with
    | err err => exact .inl ⟨trivial, err, rfl⟩
    | panic =>
      exfalso
      unfold decodeUVarInts at hd
      rcases Res.bind_panic hd with h | ⟨x, _, h⟩
      · exact decodeUVarIntsLoop_no_panic _ _ _ h
      · dsimp only at h; split at h <;> cases h
    | ok ids =>
      right
      rw [Res.ok_bind, Res.ok_bind]
      dsimp only
      obtain ⟨is, vs, h1, h2, h3⟩ := undelta e ids (decodeValuesLoop count 0 vb)
      have := decodeUVarInts_length hd
      have hl := decodeValuesLoop_length count 0 vb
      exact ⟨is, vs, h1, by omega, by omega, fun h => by cases h⟩

theorem decodeBlockData_no_panic (ib vb : Bytes) (count : Nat) (e : UInt32) : decodeBlockData ib vb count e ≠ .panic := by
  intro h
  rcases decodeBlockData_cases ib vb count e with ⟨_, err, h1⟩ | ⟨ids, vals, h1, _⟩ <;> rw [h] at h1 <;> cases h1

theorem goSlice_panic (b : Bytes) (lo hi : Nat) (h : lo ≤ hi) : goSlice b lo hi = .panic ↔ b.length < hi := by
  unfold goSlice
  split
  · simp; omega
  · simp; omega

/-- **C31, exactly when `GetPairs` panics**: the index is valid and its entry gives a block size
below 64 bytes, or one below 80 bytes with an offset that is not rejected as negative. -/
theorem C31_getPairs (r : Reader B) (i : UInt64) :
    getPairs r i = .panic ↔ ∃ e, 0 ≤ i.toInt64 ∧ r.blockIndex[i.toNat]? = some e ∧
      (e.blockSize.toNat < 64 ∨ (e.blockSize.toNat < 80 ∧ 0 ≤ e.blockOffset.toInt64 + 64)) := by
  have hz : (0 : Int64).toInt = 0 := by decide
  unfold getPairs readBlock
  split
  · rename_i hneg
    constructor
    · intro h; cases h
    · rintro ⟨e, h, _⟩; exact absurd hneg (Int64.not_lt.2 h)
  rename_i hnn
  have hnn' : 0 ≤ i.toInt64 := Int64.not_lt.1 hnn
  have hidx : i.toInt64.toInt.toNat = i.toNat := by
    have h1 : 0 ≤ i.toInt64.toInt := by
      rw [Int64.le_iff_toInt_le, hz] at hnn'; exact hnn'
    have h2 : i.toInt64.toInt = (i.toNat : Int).bmod (2 ^ 64) := by
      show BitVec.toInt _ = _
      rw [BitVec.toInt_eq_toNat_bmod]; rfl
    have h3 := i.toNat_lt
    rw [h2] at h1 ⊢
    simp only [Int.bmod_def] at h1 ⊢
    omega
  rw [hidx]
  rcases he : r.blockIndex[i.toNat]? with _ | e
  · constructor
    · intro h; cases h
    · rintro ⟨e, _, h, _⟩; cases h
  dsimp only
  have hsz : (Int64.ofNat e.blockSize.toNat - 64).toInt = (e.blockSize.toNat : Int) - 64 := by
    have := e.blockSize.toNat_lt
    rw [Int64.toInt_sub, int64_toInt_ofNat _ (by omega), show (64 : Int64).toInt = 64 by decide, Int.bmod_def]
    omega
  have hszneg : Int64.ofNat e.blockSize.toNat - 64 < 0 ↔ e.blockSize.toNat < 64 := by
    rw [Int64.lt_iff_toInt_lt, hsz, hz]; omega
  constructor
  · intro h
    refine ⟨e, hnn', rfl, ?_⟩
    rcases Res.bind_panic h with h | ⟨data, hd, h⟩
    · rw [readBytesAt_panic] at h; exact .inl (hszneg.1 h)
    right
    obtain ⟨ho, hn, hl, _⟩ := readBytesAt_eq hd
    rw [hsz] at hn hl
    refine ⟨?_, by rw [Int64.le_iff_toInt_le, hz]; exact ho⟩
    have h16 : ∀ lo hi, lo ≤ hi → hi ≤ 16 → goSlice data lo hi = .panic → e.blockSize.toNat < 80 := by
      intro lo hi h1 h2 h3
      rw [goSlice_panic _ _ _ h1] at h3
      omega
    rcases Res.bind_panic h with h | ⟨_, _, h⟩
    · exact h16 _ _ (by omega) (by omega) h
    rcases Res.bind_panic h with h | ⟨_, _, h⟩
    · exact h16 _ _ (by omega) (by omega) h
    rcases Res.bind_panic h with h | ⟨_, _, h⟩
    · exact h16 _ _ (by omega) (by omega) h
    rcases Res.bind_panic h with h | ⟨_, _, h⟩
    · exact h16 _ _ (by omega) (by omega) h
    exfalso
    split at h
    · cases h
    split at h
    · cases h
    split at h
    · cases h
    rename_i hb
    rcases Res.bind_panic h with h | ⟨_, _, h⟩
    · rw [goSlice_panic _ _ _ (by omega)] at h; omega
    rcases Res.bind_panic h with h | ⟨_, _, h⟩
    · rw [goSlice_panic _ _ _ (by omega)] at h; omega
    exact decodeBlockData_no_panic _ _ _ _ h
  · rintro ⟨e', _, he', hc⟩
    cases he'
    by_cases h64 : e.blockSize.toNat < 64
    · rw [readBytesAt_panic.2 (hszneg.2 h64)]; rfl
    · obtain ⟨h80, ho⟩ := hc.resolve_left h64
      rcases hd : readBytesAt r.bytes (e.blockOffset.toInt64 + 64) (Int64.ofNat e.blockSize.toNat - 64) with data | err | _
      · obtain ⟨_, _, hl, _⟩ := readBytesAt_eq hd
        rw [hsz] at hl
        rw [Res.ok_bind]
        by_cases h4 : data.length < 4
        · rw [(goSlice_panic data 0 4 (by omega)).2 h4]; rfl
        rw [goSlice_ok data 0 4 (by omega) (by omega), Res.ok_bind]
        by_cases h8 : data.length < 8
        · rw [(goSlice_panic data 4 8 (by omega)).2 h8]; rfl
        rw [goSlice_ok data 4 8 (by omega) (by omega), Res.ok_bind]
        by_cases h12 : data.length < 12
        · rw [(goSlice_panic data 8 12 (by omega)).2 h12]; rfl
        rw [goSlice_ok data 8 12 (by omega) (by omega), Res.ok_bind]
        rw [(goSlice_panic data 12 16 (by omega)).2 (by omega)]; rfl
      · exfalso
        unfold readBytesAt at hd
        split at hd
        · cases hd
        split at hd
        · rename_i hlt; exact absurd hlt (Int64.not_lt.2 ho)
        · cases hd
      · rfl

/-- **C31, positive form.** `GetPairs` does not panic on a file whose index entries give sizes of
at least 80 bytes, whatever else the file contains. -/
theorem C31_getPairs_wellformed (r : Reader B) (h : ∀ e ∈ r.blockIndex, 80 ≤ e.blockSize.toNat) (i : UInt64) :
    getPairs r i ≠ .panic := by
  intro hp
  obtain ⟨e, _, he, hc⟩ := (C31_getPairs r i).1 hp
  have := h e (List.mem_of_getElem? he)
  omega

/-! ### C30 -/

/-- **C30.** `GetPairs` with an index outside the block index returns an error. -/
theorem C30_bounds (r : Reader B) (i : UInt64) (h : r.blockIndex.length ≤ i.toNat) (hl : r.blockIndex.length < 2 ^ 63) :
    getPairs r i = .err .badBlockIndex := by
  unfold getPairs readBlock
  split
  · rfl
  rename_i hnn
  have hz : (0 : Int64).toInt = 0 := by decide
  have hidx : i.toInt64.toInt.toNat = i.toNat := by
    have h1 : 0 ≤ i.toInt64.toInt := by
      rw [Int64.lt_iff_toInt_lt, hz] at hnn; omega
    have h2 : i.toInt64.toInt = (i.toNat : Int).bmod (2 ^ 64) := by
      show BitVec.toInt _ = _
      rw [BitVec.toInt_eq_toNat_bmod]; rfl
    have h3 := i.toNat_lt
    rw [h2] at h1 ⊢
    simp only [Int.bmod_def] at h1 ⊢
    omega
  rw [hidx, List.getElem?_eq_none h]

/-- The block index of a reader has fewer than 2^32 entries, so C30 covers all `uint64` indices,
also those that turn negative when converted to `int`. -/
theorem C30_index_small (file : Bytes) (r : Reader B) (hr : newReader file = .ok r) : r.blockIndex.length < 2 ^ 32 := by
  unfold newReader at hr
  obtain ⟨h, h1, hr⟩ := Res.bind_ok hr
  obtain ⟨x, h2, hr⟩ := Res.bind_ok hr
  cases hr
  unfold readFooter at h2
  dsimp only at h2
  split at h2
  · cases h2
  obtain ⟨buf, _, h2⟩ := Res.bind_ok h2
  split at h2
  · cases h2
  split at h2
  · cases h2
  obtain ⟨buf2, _, h2⟩ := Res.bind_ok h2
  obtain ⟨buf3, _, h2⟩ := Res.bind_ok h2
  cases h2
  simp only [List.length_map, List.length_range]
  exact UInt32.toNat_lt _


/-! ### C38 -/

/-- A successful read of a block is a successful decoding. -/
theorem readBlock_decodes {r : Reader B} {i : Int64} {x} (h : readBlock r i = .ok x) :
    ∃ ib vb count, decodeBlockData ib vb count r.header.encodingType = .ok x := by
  unfold readBlock at h
  split at h
  · cases h
  split at h
  · cases h
  obtain ⟨data, _, h⟩ := Res.bind_ok h
  obtain ⟨_, _, h⟩ := Res.bind_ok h
  obtain ⟨_, _, h⟩ := Res.bind_ok h
  obtain ⟨_, _, h⟩ := Res.bind_ok h
  obtain ⟨_, _, h⟩ := Res.bind_ok h
  dsimp only at h
  split at h
  · cases h
  split at h
  · cases h
  split at h
  · cases h
  obtain ⟨ib, _, h⟩ := Res.bind_ok h
  obtain ⟨vb, _, h⟩ := Res.bind_ok h
  exact ⟨ib, vb, _, h⟩

/-- **C38.** Whatever the file contains, a successful `GetPairs` returns at most as many IDs as
values, and equally many unless the encoding is one of the variable-length ones. -/
theorem C38_aligned (r : Reader B) (i : UInt64) (ids : List UInt64) (vals : List Int64) (h : getPairs r i = .ok (ids, vals)) :
    ids.length ≤ vals.length ∧ (isVarIntEnc r.encodingType = false → ids.length = vals.length) := by
  obtain ⟨ib, vb, count, hd⟩ := readBlock_decodes h
  rcases decodeBlockData_cases ib vb count r.header.encodingType with ⟨_, err, h1⟩ | ⟨is, vs, h1, h2, _, h3⟩
  · rw [hd] at h1; cases h1
  · rw [hd] at h1; cases h1
    exact ⟨h2, h3⟩

section
variable [Bitmap B]

theorem filterPairs_ok (filter deny : Option B) (ids : List UInt64) (vals : List Int64) (h : ids.length ≤ vals.length) :
    ∃ x, filterPairs filter deny ids vals = .ok x := by
  induction ids generalizing vals with
  | nil => exact ⟨_, rfl⟩
  | cons id ids ih =>
    cases vals with
    | nil => simp at h
    | cons v vs =>
      obtain ⟨x, hx⟩ := ih vs (by simpa using h)
      unfold filterPairs
      split
      · dsimp only; rw [hx]; exact ⟨_, rfl⟩
      · exact ⟨x, hx⟩

/-- **C38, consequence.** Reading a block through filters fails exactly as reading it does: the
filter loop never indexes the values out of range. -/
theorem C38_filtered (r : Reader B) (i : Int64) (filter deny : Option B) :
    (readBlockFiltered r i filter deny = .panic ↔ readBlock r i = .panic) ∧
    (∀ e, readBlockFiltered r i filter deny = .err e ↔ readBlock r i = .err e) := by
  unfold readBlockFiltered
  cases h : readBlock r i with
  | err e => exact ⟨Iff.rfl, fun _ => Iff.rfl⟩
  | panic => exact ⟨Iff.rfl, fun _ => Iff.rfl⟩
  | ok x =>
    obtain ⟨ids, vals⟩ := x
    rw [Res.ok_bind]
    dsimp only
    have hx : ∃ y, (if filter.isNone ∧ deny.isNone then Res.ok (ids, vals) else filterPairs filter deny ids vals) = .ok y := by
      split
      · exact ⟨_, rfl⟩
      · obtain ⟨ib, vb, count, hd⟩ := readBlock_decodes h
        rcases decodeBlockData_cases ib vb count r.header.encodingType with ⟨_, err, h1⟩ | ⟨is, vs, h1, h2, _⟩
        · rw [hd] at h1; cases h1
        · rw [hd] at h1; cases h1
          exact filterPairs_ok _ _ _ _ h2
    obtain ⟨y, hy⟩ := hx
    rw [hy]
    exact ⟨⟨fun h => (by cases h), fun h => (by cases h)⟩, fun e => ⟨fun h => (by cases h), fun h => (by cases h)⟩⟩

/-! ### Aggregation on arbitrary files -/

omit [Bitmap B] in
theorem sumBlocks_no_panic (read : UInt64 → Res (List UInt64 × List Int64)) (h : ∀ i, read i ≠ .panic) (is : List UInt64) (a : Acc) :
    ∃ a', sumBlocks read is a = .ok a' := by
  induction is generalizing a with
  | nil => exact ⟨a, rfl⟩
  | cons i is ih =>
    unfold sumBlocks
    cases hr : read i with
    | ok x => exact ih _
    | err e => exact ih _
    | panic => exact absurd hr (h i)

omit [Bitmap B] in
theorem workerResults_noPanic (work : List UInt64 → Acc → Res Acc) (idx : List UInt64) (n : Nat) (ws : List Nat)
    (h : ∀ w ∈ ws, ∀ a, ∃ a', work (workerSlice idx n w) a = .ok a') : ∃ rs, workerResults work idx n ws = .ok rs := by
  induction ws with
  | nil => exact ⟨_, rfl⟩
  | cons w ws ih =>
    obtain ⟨rs, hrs⟩ := ih (fun w' hw => h w' (List.mem_cons_of_mem _ hw))
    unfold workerResults
    split
    · exact ⟨rs, hrs⟩
    · rename_i i is hs
      obtain ⟨a', ha⟩ := h w List.mem_cons_self Acc.init
      rw [hs] at ha
      rw [ha, hrs]
      exact ⟨_, rfl⟩

theorem readBlockFiltered_no_panic {r : Reader B} (h : ∀ e ∈ r.blockIndex, 80 ≤ e.blockSize.toNat) (i : UInt64) (f d : Option B) :
    readBlockFiltered r i.toInt64 f d ≠ .panic := by
  intro hp
  exact C31_getPairs_wellformed r h i ((C38_filtered r i.toInt64 f d).1.1 hp)

/-- **C31 for aggregation, sequential.** If all index entries give sizes of at least 80 bytes,
sequential aggregation returns a result, whatever else the file contains: for all options if the header
claims at most 2^45 blocks, otherwise unless there is a deny filter and no allow filter (`C31_refuted_count`). -/
theorem C31_aggregate_sequential (sched : Sched) (r : Reader B) (h : ∀ e ∈ r.blockIndex, 80 ≤ e.blockSize.toNat)
    (o : AggregateOptions B) (ho : o.parallel = 0)
    (hb : o.filter.isSome ∨ o.denyFilter = none ∨ r.blockCount.toNat ≤ 2 ^ 45) : ∃ res, aggregateWithOptions sched r o = .ok res := by
  unfold aggregateWithOptions
  rw [if_neg (by simp [ho])]
  unfold aggregateSequential
  split
  · rename_i hfd
    unfold aggregateWithFilter
    rw [iterator_ok _ (by
      rcases hb with hb | hb | hb
      · exact .inl hb
      · rw [hb] at hfd
        exact .inl (by simpa using hfd)
      · exact .inr (by unfold maxAlloc; omega)), Res.ok_bind]
    split
    · exact ⟨_, rfl⟩
    · obtain ⟨a, ha⟩ := sumBlocks_no_panic _ (fun i => readBlockFiltered_no_panic h i o.filter o.denyFilter)
        (iterBlocks r o.filter) Acc.init
      rw [ha]
      exact ⟨_, rfl⟩
  · split
    · exact ⟨_, rfl⟩
    · obtain ⟨a, ha⟩ := sumBlocks_no_panic (getPairs r) (C31_getPairs_wellformed r h)
        ((List.range r.header.blockCount.toNat).map UInt64.ofNat) Acc.init
      rw [ha]
      exact ⟨_, rfl⟩

omit [Bitmap B] in
theorem sumEntries_ok (r : Reader B) (is : List UInt64) (h : ∀ i ∈ is, i.toNat < r.blockIndex.length) (a : Acc) :
    ∃ a', sumEntries r is a = .ok a' := by
  induction is generalizing a with
  | nil => exact ⟨a, rfl⟩
  | cons i is ih =>
    unfold sumEntries
    rw [List.getElem?_eq_getElem (h i List.mem_cons_self)]
    exact ih (fun j hj => h j (List.mem_cons_of_mem _ hj)) _

theorem workerSlice_subset (idx : List UInt64) (n w : Nat) : ∀ i ∈ workerSlice idx n w, i ∈ idx := by
  intro i hi
  unfold workerSlice at hi
  dsimp only at hi
  split at hi
  · cases hi
  · exact List.mem_of_mem_drop (List.mem_of_mem_take hi)

theorem toInt64_toNat_le (x : UInt64) : x.toInt64.toInt.toNat ≤ x.toNat := by
  have h2 : x.toInt64.toInt = (x.toNat : Int).bmod (2 ^ 64) := by
    show BitVec.toInt _ = _
    rw [BitVec.toInt_eq_toNat_bmod]; rfl
  have h3 := x.toNat_lt
  generalize x.toNat = n at *
  rw [h2, Int.bmod_def]
  split <;> omega

/-- **C31 for aggregation, parallel.** If moreover the header does not claim more blocks than the
index has, aggregation with any number of workers returns a result. -/
theorem C31_aggregate_parallel (sched : Sched) (file : Bytes) (r : Reader B) (hr : newReader file = .ok r) (h : ∀ e ∈ r.blockIndex, 80 ≤ e.blockSize.toNat)
    (hc : r.blockCount.toNat ≤ r.blockIndex.length) (o : AggregateOptions B) :
    ∃ res, aggregateWithOptions sched r o = .ok res := by
  have hsm : r.blockCount.toNat ≤ 2 ^ 45 := by
    have := C30_index_small file r hr
    omega
  by_cases ho : o.parallel = 0
  · exact C31_aggregate_sequential sched r h o ho (.inr (.inr hsm))
  unfold aggregateWithOptions
  rw [if_pos ho]
  unfold aggregateParallel
  dsimp only
  generalize hnw : (if o.parallel < 0 then sched.gomaxprocs else o.parallel) = nw
  generalize hnw2 : (if nw > r.header.blockCount.toInt64.toInt then r.header.blockCount.toInt64.toInt else nw) = nw2
  by_cases hw : nw2 ≤ 1 ∨ r.header.blockCount.toInt64.toInt ≤ 1
  · rw [if_pos hw]
    have := C31_aggregate_sequential sched r h { o with parallel := 0 } rfl (.inr (.inr hsm))
    unfold aggregateWithOptions at this
    rw [if_neg (by simp)] at this
    exact this
  rw [if_neg hw]
  have hidx : ¬ (o.filter.isSome ∨ o.denyFilter.isSome) →
      ∀ i ∈ (List.range r.header.blockCount.toInt64.toInt.toNat).map UInt64.ofNat, i.toNat < r.blockIndex.length := by
    intro _ i hi
    obtain ⟨k, hk, rfl⟩ := List.mem_map.1 hi
    rw [List.mem_range] at hk
    have hbc := toInt64_toNat_le r.header.blockCount
    have : (UInt64.ofNat k).toNat ≤ k := by simp; exact Nat.mod_le _ _
    have : r.header.blockCount.toNat ≤ r.blockIndex.length := hc
    omega
  have hread : ∀ i, (fun i : UInt64 => if o.filter.isSome ∨ o.denyFilter.isSome then
      readBlockFiltered r i.toInt64 o.filter o.denyFilter else getPairs r i) i ≠ .panic := by
    intro i
    dsimp only
    split
    · exact readBlockFiltered_no_panic h i _ _
    · exact C31_getPairs_wellformed r h i
  have hbi : ∃ idx, (if o.filter.isSome ∨ o.denyFilter.isSome then filteredBlockIterator r o.filter o.denyFilter
      else firstBlocks r.header.blockCount.toInt64.toInt.toNat) = .ok idx ∧
      (¬ (o.filter.isSome ∨ o.denyFilter.isSome) → ∀ i ∈ idx, i.toNat < r.blockIndex.length) := by
    by_cases hn : o.filter.isSome ∨ o.denyFilter.isSome
    · exact ⟨_, by rw [if_pos hn, iterator_ok _ (.inr (by unfold maxAlloc; omega))], fun hc => absurd hn hc⟩
    · refine ⟨_, by
        rw [if_neg hn, firstBlocks_ok]
        have hbc := toInt64_toNat_le r.header.blockCount
        have : r.header.blockCount.toNat ≤ 2 ^ 45 := hsm
        unfold maxAlloc; omega, hidx⟩
  obtain ⟨idx, hbi, hidx2⟩ := hbi
  rw [hbi, Res.ok_bind]
  generalize (fun i : UInt64 => if o.filter.isSome ∨ o.denyFilter.isSome then
      readBlockFiltered r i.toInt64 o.filter o.denyFilter else getPairs r i) = read at hread
  by_cases hl : idx.length = 0
  · rw [if_pos hl]; exact ⟨_, rfl⟩
  rw [if_neg hl]
  by_cases hcond : r.blockIndex.length > 0 ∧ o.skipPreCalculated = false ∧ o.filter.isNone ∧ o.denyFilter.isNone
  · rw [if_pos hcond]
    obtain ⟨_, _, hf, hd⟩ := hcond
    have hnone : ¬ (o.filter.isSome ∨ o.denyFilter.isSome) := by
      rw [Option.isNone_iff_eq_none] at hf hd
      simp [hf, hd]
    unfold aggregateParallelWith
    obtain ⟨rs, hrs⟩ := workerResults_noPanic (sumEntries r) idx nw2.toNat (List.range nw2.toNat)
      (fun w _ a => sumEntries_ok r _ (fun i hi => hidx2 hnone i (workerSlice_subset _ _ _ _ hi)) a)
    rw [hrs]
    exact ⟨_, rfl⟩
  · rw [if_neg hcond]
    unfold aggregateParallelWith
    obtain ⟨rs, hrs⟩ := workerResults_noPanic (sumBlocks read) idx nw2.toNat (List.range nw2.toNat)
      (fun w _ a => sumBlocks_no_panic read hread (workerSlice idx _ w) a)
    rw [hrs]
    exact ⟨_, rfl⟩
end

/-! ### Refutations and non-vacuity -/

/-- A file with one index entry whose block size is `size`: a header, the index, the metadata. -/
def tinyFile (size : UInt32) : Bytes :=
  ({ newFileHeader 0 1 16384 encRaw with bitmapOffset := 0, bitmapSize := 0 } : FileHeader).fields.flatten ++ [0, 0, 0, 0] ++
    le32 1 ++ (newFooterEntry 0 size 1 1 5 5 5 1).fields.flatten ++ le64 60 ++ le64 0 ++ le64 magicNumber

/-- **C31 is refuted for `GetPairs` on arbitrary files**: `NewReader` accepts a file of 152 bytes
whose index gives a block size of 10 bytes, and `GetPairs(0)` panics (negative slice length); with
a size of 70 bytes it panics too (slice out of range). `Aggregate` with `SkipPreCalculated`
crashes on the same files. -/
theorem C31_refuted : ∀ size : UInt32, size = 10 ∨ size = 70 → ∃ r : Reader B, newReader (tinyFile size) = .ok r ∧
    getPairs r 0 = .panic := by
  intro size hs
  have key : ∀ s : UInt32, (s = 10 ∨ s = 70) → (match readHeader (tinyFile s) >>= readFooter (tinyFile s) with
      | .ok (_, _, [e]) => decide (e.blockSize = s ∧ e.blockOffset = 0)
      | _ => false) = true := by
    rintro s (rfl | rfl) <;> decide +kernel
  have hk := key size hs
  cases hh : readHeader (tinyFile size) with
  | err e => rw [hh] at hk; cases hk
  | panic => rw [hh] at hk; cases hk
  | ok hd =>
    rw [hh, Res.ok_bind] at hk
    cases hf : readFooter (tinyFile size) hd with
    | err e => rw [hf] at hk; cases hk
    | panic => rw [hf] at hk; cases hk
    | ok x =>
      obtain ⟨h1, m, ix⟩ := x
      rw [hf] at hk
      match ix, hk with
      | [e], hk =>
        have he := of_decide_eq_true hk
        refine ⟨⟨tinyFile size, h1, m, [e], none, false⟩, ?_, ?_⟩
        · unfold newReader
          rw [hh, Res.ok_bind, hf]
          rfl
        · rw [C31_getPairs]
          refine ⟨e, by decide, rfl, ?_⟩
          rw [he.1, he.2]
          rcases hs with rfl | rfl
          · left; decide
          · right; decide

/-- Non-vacuity of C31, C30 and C38: a file accepted by `NewReader` whose only block has size 4032
(beyond the end of the file, hence zeros): `GetPairs(0)` returns an error. -/
example : ∃ r : Reader B, newReader (tinyFile 4032) = .ok r ∧ r.blockIndex.length = 1 ∧ r.blockCount.toNat = 1 ∧
    (∀ e ∈ r.blockIndex, 80 ≤ e.blockSize.toNat) := by
  have hk : (match readHeader (tinyFile 4032) >>= readFooter (tinyFile 4032) with
      | .ok (h, _, [e]) => decide (e.blockSize = 4032 ∧ h.blockCount = 1)
      | _ => false) = true := by decide +kernel
  cases hh : readHeader (tinyFile 4032) with
  | err e => rw [hh] at hk; cases hk
  | panic => rw [hh] at hk; cases hk
  | ok hd =>
    rw [hh, Res.ok_bind] at hk
    cases hf : readFooter (tinyFile 4032) hd with
    | err e => rw [hf] at hk; cases hk
    | panic => rw [hf] at hk; cases hk
    | ok x =>
      obtain ⟨h1, m, ix⟩ := x
      rw [hf] at hk
      match ix, hk with
      | [e], hk =>
        have he := of_decide_eq_true hk
        refine ⟨⟨tinyFile 4032, h1, m, [e], none, false⟩, ?_, rfl, ?_, ?_⟩
        · unfold newReader
          rw [hh, Res.ok_bind, hf]
          rfl
        · show h1.blockCount.toNat = 1
          rw [he.2]; decide
        · intro e' he'
          rw [List.mem_singleton] at he'
          subst he'
          rw [he.1]; decide

end VibeCol
