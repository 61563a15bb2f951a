/-
C28: rejected input has no effect. C37: compactness of the variable-length encodings.
-/
import Verif.Props.Blocks
import Verif.Model.SimpleWriter
set_option linter.unusedSimpArgs false
namespace VibeCol
variable {B : Type} [Bitmap B]

/-! ### C28 -/

/-- Input that `WriteBlock` must refuse on a writer with encoding type `e`: different lengths,
no pairs, or an encoding type other than the eight documented ones (0 to 7). -/
def Unacceptable (e : UInt32) (ids : List UInt64) (vals : List Int64) : Prop :=
  ids.length ≠ vals.length ∨ ids = [] ∨ 7 < e.toNat

/-- **C28.** In every writer state and under any faults, `WriteBlock` on unacceptable input
returns an error - neither nil nor `BlockFullError` - and leaves the file and the writer exactly
as they were; not even a file operation is made. -/
theorem C28_writeBlock (env : Env) (w : Writer B) (ids : List UInt64) (vals : List Int64)
    (h : Unacceptable w.encodingType ids vals) :
    ∃ e, writeBlock ids vals env w = (.error e, w) ∧ (∀ n, e ≠ .blockFull n) ∧ e ≠ .io := by
  by_cases hl : ids.length = vals.length
  · by_cases h0 : ids = []
    · subst h0
      have : vals = [] := List.eq_nil_of_length_eq_zero (by simpa using hl.symm)
      subst this
      exact ⟨_, writeBlock_empty env w, by simp, by simp⟩
    · rcases h with h | h | h
      · exact absurd hl h
      · exact absurd h h0
      · refine ⟨_, writeBlock_unknown env w ids vals hl (by simpa using h0) ?_, by simp, by simp⟩
        unfold KnownEnc; omega
  · exact ⟨_, writeBlock_lengthMismatch env w ids vals hl, by simp, by simp⟩

omit [Bitmap B] in
/-- **C28.** The same for `EstimateBlockSize`. -/
theorem C28_estimate (env : Env) (w : Writer B) (ids : List UInt64) (vals : List Int64)
    (h : Unacceptable w.encodingType ids vals) :
    ∃ e, estimateBlockSize ids vals env w = (.error e, w) := by
  by_cases hl : ids.length = vals.length
  · by_cases h0 : ids = []
    · subst h0
      have : vals = [] := List.eq_nil_of_length_eq_zero (by simpa using hl.symm)
      subst this
      exact ⟨_, estimate_empty env w⟩
    · rcases h with h | h | h
      · exact absurd hl h
      · exact absurd h h0
      · refine ⟨_, estimate_unknown env w ids vals hl (by simpa using h0) ?_⟩
        unfold KnownEnc; omega
  · exact ⟨_, estimate_lengthMismatch env w ids vals hl⟩

/-- **C28.** `SimpleWriter.Write` in every state and under any faults: after `Close` it returns
an error; before, different lengths are an error and no pairs are nil; in all three cases nothing
changes. -/
theorem C28_simpleWriter (env : Env) (sw : SimpleWriter B) (ids : List UInt64) (vals : List Int64) :
    (ids.length ≠ vals.length → ∃ e, SimpleWriter.write env ids vals sw = (.error e, sw)) ∧
    (sw.closed = true → ∃ e, SimpleWriter.write env ids vals sw = (.error e, sw)) ∧
    (sw.closed = false → SimpleWriter.write env [] [] sw = (.ok (), sw)) := by
  refine ⟨fun h => ?_, fun h => ?_, fun h => ?_⟩
  · cases hc : sw.closed <;> simp [SimpleWriter.write, hc, h]
  · simp [SimpleWriter.write, h]
  · simp [SimpleWriter.write, h]

/-- Consequently a history's outcome does not change when calls with unacceptable input are
inserted into it: they leave the acknowledged blocks and the writer as they were. -/
theorem C28_histories (env : Env) (w : Writer B) (ids : List UInt64) (vals : List Int64)
    (h : Unacceptable w.encodingType ids vals) (calls : List Call) :
    (runCalls env (.write ids vals :: calls) w).2 = (runCalls env calls w).2 ∧
    acked (runCalls env (.write ids vals :: calls) w).1 = acked (runCalls env calls w).1 := by
  obtain ⟨e, he, hb, _⟩ := C28_writeBlock env w ids vals h
  have hr : Call.run env (.write ids vals) w = (.error e, w) := he
  simp only [runCalls, hr]
  refine ⟨trivial, ?_⟩
  simp only [acked, List.flatMap_cons]
  cases e <;> simp_all [ackedBy]

/-- Non-vacuity of C28: an unknown encoding type can be configured, and then valid pairs are
refused; mismatching lengths are refused on any writer. -/
example : Unacceptable 8 [1] [2] ∧ Unacceptable encRaw [1, 2] [2] ∧
    (newWriter (B := IdSet) [.withEncoding 8] quietEnv).2.encodingType = 8 :=
  ⟨.inr (.inr (by decide)), .inl (by decide), by decide +kernel⟩

/-! ### C37 -/

/-- The bytes needed for `v` in base 128: the least `k ≥ 1` with `v < 128^k`. -/
def IsVarintSize (v k : Nat) : Prop := 1 ≤ k ∧ v < 128 ^ k ∧ (k = 1 ∨ 128 ^ (k - 1) ≤ v)

theorem pow128 (k : Nat) : 128 ^ k = 2 ^ (7 * k) := by
  rw [Nat.pow_mul]

/-- **C37.** The variable-length encoding of an unsigned number takes exactly as many bytes as it
has base-128 digits. -/
theorem C37_unsigned (v : UInt64) : IsVarintSize v.toNat (encodeVarInt v).length := by
  refine ⟨encodeVarInt_length_pos v, ?_, ?_⟩
  · rw [pow128]
    by_cases h : 2 ^ (7 * (encodeVarInt v).length) ≤ v.toNat
    · have := encodeVarInt_length_ge v _ h; omega
    · omega
  · by_cases h1 : (encodeVarInt v).length = 1
    · exact .inl h1
    · right
      have hp := encodeVarInt_length_pos v
      rw [pow128]
      by_cases h : v.toNat < 2 ^ (7 * ((encodeVarInt v).length - 1))
      · have := encodeVarInt_length_le v _ (by omega) h; omega
      · omega

theorem zigzag_toNat (v : Int64) :
    ((zigzag v).toNat : Int) = if 0 ≤ v.toInt then 2 * v.toInt else -2 * v.toInt - 1 := by
  have hz : (zigzag v).toBitVec = v.toBitVec <<< 1 ^^^ v.toBitVec.sshiftRight 63 := rfl
  have hn : (zigzag v).toNat = (v.toBitVec <<< 1 ^^^ v.toBitVec.sshiftRight 63).toNat := by
    rw [← hz]; rfl
  have hi : v.toInt = v.toBitVec.toInt := rfl
  rw [hn, hi]
  generalize v.toBitVec = x
  have hx := x.isLt
  have hmi := BitVec.toInt_eq_msb_cond x
  have hm : x.msb = decide (2 ^ 63 ≤ x.toNat) := by rw [BitVec.msb_eq_decide]
  cases hb : x.msb
  · have hs : x.sshiftRight 63 = 0#64 := by
      rw [BitVec.sshiftRight_eq_of_msb_false hb]
      apply BitVec.eq_of_toNat_eq
      rw [hb] at hm
      have : x.toNat < 2 ^ 63 := by simpa using hm.symm
      rw [BitVec.toNat_ushiftRight, Nat.shiftRight_eq_div_pow, BitVec.toNat_zero]
      omega
    rw [hb] at hmi hm
    have hlt : x.toNat < 2 ^ 63 := by simpa using hm.symm
    simp only [Bool.false_eq_true, if_false] at hmi
    rw [hs, BitVec.xor_zero, BitVec.toNat_shiftLeft, hmi, Nat.shiftLeft_eq]
    rw [if_pos (by omega)]
    omega
  · rw [hb] at hmi hm
    have hge : 2 ^ 63 ≤ x.toNat := by simpa using hm.symm
    simp only [if_true] at hmi
    have hs : x.sshiftRight 63 = BitVec.allOnes 64 := by
      apply BitVec.eq_of_getLsbD_eq
      intro i hi
      rw [BitVec.getLsbD_sshiftRight, BitVec.getLsbD_allOnes, hb]
      by_cases h0 : i = 0
      · subst h0; have h63 : x.getLsbD 63 = true := by rw [← hb, BitVec.msb_eq_getLsbD_last]
        simp [h63]
      · have : ¬ (63 + i < 64) := by omega
        simp [this, hi]
    rw [hs, BitVec.xor_allOnes, BitVec.toNat_not, BitVec.toNat_shiftLeft, hmi, Nat.shiftLeft_eq]
    rw [if_neg (by omega)]
    omega

/-- **C37.** The encoding of a signed number `v` takes exactly as many bytes as `2v` (for
`v ≥ 0`) or `-2v-1` (for `v < 0`) has base-128 digits. -/
theorem C37_signed (v : Int64) :
    IsVarintSize (if 0 ≤ v.toInt then 2 * v.toInt else -2 * v.toInt - 1).toNat
      (encodeSignedVarInt v).length := by
  have h := C37_unsigned (zigzag v)
  have hz := zigzag_toNat v
  have : (if 0 ≤ v.toInt then 2 * v.toInt else -2 * v.toInt - 1).toNat = (zigzag v).toNat := by
    rw [← hz]; simp
  rw [this]; exact h

/-- **C37.** Between 1 and 10 bytes each; one byte exactly for IDs below 128 and for values from
-64 to 63. -/
theorem C37_bounds (id : UInt64) (v : Int64) :
    (1 ≤ (encodeVarInt id).length ∧ (encodeVarInt id).length ≤ 10) ∧
    (1 ≤ (encodeSignedVarInt v).length ∧ (encodeSignedVarInt v).length ≤ 10) ∧
    ((encodeVarInt id).length = 1 ↔ id.toNat < 128) ∧
    ((encodeSignedVarInt v).length = 1 ↔ -64 ≤ v.toInt ∧ v.toInt ≤ 63) := by
  refine ⟨⟨encodeVarInt_length_pos _, encodeVarInt_length_le_10 _⟩,
    ⟨encodeVarInt_length_pos _, encodeVarInt_length_le_10 _⟩, ?_, ?_⟩
  · obtain ⟨_, h2, h3⟩ := C37_unsigned id
    constructor
    · intro h; rw [h] at h2; simpa using h2
    · intro h
      rcases h3 with h3 | h3
      · exact h3
      · have hp := encodeVarInt_length_pos id
        have := encodeVarInt_length_le id 1 (by omega) (by simpa using h)
        omega
  · obtain ⟨_, h2, h3⟩ := C37_signed v
    constructor
    · intro h
      rw [h] at h2
      split at h2 <;> omega
    · intro h
      have hz := zigzag_toNat v
      have : (encodeSignedVarInt v).length ≤ 1 := by
        refine encodeVarInt_length_le (zigzag v) 1 (by omega) ?_
        split at hz <;> omega
      have hp : 1 ≤ (encodeSignedVarInt v).length := encodeVarInt_length_pos _
      omega

/-- The padding after a block that ends at offset `x`: up to the next multiple of 4096. -/
def padTo (x : Nat) : Nat := (4096 - x % 4096) % 4096

theorem padTo_eq (x : Nat) : calculatePadding x pageSize = padTo x := by
  unfold calculatePadding padTo pageSize; split <;> omega

/-- **C37.** In every finalized file, each block takes at most `80 + 20n` bytes plus padding for
`n` pairs, whatever the encoding; with VarInt encoding, and all IDs below 128 and all values from
-64 to 63, it takes exactly `80 + 2n` bytes plus padding. -/
theorem C37_blocks [LawfulBitmap B] {env : Env} {opts : List WriterOption} {log : Log} {file : Bytes}
    (h : Finalized B env opts log file) (hn : (acked log).length ≤ maxBlocks) (r : Reader B)
    (hr : newReader file = .ok r) (i : Nat) (x : FooterEntry) (hx : r.blockIndex[i]? = some x)
    (ids : List UInt64) (vals : List Int64) (hb : (acked log)[i]? = some (ids, vals)) :
    ∃ body, x.blockSize.toNat = body + padTo (x.blockOffset.toNat + body) ∧
      80 + 2 * ids.length ≤ body ∧ body ≤ 80 + 20 * ids.length ∧
      (chosenEncoding opts = encVarInt → (∀ id ∈ ids, id.toNat < 128) →
        (∀ v ∈ vals, -64 ≤ v.toInt ∧ v.toInt ≤ 63) → body = 80 + 2 * ids.length) := by
  obtain ⟨hd, blks, buf, bo, fs, hok, rfl, hp, hfit⟩ := h.opened hn r hr
  have hx' : (blks.map (Blk.entry (chosenEncoding opts)))[i]? = some x := hx
  rw [List.getElem?_map] at hx'
  rw [← hp, List.getElem?_map] at hb
  cases hbi : blks[i]? with
  | none => rw [hbi] at hx'; cases hx'
  | some b =>
    rw [hbi] at hx' hb
    simp only [Option.map_some, Option.some.injEq] at hx' hb
    subst hx'
    obtain ⟨rfl, rfl⟩ : b.ids = ids ∧ b.vals = vals := by
      simp only [Blk.pairs] at hb; exact Prod.mk.inj hb
    have hmem : b ∈ blks := List.mem_of_getElem? hbi
    have hbok := hok.ok b hmem
    have hst := hok.entry_start b hmem
    have hsp := hok.entry_stop b hmem
    unfold FooterEntry.start at hst
    unfold FooterEntry.stop at hsp
    rw [hst] at hsp
    unfold Blk.stop at hsp
    have hl := hbok.len
    have him := Blk.img_length _ b hbok
    refine ⟨(b.img (chosenEncoding opts)).length, ?_, ?_, ?_, ?_⟩
    · rw [hst, ← padTo_eq]
      have := Blk.size_eq (chosenEncoding opts) b
      omega
    · have h1 := idSize_ge (chosenEncoding opts) b.ids
      have h2 := valSize_ge (chosenEncoding opts) b.vals
      omega
    · have h1 := idSize_le (chosenEncoding opts) b.ids
      have h2 := valSize_le (chosenEncoding opts) b.vals
      omega
    · intro he h1 h2
      rw [he] at him ⊢
      have hsum : ∀ {T : Type} (f : T → Bytes) (l : List T), (∀ x ∈ l, (f x).length = 1) →
          (l.map f).flatten.length = l.length := by
        intro T f l
        induction l with
        | nil => simp
        | cons a t ih =>
          intro hh
          have e1 := hh a (by simp)
          have e2 := ih fun x hx => hh x (by simp [hx])
          rw [List.map_cons, List.flatten_cons, List.length_append, e1, e2, List.length_cons]; omega
      have e1 : idSize encVarInt b.ids = b.ids.length :=
        hsum encodeVarInt b.ids fun x hx => (C37_bounds x 0).2.2.1.2 (h1 x hx)
      have e2 : valSize encVarInt b.vals = b.vals.length :=
        hsum encodeSignedVarInt b.vals fun x hx => (C37_bounds 0 x).2.2.2.2 (h2 x hx)
      omega

/-- Non-vacuity of C37: sizes at the boundaries, and a two-block file. -/
example : (encodeVarInt 127).length = 1 ∧ (encodeVarInt 128).length = 2 ∧
    (encodeSignedVarInt (-64)).length = 1 ∧ (encodeSignedVarInt 64).length = 2 ∧
    (encodeSignedVarInt (-9223372036854775808)).length = 10 := by
  decide +kernel

example : ∃ file, ∃ r : Reader IdSet, Finalized IdSet quietEnv exampleOpts exampleLog file ∧
    newReader file = .ok r ∧ r.blockIndex.length = 2 := by
  obtain ⟨file, h⟩ := example_finalized
  obtain ⟨r, h1, _⟩ := C29_accessors h (by decide)
  exact ⟨file, r, h, h1, (h.reads (.inr (.inr (.inr rfl))) (by decide) r h1).index⟩

end VibeCol
