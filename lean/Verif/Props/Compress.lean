/-
C87: how much the encodings compress (README.md: "Up to 8x compression ratio for sequential data").
-/
import Verif.Props.Inputs
import Verif.Props.Format
import Verif.Props.Example
namespace VibeCol.Compress
set_option linter.unusedSectionVars false
set_option linter.unusedSimpArgs false
variable {B : Type} [Bitmap B] [LawfulBitmap B]

/-- The bytes that the IDs and the values of a block take, by the layout at the beginning of the block (section 4.2 of
column_format_spec.md: the sizes of the two sections are the second and the fourth 32-bit number). -/
def dataSize (file : Bytes) (x : FooterEntry) : Nat :=
  (rd32 file (x.blockOffset.toNat + 68)).toNat + (rd32 file (x.blockOffset.toNat + 76)).toNat

/-- Block number `i` of the finalized file holds these pairs, and these are its data in bytes. -/
def BlockOf (B : Type) [Bitmap B] (opts : List WriterOption) (i : Nat) (ids : List UInt64) (vals : List Int64) (size : Nat) : Prop :=
  ∃ (env : Env) (log : Log) (file : Bytes) (r : Reader B) (x : FooterEntry), Finalized B env opts log file ∧
    (acked log).length ≤ maxBlocks ∧ newReader file = .ok r ∧ r.blockIndex[i]? = some x ∧ (acked log)[i]? = some (ids, vals) ∧
    size = dataSize file x

/-- Neighbouring IDs differ by 0 to 127, ascending. -/
def CloseIDs (ids : List UInt64) : Prop :=
  ∀ (i : Nat) a b, ids[i]? = some a → ids[i + 1]? = some b → a.toNat ≤ b.toNat ∧ b.toNat ≤ a.toNat + 127

/-- Neighbouring values differ by -64 to 63. -/
def CloseValues (vals : List Int64) : Prop :=
  ∀ (i : Nat) a b, vals[i]? = some a → vals[i + 1]? = some b → a.toInt ≤ b.toInt + 64 ∧ b.toInt ≤ a.toInt + 63

/-! ### The sizes of the sections -/

theorem block_sizes {env : Env} {opts : List WriterOption} {log : Log} {file : Bytes} (h : Finalized B env opts log file)
    (hn : (acked log).length ≤ maxBlocks) {r : Reader B} (hr : newReader file = .ok r) {i : Nat} {x : FooterEntry}
    (hx : r.blockIndex[i]? = some x) {ids : List UInt64} {vals : List Int64} (hb : (acked log)[i]? = some (ids, vals)) :
    ids.length = vals.length ∧
    dataSize file x = idSize (chosenEncoding opts) ids + valSize (chosenEncoding opts) vals ∧
    x.blockSize.toNat = 80 + dataSize file x + padTo (x.blockOffset.toNat + 80 + dataSize file x) := by
  obtain ⟨hd, blks, buf, bo, fs, hok, rfl, hp, hfit⟩ := h.opened hn r hr
  have hx' : (blks.map (Blk.entry (chosenEncoding opts)))[i]? = some x := hx
  rw [List.getElem?_map] at hx'
  rw [← hp, List.getElem?_map] at hb
  cases hbi : blks[i]? with
  | none => rw [hbi] at hx'; cases hx'
  | some b =>
    rw [hbi] at hx' hb
    simp only [Option.map_some, Option.some.injEq] at hx' hb
    subst hx'
    obtain ⟨rfl, rfl⟩ : b.ids = ids ∧ b.vals = vals := by
      simp only [Blk.pairs] at hb; exact Prod.mk.inj hb
    have hmem : b ∈ blks := List.mem_of_getElem? hbi
    have hbok := hok.ok b hmem
    have hst := hok.entry_start b hmem
    have hsp := hok.entry_stop b hmem
    unfold FooterEntry.start at hst
    unfold FooterEntry.stop at hsp
    rw [hst] at hsp
    unfold Blk.stop at hsp
    have him := Blk.img_length _ b hbok
    have himg := hok.img b hmem
    generalize chosenEncoding opts = e at *
    have part : ∀ o n, o + n ≤ (b.img e).length → slice file (b.off + o) n = slice (b.img e) o n :=
      fun o n hn => slice_of_slice himg o n hn
    have h52 := header52_length e b.ids b.vals
    have himg' : image e b.ids b.vals = b.img e := rfl
    have l1 : slice (b.img e) 68 4 = le32 (UInt32.ofNat (idSize e b.ids)) := by
      rw [← himg']; simp [slice, image, layoutBytes, List.drop_append, List.drop_eq_nil_of_le, List.take_of_length_le, h52]
    have l3 : slice (b.img e) 76 4 = le32 (UInt32.ofNat (valSize e b.vals)) := by
      rw [← himg']; simp [slice, image, layoutBytes, List.drop_append, List.drop_eq_nil_of_le, List.take_of_length_le, h52]
    have hbd := hbok.bound
    have hlen := hbok.len
    have hi := idSize_le e b.ids
    have hv := valSize_le e b.vals
    have r1 : rd32 file (b.off + 68) = UInt32.ofNat (idSize e b.ids) :=
      rd32_of_slice _ _ _ ((part 68 4 (by omega)).trans l1)
    have r3 : rd32 file (b.off + 76) = UInt32.ofNat (valSize e b.vals) :=
      rd32_of_slice _ _ _ ((part 76 4 (by omega)).trans l3)
    have hD : dataSize file (b.entry e) = idSize e b.ids + valSize e b.vals := by
      unfold dataSize
      rw [hst, r1, r3, ofNat32_toNat _ (by omega), ofNat32_toNat _ (by omega)]
    refine ⟨hlen, hD, ?_⟩
    rw [hD, hst, ← padTo_eq]
    have := Blk.size_eq e b
    rw [him] at this
    have e1 : b.off + 80 + (idSize e b.ids + valSize e b.vals) = b.off + (80 + idSize e b.ids + valSize e b.vals) := by omega
    rw [e1]
    omega

/-! ### Sizes of numbers -/

/-- A smaller number takes no more bytes. -/
theorem size_mono {a b j k : Nat} (ha : IsVarintSize a j) (hb : IsVarintSize b k) (h : a ≤ b) : j ≤ k := by
  obtain ⟨h1, h2, h3⟩ := ha
  obtain ⟨h4, h5, h6⟩ := hb
  rcases h3 with h3 | h3
  · omega
  · refine Nat.le_of_not_lt fun hlt => ?_
    have : 128 ^ k ≤ 128 ^ (j - 1) := Nat.pow_le_pow_right (by decide) (by omega)
    omega

theorem varint_mono {a b : UInt64} (h : a.toNat ≤ b.toNat) : (encodeVarInt a).length ≤ (encodeVarInt b).length :=
  size_mono (C37_unsigned a) (C37_unsigned b) h

theorem signed_mono {a b : Int64} (h0 : 0 ≤ a.toInt) (h : a.toInt ≤ b.toInt) :
    (encodeSignedVarInt a).length ≤ (encodeSignedVarInt b).length := by
  refine size_mono (C37_signed a) (C37_signed b) ?_
  rw [if_pos h0, if_pos (by omega)]
  omega

/-! ### Differences -/

theorem sub_toNat {a b : UInt64} (h : a.toNat ≤ b.toNat) : (b - a).toNat = b.toNat - a.toNat :=
  UInt64.toNat_sub_of_le _ _ (UInt64.le_iff_toNat_le.2 h)

theorem sub_toInt {a b : Int64} (h1 : -2 ^ 63 ≤ b.toInt - a.toInt) (h2 : b.toInt - a.toInt < 2 ^ 63) :
    (b - a).toInt = b.toInt - a.toInt := by
  rw [i64_sub_wrap]
  unfold Doc.wrapS
  omega

theorem total_len (l : List UInt64) (k : Nat) (h : ∀ x ∈ l, (encodeVarInt x).length = k) : (l.map encodeVarInt).flatten.length = l.length * k := by
  induction l with
  | nil => simp
  | cons x xs ih =>
    simp only [List.map_cons, List.flatten_cons, List.length_append, List.length_cons]
    rw [ih (fun y hy => h y (List.mem_cons_of_mem _ hy)), h x List.mem_cons_self, Nat.add_mul]
    omega

theorem totalS_len (l : List Int64) (k : Nat) (h : ∀ x ∈ l, (encodeSignedVarInt x).length = k) :
    (l.map encodeSignedVarInt).flatten.length = l.length * k := by
  induction l with
  | nil => simp
  | cons x xs ih =>
    simp only [List.map_cons, List.flatten_cons, List.length_append, List.length_cons]
    rw [ih (fun y hy => h y (List.mem_cons_of_mem _ hy)), h x List.mem_cons_self, Nat.add_mul]
    omega

theorem close_tail {p q : UInt64} {l : List UInt64} (h : CloseIDs (p :: q :: l)) : CloseIDs (q :: l) :=
  fun i a b ha hb => h (i + 1) a b ha hb

theorem closeV_tail {p q : Int64} {l : List Int64} (h : CloseValues (p :: q :: l)) : CloseValues (q :: l) :=
  fun i a b ha hb => h (i + 1) a b ha hb

theorem close_deltas (l : List UInt64) : (p : UInt64) → CloseIDs (p :: l) → ∀ d ∈ deltaEncodeFrom p l, (encodeVarInt d).length = 1 := by
  induction l with
  | nil => intro p _ d hd; cases hd
  | cons q l ih =>
    intro p h d hd
    rcases List.mem_cons.1 hd with rfl | hd
    · obtain ⟨h1, h2⟩ := h 0 p q rfl rfl
      rw [(C37_bounds (q - p) 0).2.2.1, sub_toNat h1]
      omega
    · exact ih q (close_tail h) d hd

theorem closeV_deltas (l : List Int64) : (p : Int64) → CloseValues (p :: l) →
    ∀ d ∈ deltaEncodeInt64From p l, (encodeSignedVarInt d).length = 1 := by
  induction l with
  | nil => intro p _ d hd; cases hd
  | cons q l ih =>
    intro p h d hd
    rcases List.mem_cons.1 hd with rfl | hd
    · obtain ⟨h1, h2⟩ := h 0 p q rfl rfl
      rw [(C37_bounds 0 (q - p)).2.2.2, sub_toInt (by omega) (by omega)]
      omega
    · exact ih q (closeV_tail h) d hd

theorem deltas_le (l : List UInt64) : (p : UInt64) → (p :: l).Pairwise (fun a b => a.toNat ≤ b.toNat) →
    ((deltaEncodeFrom p l).map encodeVarInt).flatten.length ≤ (l.map encodeVarInt).flatten.length := by
  induction l with
  | nil => intro p _; exact Nat.le_refl _
  | cons q l ih =>
    intro p h
    rw [List.pairwise_cons] at h
    simp only [deltaEncodeFrom, List.map_cons, List.flatten_cons, List.length_append]
    have h1 := ih q h.2
    have h2 : (encodeVarInt (q - p)).length ≤ (encodeVarInt q).length := by
      refine varint_mono ?_
      rw [sub_toNat (h.1 q List.mem_cons_self)]
      omega
    omega

theorem deltasV_le (l : List Int64) : (p : Int64) → 0 ≤ p.toInt → (p :: l).Pairwise (fun a b => a.toInt ≤ b.toInt) →
    ((deltaEncodeInt64From p l).map encodeSignedVarInt).flatten.length ≤ (l.map encodeSignedVarInt).flatten.length := by
  induction l with
  | nil => intro p _ _; exact Nat.le_refl _
  | cons q l ih =>
    intro p h0 h
    rw [List.pairwise_cons] at h
    have hpq := h.1 q List.mem_cons_self
    simp only [deltaEncodeInt64From, List.map_cons, List.flatten_cons, List.length_append]
    have h1 := ih q (by omega) h.2
    have hq := q.toInt_lt
    have hs : (q - p).toInt = q.toInt - p.toInt := sub_toInt (by omega) (by omega)
    have h2 : (encodeSignedVarInt (q - p)).length ≤ (encodeSignedVarInt q).length :=
      signed_mono (by omega) (by omega)
    omega

/-! ### The theorems -/

/-- **C87, the ratio.** The data of a block of `n` pairs take exactly `16n` bytes in the encodings of fixed width, and in every
encoding at least `2n` and at most `20n`: at best 8 times smaller than raw, at worst a quarter larger. With 80 bytes for the header and
the layout, and the padding, this is the size of the block. -/
theorem C87_ratio {env : Env} {opts : List WriterOption} {log : Log} {file : Bytes} (h : Finalized B env opts log file)
    (hn : (acked log).length ≤ maxBlocks) {r : Reader B} (hr : newReader file = .ok r) {i : Nat} {x : FooterEntry}
    (hx : r.blockIndex[i]? = some x) {ids : List UInt64} {vals : List Int64} (hb : (acked log)[i]? = some (ids, vals)) :
    x.blockSize.toNat = 80 + dataSize file x + padTo (x.blockOffset.toNat + 80 + dataSize file x) ∧
    ((chosenEncoding opts).toNat < 4 → dataSize file x = 16 * ids.length) ∧
    16 * ids.length ≤ 8 * dataSize file x ∧ 4 * dataSize file x ≤ 5 * (16 * ids.length) := by
  obtain ⟨hlen, hD, hsz⟩ := block_sizes h hn hr hx hb
  refine ⟨hsz, fun he => ?_, ?_, ?_⟩
  · have hv : isVarIntEnc (chosenEncoding opts) = false := by
      generalize chosenEncoding opts = e at he
      unfold isVarIntEnc encVarInt encVarIntID encVarIntValue encVarIntBoth
      have hne : ∀ k : UInt32, 4 ≤ k.toNat → (e == k) = false := by
        intro k hk
        refine beq_eq_false_iff_ne.2 fun hek => ?_
        subst hek
        omega
      rw [hne 4 (by decide), hne 5 (by decide), hne 6 (by decide), hne 7 (by decide)]
      rfl
    rw [hD]
    unfold idSize valSize
    rw [hv]
    simp only [Bool.false_eq_true, if_false]
    omega
  · have h1 := idSize_ge (chosenEncoding opts) ids
    have h2 := valSize_ge (chosenEncoding opts) vals
    omega
  · have h1 := idSize_le (chosenEncoding opts) ids
    have h2 := valSize_le (chosenEncoding opts) vals
    omega

/-- **C87, sequential data.** If neighbouring IDs ascend by at most 127 and neighbouring values differ by -64 to 63, the encoding
with differences and variable length takes two bytes for each pair but the first, which takes at most 20; if the first ID and value
are also small, it is exactly 8 times smaller than raw. -/
theorem C87_sequential {env : Env} {opts : List WriterOption} {log : Log} {file : Bytes} (h : Finalized B env opts log file)
    (hn : (acked log).length ≤ maxBlocks) {r : Reader B} (hr : newReader file = .ok r) {i : Nat} {x : FooterEntry}
    (hx : r.blockIndex[i]? = some x) {ids : List UInt64} {vals : List Int64} (hb : (acked log)[i]? = some (ids, vals))
    (henc : chosenEncoding opts = encVarIntBoth) (hids : CloseIDs ids) (hvals : CloseValues vals) :
    dataSize file x ≤ 2 * ids.length + 18 ∧
    ((∀ id, ids.head? = some id → id.toNat < 128) → (∀ v, vals.head? = some v → -64 ≤ v.toInt ∧ v.toInt ≤ 63) →
      dataSize file x = 2 * ids.length) := by
  obtain ⟨hlen, hD, _⟩ := block_sizes h hn hr hx hb
  rw [henc] at hD
  have e1 : idSize encVarIntBoth ids = ((deltaEncode ids).map encodeVarInt).flatten.length := rfl
  have e2 : valSize encVarIntBoth vals = ((deltaEncodeInt64 vals).map encodeSignedVarInt).flatten.length := rfl
  rw [e1, e2] at hD
  match ids, vals, hlen with
  | [], [], _ =>
    have : dataSize file x = 0 := hD
    rw [this]
    exact ⟨Nat.zero_le _, fun _ _ => rfl⟩
  | id :: ids, v :: vals, hlen =>
    have h1 := total_len _ 1 (close_deltas ids id hids)
    have h2 := totalS_len _ 1 (closeV_deltas vals v hvals)
    simp only [deltaEncode, deltaEncodeInt64, List.map_cons, List.flatten_cons, List.length_append] at hD
    rw [h1, h2, deltaEncodeFrom_length, deltaEncodeInt64From_length] at hD
    simp only [List.length_cons] at hlen ⊢
    obtain ⟨⟨_, b1⟩, ⟨_, b2⟩, b3, b4⟩ := C37_bounds id v
    refine ⟨by omega, fun ha hv => ?_⟩
    have := b3.2 (ha id rfl)
    have := b4.2 (hv v rfl)
    omega

/-- **C87, sorted data.** For ascending IDs and ascending values that are not negative, storing differences never takes more bytes
than storing the numbers, both with variable length. -/
theorem C87_sorted {opts opts' : List WriterOption} {i j : Nat} {ids : List UInt64} {vals : List Int64} {plain delta : Nat}
    (h : BlockOf B opts i ids vals plain) (h' : BlockOf B opts' j ids vals delta)
    (henc : chosenEncoding opts = encVarInt) (henc' : chosenEncoding opts' = encVarIntBoth)
    (hids : ids.Pairwise (fun a b => a.toNat ≤ b.toNat)) (hvals : vals.Pairwise (fun a b => a.toInt ≤ b.toInt))
    (hpos : ∀ v ∈ vals, 0 ≤ v.toInt) : delta ≤ plain := by
  obtain ⟨env, log, file, r, x, h1, h2, h3, h4, h5, rfl⟩ := h
  obtain ⟨env', log', file', r', x', h1', h2', h3', h4', h5', rfl⟩ := h'
  have hD := (block_sizes h1 h2 h3 h4 h5).2.1
  have hD' := (block_sizes h1' h2' h3' h4' h5').2.1
  rw [henc] at hD
  rw [henc'] at hD'
  rw [hD, hD']
  refine Nat.add_le_add ?_ ?_
  · show ((deltaEncode ids).map encodeVarInt).flatten.length ≤ (ids.map encodeVarInt).flatten.length
    cases ids with
    | nil => exact Nat.le_refl _
    | cons id ids =>
      have := deltas_le ids id hids
      simp only [deltaEncode, List.map_cons, List.flatten_cons, List.length_append]
      omega
  · show ((deltaEncodeInt64 vals).map encodeSignedVarInt).flatten.length ≤ (vals.map encodeSignedVarInt).flatten.length
    cases vals with
    | nil => exact Nat.le_refl _
    | cons v vals =>
      have := deltasV_le vals v (hpos v List.mem_cons_self) hvals
      simp only [deltaEncodeInt64, List.map_cons, List.flatten_cons, List.length_append]
      omega

/-! ### Examples and refutations -/

/-- One block, written to a new file and finalized. -/
theorem one_block (opts : List WriterOption) (ids : List UInt64) (vals : List Int64)
    (hb : ∀ c ∈ [Call.write ids vals], c.Bounded)
    (hlog : (runCalls quietEnv [.write ids vals] (newWriter (B := IdSet) opts quietEnv).2).1 = [(.write ids vals, .ok ())])
    (hsize : sizeBound [.write ids vals] (8 * totalPairs [.write ids vals]) < 2 ^ 63)
    {size : Nat} (hs : idSize (chosenEncoding opts) ids + valSize (chosenEncoding opts) vals = size) :
    BlockOf IdSet opts 0 ids vals size := by
  subst hs
  obtain ⟨file, h⟩ := finalized_of_log opts [.write ids vals] [(.write ids vals, .ok ())] hb hlog
    (by unfold NoMismatch; intro ev hev; cases List.mem_singleton.1 hev; nofun) hsize
  have hack : acked [(Call.write ids vals, Except.ok ())] = [(ids, vals)] := rfl
  have hn : (acked [(Call.write ids vals, Except.ok ())]).length ≤ maxBlocks := by rw [hack]; exact Nat.le_of_ble_eq_true rfl
  obtain ⟨r, hr, _⟩ := C29_accessors h hn
  obtain ⟨hd, blks, buf, bo, fs, hok, hre, hp, hfit⟩ := h.opened hn r hr
  have hlen : blks.length = 1 := by
    have := congrArg List.length hp
    rw [List.length_map, hack] at this
    exact this
  have hx : ∃ x, r.blockIndex[0]? = some x := by
    refine ⟨r.blockIndex[0]'?_, List.getElem?_eq_getElem _⟩
    rw [hre]
    show 0 < (blks.map _).length
    rw [List.length_map, hlen]
    exact Nat.zero_lt_one
  obtain ⟨x, hx⟩ := hx
  exact ⟨quietEnv, _, file, r, x, h, hn, hr, hx, rfl, (block_sizes h hn hr hx rfl).2.1.symm⟩

/-- Non-vacuity of C87_sequential and C87_sorted: a block of sequential data, with variable length only and with differences. -/
theorem C87_example : CloseIDs [1000, 1001, 1003, 1003] ∧ CloseValues [5000, 5001, 5030, 5093] ∧
    BlockOf IdSet [.withEncoding encVarInt] 0 [1000, 1001, 1003, 1003] [5000, 5001, 5030, 5093] 16 ∧
    BlockOf IdSet [.withEncoding encVarIntBoth] 0 [1000, 1001, 1003, 1003] [5000, 5001, 5030, 5093] 10 ∧
    BlockOf IdSet [] 0 [1000, 1001, 1003, 1003] [5000, 5001, 5030, 5093] 64 := by
  refine ⟨?_, ?_, one_block _ _ _ (by decide) (by decide +kernel) (by decide) (by decide +kernel),
    one_block _ _ _ (by decide) (by decide +kernel) (by decide) (by decide +kernel), one_block _ _ _ (by decide) (by decide +kernel) (by decide) (by decide +kernel)⟩
  · intro i a b ha hb
    match i, ha, hb with
    | 0, ha, hb => cases ha; cases hb; decide
    | 1, ha, hb => cases ha; cases hb; decide
    | 2, ha, hb => cases ha; cases hb; decide
    | 3, ha, hb => cases hb
    | _ + 4, ha, hb => cases ha
  · intro i a b ha hb
    match i, ha, hb with
    | 0, ha, hb => cases ha; cases hb; decide
    | 1, ha, hb => cases ha; cases hb; decide
    | 2, ha, hb => cases ha; cases hb; decide
    | 3, ha, hb => cases hb
    | _ + 4, ha, hb => cases ha

/-- **C87, not guaranteed.** Variable length can take more bytes than fixed width, and differences more than the numbers themselves
(descending IDs, values of changing sign). -/
theorem C87_refuted :
    (BlockOf IdSet [.withEncoding encVarInt] 0 [18446744073709551615] [-9223372036854775808] 20 ∧
      BlockOf IdSet [] 0 [18446744073709551615] [-9223372036854775808] 16) ∧
    (BlockOf IdSet [.withEncoding encVarInt] 0 [1, 0] [0, 0] 4 ∧ BlockOf IdSet [.withEncoding encVarIntBoth] 0 [1, 0] [0, 0] 13) ∧
    BlockOf IdSet [.withEncoding encVarInt] 0 [0, 1] [-64, 63] 4 ∧ BlockOf IdSet [.withEncoding encVarIntBoth] 0 [0, 1] [-64, 63] 5 :=
  ⟨⟨one_block _ _ _ (by decide) (by decide +kernel) (by decide) (by decide +kernel), one_block _ _ _ (by decide) (by decide +kernel) (by decide) (by decide +kernel)⟩,
    ⟨one_block _ _ _ (by decide) (by decide +kernel) (by decide) (by decide +kernel), one_block _ _ _ (by decide) (by decide +kernel) (by decide) (by decide +kernel)⟩,
    one_block _ _ _ (by decide) (by decide +kernel) (by decide) (by decide +kernel), one_block _ _ _ (by decide) (by decide +kernel) (by decide) (by decide +kernel)⟩

end VibeCol.Compress
