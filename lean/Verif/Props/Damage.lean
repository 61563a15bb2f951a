/-
C48: damage to the data of a finished file.
-/
import Verif.Lemmas.Mixed
import Verif.Props.Blocks
import Verif.Props.Robust
import Verif.Props.Aggregation
import Verif.Lemmas.Format
namespace VibeCol
set_option linter.unusedSectionVars false
set_option linter.unusedSimpArgs false
variable {B : Type} [Bitmap B]

/-! ### Helpers -/

theorem slice_congr {f g : Bytes} {o n : Nat} (h : ∀ p, o ≤ p → p < o + n → g[p]? = f[p]?) : slice g o n = slice f o n := by
  refine List.ext_getElem? fun i => ?_
  by_cases hi : i < n
  · rw [slice_getElem? _ _ _ _ hi, slice_getElem? _ _ _ _ hi, h _ (by omega) (by omega)]
  · unfold slice
    rw [List.getElem?_eq_none (by rw [List.length_take]; omega), List.getElem?_eq_none (by rw [List.length_take]; omega)]

theorem readBytesAt_congr {f g : Bytes} {o n : Int64}
    (h : ∀ p, o.toInt.toNat ≤ p → p < o.toInt.toNat + n.toInt.toNat → g[p]? = f[p]?) :
    readBytesAt g o n = readBytesAt f o n := by
  unfold readBytesAt
  split
  · rfl
  split
  · rfl
  have := slice_congr h
  unfold slice at this
  dsimp only
  rw [this]

theorem toInt64_index (i : UInt64) (h0 : ¬ i.toInt64 < 0) : i.toInt64.toInt.toNat = i.toNat := by
  have hz : (0 : Int64).toInt = 0 := by decide
  have h1 : 0 ≤ i.toInt64.toInt := by
    rw [Int64.lt_iff_toInt_lt, hz] at h0; omega
  have h2 : i.toInt64.toInt = (i.toNat : Int).bmod (2 ^ 64) := by
    show BitVec.toInt _ = _
    rw [BitVec.toInt_eq_toNat_bmod]; rfl
  have h3 := i.toNat_lt
  rw [h2] at h1 ⊢
  simp only [Int.bmod_def] at h1 ⊢
  omega

/-- A file that agrees with a well-formed one outside its blocks opens in the same way. -/
theorem FileOK.damaged {bytes bytes' buf : Bytes} {h : FileHeader} {e : UInt32} {blks : List Blk} {bo fs : Nat}
    (H : FileOK bytes h e blks buf bo fs) (hcnt : blks.length * 56 ≤ 2 ^ 32) (hl : bytes'.length = bytes.length)
    (hsame : ∀ p, p < 64 ∨ bo ≤ p → bytes'[p]? = bytes[p]?) :
    VibeCol.newReader (B := B) bytes' = .ok { okReader bytes h e blks with bytes := bytes' } := by
  have hsm := H.small
  have hfit := H.bmFits
  have hfs := H.fsLe
  have hbo := H.bo64
  have hrh : VibeCol.readHeader bytes' = VibeCol.readHeader bytes := by
    unfold VibeCol.readHeader
    rw [show readBytesAt bytes' 0 (Int64.ofNat headerSize) = readBytesAt bytes 0 (Int64.ofNat headerSize) from
      readBytesAt_congr fun p _ hp => hsame p (.inl (by
        rw [show (0 : Int64).toInt.toNat = 0 by decide, show (Int64.ofNat headerSize).toInt.toNat = 64 by decide] at hp
        omega))]
  have hdrop : bytes'.drop fs = bytes.drop fs := by
    refine List.ext_getElem? fun i => ?_
    rw [List.getElem?_drop, List.getElem?_drop, hsame _ (.inr (by omega))]
  have hf : ∀ hd, readFooter bytes' hd = readFooter bytes hd := by
    intro hd
    have hil := H.index_length
    rw [readFooter_any (fs := fs) (n := blks.length) (by omega) (by omega) (by omega) (by omega) (by rw [hil])
        (by rw [hdrop]; exact H.foot),
      readFooter_any (fs := fs) (n := blks.length) hsm (by omega) (by omega) (by omega) (by rw [hil]) H.foot]
  have h0 := H.newReader (B := B) hcnt
  unfold VibeCol.newReader at h0 ⊢
  obtain ⟨hd, h1, h0⟩ := Res.bind_ok h0
  obtain ⟨x, h2, h0⟩ := Res.bind_ok h0
  rw [hrh, h1, Res.ok_bind, hf, h2, Res.ok_bind]
  simp only [Res.ok.injEq] at h0 ⊢
  rw [← h0]

/-- Reading a block whose sections were replaced. -/
theorem FileOK.readBlock_damaged {bytes bytes' buf : Bytes} {h : FileHeader} {e : UInt32} {blks : List Blk} {bo fs : Nat}
    (H : FileOK bytes h e blks buf bo fs) (hl : bytes'.length = bytes.length) (i : Nat) (hi : i < blks.length)
    (hsame : slice bytes' (blks[i].off + 64) 16 = slice bytes (blks[i].off + 64) 16)
    (r : Reader B) (hb : r.bytes = bytes') (hh : r.header.encodingType = e)
    (hx : r.blockIndex[i]? = some (blks[i].entry e)) (hcnt : i < 2 ^ 63) :
    VibeCol.readBlock r (Int64.ofNat i) =
      decodeBlockData (slice bytes' (blks[i].off + 80) (idSize e blks[i].ids))
        (slice bytes' (blks[i].off + 80 + idSize e blks[i].ids) (valSize e blks[i].vals)) blks[i].ids.length e := by
  have hmem : blks[i] ∈ blks := List.getElem_mem hi
  have hok := H.ok _ hmem
  have himg := H.img _ hmem
  have hlaid := H.laid.mem _ hmem
  have hil := Blk.img_length e _ hok
  have hsz := Blk.size_lt e _ hok
  have hszg := Blk.img_le_size e blks[i]
  have hfit := H.bmFits
  have hfs := H.fsLe
  have hsm := H.small
  have hidl := hok.sec.1
  have hvall := hok.sec.2
  have hidge := idSize_ge e blks[i].ids
  have hvalge := valSize_ge e blks[i].vals
  have hne := hok.ne
  have hlen := hok.len
  have hbound := hok.bound
  have hidle := idSize_le e blks[i].ids
  have hvalle := valSize_le e blks[i].vals
  have hstop : blks[i].off + blks[i].size e ≤ bytes.length := by
    have := hlaid.2; unfold Blk.stop at this; omega
  unfold VibeCol.readBlock
  rw [if_neg (int64_ofNat_not_neg i (by omega)), int64_toInt_ofNat _ (by omega), Int.toNat_natCast, hx]
  dsimp only
  have eo : (blks[i].entry e).blockOffset = UInt64.ofNat blks[i].off := rfl
  have es : (blks[i].entry e).blockSize = UInt32.ofNat (blks[i].size e) := rfl
  have ec : (blks[i].entry e).count = UInt32.ofNat blks[i].ids.length := rfl
  rw [eo, es, ec, ofNat32_toNat _ hsz, ofNat32_toNat _ (by omega), uint64_ofNat_toInt64,
    show (64 : Int64) = Int64.ofNat 64 from rfl, int64_ofNat_add, int64_ofNat_sub _ _ (by omega) (by omega),
    hb, hh, readBytesAt_ok _ _ _ (by omega) (by omega)]
  simp only [Res.ok_bind]
  have hdl : (slice bytes' (blks[i].off + 64) (blks[i].size e - 64)).length = blks[i].size e - 64 :=
    slice_length _ _ _ (by omega)
  rw [goSlice_ok _ _ _ (by omega) (by omega), goSlice_ok _ _ _ (by omega) (by omega),
    goSlice_ok _ _ _ (by omega) (by omega), goSlice_ok _ _ _ (by omega) (by omega)]
  simp only [Res.ok_bind]
  have himg' : image e blks[i].ids blks[i].vals = blks[i].img e := rfl
  have part : ∀ o n, 64 ≤ o → o + n ≤ 80 →
      slice bytes' (blks[i].off + o) n = slice (blks[i].img e) o n := by
    intro o n ho hon
    rw [← slice_of_slice himg o n (by omega)]
    have h1 := slice_slice bytes' (blks[i].off + 64) 16 (o - 64) n (by omega)
    have h2 := slice_slice bytes (blks[i].off + 64) 16 (o - 64) n (by omega)
    rw [show blks[i].off + 64 + (o - 64) = blks[i].off + o by omega] at h1 h2
    rw [← h1, ← h2, hsame]
  have h52 := header52_length e blks[i].ids blks[i].vals
  have l0 : slice (blks[i].img e) 64 4 = le32 0 := by
    rw [← himg']; simp [slice, image, layoutBytes, List.drop_append, List.drop_eq_nil_of_le, List.take_of_length_le, h52]
  have l1 : slice (blks[i].img e) 68 4 = le32 (UInt32.ofNat (idSize e blks[i].ids)) := by
    rw [← himg']; simp [slice, image, layoutBytes, List.drop_append, List.drop_eq_nil_of_le, List.take_of_length_le, h52]
  have l2 : slice (blks[i].img e) 72 4 = le32 (UInt32.ofNat (idSize e blks[i].ids)) := by
    rw [← himg']; simp [slice, image, layoutBytes, List.drop_append, List.drop_eq_nil_of_le, List.take_of_length_le, h52]
  have l3 : slice (blks[i].img e) 76 4 = le32 (UInt32.ofNat (valSize e blks[i].vals)) := by
    rw [← himg']; simp [slice, image, layoutBytes, List.drop_append, List.drop_eq_nil_of_le, List.take_of_length_le, h52]
  have r0 : rd32 (slice bytes' (blks[i].off + 64) (blks[i].size e - 64)) 0 = 0 :=
    rd32_slice_of _ _ _ _ _ (by omega) (by rw [Nat.add_assoc, part _ _ (by omega) (by omega), l0])
  have r1 : rd32 (slice bytes' (blks[i].off + 64) (blks[i].size e - 64)) 4 =
      UInt32.ofNat (idSize e blks[i].ids) :=
    rd32_slice_of _ _ _ _ _ (by omega) (by rw [Nat.add_assoc, part _ _ (by omega) (by omega), l1])
  have r2 : rd32 (slice bytes' (blks[i].off + 64) (blks[i].size e - 64)) 8 =
      UInt32.ofNat (idSize e blks[i].ids) :=
    rd32_slice_of _ _ _ _ _ (by omega) (by rw [Nat.add_assoc, part _ _ (by omega) (by omega), l2])
  have r3 : rd32 (slice bytes' (blks[i].off + 64) (blks[i].size e - 64)) 12 =
      UInt32.ofNat (valSize e blks[i].vals) :=
    rd32_slice_of _ _ _ _ _ (by omega) (by rw [Nat.add_assoc, part _ _ (by omega) (by omega), l3])
  rw [r0, r1, r2, r3, if_neg (by rw [ofNat32_zero_iff _ (by omega)]; omega),
    if_neg (by rw [ofNat32_zero_iff _ (by omega)]; omega), ofNat32_toNat _ (by omega),
    ofNat32_toNat _ (by omega), show (0 : UInt32).toNat = 0 from rfl, hdl,
    if_neg (by omega), goSlice_ok _ _ _ (by omega) (by omega), goSlice_ok _ _ _ (by omega) (by omega)]
  simp only [Res.ok_bind, Nat.add_zero]
  have e1 : slice (slice bytes' (blks[i].off + 64) (blks[i].size e - 64)) 16
      (16 + idSize e blks[i].ids - 16) = slice bytes' (blks[i].off + 80) (idSize e blks[i].ids) := by
    rw [slice_slice _ _ _ _ _ (by omega), Nat.add_assoc, Nat.add_sub_cancel_left]
  have e2 : slice (slice bytes' (blks[i].off + 64) (blks[i].size e - 64)) (16 + idSize e blks[i].ids)
      (16 + idSize e blks[i].ids + valSize e blks[i].vals - (16 + idSize e blks[i].ids)) =
      slice bytes' (blks[i].off + 80 + idSize e blks[i].ids) (valSize e blks[i].vals) := by
    rw [slice_slice _ _ _ _ _ (by omega), Nat.add_sub_cancel_left,
      show blks[i].off + 64 + (16 + idSize e blks[i].ids) = blks[i].off + 80 + idSize e blks[i].ids
      by omega]
  rw [e1, e2]

/-! ### Damaged variable-length data -/

/-- Why reading a sequence of varints stopped. -/
inductive Stop where
  | enough
  | exhausted
  | broken

/-- The IDs made of the numbers `vs` read from the ID data of a block with `n` pairs: made-up ones are added
if the data is exhausted; `none` is an error. -/
def Stop.ids (n : Nat) (vs : List UInt64) : Stop → Option (List UInt64)
  | .enough => some vs
  | .exhausted => some (vs ++ (List.range (n - vs.length)).map fun j => UInt64.ofNat (vs.length + j + 1))
  | .broken => if vs = [] then none else some vs

/-- Reading at most `n` varints from the front of `bs`, with the standard library's `binary.Uvarint`, gives
`vs`: there were enough; or the bytes ran out after whole varints; or the next one is cut off or
too large. -/
inductive ReadVarints : Nat → Bytes → List UInt64 → Stop → Prop
  | enough (bs : Bytes) : ReadVarints 0 bs [] .enough
  | exhausted (n : Nat) : ReadVarints (n + 1) [] [] .exhausted
  | broken (n : Nat) (bs : Bytes) (hne : bs ≠ []) (h : (uvarint bs).2 ≤ 0) : ReadVarints (n + 1) bs [] .broken
  | next (n : Nat) (bs : Bytes) (vs : List UInt64) (s : Stop) (hne : bs ≠ []) (h : 0 < (uvarint bs).2)
      (rest : ReadVarints n (bs.drop (uvarint bs).2.toNat) vs s) : ReadVarints (n + 1) bs ((uvarint bs).1 :: vs) s

theorem ReadVarints.exists (n : Nat) (bs : Bytes) : ∃ vs s, ReadVarints n bs vs s := by
  induction n generalizing bs with
  | zero => exact ⟨_, _, .enough bs⟩
  | succ n ih =>
    by_cases hne : bs = []
    · subst hne; exact ⟨_, _, .exhausted n⟩
    · by_cases h : (uvarint bs).2 ≤ 0
      · exact ⟨_, _, .broken n bs hne h⟩
      · obtain ⟨vs, s, hr⟩ := ih (bs.drop (uvarint bs).2.toNat)
        exact ⟨_, _, .next n bs vs s hne (by omega) hr⟩

theorem ReadVarints.loop {n : Nat} {bs : Bytes} {vs : List UInt64} {s : Stop} (h : ReadVarints n bs vs s) (i : Nat) :
    (s = .enough → vs.length = n) ∧
    (s ≠ .broken → decodeUVarIntsLoop n i bs = .ok (vs, false)) ∧
    (s = .broken → decodeUVarIntsLoop n i bs = if i = 0 ∧ vs = [] then .err .badVarint else .ok (vs, true)) := by
  induction h generalizing i with
  | enough bs => exact ⟨fun _ => rfl, fun _ => rfl, nofun⟩
  | exhausted n => exact ⟨nofun, fun _ => rfl, nofun⟩
  | broken n bs hne h =>
    refine ⟨nofun, fun h => absurd rfl h, fun _ => ?_⟩
    cases bs with
    | nil => exact absurd rfl hne
    | cons b bs =>
      unfold decodeUVarIntsLoop
      dsimp only
      rw [if_pos h]
      by_cases hi : i = 0
      · subst hi; rfl
      · rw [if_pos (by omega), if_neg (by omega)]
  | next n bs vs s hne h rest ih =>
    refine ⟨fun hs => by rw [List.length_cons, (ih 0).1 hs], fun hs => ?_, fun hs => ?_⟩
    all_goals
      cases bs with
      | nil => exact absurd rfl hne
      | cons b bs =>
        unfold decodeUVarIntsLoop
        dsimp only
        rw [if_neg (by omega)]
        first
          | rw [(ih (i + 1)).2.1 hs]; rfl
          | rw [(ih (i + 1)).2.2 hs, if_neg (by omega), if_neg (by simp)]; rfl

/-- The IDs decoded from any bytes. -/
theorem ReadVarints.decode {n : Nat} {bs : Bytes} {vs : List UInt64} {s : Stop} (h : ReadVarints n bs vs s) :
    decodeUVarInts bs n = match s.ids n vs with
      | some ids => .ok ids
      | none => .err .badVarint := by
  obtain ⟨h1, h2, h3⟩ := h.loop 0
  unfold decodeUVarInts
  cases s with
  | enough => rw [h2 nofun, Res.ok_bind]; simp [h1 rfl, Stop.ids]
  | exhausted => rw [h2 nofun]; rfl
  | broken =>
    rw [h3 rfl]
    unfold Stop.ids
    by_cases hv : vs = []
    · rw [if_pos ⟨rfl, hv⟩]; dsimp only; rw [if_pos hv]; rfl
    · rw [if_neg (fun hc => hv hc.2)]; dsimp only; rw [if_neg hv]; rfl

/-! ### C48 -/

/-- `file'` is as long as `file` and differs from it at most inside the extents of the blocks that
the reader `r` found in `file`: some bytes of some blocks were changed. -/
def DamagedBlocks (r : Reader B) (file file' : Bytes) : Prop :=
  file'.length = file.length ∧
    ∀ p, (∀ x ∈ r.blockIndex, ¬ (x.start ≤ p ∧ p < x.stop)) → file'[p]? = file[p]?

section Lawful
variable [LawfulBitmap B]

theorem damaged_reader {env : Env} {opts : List WriterOption} {log : Log} {file file' : Bytes}
    (h : Finalized B env opts log file) (hn : (acked log).length ≤ maxBlocks) (r : Reader B)
    (hr : newReader file = .ok r) (hd : DamagedBlocks r file file') :
    newReader file' = .ok { r with bytes := file' } ∧
      ∀ p, p < 64 ∨ r.header.bitmapOffset.toNat ≤ p → file'[p]? = file[p]? := by
  have hx := (C08_extents h hn r hr).2.1
  have hs : ∀ p, p < 64 ∨ r.header.bitmapOffset.toNat ≤ p → file'[p]? = file[p]? := by
    intro p hp
    refine hd.2 p fun x hxm => ?_
    have := hx x hxm
    omega
  refine ⟨?_, hs⟩
  obtain ⟨hd', blks, buf, bo, fs, hok, rfl, hp, hfit⟩ := h.opened hn r hr
  have hlen := hok.length
  have hsm := hok.small
  have hfit' := hok.bmFits
  have hbo : hd'.bitmapOffset.toNat = bo := by rw [hok.bmOff, UInt64.toNat_ofNat']; omega
  have hl : blks.length = (acked log).length := by rw [← hp, List.length_map]
  exact hok.damaged (by unfold maxBlocks at hn; omega) hd.1 (by
    intro p hp; exact hs p (by rw [show (okReader (B := B) file hd' (chosenEncoding opts) blks).header = hd' from rfl, hbo]; exact hp))

/-- **C48.** Damage anywhere inside the blocks of a finalized file (block headers, layout, data) goes
unnoticed when the file is opened, and leaves everything that does not read blocks as it was: the
block count and index, the set of all IDs, and the unfiltered aggregates computed from the footer,
with any number of workers. -/
theorem C48_unnoticed {env : Env} {opts : List WriterOption} {log : Log} {file file' : Bytes}
    (h : Finalized B env opts log file) (hn : (acked log).length ≤ maxBlocks) (r : Reader B)
    (hr : newReader file = .ok r) (hd : DamagedBlocks r file file') :
    ∃ r' : Reader B, newReader file' = .ok r' ∧ r'.blockCount = r.blockCount ∧ r'.blockIndex = r.blockIndex ∧
      (getGlobalIDBitmap r').1 = (getGlobalIDBitmap r).1 ∧
      ∀ (sched : Sched) (_ : sched.Fair) (workers : Int),
        aggregateWithOptions sched r' { parallel := workers } = aggregateWithOptions sched r { parallel := workers } := by
  obtain ⟨h1, hs⟩ := damaged_reader h hn r hr hd
  refine ⟨_, h1, rfl, rfl, ?_, ?_⟩
  · obtain ⟨hd', blks, buf, bo, fs, hok, rfl, hp, hfit⟩ := h.opened hn r hr
    have hlen := hok.length
    have hsm := hok.small
    have hfit' := hok.bmFits
    have hbo : hd'.bitmapOffset.toNat = bo := by rw [hok.bmOff, UInt64.toNat_ofNat']; omega
    have hs' : ∀ p, bo ≤ p → file'[p]? = file[p]? := fun p hp => hs p (.inr (by
      rw [show (okReader (B := B) file hd' (chosenEncoding opts) blks).header = hd' from rfl, hbo]; exact hp))
    have c1 : ∀ n, readBytesAt file' (UInt64.ofNat bo).toInt64 n = readBytesAt file (UInt64.ofNat bo).toInt64 n := by
      intro n
      refine readBytesAt_congr fun p hp _ => hs' p ?_
      rw [uint64_ofNat_toInt64, int64_toInt_ofNat _ (by omega)] at hp
      omega
    have c2 : ∀ n, readBytesAt file' ((UInt64.ofNat bo).toInt64 + 4) n = readBytesAt file ((UInt64.ofNat bo).toInt64 + 4) n := by
      intro n
      refine readBytesAt_congr fun p hp _ => hs' p ?_
      rw [uint64_ofNat_toInt64, show (4 : Int64) = Int64.ofNat 4 from rfl, int64_ofNat_add,
        int64_toInt_ofNat _ (by omega)] at hp
      omega
    unfold getGlobalIDBitmap
    simp only [okReader, hok.bmOff, c1, c2]
    split <;> first | rfl | skip
    split <;> first | rfl | skip
    split <;> rfl
  · intro sched hs workers
    have hi := h.indexed hn r hr
    have hi' : Indexed { r with bytes := file' } (acked log) := ⟨hi.few, hi.count, hi.index, hi.entry, hi.ok⟩
    rw [hi.parallel_eq sched hs, hi'.parallel_eq sched hs]
    unfold aggregateSequential
    simp only [Option.isSome_none, Bool.false_eq_true, or_self, if_false, and_true]
    split
    · rfl
    · rename_i h0
      have : r.header.blockCount.toNat = 0 := by
        rw [hi.count]
        have := hi.index
        rw [show (acked log).length = 0 by omega]; rfl
      rw [this]; rfl

/-- **C48, isolation.** A block none of whose bytes changed still reads back as before, whatever
happened to the others. -/
theorem C48_isolated {env : Env} {opts : List WriterOption} {log : Log} {file file' : Bytes}
    (h : Finalized B env opts log file) (hn : (acked log).length ≤ maxBlocks) (r : Reader B)
    (hr : newReader file = .ok r) (hd : DamagedBlocks r file file') (i : UInt64)
    (hi : ∀ x, r.blockIndex[i.toNat]? = some x → ∀ p, x.start ≤ p → p < x.stop → file'[p]? = file[p]?) :
    ∃ r' : Reader B, newReader file' = .ok r' ∧ getPairs r' i = getPairs r i := by
  obtain ⟨h1, -⟩ := damaged_reader h hn r hr hd
  refine ⟨_, h1, ?_⟩
  have hx := C08_extents h hn r hr
  obtain ⟨hd', blks, buf, bo, fs, hok, hrr, hp, hfit⟩ := h.opened hn r hr
  have hb : r.bytes = file := by rw [hrr]; rfl
  unfold getPairs readBlock
  by_cases h0 : i.toInt64 < 0
  · rw [if_pos h0, if_pos h0]
  rw [if_neg h0, if_neg h0]
  have hidx := toInt64_index i h0
  rw [hidx]
  rcases hc : r.blockIndex[i.toNat]? with _ | x
  · rfl
  dsimp only
  have hxm := List.mem_of_getElem? hc
  have hxx := hx.2.1 x hxm
  have hlen : r.header.bitmapOffset.toNat ≤ file.length := by have := hx.2.2; omega
  have hsm := h.size
  have hsz := x.blockSize.toNat_lt
  rw [hb]
  have e1 : x.blockOffset.toInt64 + 64 = Int64.ofNat (x.start + 64) := by
    rw [← int64_ofNat_add]
    have : x.blockOffset.toInt64 = Int64.ofNat x.start := by
      rw [← uint64_ofNat_toInt64]; unfold FooterEntry.start; rw [UInt64.ofNat_toNat]
    rw [this, show (64 : Int64) = Int64.ofNat 64 from rfl]
  have hst : x.stop = x.start + x.blockSize.toNat := rfl
  have e2 : Int64.ofNat x.blockSize.toNat - 64 = Int64.ofNat (x.blockSize.toNat - 64) := by
    rw [show (64 : Int64) = Int64.ofNat 64 from rfl, int64_ofNat_sub _ _ (by omega) (by omega)]
  rw [readBytesAt_congr (f := file) (g := file') (by
    intro p hp1 hp2
    rw [e1, int64_toInt_ofNat _ (by omega)] at hp1 hp2
    rw [e2, int64_toInt_ofNat _ (by omega)] at hp2
    exact hi x hc p (by omega) (by omega))]

theorem patch_getElem? (f new : Bytes) (o p : Nat) (ho : o + new.length ≤ f.length) (hp : p < o ∨ o + new.length ≤ p) :
    (f.take o ++ new ++ f.drop (o + new.length))[p]? = f[p]? := by
  rcases hp with hp | hp
  · rw [List.append_assoc, List.getElem?_append_left (by rw [List.length_take]; omega), List.getElem?_take_of_lt hp]
  · rw [List.getElem?_append_right (by rw [List.length_append, List.length_take]; omega), List.getElem?_drop]
    congr 1
    rw [List.length_append, List.length_take]; omega

/-- **C48, undetected.** Take any block of a finalized file and any other pairs, as many as the block has,
whose encoded IDs and values are as long as the old ones. Some file that differs from the old one
only in the data of that block (after its first 80 bytes) opens without an error and returns
those pairs for the block, while all other blocks read as before. Nothing in the format detects it. -/
theorem C48_undetected {env : Env} {opts : List WriterOption} {log : Log} {file : Bytes}
    (h : Finalized B env opts log file) (henc : SymEnc (chosenEncoding opts)) (hn : (acked log).length ≤ maxBlocks)
    (r : Reader B) (hr : newReader file = .ok r) (k : Nat) (hk : k < (acked log).length)
    (ids' : List UInt64) (vals' : List Int64) (hi : ids'.length = (acked log)[k].1.length) (hv : vals'.length = ids'.length)
    (hids : (Doc.idData (chosenEncoding opts).toNat (ids'.map UInt64.toNat)).length =
      (Doc.idData (chosenEncoding opts).toNat ((acked log)[k].1.map UInt64.toNat)).length)
    (hvals : (Doc.valueData (chosenEncoding opts).toNat (vals'.map Int64.toInt)).length =
      (Doc.valueData (chosenEncoding opts).toNat ((acked log)[k].2.map Int64.toInt)).length) :
    ∃ file' : Bytes, file'.length = file.length ∧
      (∃ x, r.blockIndex[k]? = some x ∧ ∀ p, ¬ (x.start + 80 ≤ p ∧ p < x.stop) → file'[p]? = file[p]?) ∧
      ∃ r' : Reader B, newReader file' = .ok r' ∧ r'.blockCount = r.blockCount ∧
        getPairs r' (UInt64.ofNat k) = .ok (ids', vals') ∧
        ∀ (i : Nat) (hi : i < (acked log).length), i ≠ k → getPairs r' (UInt64.ofNat i) = .ok (acked log)[i] := by
  have hreads := h.reads henc hn r hr
  have hext := C08_extents h hn r hr
  obtain ⟨hd', blks, buf, bo, fs, hok, hrr, hp, hfit⟩ := h.opened hn r hr
  have hbl : blks.length = (acked log).length := by rw [← hp, List.length_map]
  have hkb : k < blks.length := by omega
  have hpk : (acked log)[k] = (blks[k].ids, blks[k].vals) := by
    simp only [← hp, List.getElem_map]; rfl
  have hmem := List.getElem_mem hkb
  have hbok := hok.ok _ hmem
  have hlaid := hok.laid.mem _ hmem
  have hlen := hok.length
  have hsm := hok.small
  have hfit' := hok.bmFits
  have hil := Blk.img_length (chosenEncoding opts) _ hbok
  have hszg := Blk.img_le_size (chosenEncoding opts) blks[k]
  have hidl := hbok.sec.1
  have hvall := hbok.sec.2
  rw [hpk] at hi hids hvals
  rw [← idSection_doc henc.regular, ← idSection_doc henc.regular] at hids
  rw [← valSection_doc henc.regular, ← valSection_doc henc.regular] at hvals
  dsimp only at hi hids hvals
  rw [hidl] at hids
  rw [hvall] at hvals
  have hst : blks[k].stop (chosenEncoding opts) = blks[k].off + blks[k].size (chosenEncoding opts) := rfl
  generalize hnew : idSection (chosenEncoding opts) ids' ++ valSection (chosenEncoding opts) vals' = new
  have hnl : new.length = idSize (chosenEncoding opts) blks[k].ids + valSize (chosenEncoding opts) blks[k].vals := by
    rw [← hnew, List.length_append, hids, hvals]
  have hroom : blks[k].off + 80 + new.length ≤ blks[k].stop (chosenEncoding opts) := by omega
  have hroom' : blks[k].off + 80 + new.length ≤ file.length := by omega
  have hget : r.blockIndex[k]? = some (blks[k].entry (chosenEncoding opts)) := by
    rw [hrr]; simp [okReader, hkb]
  generalize hf' : file.take (blks[k].off + 80) ++ new ++ file.drop (blks[k].off + 80 + new.length) = file'
  have hl' : file'.length = file.length := by
    rw [← hf']; simp only [List.length_append, List.length_take, List.length_drop]; omega
  have hkeep : ∀ p, p < blks[k].off + 80 ∨ blks[k].off + 80 + new.length ≤ p → file'[p]? = file[p]? := by
    intro p hp; rw [← hf']; exact patch_getElem? _ _ _ _ hroom' hp
  have es := hok.entry_start _ hmem
  have et := hok.entry_stop _ hmem
  have hdam : DamagedBlocks r file file' := by
    refine ⟨hl', fun p hp => hkeep p ?_⟩
    have := hp _ (List.mem_of_getElem? hget)
    rw [es, et] at this
    omega
  obtain ⟨h1, -⟩ := damaged_reader h hn r hr hdam
  refine ⟨file', hl', ⟨_, hget, fun p hp => hkeep p ?_⟩, _, h1, rfl, ?_, ?_⟩
  · rw [es, et] at hp; omega
  · have hn' := hn
    unfold maxBlocks at hn'
    have hnew' : slice file' (blks[k].off + 80) new.length = new := by
      rw [← hf', slice_append_left _ _ _ _ (by simp only [List.length_append, List.length_take]; omega),
        slice_append_right _ _ _ _ (by simp only [List.length_take]; omega)]
      rw [List.length_take, show blks[k].off + 80 - min (blks[k].off + 80) file.length = 0 by omega]
      simp [slice]
    have s1 : slice file' (blks[k].off + 80) (idSize (chosenEncoding opts) blks[k].ids) = idSection (chosenEncoding opts) ids' := by
      have := slice_of_slice hnew' 0 (idSize (chosenEncoding opts) blks[k].ids) (by omega)
      rw [Nat.add_zero] at this
      rw [this, ← hnew, ← hids]; simp [slice]
    have s2 : slice file' (blks[k].off + 80 + idSize (chosenEncoding opts) blks[k].ids) (valSize (chosenEncoding opts) blks[k].vals) =
        valSection (chosenEncoding opts) vals' := by
      have := slice_of_slice hnew' (idSize (chosenEncoding opts) blks[k].ids) (valSize (chosenEncoding opts) blks[k].vals) (by omega)
      rw [this, ← hnew, ← hids, ← hvals]; simp [slice]
    have e1 : (UInt64.ofNat k).toInt64 = Int64.ofNat k := uint64_ofNat_toInt64 k
    unfold getPairs
    rw [e1, hok.readBlock_damaged (B := B) hl' k hkb (slice_congr fun p hp1 hp2 => hkeep p (.inl (by omega)))
      { r with bytes := file' } rfl (by rw [hrr]; exact hok.enc) hget (by omega), s1, s2, ← hi,
      decodeBlockData_sections _ henc _ _ hv.symm]
  · intro i hi' hik
    obtain ⟨r'', h2, h3⟩ := C48_isolated h hn r hr hdam (UInt64.ofNat i) (by
      intro x hx p hp1 hp2
      unfold maxBlocks at hn
      have hin : (UInt64.ofNat i).toNat = i := by rw [UInt64.toNat_ofNat']; omega
      rw [hin] at hx
      refine hkeep p ?_
      have hpw := List.pairwise_iff_getElem.1 hext.1
      obtain ⟨hxi, hxx⟩ := List.getElem?_eq_some_iff.1 hx
      obtain ⟨hki, hkk⟩ := List.getElem?_eq_some_iff.1 hget
      rcases Nat.lt_or_gt_of_ne hik with hlt | hgt
      · have := hpw i k hxi hki hlt
        rw [hxx, hkk, es] at this
        omega
      · have := hpw k i hki hxi hgt
        rw [hxx, hkk, et] at this
        omega)
    rw [h1] at h2
    simp only [Res.ok.injEq] at h2
    rw [h2, h3]
    exact hreads.read i hi'

/-- **C48, fixed width.** In the fixed-width encodings (types 0 to 3) no damage to the data of blocks
(anything after their first 80 bytes) ever makes `GetPairs` fail: it returns as many pairs as the block had. -/
theorem C48_fixed {env : Env} {opts : List WriterOption} {log : Log} {file file' : Bytes}
    (h : Finalized B env opts log file) (hfix : (chosenEncoding opts).toNat ≤ 3) (hn : (acked log).length ≤ maxBlocks)
    (r : Reader B) (hr : newReader file = .ok r) (hl : file'.length = file.length)
    (hd : ∀ p, (∀ x ∈ r.blockIndex, ¬ (x.start + 80 ≤ p ∧ p < x.stop)) → file'[p]? = file[p]?)
    (i : Nat) (hi : i < (acked log).length) :
    ∃ r' : Reader B, newReader file' = .ok r' ∧
      ∃ ids' vals', getPairs r' (UInt64.ofNat i) = .ok (ids', vals') ∧ ids'.length = (acked log)[i].1.length ∧
        vals'.length = (acked log)[i].1.length := by
  have hdam : DamagedBlocks r file file' := ⟨hl, fun p hp => hd p fun x hx => by have := hp x hx; omega⟩
  have hext := C08_extents h hn r hr
  obtain ⟨h1, -⟩ := damaged_reader h hn r hr hdam
  refine ⟨_, h1, ?_⟩
  obtain ⟨hd', blks, buf, bo, fs, hok, hrr, hp, hfit⟩ := h.opened hn r hr
  have hbl : blks.length = (acked log).length := by rw [← hp, List.length_map]
  have hkb : i < blks.length := by omega
  have hpk : (acked log)[i] = (blks[i].ids, blks[i].vals) := by
    simp only [← hp, List.getElem_map]; rfl
  have hmem := List.getElem_mem hkb
  have hbok := hok.ok _ hmem
  have hlaid := hok.laid.mem _ hmem
  have hlen := hok.length
  have hfit' := hok.bmFits
  have hil := Blk.img_length (chosenEncoding opts) _ hbok
  have hszg := Blk.img_le_size (chosenEncoding opts) blks[i]
  have hst : blks[i].stop (chosenEncoding opts) = blks[i].off + blks[i].size (chosenEncoding opts) := rfl
  have hget : r.blockIndex[i]? = some (blks[i].entry (chosenEncoding opts)) := by
    rw [hrr]; simp [okReader, hkb]
  have es := hok.entry_start _ hmem
  have hvi : isVarIntEnc (chosenEncoding opts) = false := by
    generalize chosenEncoding opts = e at hfix
    have : e = 0 ∨ e = 1 ∨ e = 2 ∨ e = 3 := by
      have : e.toNat = 0 ∨ e.toNat = 1 ∨ e.toNat = 2 ∨ e.toNat = 3 := by omega
      rcases this with h | h | h | h
      · exact .inl (UInt32.toNat_inj.1 h)
      · exact .inr (.inl (UInt32.toNat_inj.1 h))
      · exact .inr (.inr (.inl (UInt32.toNat_inj.1 h)))
      · exact .inr (.inr (.inr (UInt32.toNat_inj.1 h)))
    rcases this with rfl | rfl | rfl | rfl <;> decide
  have hdrange : ∀ p, blks[i].off ≤ p → p < blks[i].off + 80 → file'[p]? = file[p]? := by
    intro p hp1 hp2
    refine hd p fun x hx hin => ?_
    obtain ⟨j, hj, rfl⟩ := List.getElem_of_mem hx
    have hpw := List.pairwise_iff_getElem.1 hext.1
    obtain ⟨hki, hkk⟩ := List.getElem?_eq_some_iff.1 hget
    rcases Nat.lt_trichotomy i j with hlt | heq | hgt
    · have := hpw i j hki hj hlt
      have h80 := hext.2.1 _ (List.getElem_mem hki)
      rw [hkk, es] at h80
      rw [hkk] at this
      omega
    · subst heq
      rw [hkk, es] at hin; omega
    · have := hpw j i hj hki hgt
      rw [hkk, es] at this
      omega
  have hdec := hok.readBlock_damaged (B := B) hl i hkb (slice_congr fun p hp1 hp2 => hdrange p (by omega) (by omega))
    { r with bytes := file' } rfl (by rw [hrr]; exact hok.enc) hget (by unfold maxBlocks at hn; omega)
  have hs1 : (slice file' (blks[i].off + 80) (idSize (chosenEncoding opts) blks[i].ids)).length = blks[i].ids.length * 8 := by
    rw [slice_length _ _ _ (by omega)]; unfold idSize; rw [hvi]; rfl
  have hs2 : (slice file' (blks[i].off + 80 + idSize (chosenEncoding opts) blks[i].ids) (valSize (chosenEncoding opts) blks[i].vals)).length =
      blks[i].ids.length * 8 := by
    rw [slice_length _ _ _ (by omega), hbok.len]; unfold valSize; rw [hvi]; rfl
  generalize slice file' (blks[i].off + 80) (idSize (chosenEncoding opts) blks[i].ids) = ib at hdec hs1
  generalize slice file' (blks[i].off + 80 + idSize (chosenEncoding opts) blks[i].ids) (valSize (chosenEncoding opts) blks[i].vals) = vb at hdec hs2
  have e1 : (UInt64.ofNat i).toInt64 = Int64.ofNat i := uint64_ofNat_toInt64 i
  unfold getPairs
  rw [e1, hdec, hpk]
  dsimp only
  unfold decodeBlockData
  rw [hvi]
  simp only [Bool.false_eq_true, if_false]
  rw [Res.ok_bind]
  dsimp only
  rw [hs1, hs2, Nat.mul_div_cancel _ (by omega), if_neg (Nat.lt_irrefl _), if_neg (Nat.lt_irrefl _), if_neg (Nat.lt_irrefl _)]
  obtain ⟨is, vs, h2, h3, h4⟩ := undelta (chosenEncoding opts) (decodeFixedIDs ib blks[i].ids.length) (decodeFixedValues vb blks[i].ids.length)
  exact ⟨is, vs, h2, by rw [h3]; simp [decodeFixedIDs], by rw [h4]; simp [decodeFixedValues]⟩

/-- **C48, variable length.** In the variable-length encoding (type 4), after any damage to the data of blocks,
`GetPairs` returns the IDs that can be decoded from the block's ID data. If that data ends early, the
missing IDs are made up: the k-th missing one is its (one-based) position in the block. If it breaks off at a
malformed number, the IDs so far are returned, fewer than the values, or, at the very first, an
error. The number of values is always that of the block. -/
theorem C48_varint {env : Env} {opts : List WriterOption} {log : Log} {file file' : Bytes}
    (h : Finalized B env opts log file) (henc : chosenEncoding opts = 4) (hn : (acked log).length ≤ maxBlocks)
    (r : Reader B) (hr : newReader file = .ok r) (hl : file'.length = file.length)
    (hd : ∀ p, (∀ x ∈ r.blockIndex, ¬ (x.start + 80 ≤ p ∧ p < x.stop)) → file'[p]? = file[p]?)
    (i : Nat) (hi : i < (acked log).length) :
    ∃ r' : Reader B, newReader file' = .ok r' ∧ ∃ x, r.blockIndex[i]? = some x ∧
      ∃ vals' : List Int64, vals'.length = (acked log)[i].1.length ∧
      ∀ vs s, ReadVarints (acked log)[i].1.length
          ((file'.drop (x.start + 80)).take (Doc.idData 4 ((acked log)[i].1.map UInt64.toNat)).length) vs s →
        (∀ ids, s.ids (acked log)[i].1.length vs = some ids → getPairs r' (UInt64.ofNat i) = .ok (ids, vals')) ∧
        (s.ids (acked log)[i].1.length vs = none → ∃ e, getPairs r' (UInt64.ofNat i) = .err e) := by
  have hdam : DamagedBlocks r file file' := ⟨hl, fun p hp => hd p fun x hx => by have := hp x hx; omega⟩
  have hext := C08_extents h hn r hr
  obtain ⟨h1, -⟩ := damaged_reader h hn r hr hdam
  refine ⟨_, h1, ?_⟩
  obtain ⟨hd', blks, buf, bo, fs, hok, hrr, hp, hfit⟩ := h.opened hn r hr
  rw [henc] at hok hrr hfit
  have hbl : blks.length = (acked log).length := by rw [← hp, List.length_map]
  have hkb : i < blks.length := by omega
  have hpk : (acked log)[i] = (blks[i].ids, blks[i].vals) := by
    simp only [← hp, List.getElem_map]; rfl
  have hmem := List.getElem_mem hkb
  have hbok := hok.ok _ hmem
  have hget : r.blockIndex[i]? = some (blks[i].entry 4) := by
    rw [hrr]; simp [okReader, hkb]
  have es := hok.entry_start _ hmem
  have hdrange : ∀ p, blks[i].off ≤ p → p < blks[i].off + 80 → file'[p]? = file[p]? := by
    intro p hp1 hp2
    refine hd p fun x hx hin => ?_
    obtain ⟨j, hj, rfl⟩ := List.getElem_of_mem hx
    have hpw := List.pairwise_iff_getElem.1 hext.1
    obtain ⟨hki, hkk⟩ := List.getElem?_eq_some_iff.1 hget
    rcases Nat.lt_trichotomy i j with hlt | heq | hgt
    · have := hpw i j hki hj hlt
      have h80 := hext.2.1 _ (List.getElem_mem hki)
      rw [hkk, es] at h80
      rw [hkk] at this
      omega
    · subst heq
      rw [hkk, es] at hin; omega
    · have := hpw j i hj hki hgt
      rw [hkk, es] at this
      omega
  have hdec := hok.readBlock_damaged (B := B) hl i hkb (slice_congr fun p hp1 hp2 => hdrange p (by omega) (by omega))
    { r with bytes := file' } rfl (by rw [hrr]; exact hok.enc) hget (by unfold maxBlocks at hn; omega)
  have e1 : (UInt64.ofNat i).toInt64 = Int64.ofNat i := uint64_ofNat_toInt64 i
  have hsec : (Doc.idData 4 (blks[i].ids.map UInt64.toNat)).length = idSize 4 blks[i].ids := by
    have h4 : RegularEnc 4 := by unfold RegularEnc; decide
    have := idSection_doc h4 blks[i].ids
    rw [show (4 : UInt32).toNat = 4 from rfl] at this
    rw [← this]; exact hbok.sec.1
  refine ⟨_, hget, decodeValuesLoop blks[i].ids.length 0
    (slice file' (blks[i].off + 80 + idSize 4 blks[i].ids) (valSize 4 blks[i].vals)), ?_, ?_⟩
  · rw [hpk]; exact decodeValuesLoop_length _ _ _
  intro vs s hrv
  rw [hpk] at hrv ⊢
  dsimp only at hrv ⊢
  rw [es, hsec] at hrv
  have hrv' := hrv.decode
  rw [show List.take (idSize 4 blks[i].ids) (List.drop (blks[i].off + 80) file') =
    slice file' (blks[i].off + 80) (idSize 4 blks[i].ids) from rfl] at hrv'
  unfold getPairs
  rw [e1, hdec]
  unfold decodeBlockData
  simp only [show isVarIntEnc 4 = true by decide, if_true]
  rw [hrv']
  constructor
  · intro ids hids
    rw [hids]; rfl
  · intro hnone
    rw [hnone]; exact ⟨_, rfl⟩

end Lawful

/-- Non-vacuity of C48: a file with three blocks, whose first block is replaced by other pairs. -/
example : ∃ file, ∃ r : Reader IdSet, Finalized IdSet quietEnv fullOpts fullLog file ∧ newReader file = .ok r ∧
    ∃ file' : Bytes, file' ≠ file ∧ DamagedBlocks r file file' ∧
    ∃ r' : Reader IdSet, newReader file' = .ok r' ∧ getPairs r' 0 = .ok ([7, 8, 9], [-1, 0, 1]) := by
  obtain ⟨file, h⟩ := full_finalized
  have hn : (acked fullLog).length ≤ maxBlocks := by decide
  obtain ⟨r, h1, _⟩ := C29_accessors h hn
  obtain ⟨file', hl, ⟨x, hx, hsame⟩, r', h2, _, h3, _⟩ := C48_undetected h (.inr (.inl rfl)) hn r h1 0 (by decide)
    [7, 8, 9] [-1, 0, 1] rfl rfl (by decide +kernel) (by decide +kernel)
  refine ⟨file, r, h, h1, file', ?_, ⟨hl, fun p hp => hsame p fun hc => hp x (List.mem_of_getElem? hx) (by omega)⟩, r', h2, h3⟩
  rintro rfl
  have := (h.reads (.inr (.inl rfl)) hn r h1).read 0 (by decide)
  rw [h1] at h2
  simp only [Res.ok.injEq] at h2
  rw [h2] at this
  have h4 := this.symm.trans h3
  revert h4
  decide

/-- Reading varints: two, then a number cut off in the middle. -/
example : ReadVarints 3 [5, 0x81, 1, 0x80] [5, 129] .broken :=
  .next 2 _ _ _ (by decide) (by decide) (.next 1 _ _ _ (by decide) (by decide) (.broken 0 _ (by decide) (by decide)))

end VibeCol
