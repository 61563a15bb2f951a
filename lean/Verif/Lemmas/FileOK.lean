/-
What a finalized file looks like, and what the reader makes of it.
-/
import Verif.Lemmas.Finalize
import Verif.Lemmas.Ints
set_option linter.unusedSimpArgs false
namespace VibeCol
set_option linter.unusedSectionVars false

/-- A block that was completely written: its file offset and its pairs. -/
structure Blk where
  off : Nat
  ids : List UInt64
  vals : List Int64

namespace Blk
/-- Its bytes without padding. -/
def img (e : UInt32) (b : Blk) : Bytes := image e b.ids b.vals
/-- Its size with padding. -/
def size (e : UInt32) (b : Blk) : Nat := (padded b.off (b.img e)).length
/-- The offset just after its padding. -/
def stop (e : UInt32) (b : Blk) : Nat := b.off + b.size e
/-- Its index entry. -/
def entry (e : UInt32) (b : Blk) : FooterEntry :=
  entryOf (UInt64.ofNat b.off, UInt32.ofNat (b.size e), statsOf b.ids b.vals)

/-- The pairs are acceptable and fit the sections. -/
structure OK (e : UInt32) (b : Blk) : Prop where
  ne : 0 < b.ids.length
  len : b.ids.length = b.vals.length
  bound : b.ids.length ≤ 2 ^ 27
  sec : SectionsMatch e b.ids b.vals

theorem img_length (e : UInt32) (b : Blk) (h : b.OK e) :
    (b.img e).length = 80 + idSize e b.ids + valSize e b.vals := by
  rw [img, image_length, h.sec.1, h.sec.2]

theorem size_eq (e : UInt32) (b : Blk) :
    b.size e = (b.img e).length + calculatePadding (b.off + (b.img e).length) pageSize := by
  rw [size, padded_length]

theorem img_le_size (e : UInt32) (b : Blk) : (b.img e).length ≤ b.size e := by
  rw [size_eq]; omega

theorem calculatePadding_lt (x : Nat) : calculatePadding x pageSize < 4096 := by
  unfold calculatePadding pageSize; split <;> omega

theorem size_lt (e : UInt32) (b : Blk) (h : b.OK e) : b.size e < 2 ^ 32 := by
  have h1 := idSize_le e b.ids
  have h2 := valSize_le e b.vals
  have h3 := calculatePadding_lt (b.off + (b.img e).length)
  have h4 := h.bound
  have h5 := h.len
  rw [size_eq, img_length e b h] at *
  omega

theorem size_ge (e : UInt32) (b : Blk) : 80 ≤ b.size e := by
  have := img_le_size e b
  rw [img, image_length] at this; omega

theorem stop_aligned (e : UInt32) (b : Blk) : b.stop e % 4096 = 0 := by
  rw [stop, size_eq]
  unfold calculatePadding pageSize
  split <;> omega
end Blk

/-- The blocks lie one after the other inside `[lo, hi]`. -/
def Laid (e : UInt32) : Nat → List Blk → Nat → Prop
  | lo, [], hi => lo ≤ hi
  | lo, b :: bs, hi => lo ≤ b.off ∧ Laid e (b.stop e) bs hi

theorem Laid.le {e : UInt32} {lo hi : Nat} {bs : List Blk} (h : Laid e lo bs hi) : lo ≤ hi := by
  induction bs generalizing lo with
  | nil => exact h
  | cons b bs ih =>
    have := ih h.2
    have h1 := h.1
    unfold Blk.stop at this; omega

theorem Laid.mem {e : UInt32} {lo hi : Nat} {bs : List Blk} (h : Laid e lo bs hi) (b : Blk)
    (hb : b ∈ bs) : lo ≤ b.off ∧ b.stop e ≤ hi := by
  induction bs generalizing lo with
  | nil => cases hb
  | cons c cs ih =>
    rcases List.mem_cons.1 hb with rfl | hb
    · exact ⟨h.1, h.2.le⟩
    · have := ih h.2 hb
      have h1 := h.1
      exact ⟨by have := this.1; unfold Blk.stop at this; omega, this.2⟩

theorem Laid.mono {e : UInt32} {lo hi hi' : Nat} {bs : List Blk} (h : Laid e lo bs hi) (hh : hi ≤ hi') :
    Laid e lo bs hi' := by
  induction bs generalizing lo with
  | nil => exact Nat.le_trans h hh
  | cons b bs ih => exact ⟨h.1, ih h.2⟩

theorem Laid.snoc {e : UInt32} {lo hi : Nat} {bs : List Blk} (h : Laid e lo bs hi) (b : Blk)
    (hb : hi ≤ b.off) : Laid e lo (bs ++ [b]) (b.stop e) := by
  induction bs generalizing lo with
  | nil => exact ⟨Nat.le_trans h hb, Nat.le_refl _⟩
  | cons c cs ih => exact ⟨h.1, ih h.2⟩

/-- `bytes` is a finalized file with these blocks and this bitmap buffer; the footer starts
at `fs`. Nothing is said about the sizes of the blocks. -/
structure FileBase (bytes : Bytes) (h : FileHeader) (e : UInt32) (blks : List Blk) (buf : Bytes)
    (bo fs : Nat) : Prop where
  small : bytes.length < 2 ^ 63
  hdr : slice bytes 0 60 = h.fields.flatten
  magic : h.magic = magicNumber
  ver : h.version = version
  enc : h.encodingType = e
  count : h.blockCount = UInt64.ofNat blks.length
  bmOff : h.bitmapOffset = UInt64.ofNat bo
  bmSize : h.bitmapSize = UInt64.ofNat (4 + buf.length)
  bo64 : 64 ≤ bo
  bmBytes : slice bytes bo (4 + buf.length) = le32 (UInt32.ofNat buf.length) ++ buf
  bmFits : bo + (4 + buf.length) ≤ fs
  foot : bytes.drop fs = le32 (UInt32.ofNat blks.length) ++
    (blks.map fun b => entryBytes (b.entry e)).flatten ++ metaBytes (4 + 56 * blks.length)
  fsLe : fs ≤ bytes.length
  aligned : fs % 4096 = 0
  laid : Laid e 64 blks bo
  img : ∀ b ∈ blks, slice bytes b.off (b.img e).length = b.img e
  tight : fs < bo + (4 + buf.length) + 4096

/-- The same, and every block is small enough for its 32-bit sizes. -/
structure FileOK (bytes : Bytes) (h : FileHeader) (e : UInt32) (blks : List Blk) (buf : Bytes)
    (bo fs : Nat) : Prop extends FileBase bytes h e blks buf bo fs where
  ok : ∀ b ∈ blks, b.OK e

theorem slice_zero_take (b : Bytes) (n : Nat) : slice b 0 n = b.take n := by simp [slice]

/-- Parsing a header gives back its fields. -/
theorem parseHeader_fields (buf : Bytes) (h : FileHeader) (hb : buf.take 60 = h.fields.flatten) :
    parseHeader buf = h := by
  have hs : ∀ o n, o + n ≤ 60 → slice buf o n = slice h.fields.flatten o n := by
    intro o n hn
    have := slice_of_slice (b := buf) (o := 0) (n := 60) (d := h.fields.flatten)
      ((slice_zero_take _ _).trans hb) o n hn
    rwa [Nat.zero_add] at this
  have r64 : ∀ o x, o + 8 ≤ 60 → slice h.fields.flatten o 8 = le64 x → rd64 buf o = x := by
    intro o x ho hx; apply rd64_of_slice; rw [← hx, ← hs o 8 ho]; rfl
  have r32 : ∀ o x, o + 4 ≤ 60 → slice h.fields.flatten o 4 = le32 x → rd32 buf o = x := by
    intro o x ho hx; apply rd32_of_slice; rw [← hx, ← hs o 4 ho]; rfl
  unfold parseHeader
  rw [r64 0 h.magic (by omega) (by simp [slice, FileHeader.fields]),
    r32 8 h.version (by omega) (by simp [slice, FileHeader.fields, List.drop_append, List.drop_eq_nil_of_le, List.take_of_length_le]),
    r32 12 h.columnType (by omega) (by simp [slice, FileHeader.fields, List.drop_append, List.drop_eq_nil_of_le, List.take_of_length_le]),
    r64 16 h.blockCount (by omega) (by simp [slice, FileHeader.fields, List.drop_append, List.drop_eq_nil_of_le, List.take_of_length_le]),
    r32 24 h.blockSizeTarget (by omega) (by simp [slice, FileHeader.fields, List.drop_append, List.drop_eq_nil_of_le, List.take_of_length_le]),
    r32 28 h.compressionType (by omega) (by simp [slice, FileHeader.fields, List.drop_append, List.drop_eq_nil_of_le, List.take_of_length_le]),
    r32 32 h.encodingType (by omega) (by simp [slice, FileHeader.fields, List.drop_append, List.drop_eq_nil_of_le, List.take_of_length_le]),
    r64 36 h.creationTime (by omega) (by simp [slice, FileHeader.fields, List.drop_append, List.drop_eq_nil_of_le, List.take_of_length_le]),
    r64 44 h.bitmapOffset (by omega) (by simp [slice, FileHeader.fields, List.drop_append, List.drop_eq_nil_of_le, List.take_of_length_le]),
    r64 52 h.bitmapSize (by omega) (by simp [slice, FileHeader.fields, List.drop_append, List.drop_eq_nil_of_le, List.take_of_length_le])]

/-- Parsing an index entry gives back its fields. -/
theorem parseEntry_fields (buf : Bytes) (i : Nat) (x : FooterEntry) (hi : i * 56 + 56 ≤ 2 ^ 32)
    (hb : slice buf (i * 56) 56 = entryBytes x) : parseEntry buf (UInt32.ofNat i) = x := by
  have hs : ∀ o n, o + n ≤ 56 → slice buf (i * 56 + o) n = slice (entryBytes x) o n := by
    intro o n hn; exact slice_of_slice hb o n hn
  have hoff : ∀ k : Nat, k < 56 → (UInt32.ofNat i * 56 + UInt32.ofNat k).toNat = i * 56 + k := by
    intro k hk
    simp only [UInt32.toNat_add, UInt32.toNat_mul, UInt32.toNat_ofNat']
    rw [show (56 : UInt32).toNat = 56 by decide]
    omega
  have hoff0 : (UInt32.ofNat i * 56).toNat = i * 56 + 0 := by
    have := hoff 0 (by omega)
    simpa using this
  have r64 : ∀ o x', o + 8 ≤ 56 → slice (entryBytes x) o 8 = le64 x' → rd64 buf (i * 56 + o) = x' := by
    intro o x' ho hx; apply rd64_of_slice; rw [← hx, ← hs o 8 ho]; rfl
  have r32 : ∀ o x', o + 4 ≤ 56 → slice (entryBytes x) o 4 = le32 x' → rd32 buf (i * 56 + o) = x' := by
    intro o x' ho hx; apply rd32_of_slice; rw [← hx, ← hs o 4 ho]; rfl
  have e8 := hoff 8 (by omega)
  have e12 := hoff 12 (by omega)
  have e20 := hoff 20 (by omega)
  have e28 := hoff 28 (by omega)
  have e36 := hoff 36 (by omega)
  have e44 := hoff 44 (by omega)
  have e52 := hoff 52 (by omega)
  unfold parseEntry
  dsimp only
  rw [show (8 : UInt32) = UInt32.ofNat 8 from rfl, show (12 : UInt32) = UInt32.ofNat 12 from rfl,
    show (20 : UInt32) = UInt32.ofNat 20 from rfl, show (28 : UInt32) = UInt32.ofNat 28 from rfl,
    show (36 : UInt32) = UInt32.ofNat 36 from rfl, show (44 : UInt32) = UInt32.ofNat 44 from rfl,
    show (52 : UInt32) = UInt32.ofNat 52 from rfl, hoff0, e8, e12, e20, e28, e36, e44, e52,
    r64 0 x.blockOffset (by omega) (by simp [slice, entryBytes, FooterEntry.fields]),
    r32 8 x.blockSize (by omega) (by simp [slice, entryBytes, FooterEntry.fields, List.drop_append, List.drop_eq_nil_of_le, List.take_of_length_le]),
    r64 12 x.minID (by omega) (by simp [slice, entryBytes, FooterEntry.fields, List.drop_append, List.drop_eq_nil_of_le, List.take_of_length_le]),
    r64 20 x.maxID (by omega) (by simp [slice, entryBytes, FooterEntry.fields, List.drop_append, List.drop_eq_nil_of_le, List.take_of_length_le]),
    r64 28 x.minValue (by omega) (by simp [slice, entryBytes, FooterEntry.fields, List.drop_append, List.drop_eq_nil_of_le, List.take_of_length_le]),
    r64 36 x.maxValue (by omega) (by simp [slice, entryBytes, FooterEntry.fields, List.drop_append, List.drop_eq_nil_of_le, List.take_of_length_le]),
    r64 44 x.sum (by omega) (by simp [slice, entryBytes, FooterEntry.fields, List.drop_append, List.drop_eq_nil_of_le, List.take_of_length_le]),
    r32 52 x.count (by omega) (by simp [slice, entryBytes, FooterEntry.fields, List.drop_append, List.drop_eq_nil_of_le, List.take_of_length_le])]

section
variable {B : Type} [Bitmap B]
variable {bytes : Bytes} {h : FileHeader} {e : UInt32} {blks : List Blk} {buf : Bytes} {bo fs : Nat}

theorem FileBase.index_length (_H : FileBase bytes h e blks buf bo fs) :
    (blks.map fun b => entryBytes (b.entry e)).flatten.length = 56 * blks.length := by
  have := flatten_map_eq (fun b : Blk => entryBytes (b.entry e)) blks 56 (by simp)
  omega

theorem FileBase.length (H : FileBase bytes h e blks buf bo fs) :
    bytes.length = fs + (4 + 56 * blks.length) + 24 := by
  have h1 := congrArg List.length H.foot
  have h2 := H.index_length
  have h3 := H.fsLe
  simp only [List.length_drop, List.length_append, le32_length, h2, metaBytes, le64_length] at h1
  omega

theorem FileBase.fs_ge (H : FileBase bytes h e blks buf bo fs) : 4096 ≤ fs := by
  have := H.bmFits; have := H.bo64; have := H.aligned; omega

theorem FileBase.slice_foot (H : FileBase bytes h e blks buf bo fs) (o n : Nat) :
    slice bytes (fs + o) n = slice (le32 (UInt32.ofNat blks.length) ++
    (blks.map fun b => entryBytes (b.entry e)).flatten ++ metaBytes (4 + 56 * blks.length)) o n := by
  rw [← H.foot]; unfold slice; rw [List.drop_drop]

/-- The reader obtained from a finalized file. -/
def okReader (bytes : Bytes) (h : FileHeader) (e : UInt32) (blks : List Blk) : Reader B where
  bytes := bytes
  header := h
  footerMeta := { footerSize := UInt64.ofNat (4 + 56 * blks.length), checksum := 0, magic := magicNumber }
  blockIndex := blks.map (Blk.entry e)
  globalIDs := none
  cacheGlobalIDs := false

theorem FileBase.readHeader (H : FileBase bytes h e blks buf bo fs) : readHeader bytes = .ok h := by
  have hl := H.length
  have := H.fs_ge
  unfold VibeCol.readHeader
  rw [show (0 : Int64) = Int64.ofNat 0 from rfl, readBytesAt_ok _ _ _ (by simp [headerSize]; omega) H.small]
  have hp : parseHeader (slice bytes 0 headerSize) = h := by
    apply parseHeader_fields
    rw [← H.hdr, slice_zero_take, slice_zero_take, List.take_take]; rfl
  simp only [Res.ok_bind, hp, H.magic, H.ver, ne_eq, not_true, if_false]

/-- Opening a finalized file: the index is what `parseEntry` makes of the index bytes. -/
theorem FileBase.newReader_any (H : FileBase bytes h e blks buf bo fs) (hcnt : blks.length < 2 ^ 32) :
    newReader (B := B) bytes = .ok { okReader bytes h e blks with
      blockIndex := (List.range blks.length).map fun i =>
        parseEntry (slice bytes (fs + 4) (blks.length * 56)) (UInt32.ofNat i) } := by
  have hl := H.length
  have hfs := H.fs_ge
  have hsm := H.small
  have hil := H.index_length
  -- the metadata
  have hm : slice bytes (bytes.length - 24) 24 = metaBytes (4 + 56 * blks.length) := by
    rw [hl, show fs + (4 + 56 * blks.length) + 24 - 24 = fs + (4 + 56 * blks.length) by omega,
      H.slice_foot, slice_append_right _ _ _ _ (by simp only [List.length_append, hil, le32_length]; omega)]
    simp only [List.length_append, hil, le32_length, Nat.sub_self]
    unfold slice; rw [List.drop_zero, List.take_of_length_le (by simp [metaBytes])]
  have hm0 : rd64 (metaBytes (4 + 56 * blks.length)) 0 = UInt64.ofNat (4 + 56 * blks.length) := by
    apply rd64_of_slice; simp [metaBytes]
  have hm8 : rd64 (metaBytes (4 + 56 * blks.length)) 8 = 0 := by
    apply rd64_of_slice; simp [metaBytes, List.drop_append, List.drop_eq_nil_of_le, List.take_of_length_le]
  have hm16 : rd64 (metaBytes (4 + 56 * blks.length)) 16 = magicNumber := by
    apply rd64_of_slice; simp [metaBytes, List.drop_append, List.drop_eq_nil_of_le, List.take_of_length_le]
  have hc : rd32 (slice bytes fs 4) 0 = UInt32.ofNat blks.length := by
    have := H.slice_foot 0 4
    rw [Nat.add_zero] at this
    rw [this]
    apply rd32_of_slice
    simp [slice, List.take_append, List.take_of_length_le]
  have hcn : (UInt32.ofNat blks.length).toNat = blks.length := ofNat32_toNat _ (by omega)
  have hc64 : (UInt32.ofNat blks.length).toUInt64 = h.blockCount := by
    rw [H.count]; apply UInt64.toNat_inj.1
    rw [UInt32.toNat_toUInt64, hcn]; simp; omega
  unfold VibeCol.newReader
  rw [H.readHeader]
  simp only [Res.ok_bind]
  unfold readFooter
  dsimp only
  rw [show (24 : Int64) = Int64.ofNat 24 from rfl, if_neg (by
    rw [int64_ofNat_lt _ _ hsm (by decide)]; omega),
    int64_ofNat_sub _ _ (by omega) hsm, readBytesAt_ok _ _ _ (by omega) hsm]
  simp only [Res.ok_bind, hm, hm0, hm8, hm16, ne_eq, not_true, if_false]
  rw [uint64_ofNat_toInt64, int64_ofNat_sub _ _ (by omega) (by omega),
    show (64 : Int64) = Int64.ofNat 64 from rfl, if_neg (by
      rw [int64_ofNat_lt _ _ (by omega) (by decide)]; omega),
    show bytes.length - 24 - (4 + 56 * blks.length) = fs by omega,
    show (4 : Int64) = Int64.ofNat 4 from rfl, readBytesAt_ok _ _ _ (by omega) hsm]
  simp only [Res.ok_bind, hc, hc64, not_true, if_false, hcn]
  rw [int64_ofNat_add, readBytesAt_ok _ _ _ (by omega) hsm]
  simp only [Res.ok_bind, okReader]

/-- The bytes of index entry `i`. -/
theorem FileBase.slice_entry (H : FileBase bytes h e blks buf bo fs) (i : Nat) (hi : i < blks.length) :
    slice (slice bytes (fs + 4) (blks.length * 56)) (i * 56) 56 = entryBytes (blks[i].entry e) := by
  have hil := H.index_length
  rw [slice_slice _ _ _ _ _ (by omega), Nat.add_assoc, H.slice_foot,
    slice_append_left _ _ _ _ (by simp only [List.length_append, hil, le32_length]; omega),
    slice_append_right _ _ _ _ (by simp)]
  simp only [le32_length, Nat.add_sub_cancel_left]
  exact slice_chunks (fun b : Blk => entryBytes (b.entry e)) 56 (by simp) blks i hi

theorem FileBase.newReader (H : FileBase bytes h e blks buf bo fs) (hcnt : blks.length * 56 ≤ 2 ^ 32) :
    newReader (B := B) bytes = .ok (okReader bytes h e blks) := by
  rw [H.newReader_any (by omega)]
  simp only [okReader, Res.ok.injEq, Reader.mk.injEq, true_and, and_true]
  apply List.ext_getElem
  · simp
  · intro i h1 h2
    simp only [List.length_map, List.length_range] at h1
    simp only [List.getElem_map, List.getElem_range]
    exact parseEntry_fields _ _ _ (by omega) (H.slice_entry i h1)

theorem FileOK.readBlock (H : FileOK bytes h e blks buf bo fs) (i : Nat) (hi : i < blks.length)
    (r : Reader B) (hb : r.bytes = bytes) (hh : r.header.encodingType = e)
    (hx : r.blockIndex[i]? = some (blks[i].entry e)) (hcnt : i < 2 ^ 63) :
    readBlock r (Int64.ofNat i) =
      decodeBlockData (idSection e blks[i].ids) (valSection e blks[i].vals) blks[i].ids.length e := by
  have hmem : blks[i] ∈ blks := List.getElem_mem hi
  have hok := H.ok _ hmem
  have himg := H.img _ hmem
  have hlaid := H.laid.mem _ hmem
  have hil := Blk.img_length e _ hok
  have hsz := Blk.size_lt e _ hok
  have hszg := Blk.img_le_size e blks[i]
  have hfit := H.bmFits
  have hfs := H.fsLe
  have hsm := H.small
  have hidl := hok.sec.1
  have hvall := hok.sec.2
  have hidge := idSize_ge e blks[i].ids
  have hvalge := valSize_ge e blks[i].vals
  have hne := hok.ne
  have hlen := hok.len
  have hbound := hok.bound
  have hidle := idSize_le e blks[i].ids
  have hvalle := valSize_le e blks[i].vals
  have hstop : blks[i].off + blks[i].size e ≤ bytes.length := by
    have := hlaid.2; unfold Blk.stop at this; omega
  unfold VibeCol.readBlock
  rw [if_neg (int64_ofNat_not_neg i (by omega)), int64_toInt_ofNat _ (by omega), Int.toNat_natCast, hx]
  dsimp only
  have eo : (blks[i].entry e).blockOffset = UInt64.ofNat blks[i].off := rfl
  have es : (blks[i].entry e).blockSize = UInt32.ofNat (blks[i].size e) := rfl
  have ec : (blks[i].entry e).count = UInt32.ofNat blks[i].ids.length := rfl
  rw [eo, es, ec, ofNat32_toNat _ hsz, ofNat32_toNat _ (by omega), uint64_ofNat_toInt64,
    show (64 : Int64) = Int64.ofNat 64 from rfl, int64_ofNat_add, int64_ofNat_sub _ _ (by omega) (by omega),
    hb, hh, readBytesAt_ok _ _ _ (by omega) hsm]
  simp only [Res.ok_bind]
  have hdl : (slice bytes (blks[i].off + 64) (blks[i].size e - 64)).length = blks[i].size e - 64 :=
    slice_length _ _ _ (by omega)
  rw [goSlice_ok _ _ _ (by omega) (by omega), goSlice_ok _ _ _ (by omega) (by omega),
    goSlice_ok _ _ _ (by omega) (by omega), goSlice_ok _ _ _ (by omega) (by omega)]
  simp only [Res.ok_bind]
  -- the parts of the block
  have himg' : image e blks[i].ids blks[i].vals = blks[i].img e := rfl
  have part : ∀ o n, o + n ≤ (blks[i].img e).length →
      slice bytes (blks[i].off + o) n = slice (blks[i].img e) o n :=
    fun o n hn => slice_of_slice himg o n hn
  have h52 := header52_length e blks[i].ids blks[i].vals
  have l0 : slice (blks[i].img e) 64 4 = le32 0 := by
    rw [← himg']; simp [slice, image, layoutBytes, List.drop_append, List.drop_eq_nil_of_le, List.take_of_length_le, h52]
  have l1 : slice (blks[i].img e) 68 4 = le32 (UInt32.ofNat (idSize e blks[i].ids)) := by
    rw [← himg']; simp [slice, image, layoutBytes, List.drop_append, List.drop_eq_nil_of_le, List.take_of_length_le, h52]
  have l2 : slice (blks[i].img e) 72 4 = le32 (UInt32.ofNat (idSize e blks[i].ids)) := by
    rw [← himg']; simp [slice, image, layoutBytes, List.drop_append, List.drop_eq_nil_of_le, List.take_of_length_le, h52]
  have l3 : slice (blks[i].img e) 76 4 = le32 (UInt32.ofNat (valSize e blks[i].vals)) := by
    rw [← himg']; simp [slice, image, layoutBytes, List.drop_append, List.drop_eq_nil_of_le, List.take_of_length_le, h52]
  have li : slice (blks[i].img e) 80 (idSize e blks[i].ids) = idSection e blks[i].ids := by
    rw [← himg']
    have hl := layoutBytes_length e blks[i].ids blks[i].vals
    unfold image
    rw [slice_append_left _ _ _ _ (by simp only [List.length_append, h52, hl, hidl, le32_length]; omega),
      slice_append_right _ _ _ _ (by simp [h52, hl])]
    simp only [List.length_append, h52, hl, le32_length]
    simp [slice, ← hidl]
  have lv : slice (blks[i].img e) (80 + idSize e blks[i].ids) (valSize e blks[i].vals) =
      valSection e blks[i].vals := by
    rw [← himg']
    have hl := layoutBytes_length e blks[i].ids blks[i].vals
    unfold image
    rw [slice_append_right _ _ _ _ (by simp only [List.length_append, h52, hl, hidl, le32_length]; omega)]
    simp only [List.length_append, h52, hl, le32_length, hidl]
    simp [slice, ← hvall]
  have r0 : rd32 (slice bytes (blks[i].off + 64) (blks[i].size e - 64)) 0 = 0 :=
    rd32_slice_of _ _ _ _ _ (by omega) (by rw [Nat.add_assoc, part _ _ (by omega), l0])
  have r1 : rd32 (slice bytes (blks[i].off + 64) (blks[i].size e - 64)) 4 =
      UInt32.ofNat (idSize e blks[i].ids) :=
    rd32_slice_of _ _ _ _ _ (by omega) (by rw [Nat.add_assoc, part _ _ (by omega), l1])
  have r2 : rd32 (slice bytes (blks[i].off + 64) (blks[i].size e - 64)) 8 =
      UInt32.ofNat (idSize e blks[i].ids) :=
    rd32_slice_of _ _ _ _ _ (by omega) (by rw [Nat.add_assoc, part _ _ (by omega), l2])
  have r3 : rd32 (slice bytes (blks[i].off + 64) (blks[i].size e - 64)) 12 =
      UInt32.ofNat (valSize e blks[i].vals) :=
    rd32_slice_of _ _ _ _ _ (by omega) (by rw [Nat.add_assoc, part _ _ (by omega), l3])
  rw [r0, r1, r2, r3, if_neg (by rw [ofNat32_zero_iff _ (by omega)]; omega),
    if_neg (by rw [ofNat32_zero_iff _ (by omega)]; omega), ofNat32_toNat _ (by omega),
    ofNat32_toNat _ (by omega), show (0 : UInt32).toNat = 0 from rfl, hdl,
    if_neg (by omega), goSlice_ok _ _ _ (by omega) (by omega), goSlice_ok _ _ _ (by omega) (by omega)]
  simp only [Res.ok_bind, Nat.add_zero]
  have e1 : slice (slice bytes (blks[i].off + 64) (blks[i].size e - 64)) 16
      (16 + idSize e blks[i].ids - 16) = idSection e blks[i].ids := by
    rw [slice_slice _ _ _ _ _ (by omega), Nat.add_assoc, Nat.add_sub_cancel_left, part _ _ (by omega), li]
  have e2 : slice (slice bytes (blks[i].off + 64) (blks[i].size e - 64)) (16 + idSize e blks[i].ids)
      (16 + idSize e blks[i].ids + valSize e blks[i].vals - (16 + idSize e blks[i].ids)) =
      valSection e blks[i].vals := by
    rw [slice_slice _ _ _ _ _ (by omega), Nat.add_sub_cancel_left,
      show blks[i].off + 64 + (16 + idSize e blks[i].ids) = blks[i].off + (80 + idSize e blks[i].ids)
      by omega, part _ _ (by omega), lv]
  rw [e1, e2]

/-- The bitmap is read back from where it was written. -/
theorem FileBase.bitmap (H : FileBase bytes h e blks buf bo fs) (hbuf : buf.length < 2 ^ 32)
    (r : Reader B) (hb : r.bytes = bytes) (hh : r.header = h) (hn : r.globalIDs = none) :
    (getGlobalIDBitmap r).1 = .ok (Bitmap.fromBuffer buf) := by
  have hsm := H.small
  have hfit := H.bmFits
  have hfs := H.fsLe
  have hbo := H.bo64
  have hoff : h.bitmapOffset ≠ 0 := by
    rw [H.bmOff]; intro hc
    have := congrArg UInt64.toNat hc
    simp at this; omega
  have hsize : h.bitmapSize ≠ 0 := by
    rw [H.bmSize]; intro hc
    have := congrArg UInt64.toNat hc
    rw [UInt64.toNat_ofNat'] at this
    simp at this; omega
  have hbm := H.bmBytes
  have h4 : slice bytes bo 4 = le32 (UInt32.ofNat buf.length) := by
    have := slice_of_slice hbm 0 4 (by omega)
    rw [Nat.add_zero] at this
    rw [this]; simp [slice, List.take_of_length_le]
  have hrest : slice bytes (bo + 4) buf.length = buf := by
    rw [slice_of_slice hbm 4 buf.length (by omega), slice_append_right _ _ _ _ (by simp)]
    simp [slice]
  have hrd : rd32 (slice bytes bo 4) 0 = UInt32.ofNat buf.length := by
    rw [h4]; apply rd32_of_slice; simp [List.take_of_length_le]
  unfold getGlobalIDBitmap
  rw [hn, hb, hh, H.bmOff]
  rw [H.bmOff] at hoff
  simp only [hoff, hsize, or_self, if_false]
  rw [uint64_ofNat_toInt64, show (4 : Int64) = Int64.ofNat 4 from rfl, readBytesAt_ok _ _ _ (by omega) hsm]
  simp only [hrd, ofNat32_toNat _ hbuf]
  rw [int64_ofNat_add, readBytesAt_ok _ _ _ (by omega) hsm]
  simp only [hrest]
end
end VibeCol
