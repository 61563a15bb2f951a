/-
Reading a file whose footer is intact but whose header is a mixture of two headers.
-/
import Verif.Lemmas.Reads
import Verif.Lemmas.PowerFinal
namespace VibeCol
set_option linter.unusedSectionVars false
variable {B : Type} [Bitmap B]

/-- Reading the footer, whatever the header says. -/
theorem readFooter_any {bytes idx : Bytes} {fs n : Nat} (hsm : bytes.length < 2 ^ 63) (hfs : 64 ≤ fs) (hle : fs ≤ bytes.length)
    (hn : n < 2 ^ 32) (hil : idx.length = 56 * n)
    (hfoot : bytes.drop fs = le32 (UInt32.ofNat n) ++ idx ++ metaBytes (4 + 56 * n)) (hd : FileHeader) :
    readFooter bytes hd = .ok (if hd.blockCount < UInt64.ofNat n then { hd with blockCount := UInt64.ofNat n } else hd,
      { footerSize := UInt64.ofNat (4 + 56 * n), checksum := 0, magic := magicNumber },
      (List.range n).map fun i => parseEntry idx (UInt32.ofNat i)) := by
  have hl : bytes.length = fs + (4 + 56 * n) + 24 := by
    have h1 := congrArg List.length hfoot
    simp only [List.length_drop, List.length_append, le32_length, hil, metaBytes, le64_length] at h1
    omega
  have hsf : ∀ o m, slice bytes (fs + o) m = slice (le32 (UInt32.ofNat n) ++ idx ++ metaBytes (4 + 56 * n)) o m := by
    intro o m; rw [← hfoot]; unfold slice; rw [List.drop_drop]
  have hm : slice bytes (bytes.length - 24) 24 = metaBytes (4 + 56 * n) := by
    rw [hl, show fs + (4 + 56 * n) + 24 - 24 = fs + (4 + 56 * n) by omega,
      hsf, slice_append_right _ _ _ _ (by simp only [List.length_append, hil, le32_length]; omega)]
    simp only [List.length_append, hil, le32_length, Nat.sub_self]
    unfold slice; rw [List.drop_zero, List.take_of_length_le (by simp [metaBytes])]
  have hm0 : rd64 (metaBytes (4 + 56 * n)) 0 = UInt64.ofNat (4 + 56 * n) := by
    apply rd64_of_slice; simp [metaBytes]
  have hm8 : rd64 (metaBytes (4 + 56 * n)) 8 = 0 := by
    apply rd64_of_slice; simp [metaBytes, List.drop_append, List.drop_eq_nil_of_le, List.take_of_length_le]
  have hm16 : rd64 (metaBytes (4 + 56 * n)) 16 = magicNumber := by
    apply rd64_of_slice; simp [metaBytes, List.drop_append, List.drop_eq_nil_of_le, List.take_of_length_le]
  have hc : rd32 (slice bytes fs 4) 0 = UInt32.ofNat n := by
    have := hsf 0 4
    rw [Nat.add_zero] at this
    rw [this]
    apply rd32_of_slice
    simp [slice, List.take_append, List.take_of_length_le]
  have hcn : (UInt32.ofNat n).toNat = n := ofNat32_toNat _ (by omega)
  have hc64 : (UInt32.ofNat n).toUInt64 = UInt64.ofNat n := by
    apply UInt64.toNat_inj.1
    rw [UInt32.toNat_toUInt64, hcn]; simp; omega
  have hidx : slice bytes (fs + 4) (n * 56) = idx := by
    rw [hsf, slice_append_left _ _ _ _ (by simp only [List.length_append, hil, le32_length]; omega),
      slice_append_right _ _ _ _ (by simp)]
    simp only [le32_length, Nat.sub_self]
    unfold slice; rw [List.drop_zero, List.take_of_length_le (by omega)]
  have hfix : (if UInt64.ofNat n ≠ hd.blockCount then
        if UInt64.ofNat n > hd.blockCount then { hd with blockCount := UInt64.ofNat n } else hd
      else hd) = if hd.blockCount < UInt64.ofNat n then { hd with blockCount := UInt64.ofNat n } else hd := by
    by_cases h1 : UInt64.ofNat n = hd.blockCount
    · rw [if_neg (fun h => h h1), h1, if_neg (by exact UInt64.lt_irrefl _)]
    · rw [if_pos h1]
  unfold readFooter
  dsimp only
  rw [show (24 : Int64) = Int64.ofNat 24 from rfl, if_neg (by
    rw [int64_ofNat_lt _ _ hsm (by decide)]; omega),
    int64_ofNat_sub _ _ (by omega) hsm, readBytesAt_ok _ _ _ (by omega) hsm]
  simp only [Res.ok_bind, hm, hm0, hm8, hm16, ne_eq, not_true, if_false]
  rw [uint64_ofNat_toInt64, int64_ofNat_sub _ _ (by omega) (by omega),
    show (64 : Int64) = Int64.ofNat 64 from rfl, if_neg (by
      rw [int64_ofNat_lt _ _ (by omega) (by decide)]; omega),
    show bytes.length - 24 - (4 + 56 * n) = fs by omega,
    show (4 : Int64) = Int64.ofNat 4 from rfl, readBytesAt_ok _ _ _ (by omega) hsm]
  simp only [Res.ok_bind, hc, hc64, hcn]
  rw [int64_ofNat_add, readBytesAt_ok _ _ _ (by omega) hsm]
  simp only [Res.ok_bind, hidx]
  exact congrArg (fun h => Res.ok (h, _, _)) hfix

/-- `readBlock` looks at the file only in one place. -/
theorem readBlock_congr (r r' : Reader B) (i : Int64) (hx : r.blockIndex = r'.blockIndex)
    (he : r.header.encodingType = r'.header.encodingType)
    (hb : ∀ x ∈ r.blockIndex, readBytesAt r.bytes (x.blockOffset.toInt64 + 64) (Int64.ofNat x.blockSize.toNat - 64) =
      readBytesAt r'.bytes (x.blockOffset.toInt64 + 64) (Int64.ofNat x.blockSize.toNat - 64)) :
    readBlock r i = readBlock r' i := by
  unfold readBlock
  rw [← hx, ← he]
  by_cases h0 : i < 0
  · rw [if_pos h0, if_pos h0]
  · rw [if_neg h0, if_neg h0]
    rcases hc : r.blockIndex[i.toInt.toNat]? with _ | x
    · rfl
    · dsimp only
      rw [hb x (List.mem_of_getElem? hc)]

/-- Bytewise at most means at most. -/
theorem leToNat_le (a b : Bytes) (hl : a.length = b.length) (h : ∀ (i : Nat) (x y : UInt8), a[i]? = some x → b[i]? = some y → x.toNat ≤ y.toNat) :
    leToNat a ≤ leToNat b := by
  induction a generalizing b with
  | nil => exact Nat.zero_le _
  | cons x xs ih =>
    cases b with
    | nil => simp at hl
    | cons y ys =>
      have h0 := h 0 x y rfl rfl
      have := ih ys (by simpa using hl) (fun i u v hu hv => h (i + 1) u v hu hv)
      simp only [leToNat]
      omega

/-- Every byte of the first 60 comes from `a` or from `b`. -/
def Mix (f a b : Bytes) : Prop := ∀ i, i < 60 → f[i]? = a[i]? ∨ f[i]? = b[i]?

theorem slice_getElem? (b : Bytes) (o n i : Nat) (h : i < n) : (slice b o n)[i]? = b[o + i]? := by
  unfold slice
  rw [List.getElem?_take_of_lt h, List.getElem?_drop]

theorem Mix.slice {f a b x : Bytes} (h : Mix f a b) {o n : Nat} (ho : o + n ≤ 60) (ha : slice a o n = x)
    (hb : slice b o n = x) (hf : 60 ≤ f.length) (hla : 60 ≤ a.length) : VibeCol.slice f o n = x := by
  have l1 := slice_length f o n (by omega)
  have l2 : x.length = n := by rw [← ha]; exact slice_length a o n (by omega)
  refine List.ext_getElem? fun i => ?_
  by_cases hi : i < n
  · rw [slice_getElem? _ _ _ _ hi]
    rcases h (o + i) (by omega) with h' | h'
    · rw [h', ← slice_getElem? _ _ _ _ hi, ha]
    · rw [h', ← slice_getElem? _ _ _ _ hi, hb]
  · rw [List.getElem?_eq_none (by omega), List.getElem?_eq_none (by omega)]

theorem header_slices (h : FileHeader) : slice h.fields.flatten 0 8 = le64 h.magic ∧
    slice h.fields.flatten 8 4 = le32 h.version ∧ slice h.fields.flatten 16 8 = le64 h.blockCount ∧
    slice h.fields.flatten 32 4 = le32 h.encodingType := by
  refine ⟨by simp [slice, FileHeader.fields], ?_, ?_, ?_⟩ <;>
    simp [slice, FileHeader.fields, List.drop_append, List.drop_eq_nil_of_le, List.take_of_length_le]

/-- The header read from a mixture of a fresh header and a final one. -/
theorem mixed_header {f : Bytes} {a b : FileHeader} {e : UInt32} (hm : Mix f a.fields.flatten b.fields.flatten)
    (ha : a.magic = magicNumber ∧ a.version = version ∧ a.encodingType = e ∧ a.blockCount = 0)
    (hb : b.magic = magicNumber ∧ b.version = version ∧ b.encodingType = e)
    (hl : 64 ≤ f.length) (hsm : f.length < 2 ^ 63) :
    ∃ hd, readHeader f = .ok hd ∧ hd.encodingType = e ∧ hd.blockCount ≤ b.blockCount := by
  obtain ⟨a1, a2, a3, a4⟩ := ha
  obtain ⟨b1, b2, b3⟩ := hb
  obtain ⟨sa1, sa2, sa3, sa4⟩ := header_slices a
  obtain ⟨sb1, sb2, sb3, sb4⟩ := header_slices b
  have la : 60 ≤ a.fields.flatten.length := by rw [headerFields_length]; omega
  have r64 : ∀ o x, o + 8 ≤ 60 → slice f o 8 = le64 x → rd64 (slice f 0 64) o = x := by
    intro o x ho hx
    apply rd64_of_slice
    have : slice (slice f 0 64) o 8 = le64 x := by rw [slice_slice _ _ _ _ _ (by omega), Nat.zero_add]; exact hx
    exact this
  have r32 : ∀ o x, o + 4 ≤ 60 → slice f o 4 = le32 x → rd32 (slice f 0 64) o = x := by
    intro o x ho hx
    apply rd32_of_slice
    have : slice (slice f 0 64) o 4 = le32 x := by rw [slice_slice _ _ _ _ _ (by omega), Nat.zero_add]; exact hx
    exact this
  have h1 : rd64 (slice f 0 64) 0 = magicNumber :=
    r64 _ _ (by omega) (hm.slice (by omega) (by rw [sa1, a1]) (by rw [sb1, b1]) (by omega) la)
  have h2 : rd32 (slice f 0 64) 8 = version :=
    r32 _ _ (by omega) (hm.slice (by omega) (by rw [sa2, a2]) (by rw [sb2, b2]) (by omega) la)
  have h3 : rd32 (slice f 0 64) 32 = e :=
    r32 _ _ (by omega) (hm.slice (by omega) (by rw [sa4, a3]) (by rw [sb4, b3]) (by omega) la)
  refine ⟨parseHeader (slice f 0 64), ?_, h3, ?_⟩
  · unfold readHeader
    rw [show (0 : Int64) = Int64.ofNat 0 from rfl, readBytesAt_ok _ _ _ (by simp [headerSize]; omega) hsm]
    have e1 : (parseHeader (slice f 0 headerSize)).magic = magicNumber := h1
    have e2 : (parseHeader (slice f 0 headerSize)).version = version := h2
    simp only [Res.ok_bind, e1, e2, ne_eq, not_true, if_false]
    rfl
  · show rd64 (slice f 0 64) 16 ≤ b.blockCount
    have hsl : ((slice f 0 64).drop 16).take 8 = slice f 16 8 := by
      have : slice (slice f 0 64) 16 8 = slice f 16 8 := by rw [slice_slice _ _ _ _ _ (by omega)]
      exact this
    have hbc : leToNat (slice b.fields.flatten 16 8) = b.blockCount.toNat := by
      rw [sb3]
      unfold le64
      rw [leToNat_natToLE]
      exact Nat.mod_eq_of_lt b.blockCount.toNat_lt
    have hle : leToNat (slice f 16 8) ≤ b.blockCount.toNat := by
      rw [← hbc]
      have lb : 60 ≤ b.fields.flatten.length := by rw [headerFields_length]; omega
      refine leToNat_le _ _ (by rw [slice_length _ _ _ (by omega), slice_length _ _ _ (by omega)]) ?_
      intro i x y hx hy
      have hi : i < 8 := by
        obtain ⟨h, _⟩ := List.getElem?_eq_some_iff.mp hx
        rw [slice_length _ _ _ (by omega)] at h
        exact h
      rw [slice_getElem? _ _ _ _ hi] at hx
      rcases hm (16 + i) (by omega) with h' | h'
      · rw [h', ← slice_getElem? _ _ _ _ hi, sa3, a4] at hx
        have hz : le64 0 = List.replicate 8 0 := by decide
        rw [hz] at hx
        obtain ⟨_, hx⟩ := List.getElem?_eq_some_iff.mp hx
        rw [List.getElem_replicate] at hx
        subst hx
        exact Nat.zero_le _
      · rw [h', ← slice_getElem? _ _ _ _ hi, hy] at hx
        injection hx with hx
        rw [hx]
        exact Nat.le_refl _
    rw [UInt64.le_iff_toNat_le]
    unfold rd64
    rw [hsl, UInt64.toNat_ofNat']
    exact Nat.le_trans (Nat.mod_le _ _) hle

/-- A file with a mixed header, but the blocks and the footer of a finalized file, delivers the same
blocks. -/
theorem mixed_reads {f F : Bytes} {a h : FileHeader} {e : UInt32} {blks : List Blk} {buf : Bytes} {bo fs : Nat}
    (H : FileOK F h e blks buf bo fs) (he : SymEnc e) (hcnt : blks.length ≤ maxBlocks)
    {b : FileHeader} (hm : Mix f a.fields.flatten b.fields.flatten)
    (ha : a.magic = magicNumber ∧ a.version = version ∧ a.encodingType = e ∧ a.blockCount = 0)
    (hb : b.magic = magicNumber ∧ b.version = version ∧ b.encodingType = e ∧ b.blockCount = h.blockCount)
    (hl : f.length = F.length) (hblocks : ∀ i, 64 ≤ i → i < bo → f[i]? = F[i]?) (hfoot : f.drop fs = F.drop fs) :
    ∃ r : Reader B, newReader f = .ok r ∧ Reads r (blks.map fun b => (b.ids, b.vals)) ∧
      (∀ hd, readHeader f = .ok hd → r.header = { hd with blockCount := h.blockCount }) ∧
      r.bytes = f ∧ r.globalIDs = none := by
  have hlen := H.length
  have hfs := H.fs_ge
  have hsm := H.small
  have hR := H.reads (B := B) he hcnt
  have hcnt' := hcnt
  unfold maxBlocks at hcnt'
  obtain ⟨hd, h1, h2, h3⟩ := mixed_header hm ha ⟨hb.1, hb.2.1, hb.2.2.1⟩ (by omega) (by omega)
  rw [hb.2.2.2, H.count] at h3
  have hft := readFooter_any (bytes := f) (fs := fs) (n := blks.length) (by omega) (by omega) (by omega) (by omega)
    H.index_length (hfoot.trans H.foot) hd
  have hidx : ((List.range blks.length).map fun i =>
      parseEntry (blks.map fun b => entryBytes (b.entry e)).flatten (UInt32.ofNat i)) = blks.map (Blk.entry e) := by
    apply List.ext_getElem
    · simp
    · intro i h1 h2
      simp only [List.length_map, List.length_range] at h1
      simp only [List.getElem_map, List.getElem_range]
      refine parseEntry_fields _ _ _ (by omega) ?_
      exact slice_chunks (fun b : Blk => entryBytes (b.entry e)) 56 (by simp) blks i h1
  rw [hidx] at hft
  have hfix : (if hd.blockCount < UInt64.ofNat blks.length then { hd with blockCount := UInt64.ofNat blks.length } else hd) =
      { hd with blockCount := UInt64.ofNat blks.length } := by
    by_cases hlt : hd.blockCount < UInt64.ofNat blks.length
    · rw [if_pos hlt]
    · rw [if_neg hlt]
      have : hd.blockCount = UInt64.ofNat blks.length := by
        apply UInt64.toNat_inj.1
        rw [UInt64.lt_iff_toNat_lt] at hlt
        rw [UInt64.le_iff_toNat_le] at h3
        omega
      rw [← this]
  rw [hfix] at hft
  let r : Reader B := { okReader f { hd with blockCount := UInt64.ofNat blks.length } e blks with bytes := f }
  have hr : newReader f = .ok r := by
    unfold newReader
    rw [h1]
    simp only [Res.ok_bind]
    rw [hft]
    rfl
  have hread : ∀ i, readBlock r i = readBlock (okReader (B := B) F h e blks) i := by
    intro i
    refine readBlock_congr _ _ _ rfl (h2.trans H.enc.symm) ?_
    intro x hx
    obtain ⟨k, hk, rfl⟩ := List.mem_map.1 hx
    have hok := H.ok k hk
    have hlaid := H.laid.mem _ hk
    have hsz := Blk.size_lt e _ hok
    have hszg := Blk.img_le_size e k
    have hil := Blk.img_length e _ hok
    have hidge := idSize_ge e k.ids
    have hfit := H.bmFits
    have hfsl := H.fsLe
    have hstop : k.off + k.size e ≤ bo := hlaid.2
    have hsz80 : 80 ≤ k.size e := by omega
    have eo : (k.entry e).blockOffset = UInt64.ofNat k.off := rfl
    have es : (k.entry e).blockSize = UInt32.ofNat (k.size e) := rfl
    rw [eo, es, ofNat32_toNat _ hsz, uint64_ofNat_toInt64, show (64 : Int64) = Int64.ofNat 64 from rfl,
      int64_ofNat_add, int64_ofNat_sub _ _ (by omega) (by omega)]
    show readBytesAt f _ _ = readBytesAt F _ _
    rw [readBytesAt_ok _ _ _ (by omega) (by omega), readBytesAt_ok _ _ _ (by omega) hsm]
    refine congrArg Res.ok ?_
    refine List.ext_getElem? fun i => ?_
    by_cases hi : i < k.size e - 64
    · rw [slice_getElem? _ _ _ _ hi, slice_getElem? _ _ _ _ hi]
      exact hblocks _ (by omega) (by omega)
    · rw [List.getElem?_eq_none (by rw [slice_length _ _ _ (by omega)]; omega),
        List.getElem?_eq_none (by rw [slice_length _ _ _ (by omega)]; omega)]
  refine ⟨r, hr, ⟨⟨hR.few, ?_, hR.index, hR.entry, hR.ok⟩, ?_⟩, ?_, rfl, rfl⟩
  · show UInt64.ofNat blks.length = _
    rw [List.length_map]
  · intro i hi
    unfold getPairs
    rw [hread]
    exact hR.read i hi
  · intro hd' hhd
    rw [h1] at hhd
    injection hhd with hhd
    subst hhd
    rw [H.count]
    rfl

end VibeCol
