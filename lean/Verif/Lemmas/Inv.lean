/-
The invariant relating a writer to the blocks it has completely written, and its preservation
by `WriteBlock` and `Finalize` under every fault schedule.
-/
import Verif.Lemmas.FileOK
import Verif.Lemmas.WriteBlock
namespace VibeCol
variable {B : Type} [Bitmap B]

/-- Everything recorded about the blocks is in place and the cursor is at the end. -/
structure Clean (w : Writer B) (blks : List Blk) : Prop where
  positions : w.blockPositions = blks.map fun b => UInt64.ofNat b.off
  atEnd : w.file.pos = w.file.bytes.length
  laid : Laid w.encodingType 64 blks w.file.pos
  img : ∀ b ∈ blks, slice w.file.bytes b.off (b.img w.encodingType).length = b.img w.encodingType

/-- The writer invariant: `blks` are the completely written blocks, `extra` the IDs that are
in the bitmap only because of failed writes. -/
structure Inv (w : Writer B) (blks : List Blk) (extra : List UInt64) : Prop where
  pos64 : 64 ≤ w.file.pos
  posLe : w.file.pos ≤ w.file.bytes.length
  near : w.file.bytes.length ≤ w.file.pos + 4
  cnt : w.blockCount = blks.length
  sizes : w.blockSizes = blks.map fun b => UInt32.ofNat (b.size w.encodingType)
  stats : w.blockStats = blks.map fun b => statsOf b.ids b.vals
  bitmap : ∀ x, Bitmap.contains w.globalIDs x = true ↔ (∃ b ∈ blks, x ∈ b.ids) ∨ x ∈ extra
  ok : ∀ b ∈ blks, b.OK w.encodingType
  tracked : Clean w blks ∨ blks.length < w.blockPositions.length

/-- The parts of a writer that no call to `WriteBlock` or `Finalize` changes. -/
structure SameConfig (w w' : Writer B) : Prop where
  enc : w'.encodingType = w.encodingType
  target : w'.blockSizeTarget = w.blockSizeTarget
  opened : w'.fileOpen = w.fileOpen

omit [Bitmap B] in
theorem SameConfig.refl (w : Writer B) : SameConfig w w := ⟨rfl, rfl, rfl⟩

omit [Bitmap B] in
theorem SameConfig.trans {a b c : Writer B} (h : SameConfig a b) (h' : SameConfig b c) :
    SameConfig a c := ⟨h'.enc.trans h.enc, h'.target.trans h.target, h'.opened.trans h.opened⟩

omit [Bitmap B] in
theorem St.same {w w' : Writer B} {f : File} (h : St w f w') : SameConfig w w' := by
  obtain ⟨o, d, rfl⟩ := h; exact ⟨rfl, rfl, rfl⟩

theorem contains_foldl_set [LawfulBitmap B] (ids : List UInt64) (g : B) (x : UInt64) :
    Bitmap.contains (ids.foldl Bitmap.set g) x = true ↔ x ∈ ids ∨ Bitmap.contains g x = true := by
  induction ids generalizing g with
  | nil => simp
  | cons i is ih =>
    rw [List.foldl_cons, ih, LawfulBitmap.contains_set]
    simp only [Bool.or_eq_true, beq_iff_eq, List.mem_cons]
    constructor
    · rintro (h | h | h)
      · exact .inl (.inr h)
      · exact .inl (.inl h.symm)
      · exact .inr h
    · rintro ((h | h) | h)
      · exact .inr (.inl h.symm)
      · exact .inl h
      · exact .inr (.inr h)

theorem Inv.of_st {w w' : Writer B} {blks extra} (h : Inv w blks extra) (hs : St w w.file w') :
    Inv w' blks extra := by
  obtain ⟨o, d, rfl⟩ := hs
  exact ⟨h.pos64, h.posLe, h.near, h.cnt, h.sizes, h.stats, h.bitmap, h.ok, h.tracked.imp
    (fun c => ⟨c.positions, c.atEnd, c.laid, c.img⟩) id⟩

omit [Bitmap B] in
theorem Clean.of_st {w w' : Writer B} {blks} (c : Clean w blks) (hs : St w w.file w') :
    Clean w' blks := by
  obtain ⟨o, d, rfl⟩ := hs
  exact ⟨c.positions, c.atEnd, c.laid, c.img⟩

/-- The block that `WriteBlock` writes at the cursor. -/
def blkAt (w : Writer B) (ids : List UInt64) (vals : List Int64) : Blk :=
  { off := w.file.pos, ids := ids, vals := vals }

theorem Committed.fields {w w' : Writer B} {ids vals} (hc : Committed w ids vals w') :
    w'.file = committedFile w ids vals ∧ w'.blockCount = w.blockCount + 1 ∧
    w'.blockPositions = w.blockPositions ++ [UInt64.ofNat w.file.pos] ∧
    w'.blockSizes = w.blockSizes ++ [UInt32.ofNat ((blkAt w ids vals).size w.encodingType)] ∧
    w'.blockStats = w.blockStats ++ [statsOf ids vals] ∧
    w'.globalIDs = ids.foldl Bitmap.set w.globalIDs ∧ SameConfig w w' := by
  obtain ⟨o, d, rfl⟩ := hc
  exact ⟨rfl, rfl, rfl, rfl, rfl, rfl, rfl, rfl, rfl⟩

theorem committed_inv [LawfulBitmap B] {w w' : Writer B} {blks extra ids vals} (h : Inv w blks extra)
    (hb : (blkAt w ids vals).OK w.encodingType) (hc : Committed w ids vals w') :
    Inv w' (blks ++ [blkAt w ids vals]) extra ∧ SameConfig w w' ∧
      (Clean w blks → Clean w' (blks ++ [blkAt w ids vals])) := by
  obtain ⟨hfile, hcnt, hpos, hsizes, hstats, hgl, hsame⟩ := hc.fields
  clear hc
  have hp := h.posLe
  have hbytes : w'.file.bytes = w.file.bytes.take w.file.pos ++
      padded w.file.pos (image w.encodingType ids vals) := by rw [hfile]; rfl
  have hfpos : w'.file.pos = w.file.pos + (padded w.file.pos (image w.encodingType ids vals)).length := by
    rw [hfile]; rfl
  have hlen : w'.file.bytes.length = w'.file.pos := by
    rw [hbytes, hfpos]; simp only [List.length_append, List.length_take]; omega
  clear hfile
  have hclean : Clean w blks → Clean w' (blks ++ [blkAt w ids vals]) := by
    intro c
    refine ⟨?_, hlen.symm, ?_, ?_⟩
    · rw [hpos, c.positions]; simp [blkAt]
    · rw [hsame.enc, hfpos]
      exact c.laid.snoc (blkAt w ids vals) (Nat.le_refl _)
    · intro b hmem
      rw [hsame.enc, hbytes]
      rcases List.mem_append.1 hmem with hm | hm
      · have hl := (c.laid.mem b hm).2
        have hsz := Blk.img_le_size w.encodingType b
        rw [slice_append_left _ _ _ _ (by
          unfold Blk.stop at hl; simp only [List.length_take, Nat.min_eq_left hp]; omega)]
        rw [c.atEnd, List.take_length]
        exact c.img b hm
      · rw [List.mem_singleton] at hm; subst hm
        show slice _ w.file.pos (image w.encodingType ids vals).length = image w.encodingType ids vals
        rw [slice_append_right _ _ _ _ (by simp only [List.length_take, Nat.min_eq_left hp]; omega)]
        simp only [List.length_take, Nat.min_eq_left hp, Nat.sub_self]
        simp [slice, padded]
  refine ⟨⟨?_, by omega, by omega, ?_, ?_, ?_, ?_, ?_, ?_⟩, hsame, hclean⟩
  · have := h.pos64; omega
  · rw [hcnt, h.cnt]; simp
  · rw [hsizes, h.sizes, hsame.enc]; simp
  · rw [hstats, h.stats]; simp [blkAt]
  · intro x
    rw [hgl, contains_foldl_set, h.bitmap]
    constructor
    · rintro (hx | ⟨b, hb, hx⟩ | hx)
      · exact .inl ⟨blkAt w ids vals, by simp, hx⟩
      · exact .inl ⟨b, by simp [hb], hx⟩
      · exact .inr hx
    · rintro (⟨b, hb, hx⟩ | hx)
      · rcases List.mem_append.1 hb with hb | hb
        · exact .inr (.inl ⟨b, hb, hx⟩)
        · rw [List.mem_singleton] at hb; subst hb; exact .inl hx
      · exact .inr (.inr hx)
  · intro b hmem
    rw [hsame.enc]
    rcases List.mem_append.1 hmem with hm | hm
    · exact h.ok b hm
    · rw [List.mem_singleton] at hm; subst hm; exact hb
  · rcases h.tracked with c | c
    · exact .inl (hclean c)
    · right
      rw [hpos]; simp; omega

theorem early_inv [LawfulBitmap B] {w w' : Writer B} {blks extra ids} (h : Inv w blks extra)
    (hs : St (withIDs w ids) w.file w') :
    Inv w' blks (extra ++ ids) ∧ SameConfig w w' ∧ (Clean w blks → Clean w' blks) := by
  obtain ⟨o, d, rfl⟩ := hs
  have hclean : Clean w blks → Clean { withIDs w ids with opNo := o, disk := d, file := w.file } blks :=
    fun c => ⟨c.positions, c.atEnd, c.laid, c.img⟩
  refine ⟨⟨h.pos64, h.posLe, h.near, h.cnt, h.sizes, h.stats, ?_, h.ok, h.tracked.imp hclean id⟩,
    ⟨rfl, rfl, rfl⟩, hclean⟩
  intro x
  show Bitmap.contains (ids.foldl Bitmap.set w.globalIDs) x = true ↔ _
  rw [contains_foldl_set, h.bitmap, List.mem_append]
  constructor
  · rintro (hx | hx | hx)
    · exact .inr (.inr hx)
    · exact .inl hx
    · exact .inr (.inl hx)
  · rintro (hx | hx | hx)
    · exact .inr (.inl hx)
    · exact .inr (.inr hx)
    · exact .inl hx

theorem mid_inv [LawfulBitmap B] {w w' : Writer B} {blks extra ids f} (h : Inv w blks extra)
    (hf : PartialFile w.file f) (hs : St (withPos w ids) f w') :
    Inv w' blks (extra ++ ids) ∧ SameConfig w w' := by
  have he := early_inv (w' := withIDs w ids) (ids := ids) h ⟨w.opNo, w.disk, rfl⟩
  obtain ⟨o, d, rfl⟩ := hs
  refine ⟨⟨Nat.le_trans h.pos64 hf.ge, hf.le, hf.near, h.cnt, h.sizes, h.stats, he.1.bitmap, h.ok, ?_⟩,
    ⟨rfl, rfl, rfl⟩⟩
  right
  show _ < (w.blockPositions ++ [_]).length
  rcases h.tracked with c | c
  · simp [c.positions]
  · simp; omega

/-- What a `WriteBlock` call with result `r` added, as blocks at the old cursor. `torn` is
the case where only the final `Sync` failed. -/
inductive Added (env : Env) (w : Writer B) (ids : List UInt64) (vals : List Int64) :
    Except Err Unit → List Blk → Prop where
  | all : Added env w ids vals (.ok ()) [blkAt w ids vals]
  | part (k : Nat) (hk1 : 1 ≤ k) (hk2 : k < ids.length) :
      Added env w ids vals (.error (.blockFull k)) [blkAt w (ids.take k) (vals.take k)]
  | none (e : Err) (he : (e = .io ∧ Faulty env w) ∨
      (e = .sectionSizeMismatch ∧ ¬ AllMatch w.encodingType)) : Added env w ids vals (.error e) []
  | torn (k : Nat) (hk1 : 1 ≤ k) (hk2 : k ≤ ids.length) (hF : Faulty env w) :
      Added env w ids vals (.error .io) [blkAt w (ids.take k) (vals.take k)]

/-- A block just written: it starts at the old cursor, the new cursor is at its end, and it
fits the block size target unless it holds a single pair. -/
structure Fresh (w w' : Writer B) (b : Blk) : Prop where
  off : b.off = w.file.pos
  stop : w'.file.pos = b.stop w.encodingType
  fits : b.size w.encodingType ≤ w.blockSizeTarget.toNat ∨ b.ids.length = 1
  gl : w'.globalIDs = b.ids.foldl Bitmap.set w.globalIDs

theorem Committed.fresh {w w' : Writer B} {ids vals} (hc : Committed w ids vals w')
    (hm : SectionsMatch w.encodingType ids vals)
    (hfit : estSize w.encodingType w.file.pos ids vals ≤ w.blockSizeTarget.toNat ∨ ids.length = 1) :
    Fresh w w' (blkAt w ids vals) := by
  refine ⟨rfl, ?_, ?_, hc.fields.2.2.2.2.2.1⟩
  · rw [hc.fields.1]; rfl
  · refine hfit.imp (fun h => ?_) id
    rw [Blk.size_eq, Blk.img, image_length, show (blkAt w ids vals).ids = ids from rfl,
      show (blkAt w ids vals).vals = vals from rfl, hm.1, hm.2]
    exact h

/-- `WriteBlock` preserves the invariant whatever happens. -/
theorem writeBlock_inv [LawfulBitmap B] (env : Env) (w : Writer B) (blks : List Blk)
    (extra : List UInt64) (h : Inv w blks extra) (hk : KnownEnc w.encodingType) (ids : List UInt64)
    (vals : List Int64) (hlen : ids.length = vals.length) (hne : 0 < ids.length)
    (hid : ids.length ≤ 2 ^ 27) :
    ∃ new extra', Added env w ids vals (writeBlock ids vals env w).1 new ∧
      Inv (writeBlock ids vals env w).2 (blks ++ new) extra' ∧
      SameConfig w (writeBlock ids vals env w).2 ∧
      (∀ x ∈ extra, x ∈ extra') ∧ (∀ x ∈ extra', x ∈ extra ∨ x ∈ ids) ∧
      (new ≠ [] → extra' = extra ∧
        (Clean w blks → Clean (writeBlock ids vals env w).2 (blks ++ new))) ∧
      (∀ b ∈ new, Fresh w (writeBlock ids vals env w).2 b) := by
  have hout := writeBlock_out env w ids vals hk hlen hne hid h.posLe h.near
  generalize hr : writeBlock ids vals env w = res at hout ⊢
  obtain ⟨r, w'⟩ := res
  dsimp only at hout ⊢
  have blkOK : ∀ k, 1 ≤ k → k ≤ ids.length →
      SectionsMatch w.encodingType (ids.take k) (vals.take k) →
      (blkAt w (ids.take k) (vals.take k)).OK w.encodingType := by
    intro k h1 h2 hm
    exact ⟨by simp [blkAt]; omega, by simp [blkAt]; omega, by simp [blkAt]; omega, hm⟩
  have fitk : ∀ k, k ≤ ids.length →
      (estSize w.encodingType w.file.pos (ids.take k) (vals.take k) ≤ w.blockSizeTarget.toNat ∨ k = 1) →
      (estSize w.encodingType w.file.pos (ids.take k) (vals.take k) ≤ w.blockSizeTarget.toNat ∨
        (ids.take k).length = 1) := by
    intro k h1 h2
    refine h2.imp id (fun h => ?_)
    rw [List.length_take]; omega
  cases hout
  case full hopen hm hfit hc =>
    obtain ⟨h1, h2, h3⟩ := committed_inv h ⟨hne, hlen, hid, hm⟩ hc
    exact ⟨_, extra, .all, h1, h2, fun _ hx => hx, fun _ hx => .inl hx, fun _ => ⟨rfl, h3⟩,
      fun b hb => List.mem_singleton.1 hb ▸ hc.fresh hm hfit⟩
  case part k hk1 hk2 hbig hfit hmax hopen hm hc =>
    obtain ⟨h1, h2, h3⟩ := committed_inv h (blkOK k hk1 (by omega) hm) hc
    exact ⟨_, extra, .part k hk1 hk2, h1, h2, fun _ hx => hx, fun _ hx => .inl hx, fun _ => ⟨rfl, h3⟩,
      fun b hb => List.mem_singleton.1 hb ▸ hc.fresh hm (fitk k (by omega) hfit)⟩
  case noop hF hs =>
    exact ⟨[], extra, .none .io (.inl ⟨rfl, hF⟩), by simpa using h.of_st hs, hs.same, fun _ hx => hx,
      fun _ hx => .inl hx, fun hn => absurd rfl hn,
        fun _ hb => by cases hb⟩
  case fail e k hk1 hk2 hfit he =>
    have hmem : ∀ x ∈ extra ++ ids.take k, x ∈ extra ∨ x ∈ ids := by
      intro x hx
      rcases List.mem_append.1 hx with hx | hx
      · exact .inl hx
      · exact .inr (List.mem_of_mem_take hx)
    cases he
    case early hF hs =>
      obtain ⟨h1, h2, _⟩ := early_inv h hs
      exact ⟨[], _, .none .io (.inl ⟨rfl, hF⟩), by simpa using h1, h2,
        fun _ hx => List.mem_append_left _ hx, hmem, fun hn => absurd rfl hn,
        fun _ hb => by cases hb⟩
    case mid f hF hf hs =>
      obtain ⟨h1, h2⟩ := mid_inv h hf hs
      exact ⟨[], _, .none .io (.inl ⟨rfl, hF⟩), by simpa using h1, h2,
        fun _ hx => List.mem_append_left _ hx, hmem, fun hn => absurd rfl hn,
        fun _ hb => by cases hb⟩
    case mismatch f hm hf hs =>
      obtain ⟨h1, h2⟩ := mid_inv h hf hs
      exact ⟨[], _, .none _ (.inr ⟨rfl, fun hsym => hm (hsym _ _)⟩),
        by simpa using h1, h2,
        fun _ hx => List.mem_append_left _ hx, hmem, fun hn => absurd rfl hn,
        fun _ hb => by cases hb⟩
    case sync hF hm hc =>
      obtain ⟨h1, h2, h3⟩ := committed_inv h (blkOK k hk1 hk2 hm) hc
      exact ⟨_, extra, .torn k hk1 hk2 hF, h1, h2, fun _ hx => hx, fun _ hx => .inl hx, fun _ => ⟨rfl, h3⟩,
        fun b hb => List.mem_singleton.1 hb ▸ hc.fresh hm (fitk k hk2 hfit)⟩

/-! ### Finalize -/

theorem slice_take_le (b : Bytes) (p o n : Nat) (h : o + n ≤ p) : slice (b.take p) o n = slice b o n := by
  unfold slice
  rw [List.drop_take, List.take_take]
  congr 1; omega

theorem phase1_length (w : Writer B) (h : w.file.pos ≤ w.file.bytes.length) :
    (phase1 w).length = w.file.pos + (bitmapBytes w).length := by
  simp [phase1]; omega

theorem phase2_length (t : UInt64) (w : Writer B) (h : 64 ≤ w.file.pos)
    (h' : w.file.pos ≤ w.file.bytes.length) : (phase2 t w).length = (phase1 w).length := by
  have h1 := phase1_length w h'
  have h2 := headerFields_length (finHeader t w)
  simp only [phase2, List.length_append, h2, List.length_drop]; omega

/-- Past the header, rewriting it changes nothing. -/
theorem phase2_slice (t : UInt64) (w : Writer B) (_h : 64 ≤ w.file.pos)
    (_h' : w.file.pos ≤ w.file.bytes.length) (o n : Nat) (ho : 60 ≤ o) :
    slice (phase2 t w) o n = slice (phase1 w) o n := by
  have h2 := headerFields_length (finHeader t w)
  rw [phase2, slice_append_right _ _ _ _ (by omega), h2]
  unfold slice; rw [List.drop_drop]; congr 2; omega

theorem finalBytes_slice_old (t : UInt64) (w : Writer B) (h : 64 ≤ w.file.pos)
    (h' : w.file.pos ≤ w.file.bytes.length) (o n : Nat) (ho : 60 ≤ o) (hn : o + n ≤ w.file.pos) :
    slice (finalBytes t w) o n = slice w.file.bytes o n := by
  have hl2 := phase2_length t w h h'
  have hl1 := phase1_length w h'
  rw [finalBytes, slice_append_left _ _ _ _ (by omega), phase2_slice t w h h' o n ho, phase1,
    slice_append_left _ _ _ _ (by simp; omega), slice_take_le _ _ _ _ hn]

theorem entries_eq {w : Writer B} {blks extra} (h : Inv w blks extra) (c : Clean w blks) :
    w.entries = blks.map (Blk.entry w.encodingType) := by
  unfold Writer.entries
  rw [c.positions, h.sizes, h.stats]
  clear c h
  induction blks with
  | nil => rfl
  | cons b bs ih => simp [ih, Blk.entry]

/-- Once all bytes of `Finalize` are in place, the file is finalized with the blocks described by
the writer's index. -/
theorem final_base (w : Writer B) (blks : List Blk) (h64 : 64 ≤ w.file.pos)
    (hle : w.file.pos ≤ w.file.bytes.length) (hcnt : w.blockCount = blks.length)
    (hfoot : footBytes w = le32 (UInt32.ofNat blks.length) ++
      (blks.map fun b => entryBytes (b.entry w.encodingType)).flatten)
    (hlaid : Laid w.encodingType 64 blks w.file.pos)
    (himg : ∀ b ∈ blks, slice w.file.bytes b.off (b.img w.encodingType).length = b.img w.encodingType)
    (t : UInt64) (hsmall : (finalBytes t w).length < 2 ^ 63) :
    FileBase (finalBytes t w) (finHeader t w) w.encodingType blks (Bitmap.toBuffer w.globalIDs)
      w.file.pos ((phase1 w).length + (footPad w).length) := by
  have hl1 := phase1_length w hle
  have hl2 := phase2_length t w h64 hle
  have hfl : (finalBytes t w).length = (phase1 w).length + (tailBytes w).length := by
    rw [finalBytes, List.length_append, hl2]
  have hpadl : (footPad w).length < 4096 := by
    simp only [footPad, List.length_replicate]; exact Blk.calculatePadding_lt _
  have hbml : (bitmapBytes w).length = 4 + (Bitmap.toBuffer w.globalIDs).length := by simp [bitmapBytes]
  have hfootl : (footBytes w).length = 4 + 56 * blks.length := by
    rw [hfoot]
    have := flatten_map_eq (fun b : Blk => entryBytes (b.entry w.encodingType)) blks 56 (by simp)
    rw [List.length_append, this, le32_length]; omega
  have hpl : (phase1 w).length + (footPad w).length = ((phase1 w).length + 4095) / 4096 * 4096 := by
    rw [← calculatePadding_add]; simp [footPad]
  refine ⟨hsmall, ?_, rfl, rfl, rfl, ?_, rfl, ?_, h64, ?_, ?_, ?_, ?_, by omega, hlaid, ?_, by omega⟩
  · have h2 := headerFields_length (finHeader t w)
    rw [finalBytes, phase2, slice_append_left _ _ _ _ (by simp only [List.length_append, h2]; omega),
      slice_append_left _ _ _ _ (by omega), slice_zero_take, List.take_of_length_le (by omega)]
  · show UInt64.ofNat w.blockCount = _; rw [hcnt]
  · show UInt64.ofNat (bitmapBytes w).length = _
    simp [bitmapBytes]
  · rw [finalBytes, slice_append_left _ _ _ _ (by rw [hl2, hl1]; simp [bitmapBytes]),
      phase2_slice t w h64 hle _ _ (by omega), phase1, slice_append_right _ _ _ _ (by simp; omega)]
    have : (4 + (Bitmap.toBuffer w.globalIDs).length) = (bitmapBytes w).length := by
      simp [bitmapBytes]
    rw [this]
    simp only [List.length_take, Nat.min_eq_left hle, Nat.sub_self]
    unfold slice; rw [List.drop_zero, List.take_length]; rfl
  · rw [hl1]; simp only [bitmapBytes, List.length_append, le32_length]; omega
  · rw [finalBytes, tailBytes, ← hfoot, ← hfootl, List.append_assoc, ← List.append_assoc,
      drop_append_len _ _ _ (by rw [List.length_append, hl2])]
  · rw [hfl, tailBytes]; simp only [List.length_append]; omega
  · intro b hb
    have hm := hlaid.mem b hb
    have hsz := Blk.img_le_size w.encodingType b
    unfold Blk.stop at hm
    rw [finalBytes_slice_old t w h64 hle _ _ (by omega) (by omega)]
    exact himg b hb

/-- Once all bytes of `Finalize` are in place, the file is finalized with exactly the blocks of
the invariant, and the invariant holds. -/
theorem final_inv (w w' : Writer B) (blks : List Blk) (extra : List UInt64) (h : Inv w blks extra)
    (hcnt : w.blockCount = 0 ∨ w.blockPositions.length = w.blockCount) (t : UInt64)
    (hs : St w { bytes := finalBytes t w, pos := (finalBytes t w).length } w') :
    Inv w' blks extra ∧ SameConfig w w' ∧ w'.globalIDs = w.globalIDs ∧
    (Clean w blks → Clean w' blks) ∧
    (w'.file.bytes.length < 2 ^ 63 →
      ∃ hd bo fs, FileOK w'.file.bytes hd w.encodingType blks (Bitmap.toBuffer w.globalIDs) bo fs ∧
        hd.blockSizeTarget = w.blockSizeTarget ∧ bo = w.file.pos) ∧
    w'.file.bytes.length ≤ w.file.pos + (Bitmap.toBuffer w.globalIDs).length + 4127 + 56 * blks.length := by
  have hgl : w'.globalIDs = w.globalIDs := by obtain ⟨o, d, rfl⟩ := hs; rfl
  have hfile := hs.file
  have hsame := hs.same
  have h64 := h.pos64
  have hle := h.posLe
  have hl1 := phase1_length w hle
  have hl2 := phase2_length t w h64 hle
  have hfl : (finalBytes t w).length = (phase1 w).length + (tailBytes w).length := by
    rw [finalBytes, List.length_append, hl2]
  have hst : Clean w blks ∨ blks = [] := by
    rcases h.tracked with c | c
    · exact .inl c
    · right
      rw [h.cnt] at hcnt
      rcases hcnt with hc | hc
      · exact List.eq_nil_of_length_eq_zero hc
      · omega
  have hclean : Clean w blks → Clean w' blks := by
    intro c
    refine ⟨?_, by rw [hfile], ?_, ?_⟩
    · have : w'.blockPositions = w.blockPositions := by obtain ⟨o, d, rfl⟩ := hs; rfl
      rw [this, c.positions]
    · rw [hsame.enc, hfile]
      exact c.laid.mono (by show w.file.pos ≤ (finalBytes t w).length; omega)
    · intro b hb
      rw [hsame.enc, hfile]
      have hm := c.laid.mem b hb
      have hsz := Blk.img_le_size w.encodingType b
      unfold Blk.stop at hm
      show slice (finalBytes t w) _ _ = _
      rw [finalBytes_slice_old t w h64 hle _ _ (by omega) (by omega)]
      exact c.img b hb
  have hinv : Inv w' blks extra := by
    have hcount : w'.blockCount = w.blockCount := by obtain ⟨o, d, rfl⟩ := hs; rfl
    have hsizes : w'.blockSizes = w.blockSizes := by obtain ⟨o, d, rfl⟩ := hs; rfl
    have hstats : w'.blockStats = w.blockStats := by obtain ⟨o, d, rfl⟩ := hs; rfl
    have hpos : w'.blockPositions = w.blockPositions := by obtain ⟨o, d, rfl⟩ := hs; rfl
    refine ⟨?_, by rw [hfile]; exact Nat.le_refl _, by rw [hfile]; exact Nat.le_add_right _ _,
      by rw [hcount, h.cnt], by rw [hsizes, h.sizes, hsame.enc], by rw [hstats, h.stats],
      by rw [hgl]; exact h.bitmap, by rw [hsame.enc]; exact h.ok, ?_⟩
    · rw [hfile]; show 64 ≤ (finalBytes t w).length; omega
    · rw [hpos]; exact h.tracked.imp hclean id
  have hpadl : (footPad w).length < 4096 := by
    simp only [footPad, List.length_replicate]; exact Blk.calculatePadding_lt _
  have hbml : (bitmapBytes w).length = 4 + (Bitmap.toBuffer w.globalIDs).length := by simp [bitmapBytes]
  have hfoot : footBytes w = le32 (UInt32.ofNat blks.length) ++
      (blks.map fun b => entryBytes (b.entry w.encodingType)).flatten := by
    unfold footBytes
    rw [h.cnt]
    congr 1
    rcases hst with c | rfl
    · split
      · rw [indexBytes, entries_eq h c]; simp [Function.comp_def]
      · have : blks = [] := List.eq_nil_of_length_eq_zero (by omega)
        subst this; rfl
    · simp
  have hfootl : (footBytes w).length = 4 + 56 * blks.length := by
    rw [hfoot]
    have := flatten_map_eq (fun b : Blk => entryBytes (b.entry w.encodingType)) blks 56 (by simp)
    rw [List.length_append, this, le32_length]; omega
  have hpl : (phase1 w).length + (footPad w).length = ((phase1 w).length + 4095) / 4096 * 4096 := by
    rw [← calculatePadding_add]; simp [footPad]
  have hsz : (finalBytes t w).length ≤
      w.file.pos + (Bitmap.toBuffer w.globalIDs).length + 4127 + 56 * blks.length := by
    rw [hfl, tailBytes]
    simp only [List.length_append, hfootl, metaBytes, le64_length]
    omega
  refine ⟨hinv, hsame, hgl, hclean, fun hsmall => ?_, by rw [hfile]; exact hsz⟩
  rw [hfile] at hsmall ⊢
  dsimp only at hsmall ⊢
  refine ⟨finHeader t w, w.file.pos, (phase1 w).length + (footPad w).length,
    ⟨final_base w blks h64 hle h.cnt hfoot ?_ ?_ t hsmall, h.ok⟩, rfl, rfl⟩
  · rcases hst with c | rfl
    · exact c.laid
    · exact h64
  · intro b hb
    rcases hst with c | rfl
    · exact c.img b hb
    · cases hb

/-- `Finalize` either fails or leaves a finalized file with exactly the blocks of the
invariant, and keeps the invariant. -/
theorem finalize_inv (env : Env) (w : Writer B) (blks : List Blk) (extra : List UInt64)
    (h : Inv w blks extra) :
    wp finalize
      (fun _ w' => w.fileOpen = true ∧ Inv w' blks extra ∧ SameConfig w w' ∧ w'.globalIDs = w.globalIDs ∧
        (Clean w blks → Clean w' blks) ∧
        (w'.file.bytes.length < 2 ^ 63 →
          ∃ hd bo fs, FileOK w'.file.bytes hd w.encodingType blks (Bitmap.toBuffer w.globalIDs) bo fs ∧
            hd.blockSizeTarget = w.blockSizeTarget ∧ bo = w.file.pos) ∧
        w'.file.bytes.length ≤ w.file.pos + (Bitmap.toBuffer w.globalIDs).length + 4127 + 56 * blks.length)
      (fun e w' => ∃ f, FinErr env w e f ∧ St w f w') env w := by
  refine wp_mono (finalize_spec env w h.pos64 h.posLe h.near) ?_ (fun _ _ h => h)
  rintro _ w' ⟨hopen, hcnt, t, hs⟩
  exact ⟨hopen, final_inv w w' blks extra h hcnt t hs⟩

end VibeCol
