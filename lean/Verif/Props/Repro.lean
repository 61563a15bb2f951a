/-
C85: files that read the same are the same, but for the creation time; and copying a file block by
block reproduces it.
-/
import Verif.Props.SimpleLayout
import Verif.Props.Blocks
import Verif.Props.RoundTrip
namespace VibeCol.Repro
open VibeCol
variable {B : Type} [Bitmap B] [LawfulBitmap B]

/-! ### What is said -/

/-- The same bytes, except in the eight that hold the creation time. -/
def SameButTime (f g : Bytes) : Prop :=
  f.length = g.length ∧ ∀ i : Nat, ¬ (36 ≤ i ∧ i < 44) → f[i]? = g[i]?

/-- Two readers report the same encoding, block size target and number of blocks, and `GetPairs`
returns the same for every block. -/
def ReadSame (r s : Reader B) : Prop :=
  r.encodingType = s.encodingType ∧ r.header.blockSizeTarget = s.header.blockSizeTarget ∧
  r.blockCount = s.blockCount ∧ ∀ i < r.blockCount, getPairs r i = getPairs s i

/-- `file` comes from a session of this library, in a symmetric encoding: of a `Writer` finalized once
(with any calls before, and any faults that were not reported), or of a `SimpleWriter` that was closed. -/
inductive Produced (B : Type) [Bitmap B] : Bytes → Prop where
  | writer {env : Env} {opts : List WriterOption} {log : Log} {file : Bytes} (h : Finalized B env opts log file)
      (he : SymEnc (chosenEncoding opts)) (hfirst : ∀ ev ∈ log, ev.1 ≠ .finalize) (hn : (acked log).length ≤ maxBlocks) :
      Produced B file
  | simple {env : Env} {opts : List WriterOption} {calls : List SWCall} {log : SWLog} {sw : SimpleWriter B}
      (hnf : env.NoFault) (hs : LawfulSort env.sort) (h : SWHistory B env opts calls log sw)
      (he : SymEnc (chosenEncoding opts)) (hb : ∀ c ∈ calls, c.Bounded)
      (hclose : (SWCall.close, Except.ok ()) ∈ log) (hsize : sw.writer.file.bytes.length ≤ maxFileSize) :
      Produced B sw.writer.file.bytes

/-! ### Both are documented files -/

/-- The file is the documented one of these blocks. -/
structure Shape (B : Type) [Bitmap B] (file : Bytes) (e : UInt32) (hd : FileHeader) (blks : List Blk) : Prop where
  sym : SymEnc e
  ok : ∃ buf bo fs, FileOK file hd e blks buf bo fs
  few : blks.length ≤ maxBlocks
  chain : ∃ hi, Chain e 64 blks hi
  bytes : file = Doc.file e.toNat hd.blockSizeTarget.toNat hd.creationTime.toNat ((blks.map Blk.pairs).map Doc.pairs)
    (Bitmap.toBuffer (bitmapOf B (blks.map Blk.pairs)))

theorem header_length (count target enc time bo bs : Nat) : (Doc.header count target enc time bo bs).length = 64 := by
  simp [Doc.header, num_length]

/-- The header fields of a documented file. -/
theorem header_of {file : Bytes} {hd : FileHeader} {e : UInt32} {blks : List Blk} {buf : Bytes} {bo fs : Nat}
    (h : FileOK file hd e blks buf bo fs) {enc target time : Nat} {blocks : List Doc.Pairs} {data : Bytes}
    (hf : file = Doc.file enc target time blocks data) (ht : target < 2 ^ 32) (hc : time < 2 ^ 64) :
    hd.blockSizeTarget.toNat = target ∧ hd.creationTime.toNat = time := by
  let hd' : FileHeader := {
    magic := magicNumber
    version := version
    columnType := 0
    blockCount := UInt64.ofNat blocks.length
    blockSizeTarget := UInt32.ofNat target
    compressionType := 0
    encodingType := UInt32.ofNat enc
    creationTime := UInt64.ofNat time
    bitmapOffset := UInt64.ofNat (64 + (Doc.blocksAt enc 64 blocks).length)
    bitmapSize := UInt64.ofNat (Doc.bitmap data).length }
  have hfields : hd'.fields.flatten ++ Doc.num 4 0 = Doc.header blocks.length target enc time
      (64 + (Doc.blocksAt enc 64 blocks).length) (Doc.bitmap data).length := by
    have h1 : le32 version = Doc.num 4 1 := by rw [num_le32]; rfl
    have h2 : le32 (0 : UInt32) = Doc.num 4 0 := by rw [num_le32]; rfl
    have h4 : le64 magicNumber = Doc.num 8 Doc.magic := by rw [num_le64]; rfl
    unfold Doc.header
    simp only [hd', FileHeader.fields, h1, h2, h4, num_ofNat64, num_ofNat32]
    simp [List.flatten, List.append_assoc]
  have e1 : parseHeader file = hd := parseHeader_fields file hd (by rw [← slice_zero_take]; exact h.hdr)
  have e2 : parseHeader file = hd' := by
    apply parseHeader_fields
    rw [hf]
    unfold Doc.file
    dsimp only
    rw [← hfields]
    simp only [List.append_assoc]
    exact List.take_left' (headerFields_length hd')
  rw [e1] at e2
  rw [e2]
  constructor
  · show (UInt32.ofNat target).toNat = target
    rw [UInt32.toNat_ofNat', Nat.mod_eq_of_lt ht]
  · show (UInt64.ofNat time).toNat = time
    rw [UInt64.toNat_ofNat', Nat.mod_eq_of_lt hc]

theorem ofPairs_zip' {e : UInt32} {blks : List Blk} (hok : ∀ b ∈ blks, b.OK e) :
    (blks.map fun b => b.ids.zip b.vals).map Doc.ofPairs = (blks.map Blk.pairs).map Doc.pairs := by
  rw [List.map_map, List.map_map]
  apply List.map_congr_left
  intro b hb
  exact ofPairs_zip b.ids b.vals (hok b hb).len

omit [LawfulBitmap B] in
theorem bitmapOfPairs_zip {e : UInt32} {blks : List Blk} (hok : ∀ b ∈ blks, b.OK e) :
    bitmapOfPairs B (blks.map fun b => b.ids.zip b.vals).flatten = bitmapOf B (blks.map Blk.pairs) := by
  unfold bitmapOfPairs bitmapOf
  congr 1
  induction blks with
  | nil => rfl
  | cons b bs ih =>
    have h1 := ih fun x hx => hok x (List.mem_cons_of_mem _ hx)
    have h2 := (hok b (List.mem_cons_self ..)).len
    rw [List.map_cons, List.flatten_cons, List.map_append, h1, List.map_fst_zip (by omega)]
    rfl

theorem target_lt {enc : Nat} {L L' : Layout} {log : SWLog} (h : Layout.Run enc L log L') (hL : L.target < 2 ^ 32) :
    L'.target < 2 ^ 32 := by
  induction h with
  | nil => exact hL
  | cons h t ih =>
    apply ih
    cases h <;> first | exact hL | (dsimp only; omega)

theorem Produced.shape {file : Bytes} (h : Produced B file) : ∃ e hd blks, Shape B file e hd blks := by
  cases h with
  | @writer env opts log _ h he hfirst hn =>
    obtain ⟨i, hi⟩ := C47_bytes h he.regular hfirst
    obtain ⟨hd, blks, bo, fs, hc⟩ := h.contents he
    obtain ⟨h1, h2⟩ := header_of hc.ok hi (chosenBlockSize opts).toNat_lt (env.clock i).toNat_lt
    refine ⟨_, hd, blks, he, ⟨_, _, _, hc.ok⟩, ?_, ⟨_, hc.chain hfirst⟩, ?_⟩
    · rw [← hc.pairs, List.length_map] at hn; exact hn
    · rw [h1, h2, hc.pairs]; exact hi
  | @simple env opts calls log sw hnf hs h he hb hclose hsize =>
    have hcl : sw.closed = true := by
      obtain ⟨sw0, _, hr⟩ := h.created
      have := closed_of_log env calls sw0 (by rw [hr]; exact hclose)
      rwa [hr] at this
    obtain ⟨j, L, hrun, hd⟩ := h.drawn hnf hs he.regular hb
    cases hd with
    | isOpen blks h1 _ _ _ _ _ _ => rw [h1] at hcl; cases hcl
    | isClosed blks h1 h2 _ hsame hbytes hok hch =>
      obtain ⟨i, hbytes⟩ := hbytes
      obtain ⟨hd, bo, fs, buf, hok⟩ := hok (by unfold maxFileSize maxBlocks at hsize; omega)
      have ht := target_lt hrun (chosenBlockSize opts).toNat_lt
      obtain ⟨h1, h2⟩ := header_of hok hbytes ht (env.clock i).toNat_lt
      refine ⟨_, hd, blks, he, ⟨_, _, _, hok⟩, hok.few hsize, hch, ?_⟩
      rw [h1, h2, hbytes, ← hsame, ofPairs_zip' hok.ok, bitmapOfPairs_zip hok.ok]

/-! ### Files that read the same -/

omit [LawfulBitmap B] in
/-- What is read of such a file. -/
theorem Shape.read {file : Bytes} {e : UInt32} {hd : FileHeader} {blks : List Blk} (h : Shape B file e hd blks)
    {r : Reader B} (hr : newReader file = .ok r) :
    r.header = hd ∧ r.encodingType = e ∧ r.blockIndex = blks.map (Blk.entry e) ∧ Reads r (blks.map Blk.pairs) := by
  obtain ⟨buf, bo, fs, hok⟩ := h.ok
  have hfew := h.few
  have h1 := hok.newReader (B := B) (by unfold maxBlocks at hfew; omega)
  have hR := hok.reads (B := B) h.sym hfew
  rw [h1] at hr
  injection hr with hr
  subst hr
  exact ⟨rfl, hok.enc, rfl, hR⟩

/-- Files of this form differ at most in the creation time. -/
theorem file_but_time (enc target t t' : Nat) (blocks : List Doc.Pairs) (data : Bytes) :
    SameButTime (Doc.file enc target t blocks data) (Doc.file enc target t' blocks data) := by
  have gen : ∀ (a x y z : Bytes), a.length = 36 → x.length = 8 → y.length = 8 → SameButTime (a ++ (x ++ z)) (a ++ (y ++ z)) := by
    intro a x y z ha hx hy
    refine ⟨by simp [hx, hy], fun i hi => ?_⟩
    rcases Nat.lt_or_ge i 36 with h | h
    · rw [List.getElem?_append_left (by omega), List.getElem?_append_left (by omega)]
    · have : 44 ≤ i := by omega
      rw [List.getElem?_append_right (by omega), List.getElem?_append_right (by omega), List.getElem?_append_right (by omega),
        List.getElem?_append_right (by omega), hx, hy]
  have e : ∃ z : Bytes, ∀ t : Nat, Doc.file enc target t blocks data =
      (Doc.num 8 Doc.magic ++ Doc.num 4 1 ++ Doc.num 4 0 ++ Doc.num 8 blocks.length ++ Doc.num 4 target ++ Doc.num 4 0 ++ Doc.num 4 enc) ++
        (Doc.num 8 t ++ z) := by
    refine ⟨Doc.num 8 (64 + (Doc.blocksAt enc 64 blocks).length) ++ (Doc.num 8 (Doc.bitmap data).length ++ (Doc.num 4 0 ++
      (Doc.blocksAt enc 64 blocks ++ (Doc.bitmap data ++ (Doc.pageFill (64 + ((Doc.blocksAt enc 64 blocks).length + (Doc.bitmap data).length)) ++
      Doc.footer blocks.length (Doc.indexAt enc 64 blocks)))))), fun t => ?_⟩
    unfold Doc.file
    dsimp only
    rw [List.length_append, List.length_append, header_length, Nat.add_assoc]
    unfold Doc.header
    simp only [List.append_assoc]
  obtain ⟨z, hz⟩ := e
  rw [hz t, hz t']
  apply gen <;> simp [num_length]

omit [Bitmap B] [LawfulBitmap B] in
theorem reads_unique {r s : Reader B} {bs cs : List Block} (hr : Reads r bs) (hs : Reads s cs) (h : r.blockCount = s.blockCount)
    (hp : ∀ i < r.blockCount, getPairs r i = getPairs s i) : bs = cs := by
  have h1 : r.blockCount.toNat = bs.length := hr.toIndexed.count_toNat
  have h2 : s.blockCount.toNat = cs.length := hs.toIndexed.count_toNat
  rw [h] at h1
  have hl : bs.length = cs.length := by omega
  apply List.ext_getElem hl
  intro i hi hi'
  have hlt : UInt64.ofNat i < r.blockCount := by
    rw [UInt64.lt_iff_toNat_lt, UInt64.toNat_ofNat', h, h1]
    exact Nat.lt_of_le_of_lt (Nat.mod_le _ _) hi
  have h3 := hp _ hlt
  rw [hr.read i hi, hs.read i hi'] at h3
  injection h3

/-- **C85.** Two files of this library that read the same (encoding, block size target, number of blocks,
the pairs of every block) are byte for byte the same except for the creation time, and with the same
creation time identical: nothing else of how they were written (which writer, how the data was
split into calls, what was rejected, estimated or retried in between) is left in them. -/
theorem C85_identical {f g : Bytes} (hf : Produced B f) (hg : Produced B g) {r s : Reader B} (hr : newReader f = .ok r)
    (hs : newReader g = .ok s) (h : ReadSame r s) :
    SameButTime f g ∧ (r.header.creationTime = s.header.creationTime → f = g) := by
  obtain ⟨e, hd, blks, hF⟩ := hf.shape
  obtain ⟨e', hd', blks', hG⟩ := hg.shape
  obtain ⟨a1, a2, _, a3⟩ := hF.read hr
  obtain ⟨b1, b2, _, b3⟩ := hG.read hs
  obtain ⟨h1, h2, h3, h4⟩ := h
  have hblk := reads_unique a3 b3 h3 h4
  rw [a2, b2] at h1
  rw [a1, b1] at h2
  rw [a1, b1]
  rw [hF.bytes, hG.bytes, ← hblk, h1, h2]
  refine ⟨file_but_time .., fun h => by rw [h]⟩

/-- **C85, by what was acknowledged.** Two sessions of a `Writer`, each finalized once, with the same
encoding and block size and the same acknowledged blocks leave the same bytes except for the creation time (in
every encoding but 5 and 6): it does not matter which calls were rejected, returned `BlockFullError`, or only estimated, nor
what the options were called. -/
theorem C85_sessions {env env' : Env} {opts opts' : List WriterOption} {log log' : Log} {f g : Bytes}
    (hf : Finalized B env opts log f) (hg : Finalized B env' opts' log' g) (he : RegularEnc (chosenEncoding opts))
    (h1 : chosenEncoding opts = chosenEncoding opts') (h2 : chosenBlockSize opts = chosenBlockSize opts')
    (h3 : acked log = acked log') (hF : ∀ ev ∈ log, ev.1 ≠ .finalize) (hG : ∀ ev ∈ log', ev.1 ≠ .finalize) :
    SameButTime f g := by
  obtain ⟨i, hi⟩ := C47_bytes hf he hF
  obtain ⟨j, hj⟩ := C47_bytes hg (h1 ▸ he) hG
  rw [hi, hj, h1, h2, h3]
  exact file_but_time ..

/-! ### Copying -/

/-- Every block of the list fits where it is written. -/
def FitAt (enc target : Nat) : Nat → List Doc.Pairs → Prop
  | _, [] => True
  | off, b :: bs => Doc.Fits enc target off b ∧ FitAt enc target (off + (Doc.filledBlock enc off b).length) bs

theorem fitAt_of {e : UInt32} (he : RegularEnc e) {target lo hi : Nat} {blks : List Blk} (hch : Chain e lo blks hi)
    (hok : ∀ b ∈ blks, b.OK e) (hfit : ∀ b ∈ blks, b.size e ≤ target ∨ b.ids.length = 1) :
    FitAt e.toNat target lo ((blks.map Blk.pairs).map Doc.pairs) := by
  induction blks generalizing lo with
  | nil => trivial
  | cons b bs ih =>
    obtain ⟨rfl, hch⟩ := hch
    have hb := hok b (List.mem_cons_self ..)
    have hsz : b.size e = (Doc.filledBlock e.toNat b.off (Doc.pairs b.pairs)).length := by
      unfold Blk.size; rw [Blk.size_doc he b hb]; rfl
    have hrec := ih hch (fun x hx => hok x (List.mem_cons_of_mem _ hx)) (fun x hx => hfit x (List.mem_cons_of_mem _ hx))
    refine ⟨?_, ?_⟩
    · rcases hfit b (List.mem_cons_self ..) with h | h
      · left; rw [← hsz]; exact h
      · right; simpa [Doc.pairs, Blk.pairs] using h
    · rw [← hsz]; exact hrec

/-- The calls of a copy, and that all of them return nil. -/
def copyCalls (blocks : List Block) : List Call := blocks.map fun b => .write b.1 b.2
def copyLog (blocks : List Block) : Log := blocks.map fun b => (.write b.1 b.2, .ok ())

theorem acked_copyLog (blocks : List Block) : acked (copyLog blocks) = blocks := by
  induction blocks with
  | nil => rfl
  | cons b bs ih =>
    show acked ((Call.write b.1 b.2, .ok ()) :: copyLog bs) = _
    rw [acked_cons, ih]
    rfl

/-- The writes of a copy succeed. -/
theorem copy_run {env : Env} (hnf : env.NoFault) {opts : List WriterOption} (he : RegularEnc (chosenEncoding opts))
    {calls : List Call} {log : Log} {w : Writer B} (h : History B env opts calls log w) (hno : NoIOError log)
    (hb : ∀ ev ∈ log, ev.1.Bounded) (blocks : List Block)
    (hok : ∀ b ∈ blocks, b.1 ≠ [] ∧ b.1.length = b.2.length ∧ b.1.length ≤ 2 ^ 27)
    (hfit : FitAt (chosenEncoding opts).toNat (chosenBlockSize opts).toNat w.file.bytes.length (blocks.map Doc.pairs)) :
    ∃ w', History B env opts (calls ++ copyCalls blocks) (log ++ copyLog blocks) w' := by
  induction blocks generalizing calls log w with
  | nil => exact ⟨w, by simpa [copyCalls, copyLog] using h⟩
  | cons b bs ih =>
    obtain ⟨h1, h2, h3⟩ := hok b (List.mem_cons_self ..)
    have hx := C05_exact hnf h hno hb he b.1 b.2 h3 h2 h1
    have hfull : (writeBlock b.1 b.2 env w).1 = .ok () ∧ (writeBlock b.1 b.2 env w).2.file.bytes =
        w.file.bytes ++ Doc.filledBlock (chosenEncoding opts).toNat w.file.bytes.length (Doc.pairs b) := by
      rcases hx with ⟨_, hx, hy⟩ | ⟨n, _, hn, _, hmax, _⟩
      · exact ⟨hx, hy⟩
      · refine absurd ?_ (hmax b.1.length hn (Nat.le_refl _))
        have : Doc.Pairs.first b.1.length (Doc.pairs (b.1, b.2)) = Doc.pairs b := by
          rw [pairs_first, List.take_length, h2, List.take_length]
        dsimp only
        rw [this]
        exact hfit.1
    have hnext : History B env opts (calls ++ [.write b.1 b.2]) (log ++ [(.write b.1 b.2, .ok ())]) (writeBlock b.1 b.2 env w).2 := by
      obtain ⟨w0, hw0, hr⟩ := h.created
      refine ⟨w0, hw0, ?_⟩
      rw [runCalls_append, hr]
      simp only [runCalls, Call.run]
      rw [hfull.1]
    obtain ⟨w', hw'⟩ := ih hnext
      (by
        intro ev hev
        rcases List.mem_append.1 hev with hev | hev
        · exact hno ev hev
        · rw [List.mem_singleton.1 hev]; simp)
      (by
        intro ev hev
        rcases List.mem_append.1 hev with hev | hev
        · exact hb ev hev
        · rw [List.mem_singleton.1 hev]; exact h3)
      (fun x hx => hok x (List.mem_cons_of_mem _ hx))
      (by rw [hfull.2, List.length_append]; exact hfit.2)
    refine ⟨w', ?_⟩
    simpa [copyCalls, copyLog] using hw'

/-- **C85, copying.** Let a file of this library be read, and every block (as `GetPairs` returns it)
be written by `WriteBlock` to a new `Writer` with the encoding and the block size target in its
header. If no block is larger than that target (which is so for every file of a `Writer`, and for those of a `SimpleWriter`
whose target was not changed) and there are no I/O errors, every call returns nil, and so does
`Finalize`; the copy is the original byte for byte, except for the creation time. -/
theorem C85_copy {f : Bytes} (hf : Produced B f) {r : Reader B} (hr : newReader f = .ok r) {blocks : List Block}
    (hcount : r.blockCount.toNat = blocks.length)
    (hread : ∀ (i : Nat) (hi : i < blocks.length), getPairs r (UInt64.ofNat i) = .ok blocks[i])
    (hfit : ∀ x ∈ r.blockIndex, x.blockSize ≤ r.header.blockSizeTarget ∨ x.count = 1)
    {env : Env} (hnf : env.NoFault) {opts : List WriterOption} (henc : chosenEncoding opts = r.encodingType)
    (htarget : chosenBlockSize opts = r.header.blockSizeTarget) :
    ∃ g, Finalized B env opts (copyLog blocks) g ∧ SameButTime f g := by
  obtain ⟨e, hd, blks, hF⟩ := hf.shape
  obtain ⟨a1, a2, a3, a4⟩ := hF.read hr
  obtain ⟨buf, bo, fs, hok⟩ := hF.ok
  obtain ⟨hi, hch⟩ := hF.chain
  have hsym := hF.sym
  have hblk : blks.map Blk.pairs = blocks := by
    have hc : r.blockCount.toNat = (blks.map Blk.pairs).length := a4.toIndexed.count_toNat
    apply List.ext_getElem (by omega)
    intro i h1 h2
    have h3 := a4.read i h1
    rw [hread i h2] at h3
    injection h3 with h3
    exact h3.symm
  have hsize : ∀ b ∈ blks, b.size e ≤ (chosenBlockSize opts).toNat ∨ b.ids.length = 1 := by
    intro b hb
    have h1 := hfit (b.entry e) (by rw [a3]; exact List.mem_map_of_mem hb)
    have h2 := Blk.size_lt e b (hok.ok b hb)
    rcases h1 with h1 | h1
    · left
      rw [← htarget, UInt32.le_iff_toNat_le] at h1
      have : (b.entry e).blockSize.toNat = b.size e := by
        show (UInt32.ofNat (b.size e)).toNat = _
        rw [UInt32.toNat_ofNat', Nat.mod_eq_of_lt h2]
      omega
    · right
      rw [← hok.entry_count b hb, h1]; rfl
  have hwell : ∀ b ∈ blocks, b.1 ≠ [] ∧ b.1.length = b.2.length ∧ b.1.length ≤ 2 ^ 27 := by
    intro b hb
    rw [← hblk] at hb
    obtain ⟨x, hx, rfl⟩ := List.mem_map.1 hb
    have := hok.ok x hx
    exact ⟨List.ne_nil_of_length_pos this.ne, this.len, this.bound⟩
  rw [a2] at henc
  subst henc
  have hfa := fitAt_of hsym.regular hch hok.ok hsize
  rw [hblk] at hfa
  obtain ⟨w0, hnew⟩ := newWriter_ok (B := B) env hnf opts
  have hh0 : History B env opts [] [] w0 := ⟨w0, hnew, rfl⟩
  obtain ⟨j, hs0⟩ := wp_ok (writeHeader_spec env opts) hnew
  have hl0 : w0.file.bytes.length = 64 := by rw [hs0.file]; exact startBytes_length _ _
  obtain ⟨w, hh⟩ := copy_run hnf hsym.regular hh0 (by intro ev h; cases h) (by intro ev h; cases h) blocks hwell
    (by rw [hl0]; exact hfa)
  rw [List.nil_append, List.nil_append] at hh
  have hno : NoIOError (copyLog blocks) := by
    intro ev hev
    obtain ⟨b, _, rfl⟩ := List.mem_map.1 hev
    simp
  have hbl : ∀ ev ∈ copyLog blocks, ev.1.Bounded := by
    intro ev hev
    obtain ⟨b, hb, rfl⟩ := List.mem_map.1 hev
    exact (hwell b hb).2.2
  have hbc : ∀ c ∈ copyCalls blocks, c.Bounded := by
    intro c hc
    obtain ⟨b, hb, rfl⟩ := List.mem_map.1 hc
    exact (hwell b hb).2.2
  have hfirst : Call.finalize ∉ copyCalls blocks := by
    intro hc
    obtain ⟨b, _, hb⟩ := List.mem_map.1 hc
    cases hb
  have hmis := history_noMismatch hh hbc hsym.allMatch hno.finalize
  obtain ⟨bs, hi', hc', _, ho, _⟩ := history_clean' hh hbc hmis hno
  obtain ⟨w', hfin⟩ := finalize_noFault hnf hi' hc' ho
  obtain ⟨i, hg⟩ := finalize_bytes hh hbc hsym.regular hmis hno hfirst hfin
  rw [acked_copyLog, ← hblk, htarget, a1] at hg
  have hsame : SameButTime f w'.file.bytes := by
    rw [hF.bytes, hg]
    exact file_but_time ..
  refine ⟨_, ⟨⟨_, w, w', hh, hfin, rfl⟩, hno, hbl, ?_⟩, hsame⟩
  rw [← hsame.1]
  exact hok.small

/-- A file of a `Writer` never has a block larger than its target (unless it is a single pair). -/
theorem C85_writerFits {env : Env} {opts : List WriterOption} {log : Log} {file : Bytes} (h : Finalized B env opts log file)
    (hn : (acked log).length ≤ maxBlocks) {r : Reader B} (hr : newReader file = .ok r) :
    ∀ x ∈ r.blockIndex, x.blockSize ≤ r.header.blockSizeTarget ∨ x.count = 1 := by
  obtain ⟨r', hr', _, _, _, ht⟩ := C29_accessors h hn
  rw [hr] at hr'
  injection hr' with hr'
  subst hr'
  intro x hx
  rw [ht, UInt32.le_iff_toNat_le, ← UInt32.toNat_inj]
  exact C04_size h hn r hr x hx

theorem fitAt_append (enc target off : Nat) (as bs : List Doc.Pairs) :
    FitAt enc target off (as ++ bs) ↔ FitAt enc target off as ∧ FitAt enc target (off + (Doc.blocksAt enc off as).length) bs := by
  induction as generalizing off with
  | nil => simp [FitAt, Doc.blocksAt]
  | cons a as ih =>
    simp only [List.cons_append, FitAt, Doc.blocksAt, ih, List.length_append, and_assoc, Doc.filledBlock, Nat.add_assoc]

theorem cut_fitAt {enc target : Nat} {force : Bool} {off : Nat} {pending rest : List Pair} {bs : List (List Pair)}
    (h : Cut enc target force off pending bs rest) : FitAt enc target off (bs.map Doc.ofPairs) := by
  induction h with
  | wait _ => trivial
  | block n _ _ _ hfit _ _ ih => exact ⟨hfit, ih⟩

theorem run_fitAt {enc : Nat} {L L' : Layout} {log : SWLog} (h : Layout.Run enc L log L')
    (hno : ∀ size r, (SWCall.setTarget size, r) ∉ log) (hL : FitAt enc L.target 64 (L.blocks.map Doc.ofPairs)) :
    FitAt enc L'.target 64 (L'.blocks.map Doc.ofPairs) := by
  induction h with
  | nil => exact hL
  | cons h t ih =>
    have hno' : ∀ size r, (SWCall.setTarget size, r) ∉ _ := fun size r hm => hno size r (List.mem_cons_of_mem _ hm)
    apply ih hno'
    cases h with
    | write _ _ _ hc => rw [List.map_append, fitAt_append]; exact ⟨hL, cut_fitAt hc⟩
    | mismatch _ _ => exact hL
    | target _ => exact absurd (List.mem_cons_self ..) (hno _ _)
    | close _ hc => rw [List.map_append, fitAt_append]; exact ⟨hL, cut_fitAt hc⟩
    | closed _ => exact hL

theorem fits_of_fitAt {e : UInt32} (he : RegularEnc e) {target lo hi : Nat} {blks : List Blk} (hch : Chain e lo blks hi)
    (hok : ∀ b ∈ blks, b.OK e) (hfit : FitAt e.toNat target lo ((blks.map Blk.pairs).map Doc.pairs)) :
    ∀ b ∈ blks, b.size e ≤ target ∨ b.ids.length = 1 := by
  induction blks generalizing lo with
  | nil => intro b hb; cases hb
  | cons b bs ih =>
    obtain ⟨rfl, hch⟩ := hch
    have hb := hok b (List.mem_cons_self ..)
    have hsz : b.size e = (Doc.filledBlock e.toNat b.off (Doc.pairs b.pairs)).length := by
      unfold Blk.size; rw [Blk.size_doc he b hb]; rfl
    obtain ⟨h1, h2⟩ := hfit
    change FitAt e.toNat target (b.off + (Doc.filledBlock e.toNat b.off (Doc.pairs b.pairs)).length) _ at h2
    rw [← hsz] at h2
    intro x hx
    rcases List.mem_cons.1 hx with rfl | hx
    · rcases h1 with h1 | h1
      · left; rw [hsz]; exact h1
      · right; simpa [Doc.pairs, Blk.pairs] using h1
    · exact ih hch (fun x hx => hok x (List.mem_cons_of_mem _ hx)) h2 x hx

/-- Nor does a file of a `SimpleWriter` on which `SetTargetBlockSize` was not called. -/
theorem C85_simpleFits {env : Env} {opts : List WriterOption} {calls : List SWCall} {log : SWLog} {sw : SimpleWriter B}
    (hnf : env.NoFault) (hs : LawfulSort env.sort) (h : SWHistory B env opts calls log sw)
    (he : SymEnc (chosenEncoding opts)) (hb : ∀ c ∈ calls, c.Bounded)
    (hclose : (SWCall.close, Except.ok ()) ∈ log) (hsize : sw.writer.file.bytes.length ≤ maxFileSize)
    (hno : ∀ size r, (SWCall.setTarget size, r) ∉ log) {r : Reader B} (hr : newReader sw.writer.file.bytes = .ok r) :
    ∀ x ∈ r.blockIndex, x.blockSize ≤ r.header.blockSizeTarget ∨ x.count = 1 := by
  have hcl : sw.closed = true := by
    obtain ⟨sw0, _, hr⟩ := h.created
    have := closed_of_log env calls sw0 (by rw [hr]; exact hclose)
    rwa [hr] at this
  obtain ⟨j, L, hrun, hd⟩ := h.drawn hnf hs he.regular hb
  cases hd with
  | isOpen blks h1 _ _ _ _ _ _ => rw [h1] at hcl; cases hcl
  | isClosed blks h1 h2 _ hsame hbytes hok hch =>
    obtain ⟨i, hbytes⟩ := hbytes
    obtain ⟨hd, bo, fs, buf, hok⟩ := hok (by unfold maxFileSize maxBlocks at hsize; omega)
    obtain ⟨hi, hch⟩ := hch
    have ht := target_lt hrun (chosenBlockSize opts).toNat_lt
    obtain ⟨g1, _⟩ := header_of hok hbytes ht (env.clock i).toNat_lt
    have hfew := hok.few hsize
    have hnr := hok.newReader (B := B) (by unfold maxBlocks at hfew; omega)
    rw [hnr] at hr
    injection hr with hr
    subst hr
    have hfa := run_fitAt hrun hno trivial
    rw [← hsame, ofPairs_zip' hok.ok] at hfa
    have hfit := fits_of_fitAt he.regular hch hok.ok hfa
    intro x hx
    obtain ⟨b, hbm, rfl⟩ := List.mem_map.1 (show x ∈ blks.map (Blk.entry (chosenEncoding opts)) from hx)
    have hlt := Blk.size_lt _ b (hok.ok b hbm)
    rcases hfit b hbm with h | h
    · left
      rw [UInt32.le_iff_toNat_le]
      show (UInt32.ofNat (b.size (chosenEncoding opts))).toNat ≤ hd.blockSizeTarget.toNat
      rw [UInt32.toNat_ofNat', Nat.mod_eq_of_lt hlt, g1]; exact h
    · right
      rw [← UInt32.toNat_inj, hok.entry_count b hbm, h]; rfl

/-! ### A case -/

/-- Three blocks of 4032 or 4096 bytes with a target of 4095 (the second and third are single pairs, one
of them the remainder after a `BlockFullError`), and their copy at another time. -/
example : ∃ (f : Bytes) (r : Reader IdSet) (blocks : List Block), Produced IdSet f ∧ newReader f = .ok r ∧
    r.blockCount.toNat = blocks.length ∧ (∀ (i : Nat) (hi : i < blocks.length), getPairs r (UInt64.ofNat i) = .ok blocks[i]) ∧
    (∀ x ∈ r.blockIndex, x.blockSize ≤ r.header.blockSizeTarget ∨ x.count = 1) ∧
    blocks = [([3, 1, 2], [30, -10, 20]), ([1], [-10]), ([2], [20])] ∧
    chosenEncoding fullOpts = r.encodingType ∧ chosenBlockSize fullOpts = r.header.blockSizeTarget ∧
    ∃ g, Finalized IdSet { quietEnv with clock := fun _ => 77 } fullOpts (copyLog blocks) g ∧ SameButTime f g := by
  obtain ⟨f, hf⟩ := full_finalized
  have hp : Produced IdSet f := .writer hf (by unfold SymEnc; decide) (by decide) (by decide)
  obtain ⟨r, hr, h1, h2⟩ := (C01_roundtrip hf (by unfold SymEnc; decide) (by decide)).opens
  obtain ⟨r', hr', _, h3, _, h4⟩ := C29_accessors hf (by decide)
  rw [hr] at hr'
  injection hr' with hr'
  subst hr'
  have h5 := C85_writerFits hf (by decide) hr
  refine ⟨f, r, acked fullLog, hp, hr, h1, h2, h5, rfl, h3.symm, h4.symm, ?_⟩
  exact C85_copy hp hr h1 h2 h5 (env := { quietEnv with clock := fun _ => 77 }) (fun _ => rfl) h3.symm h4.symm

omit [Bitmap B] [LawfulBitmap B] in
theorem readSame_of {r s : Reader B} {bs : List Block} (hr : Reads r bs) (hs : Reads s bs)
    (h1 : r.encodingType = s.encodingType) (h2 : r.header.blockSizeTarget = s.header.blockSizeTarget) : ReadSame r s := by
  have h3 : r.blockCount.toNat = bs.length := hr.toIndexed.count_toNat
  have h4 : s.blockCount.toNat = bs.length := hs.toIndexed.count_toNat
  refine ⟨h1, h2, UInt64.toNat_inj.1 (by omega), fun i hi => ?_⟩
  rw [UInt64.lt_iff_toNat_lt, h3] at hi
  have h5 := hr.read i.toNat hi
  have h6 := hs.read i.toNat hi
  rw [UInt64.ofNat_toNat] at h5 h6
  rw [h5, h6]

/-- The options and calls of another session: a rejected call, an estimate, and the same three blocks. -/
def otherOpts : List WriterOption := [.withEncoding encVarInt, .withEncoding encDeltaBoth, .withBlockSize 4095]
def otherCalls : List Call := [.write [3, 1, 2] [30, -10, 20], .write [1] [], .estimate [1, 2] [3, 4], .write [1] [-10],
  .write [2] [20]]
def otherLog : Log := [(.write [3, 1, 2] [30, -10, 20], .ok ()), (.write [1] [], .error .lengthMismatch),
  (.estimate [1, 2] [3, 4], .ok ()), (.write [1] [-10], .ok ()), (.write [2] [20], .ok ())]

/-- Two different sessions with the same acknowledged blocks. -/
example : ∃ (f g : Bytes) (r s : Reader IdSet), Finalized IdSet quietEnv fullOpts fullLog f ∧
    Finalized IdSet quietEnv otherOpts otherLog g ∧ Produced IdSet f ∧ Produced IdSet g ∧
    newReader f = .ok r ∧ newReader g = .ok s ∧ ReadSame r s ∧ r.blockCount.toNat = 3 ∧ SameButTime f g := by
  obtain ⟨f, hf⟩ := full_finalized
  obtain ⟨g, hg⟩ := finalized_of_log otherOpts otherCalls otherLog (by decide) (by decide +kernel) (by unfold NoMismatch; decide) (by decide)
  have hp : Produced IdSet f := .writer hf (by unfold SymEnc; decide) (by decide) (by decide)
  have hq : Produced IdSet g := .writer hg (by unfold SymEnc; decide) (by decide) (by decide)
  obtain ⟨r, hr, _, h3, h4, h5⟩ := C29_accessors hf (by decide)
  obtain ⟨s, hs, _, k3, k4, k5⟩ := C29_accessors hg (by decide)
  have hsame : ReadSame r s := readSame_of (hf.reads (by unfold SymEnc; decide) (by decide) r hr)
    (hg.reads (by unfold SymEnc; decide) (by decide) s hs) (by rw [h3, k3]; decide) (by rw [h5, k5]; decide)
  exact ⟨f, g, r, s, hf, hg, hp, hq, hr, hs, hsame, h4, (C85_identical hp hq hr hs hsame).1⟩

end VibeCol.Repro
