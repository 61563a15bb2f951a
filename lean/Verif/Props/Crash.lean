/-
C27: interrupted writes. The process may die at any file operation, a write possibly having put
some of its bytes into the file.
-/
import Verif.Lemmas.Crash
import Verif.Lemmas.Prefix
import Verif.Props.Robust
import Verif.Props.RoundTrip
set_option linter.unusedSimpArgs false
namespace VibeCol
variable {B : Type} [Bitmap B] [LawfulBitmap B]
set_option linter.unusedSectionVars false

/-- No `NewReader` call on this file succeeds. -/
def Rejected (B : Type) [Bitmap B] (file : Bytes) : Prop := ∀ r : Reader B, newReader file ≠ .ok r

/-- The last 8 bytes of a file spell the magic number. -/
def EndsWithMagic (file : Bytes) : Prop := file.drop (file.length - 8) = le64 magicNumber

theorem magic_bytes : le64 magicNumber = [0, 0x4C, 0x4F, 0x43, 0x5F, 0x45, 0x42, 0x56] := by decide

theorem EndsWithMagic.at {file : Bytes} (h : EndsWithMagic file) (j : Nat) :
    file[file.length - 8 + j]? = (le64 magicNumber)[j]? := by
  rw [← h, List.getElem?_drop]

theorem rejected_of_byte {file : Bytes} (hs : file.length < 2 ^ 63) (j : Nat)
    (h : 24 ≤ file.length → file[file.length - 8 + j]? ≠ (le64 magicNumber)[j]?) : Rejected B file := by
  intro r hr
  obtain ⟨h1, _, _, h4⟩ := C26_validation file hs r hr
  exact h h1 (EndsWithMagic.at h4 j)

/-! ### During `NewWriter` -/

theorem startBytes_zero (t : UInt64) (opts : List WriterOption) (ht : t.toNat < 2 ^ 48)
    (he : (chosenEncoding opts).toNat < 2 ^ 24) (p : Nat) (hp : p = 21 ∨ p = 28 ∨ p = 35 ∨ p = 42 ∨ p = 49 ∨
      p = 56 ∨ p = 63) : (startBytes t opts)[p]? = some 0 := by
  have e35 : UInt8.ofNat ((chosenEncoding opts).toNat / 256 / 256 / 256 % 256) = 0 := by
    rw [show (chosenEncoding opts).toNat / 256 / 256 / 256 % 256 = 0 by omega]; rfl
  have e42 : UInt8.ofNat (t.toNat / 256 / 256 / 256 / 256 / 256 / 256 % 256) = 0 := by
    rw [show t.toNat / 256 / 256 / 256 / 256 / 256 / 256 % 256 = 0 by omega]; rfl
  rcases hp with rfl | rfl | rfl | rfl | rfl | rfl | rfl <;>
    simp [startBytes, FileHeader.fields, newFileHeader, le64, le32, natToLE, compressionNone, e35, e42]

/-- **C27.** A crash inside or right after `NewWriter` - at any operation, after any number of
bytes - leaves a file that `NewReader` rejects. (For a documented encoding and any clock before
the year 8 million.) -/
theorem C27_newWriter (env : Env) (opts : List WriterOption) (hk : KnownEnc (chosenEncoding opts))
    (ht : ∀ i, (env.clock i).toNat < 2 ^ 48) :
    Rejected B (newWriter (B := B) opts env).2.file.bytes := by
  have key : ∀ i k, Rejected B ((startBytes (env.clock i) opts).take k) := by
    intro i k
    have hl : ((startBytes (env.clock i) opts).take k).length = min k 64 := by
      rw [List.length_take, startBytes_length]
    generalize hm : min k 64 = m at hl
    have hz := startBytes_zero (env.clock i) opts (ht i) (by unfold KnownEnc at hk; omega)
    -- the last seven bytes of the magic number are not zero, but every seventh byte of the file is
    have hp : ∀ j, 1 ≤ j → j < 8 → (le64 magicNumber)[j]? ≠ some 0 := by
      rw [magic_bytes]
      intro j h1 h2
      rcases j with _ | _ | _ | _ | _ | _ | _ | _ | j <;> simp at h1 h2 ⊢
    by_cases hm24 : 24 ≤ m
    · have hin : ∀ p, p < m → ((startBytes (env.clock i) opts).take k)[p]? = (startBytes (env.clock i) opts)[p]? := by
        intro p hp; rw [List.getElem?_take, if_pos (by omega)]
      refine rejected_of_byte (by omega) (7 * ((m - 1) / 7) - (m - 8)) (fun _ => ?_)
      rw [hl, show m - 8 + (7 * ((m - 1) / 7) - (m - 8)) = 7 * ((m - 1) / 7) by omega, hin _ (by omega),
        hz _ (by omega)]
      exact (hp _ (by omega) (by omega)).symm
    · exact rejected_of_byte (by omega) 0 (fun h => by omega)
  have h := writeHeader_spec (B := B) env opts
  rcases hr : (newWriter (B := B) opts env) with ⟨r, w⟩
  cases r with
  | ok u =>
    obtain ⟨i, hs⟩ := wp_ok h hr
    have := key i 64
    rw [List.take_of_length_le (by rw [startBytes_length]; omega)] at this
    show Rejected B w.file.bytes
    rw [hs.file]; exact this
  | error e =>
    obtain ⟨_, _, i, k, hs⟩ := wp_error h hr
    show Rejected B w.file.bytes
    rw [hs.file]; exact key i k

/-! ### During `Finalize` -/

theorem le64_small (n : Nat) (h : n < 2 ^ 32) : ∃ b0 b1 b2 b3, le64 (UInt64.ofNat n) = [b0, b1, b2, b3, 0, 0, 0, 0] := by
  have e : (UInt64.ofNat n).toNat = n := by rw [UInt64.toNat_ofNat']; omega
  simp only [le64, natToLE, e]
  refine ⟨UInt8.ofNat (n % 256), UInt8.ofNat (n / 256 % 256), UInt8.ofNat (n / 256 / 256 % 256),
    UInt8.ofNat (n / 256 / 256 / 256 % 256), ?_⟩
  rw [show n / 256 / 256 / 256 / 256 = 0 by omega]
  simp

/-- A file that stops inside the 24 bytes after the index does not end with the magic number. -/
theorem tail_rejected (P : Bytes) (c : UInt8) (hc : c.toNat ≤ 8) (n : Nat) (hn : n < 2 ^ 32) (j : Nat) (hj : j < 24)
    (hs : (P ++ [c] ++ (metaBytes n).take j).length < 2 ^ 63) :
    Rejected B (P ++ [c] ++ (metaBytes n).take j) := by
  have hml : (metaBytes n).length = 24 := by simp [metaBytes]
  have hl : (P ++ [c] ++ (metaBytes n).take j).length = P.length + 1 + j := by
    simp [hml]; omega
  by_cases hj5 : j ≤ 4
  · refine rejected_of_byte hs (7 - j) (fun h24 => ?_)
    rw [hl, show P.length + 1 + j - 8 + (7 - j) = P.length by omega]
    rw [List.append_assoc, List.getElem?_append_right (Nat.le_refl _), Nat.sub_self]
    simp only [List.cons_append, List.getElem?_cons_zero, ne_eq]
    rw [magic_bytes]
    intro h
    have : j = 0 ∨ j = 1 ∨ j = 2 ∨ j = 3 ∨ j = 4 := by omega
    rcases this with rfl | rfl | rfl | rfl | rfl <;> simp at h <;> subst h <;> simp at hc
  · refine rejected_of_byte hs 7 (fun h24 => ?_)
    rw [hl, show P.length + 1 + j - 8 + 7 = (P ++ [c]).length + (j - 1) by simp; omega,
      List.getElem?_append_right (by omega), Nat.add_sub_cancel_left]
    obtain ⟨b0, b1, b2, b3, hb⟩ := le64_small n hn
    rw [metaBytes, hb, magic_bytes, show le64 0 = [0, 0, 0, 0, 0, 0, 0, 0] by decide]
    have : j ∈ List.range 24 := by simpa using hj
    simp only [List.range, List.range.loop, List.mem_cons, List.not_mem_nil, or_false] at this
    rcases this with h | h | h | h | h | h | h | h | h | h | h | h | h | h | h | h | h | h | h | h | h | h | h | h <;>
      subst h <;> first | (exfalso; omega) | simp

theorem foot_last {w : Writer B} {blks extra} (h : Inv w blks extra) (c : blks = [] ∨ Clean w blks) :
    ∃ P x, footBytes w = P ++ [x] ∧ x.toNat ≤ 8 := by
  unfold footBytes
  rw [h.cnt]
  by_cases hb : blks = []
  · subst hb
    exact ⟨[0, 0, 0], 0, rfl, by decide⟩
  · have hpos : blks.length > 0 := List.length_pos_iff.2 hb
    rw [if_pos hpos, indexBytes, entries_eq h (c.resolve_left hb)]
    obtain ⟨bs, b, rfl⟩ : ∃ bs b, blks = bs ++ [b] := ⟨_, _, (List.dropLast_concat_getLast hb).symm⟩
    have hbd := (h.ok b (by simp)).bound
    have hcnt : (b.entry w.encodingType).count.toNat = b.ids.length := by
      show (UInt32.ofNat b.ids.length).toNat = _
      rw [UInt32.toNat_ofNat']; omega
    have hlast : ∃ Q x, entryBytes (b.entry w.encodingType) = Q ++ [x] ∧ x.toNat ≤ 8 := by
      refine ⟨(le64 (b.entry w.encodingType).blockOffset ++ le32 (b.entry w.encodingType).blockSize ++
        le64 (b.entry w.encodingType).minID ++ le64 (b.entry w.encodingType).maxID ++
        le64 (b.entry w.encodingType).minValue ++ le64 (b.entry w.encodingType).maxValue ++
        le64 (b.entry w.encodingType).sum ++ (le32 (b.entry w.encodingType).count).take 3),
        UInt8.ofNat (b.ids.length / 256 / 256 / 256 % 256), ?_, ?_⟩
      · simp only [entryBytes, FooterEntry.fields, List.flatten_cons, List.flatten_nil, List.append_nil,
          List.append_assoc]
        have hc4 : le32 (b.entry w.encodingType).count = (le32 (b.entry w.encodingType).count).take 3 ++
            [UInt8.ofNat (b.ids.length / 256 / 256 / 256 % 256)] := by
          simp [le32, natToLE, hcnt]
        rw [← hc4]
      · rw [UInt8.toNat_ofNat']; omega
    obtain ⟨Q, x, hq, hx⟩ := hlast
    refine ⟨le32 (UInt32.ofNat (bs ++ [b]).length) ++ ((bs.map fun b => entryBytes (b.entry w.encodingType)).flatten ++ Q),
      x, ?_, hx⟩
    simp [List.append_assoc, hq, Function.comp_def]

theorem final_length {w : Writer B} {blks extra} (h : Inv w blks extra) (t : UInt64) :
    (finalBytes t w).length = (phase1 w).length + (footPad w).length + (footBytes w).length + 24 := by
  have hl2 := phase2_length t w h.pos64 h.posLe
  simp only [finalBytes, tailBytes, List.length_append, hl2, metaBytes, le64_length]; omega

/-- `Finalize` interrupted, for any state in which it could have succeeded. -/
theorem finalize_cut {w : Writer B} {blks : List Blk} {extra : List UInt64} (hi : Inv w blks extra) {e : UInt32} (he : w.encodingType = e)
    (henc : SymEnc e) (hbl : blks.length ≤ maxBlocks) (env1 env2 : Env) (w1 w2 : Writer B) (r1 : Result)
    (h1 : finalize env1 w = (r1, w1)) (h2 : finalize env2 w = (.ok (), w2)) (hsz : w2.file.bytes.length < 2 ^ 63) :
    (w1.file.bytes.length = w2.file.bytes.length → ReadsBack B w1.file.bytes (blks.map Blk.pairs)) ∧
    (w2.file.bytes.length ≤ w1.file.bytes.length + 24 → w1.file.bytes.length ≠ w2.file.bytes.length →
      Rejected B w1.file.bytes) ∧
    w1.file.bytes.length ≤ w2.file.bytes.length := by
  have hcnt : w.blockCount = 0 ∨ w.blockPositions.length = w.blockCount :=
    (wp_ok (finalize_spec env2 w hi.pos64 hi.posLe hi.near) h2).2.1
  have hc : blks = [] ∨ Clean w blks := by
    have h3 := hi.cnt
    rcases hcnt with h | h
    · exact .inl (List.eq_nil_of_length_eq_zero (by omega))
    · exact .inr (hi.tracked.resolve_right (by omega))
  have hl1 := phase1_length w hi.posLe
  have hlw : w2.file.bytes.length = (phase1 w).length + (footPad w).length + (footBytes w).length + 24 := by
    obtain ⟨_, _, t, hs⟩ := wp_ok (finalize_spec env2 w hi.pos64 hi.posLe hi.near) h2
    rw [hs.file]; exact final_length hi t
  have hfootl : (footBytes w).length = 4 + 56 * blks.length := by
    unfold footBytes
    rw [hi.cnt]
    split
    · next hpos =>
      have hc := hc.resolve_left (fun h => by rw [h] at hpos; exact absurd hpos (by decide))
      have := flatten_map_eq entryBytes w.entries 56 entryBytes_length
      rw [entries_eq hi hc, List.length_map] at this
      rw [List.length_append, le32_length, indexBytes, entries_eq hi hc, this]; omega
    · simp; omega
  have done : ∀ t, St w { bytes := finalBytes t w, pos := (finalBytes t w).length } w1 →
      ReadsBack B w1.file.bytes (blks.map Blk.pairs) := by
    intro t hs
    have hlen : w1.file.bytes.length < 2 ^ 63 := by
      rw [hs.file]; show (finalBytes t w).length < _; rw [final_length hi t]; omega
    obtain ⟨_, _, _, _, hok, _⟩ := final_inv w w1 blks extra hi hcnt t hs
    obtain ⟨hd, bo, fs, hok, _⟩ := hok hlen
    rw [he] at hok
    have hr := hok.reads (B := B) henc hbl
    unfold maxBlocks at hbl
    exact ⟨_, hok.newReader (by omega), hr.count_toNat, hr.read⟩
  have hmeta : (metaBytes (footBytes w).length).length = 24 := by simp [metaBytes]
  have small : ∀ f : Bytes, f.length + 28 ≤ w2.file.bytes.length →
      (f.length = w2.file.bytes.length → ReadsBack B f (blks.map Blk.pairs)) ∧
      (w2.file.bytes.length ≤ f.length + 24 → f.length ≠ w2.file.bytes.length → Rejected B f) ∧
      f.length ≤ w2.file.bytes.length :=
    fun f hf => ⟨fun hx => by omega, fun hx => by omega, by omega⟩
  cases r1 with
  | ok u =>
    obtain ⟨_, _, t, hs⟩ := wp_ok (finalize_spec env1 w hi.pos64 hi.posLe hi.near) h1
    have hl : w1.file.bytes.length = w2.file.bytes.length := by
      rw [hs.file, hlw]; exact final_length hi t
    exact ⟨fun _ => done t hs, fun _ hx => absurd hl hx, by omega⟩
  | error e =>
    obtain ⟨f, hfe, hs⟩ := wp_error (finalize_spec env1 w hi.pos64 hi.posLe hi.near) h1
    cases hfe
    case bitmap k hF =>
      apply small
      rw [hs.file]
      have hle := hi.posLe
      have hb4 : 4 ≤ (bitmapBytes w).length := by simp [bitmapBytes]
      have := Crashable.writeAt_take_le w.file.bytes w.file.pos (bitmapBytes w) k
      have h3 := writeAt_length w.file.bytes w.file.pos (bitmapBytes w) hle
      have := hi.near
      show (writeAt w.file.bytes w.file.pos (List.take k (bitmapBytes w))).length + 28 ≤ _
      omega
    case header t k hF =>
      apply small
      rw [hs.file]
      have := Crashable.writeAt_take_le (phase1 w) 0 (finHeader t w).fields.flatten k
      have h3 := writeAt_length (phase1 w) 0 (finHeader t w).fields.flatten (by omega)
      have h4 := headerFields_length (finHeader t w)
      have := hi.pos64
      show (writeAt (phase1 w) 0 _).length + 28 ≤ _
      omega
    case tracking t hx =>
      exfalso; rcases hcnt with h | h
      · omega
      · exact hx.2 h
    case foot t k hF hx =>
      have hl2 := phase2_length t w hi.pos64 hi.posLe
      have htl : (tailBytes w).length = (footPad w).length + (footBytes w).length + 24 := by
        simp only [tailBytes, List.length_append, hmeta]
      have hbytes : w1.file.bytes = phase2 t w ++ (tailBytes w).take k := by rw [hs.file]
      by_cases hk : (tailBytes w).length ≤ k
      · rw [List.take_of_length_le hk] at hs hbytes
        have hl : w1.file.bytes.length = w2.file.bytes.length := by
          rw [hs.file, hlw]; exact final_length hi t
        exact ⟨fun _ => done t hs, fun _ hx => absurd hl hx, by omega⟩
      · have hlen : w1.file.bytes.length = (phase1 w).length + k := by
          rw [hbytes, List.length_append, hl2, List.length_take]; omega
        refine ⟨fun hx => by omega, fun h24 _ => ?_, by omega⟩
        obtain ⟨P, x, hP, hx⟩ := foot_last hi hc
        have hcut : (tailBytes w).take k = footPad w ++ footBytes w ++
            (metaBytes (footBytes w).length).take (k - ((footPad w).length + (footBytes w).length)) := by
          rw [tailBytes, show k = (footPad w ++ footBytes w).length + (k - ((footPad w).length + (footBytes w).length)) by
            rw [List.length_append]; omega, List.take_length_add_append]
          congr 2
          rw [List.length_append]; omega
        have hfile : w1.file.bytes = (phase2 t w ++ footPad w ++ P) ++ [x] ++
            (metaBytes (footBytes w).length).take (k - ((footPad w).length + (footBytes w).length)) := by
          rw [hbytes, hcut]
          generalize (metaBytes (footBytes w).length).take (k - ((footPad w).length + (footBytes w).length)) = M
          rw [hP]
          simp only [List.append_assoc]
        rw [hfile]
        refine tail_rejected _ x hx _ ?_ _ (by omega) ?_
        · unfold maxBlocks at hbl; omega
        · rw [← hfile]; omega

/-- **C27.** `Finalize` interrupted at any operation, after any number of bytes. `full` is any
file that an uninterrupted `Finalize` in the same state can produce (their lengths agree). Once
the index is complete - only the last 24 bytes are missing in whole or in part - the file is
rejected; once all bytes are there it reads back as everything acknowledged, although `Finalize`
has not returned; before, it is shorter. -/
theorem C27_finalize {env : Env} {opts : List WriterOption} {calls : List Call} {log : Log} {w : Writer B}
    (h : History B env opts calls log w) (hno : NoIOError log) (hb : ∀ ev ∈ log, ev.1.Bounded)
    (henc : SymEnc (chosenEncoding opts)) (hn : (acked log).length ≤ maxBlocks)
    (env1 env2 : Env) (w1 w2 : Writer B) (r1 : Result) (h1 : finalize env1 w = (r1, w1))
    (h2 : finalize env2 w = (.ok (), w2)) (hsz : w2.file.bytes.length < 2 ^ 63) :
    (w1.file.bytes.length = w2.file.bytes.length → ReadsBack B w1.file.bytes (acked log)) ∧
    (w2.file.bytes.length ≤ w1.file.bytes.length + 24 → w1.file.bytes.length ≠ w2.file.bytes.length →
      Rejected B w1.file.bytes) ∧
    w1.file.bytes.length ≤ w2.file.bytes.length := by
  obtain ⟨blks, hi, hc, hp, _, he, _, _, _, hg⟩ := history_clean h (h.bounded hb) henc hno
  have hbl : blks.length ≤ maxBlocks := by rw [← hp, List.length_map] at hn; exact hn
  have := finalize_cut hi he henc hbl env1 env2 w1 w2 r1 h1 h2 hsz
  rw [hp] at this
  exact this

/-! ### Any crash point of a whole session -/

/-- The file left behind when `NewWriter`, then `calls`, then `Finalize` are run and the process
dies at file operation number `n`, the `k`-th byte of that write being the last to reach the
file. -/
def crashedFile (B : Type) [Bitmap B] (opts : List WriterOption) (calls : List Call) (env : Env) (n k : Nat) : Bytes :=
  match newWriter (B := B) opts (env.crashAt n k) with
  | (.error _, w) => w.file.bytes
  | (.ok _, w) => (runCalls (env.crashAt n k) (calls ++ [.finalize]) w).2.file.bytes

/-- **C27.** Every crash point of every session. Let `log` be what the session acknowledges when
nothing goes wrong and `w2.file.bytes` the file it then produces. The file left by a crash either is this
file, byte for byte (only the end of the last `Seek` or `Sync` was missing), or is rejected by
`NewReader`, or was cut off before the 24 bytes of footer metadata were begun and happens to end
with the magic number, i.e. the last bytes of block data, bitmap or index spell it. -/
theorem C27_whole {env : Env} (hq : env.NoFault) (ht : ∀ i, (env.clock i).toNat < 2 ^ 48)
    {opts : List WriterOption} (henc : SymEnc (chosenEncoding opts)) {calls : List Call}
    (hb : ∀ c ∈ calls, c.Bounded) {log : Log} {w w2 : Writer B} (h : History B env opts calls log w)
    (h2 : finalize env w = (.ok (), w2)) (hsz : w2.file.bytes.length < 2 ^ 63)
    (hn : (acked log).length ≤ maxBlocks) (n k : Nat) :
    crashedFile B opts calls env n k = w2.file.bytes ∨
    Rejected B (crashedFile B opts calls env n k) ∨
    ((crashedFile B opts calls env n k).length + 24 < w2.file.bytes.length ∧
      EndsWithMagic (crashedFile B opts calls env n k)) := by
  have hbev : ∀ ev ∈ log, ev.1.Bounded := by
    intro ev hev
    refine hb _ ?_
    rw [h.calls_eq]; exact List.mem_map_of_mem hev
  obtain ⟨w0, hnew, hrun⟩ := h.created
  obtain ⟨hi0, _, ho0, _⟩ := newWriter_inv hnew
  have hno : NoIOError log := by
    have := runCalls_noFault env hq calls hb w0 ho0 [] [] hi0
    rw [hrun] at this; exact this
  obtain ⟨blks, hi, hc, _⟩ := history_clean h hb henc hno
  have hlw : w.file.bytes.length + 28 ≤ w2.file.bytes.length := by
    obtain ⟨_, _, t, hs⟩ := wp_ok (finalize_spec env w hi.pos64 hi.posLe hi.near) h2
    have hl1 := phase1_length w hi.posLe
    have h4 : 4 ≤ (bitmapBytes w).length := by simp [bitmapBytes]
    have h5 : 4 ≤ (footBytes w).length := by simp [footBytes]
    rw [hs.file]; show _ ≤ (finalBytes t w).length; rw [final_length hi t, hl1, hc.atEnd]; omega
  have short : ∀ f : Bytes, f.length + 24 < w2.file.bytes.length →
      f = w2.file.bytes ∨ Rejected B f ∨ (f.length + 24 < w2.file.bytes.length ∧ EndsWithMagic f) := by
    intro f hf
    by_cases hm : EndsWithMagic f
    · exact .inr (.inr ⟨hf, hm⟩)
    · exact .inr (.inl fun r => C26_rejected f (by omega) hm r)
  by_cases hn0 : n < w0.opNo
  · -- during NewWriter
    right; left
    have hcr : n < (newWriter (B := B) opts (env.crashAt n k)).2.opNo :=
      newWriter_crash hq opts n k (by rw [hnew]; exact hn0)
    have hrej : Rejected B (newWriter (B := B) opts (env.crashAt n k)).2.file.bytes :=
      C27_newWriter (env.crashAt n k) opts henc.known ht
    unfold crashedFile
    generalize newWriter (B := B) opts (env.crashAt n k) = res at hcr hrej ⊢
    obtain ⟨r, wc⟩ := res
    cases r with
    | error e => exact hrej
    | ok u =>
      have hd := runCalls_dead (env.crashAt n k) (calls ++ [.finalize]) wc (dead_crashAt env n k wc hcr)
      dsimp only
      rw [hd]
      exact hrej
  · have hsame : newWriter (B := B) opts (env.crashAt n k) = (.ok (), w0) := by
      rw [newWriter_agree env opts n k (by rw [hnew]; exact Nat.le_of_not_lt hn0), hnew]
    have hf : crashedFile B opts calls env n k =
        (finalize (env.crashAt n k) (runCalls (env.crashAt n k) calls w0).2).2.file.bytes := by
      unfold crashedFile
      rw [hsame]
      dsimp only
      rw [runCalls_finalize]
    rw [hf]
    by_cases hn1 : n < w.opNo
    · -- during one of the calls
      have hcr := runCalls_crash (k := k) hq calls w0 n (by omega) (by rw [hrun]; exact hn1)
      rw [hrun] at hcr
      generalize (runCalls (env.crashAt n k) calls w0).2 = wc at hcr ⊢
      have hd := (Crashable.finalize (B := B)).dead (env.crashAt n k) wc (dead_crashAt env n k _ hcr.2)
      rw [hd]
      apply short
      have := hcr.1
      dsimp only at this
      omega
    · -- during or after Finalize
      have hag : (runCalls (env.crashAt n k) calls w0).2 = w := by
        rw [runCalls_agree env calls w0 n k (by rw [hrun]; exact Nat.le_of_not_lt hn1), hrun]
      rw [hag]
      obtain ⟨r1, w1, hfin⟩ : ∃ r1 w1, finalize (env.crashAt n k) w = (r1, w1) := ⟨_, _, rfl⟩
      rw [hfin]
      obtain ⟨_, hb', hc'⟩ := C27_finalize h hno hbev henc hn (env.crashAt n k) env w1 w2 r1 hfin h2 hsz
      dsimp only
      by_cases heq : w1.file.bytes.length = w2.file.bytes.length
      · have hfull := Prefix.finalize_full hq h2 (n := n) (k := k) (by rw [hfin]; exact heq)
        rw [hfin] at hfull
        exact .inl hfull
      · by_cases hge : w2.file.bytes.length ≤ w1.file.bytes.length + 24
        · exact .inr (.inl (hb' hge heq))
        · exact short _ (by omega)

/-- **C27.** The same in terms of what is read: the file left by a crash either reads back as all of `log`, or is
rejected by `NewReader`, or was cut off before the footer metadata and happens to end with the magic number. -/
theorem C27_crash {env : Env} (hq : env.NoFault) (ht : ∀ i, (env.clock i).toNat < 2 ^ 48)
    {opts : List WriterOption} (henc : SymEnc (chosenEncoding opts)) {calls : List Call}
    (hb : ∀ c ∈ calls, c.Bounded) {log : Log} {w w2 : Writer B} (h : History B env opts calls log w)
    (h2 : finalize env w = (.ok (), w2)) (hsz : w2.file.bytes.length < 2 ^ 63)
    (hn : (acked log).length ≤ maxBlocks) (n k : Nat) :
    ReadsBack B (crashedFile B opts calls env n k) (acked log) ∨
    Rejected B (crashedFile B opts calls env n k) ∨
    ((crashedFile B opts calls env n k).length + 24 < w2.file.bytes.length ∧
      EndsWithMagic (crashedFile B opts calls env n k)) := by
  rcases C27_whole hq ht henc hb h h2 hsz hn n k with he | hr
  · left
    have hbev : ∀ ev ∈ log, ev.1.Bounded := by
      intro ev hev
      refine hb _ ?_
      rw [h.calls_eq]; exact List.mem_map_of_mem hev
    obtain ⟨w0, hnew, hrun⟩ := h.created
    obtain ⟨hi0, _, ho0, _⟩ := newWriter_inv hnew
    have hno : NoIOError log := by
      have := runCalls_noFault env hq calls hb w0 ho0 [] [] hi0
      rw [hrun] at this; exact this
    rw [he]
    exact (C27_finalize h hno hbev henc hn env env w2 w2 _ h2 h2 hsz).1 rfl
  · exact .inr hr

/-! ### Between `WriteBlock` and `Finalize` -/

theorem padded_last (off : Nat) (img : Bytes) (h : calculatePadding (off + img.length) pageSize ≠ 0) :
    ∃ P, padded off img = P ++ [0] := by
  obtain ⟨n, hn⟩ := Nat.exists_eq_succ_of_ne_zero h
  exact ⟨img ++ List.replicate n 0, by rw [padded, hn, List.replicate_succ', List.append_assoc]⟩

theorem endsWithMagic_last {P : Bytes} {x : UInt8} (h : EndsWithMagic (P ++ [x])) (hl : 8 ≤ (P ++ [x]).length) :
    x = 0x56 := by
  have := h.at 7
  rw [List.length_append, List.length_singleton] at hl this
  rw [show P.length + 1 - 8 + 7 = P.length by omega, List.getElem?_append_right (Nat.le_refl _), magic_bytes] at this
  simpa using this

/-- **C27.** The process stops after a `WriteBlock` call that persisted the block `b`, before
`Finalize`: the file is rejected unless the block exactly fills its last page and the encoded
values end with the bytes of the magic number. -/
theorem C27_between {env : Env} {opts : List WriterOption} (henc : SymEnc (chosenEncoding opts)) {calls : List Call}
    {log : Log} {w w' : Writer B} (h : History B env opts calls log w) (hno : NoIOError log)
    (hb : ∀ ev ∈ log, ev.1.Bounded) (ids : List UInt64) (vals : List Int64) (hid : ids.length ≤ 2 ^ 27) {r : Result}
    (hw : writeBlock ids vals env w = (r, w')) (b : Block) (hack : ackedBy (.write ids vals) r = [b])
    (hsz : w'.file.bytes.length < 2 ^ 63) :
    Rejected B w'.file.bytes ∨
    ((w.file.bytes.length + 80 + (idSection (chosenEncoding opts) b.1).length +
        (valSection (chosenEncoding opts) b.2).length) % 4096 = 0 ∧
      w'.file.bytes = w.file.bytes ++ image (chosenEncoding opts) b.1 b.2 ∧ EndsWithMagic w'.file.bytes) := by
  obtain ⟨blks, hi, hc, _, _, he, _⟩ := history_clean h (h.bounded hb) henc hno
  have hcm : Committed w b.1 b.2 w' := by
    by_cases hlen : ids.length = vals.length
    · by_cases hne : 0 < ids.length
      · have hout := writeBlock_out env w ids vals (by rw [he]; exact henc.known) hlen hne hid hi.posLe hi.near
        rw [hw] at hout
        cases hout with
        | full _ _ _ _ hcm => simp [ackedBy] at hack; subst hack; exact hcm
        | part _ k _ _ _ _ _ _ _ hcm => simp [ackedBy] at hack; subst hack; exact hcm
        | noop => simp [ackedBy] at hack
        | fail e _ k _ _ _ herr =>
          have : ∀ n, e ≠ .blockFull n := by cases herr <;> simp
          cases e <;> simp_all [ackedBy]
      · have h0 : ids = [] := List.length_eq_zero_iff.1 (by omega)
        have hv : vals = [] := List.length_eq_zero_iff.1 (by omega)
        subst h0 hv
        have : r = .error .emptyBlock := by
          rw [show writeBlock [] [] env w = (.error .emptyBlock, w) from rfl] at hw
          exact (congrArg Prod.fst hw).symm
        subst this; simp [ackedBy] at hack
    · rw [writeBlock_lengthMismatch env w ids vals hlen] at hw
      cases hw; simp [ackedBy] at hack
  have hf : w'.file.bytes = w.file.bytes ++ padded w.file.bytes.length (image (chosenEncoding opts) b.1 b.2) := by
    rw [hcm.fields.1, committedFile, hc.atEnd, he]; simp
  by_cases hm : EndsWithMagic w'.file.bytes
  · right
    have h0 : calculatePadding (w.file.bytes.length + (image (chosenEncoding opts) b.1 b.2).length) pageSize = 0 := by
      refine Classical.byContradiction fun hx => ?_
      obtain ⟨P, hP⟩ := padded_last _ _ hx
      have hm' := hm
      have hl8 : 80 ≤ w'.file.bytes.length := by
        rw [hf, List.length_append, padded, List.length_append, image_length]; omega
      rw [hf, hP, ← List.append_assoc] at hm' hl8
      have := endsWithMagic_last hm' (by omega)
      exact absurd this (by decide)
    refine ⟨?_, ?_, hm⟩
    · rw [image_length] at h0
      unfold calculatePadding pageSize at h0
      have : (w.file.bytes.length + 80 + (idSection (chosenEncoding opts) b.1).length +
        (valSection (chosenEncoding opts) b.2).length) = (w.file.bytes.length + (80 + (idSection (chosenEncoding opts) b.1).length +
        (valSection (chosenEncoding opts) b.2).length)) := by omega
      rw [this]
      split at h0 <;> omega
    · rw [hf, padded, h0]; simp
  · exact .inl fun r => C26_rejected _ hsz hm r

theorem le64_injective {a b : UInt64} (h : le64 a = le64 b) : a = b := by
  have ha : rd64 (le64 a) 0 = a := rd64_of_slice _ _ _ (by rw [List.drop_zero, List.take_of_length_le (by simp)])
  have hb : rd64 (le64 b) 0 = b := rd64_of_slice _ _ _ (by rw [List.drop_zero, List.take_of_length_le (by simp)])
  rw [← ha, h, hb]

theorem valSection_raw (vals : List Int64) : valSection encRaw vals = (vals.map leI64).flatten := by
  simp [valSection, useVarIntForValues, encVals, deltaEnc, encRaw, encVarInt, encVarIntBoth, encVarIntValue,
    encDeltaBoth, encDeltaID, encDeltaValue, encVarIntID]

/-- **C27.** With the raw encoding, the only way an unfinished file can be taken for a finished
one right after `WriteBlock` is a block whose last value is the magic number itself. -/
theorem C27_raw {env : Env} {opts : List WriterOption} (henc : chosenEncoding opts = encRaw) {calls : List Call}
    {log : Log} {w w' : Writer B} (h : History B env opts calls log w) (hno : NoIOError log)
    (hb : ∀ ev ∈ log, ev.1.Bounded) (ids : List UInt64) (vals : List Int64) (hid : ids.length ≤ 2 ^ 27) {r : Result}
    (hw : writeBlock ids vals env w = (r, w')) (b : Block) (hack : ackedBy (.write ids vals) r = [b])
    (hsz : w'.file.bytes.length < 2 ^ 63) (v : Int64) (hv : b.2.getLast? = some v)
    (hne : v.toUInt64 ≠ magicNumber) : Rejected B w'.file.bytes := by
  rcases C27_between (by rw [henc]; exact .inl rfl) h hno hb ids vals hid hw b hack hsz with h | ⟨_, hf, hm⟩
  · exact h
  · exfalso
    obtain ⟨vs, hvs⟩ : ∃ vs, b.2 = vs ++ [v] := List.getLast?_eq_some_iff.1 hv
    obtain ⟨P, hP⟩ : ∃ P, w'.file.bytes = P ++ le64 v.toUInt64 := by
      rw [image, henc, valSection_raw, hvs, List.map_append, List.flatten_append] at hf
      simp only [List.map_cons, List.map_nil, List.flatten_cons, List.flatten_nil, List.append_nil, ← List.append_assoc] at hf
      exact ⟨_, hf⟩
    unfold EndsWithMagic at hm
    rw [hP, List.length_append, le64_length, Nat.add_sub_cancel, List.drop_left] at hm
    exact hne (le64_injective hm)

/-! ### Rejection is not unconditional -/

/-- 247 pairs in raw encoding fill the first page exactly. The last three values are where a
reader looks for the footer size, the checksum and the magic number. -/
def fooledIDs : List UInt64 := (List.range 247).map UInt64.ofNat

/-- See `fooledIDs`. -/
def fooledVals : List Int64 := List.replicate 244 7 ++ [3956, 0, magicNumber.toInt64]

/-- The file after `NewWriter` and `WriteBlock`. -/
def fooledFile : Bytes := startBytes 1700000000 [] ++ padded 64 (image encRaw fooledIDs fooledVals)

theorem fooledFile_accepted :
    (match newReader (B := IdSet) fooledFile with
      | .ok r => r.blockIndex.length == 0 && r.header.blockCount == 0
      | _ => false) = true := by
  decide +kernel

theorem fooled_fits : estSize encRaw 64 fooledIDs fooledVals ≤ 16384 := by decide +kernel

/-- A fault-free `WriteBlock` on a fresh writer with a raw block that fits. -/
theorem fresh_write {w : Writer B} {env : Env} (hq : env.NoFault) (h0 : newWriter [] env = (.ok (), w))
    (ids : List UInt64) (vals : List Int64) (hlen : ids.length = vals.length) (hne : 0 < ids.length)
    (hid : ids.length ≤ 2 ^ 27) (hfit : estSize encRaw 64 ids vals ≤ 16384) :
    ∃ w' i, writeBlock ids vals env w = (.ok (), w') ∧
      w'.file.bytes = startBytes (env.clock i) [] ++ padded 64 (image encRaw ids vals) := by
  obtain ⟨hi, hc, ho, he, ht, hp, _⟩ := newWriter_inv h0
  change w.encodingType = encRaw at he
  change w.blockSizeTarget = defaultBlockSize at ht
  obtain ⟨i, hs⟩ := wp_ok (writeHeader_spec (B := B) env []) h0
  have hnf := NoFault.not_faulty (w := w) hq ho
  have hout := writeBlock_out env w ids vals (by rw [he]; exact SymEnc.known (.inl rfl)) hlen hne hid hi.posLe hi.near
  have hwp : ∃ w', writeBlock ids vals env w = (.ok (), w') ∧ Committed w ids vals w' := by
    generalize writeBlock ids vals env w = res at hout
    obtain ⟨r, w'⟩ := res
    cases hout with
    | full _ _ _ _ hcm => exact ⟨w', rfl, hcm⟩
    | part _ k _ _ hbig =>
      exfalso
      rw [he, ht, hp, show defaultBlockSize.toNat = 16384 by decide] at hbig
      omega
    | noop _ hF => exact absurd hF hnf
    | fail e _ k _ _ _ herr =>
      exfalso
      cases herr with
      | early _ hF => exact hnf hF
      | mid _ _ hF => exact hnf hF
      | mismatch _ _ hm => exact hm (by rw [he]; exact SymEnc.sectionsMatch (.inl rfl) _ _)
      | sync _ hF => exact hnf hF
  obtain ⟨w', hw, hcm⟩ := hwp
  refine ⟨w', i, hw, ?_⟩
  rw [hcm.fields.1, committedFile, he, hs.file]
  simp only [startBytes_length, List.take_length]
  rw [List.take_of_length_le (by rw [startBytes_length]; omega)]

/-- **C27, the unconditional claim is refuted.** A single fault-free `WriteBlock` of 247 pairs,
never finalized, leaves a file that `NewReader` accepts - as a file without blocks. -/
theorem C27_refuted : ∃ (w w' : Writer IdSet) (ids : List UInt64) (vals : List Int64) (r : Reader IdSet),
    History IdSet quietEnv [] [] [] w ∧ ids.length = 247 ∧ vals.length = 247 ∧
    writeBlock ids vals quietEnv w = (.ok (), w') ∧ newReader w'.file.bytes = .ok r ∧ r.blockIndex = [] := by
  obtain ⟨w, h0⟩ := newWriter_ok (B := IdSet) quietEnv quietEnv_noFault []
  have hl1 : fooledIDs.length = 247 := by decide +kernel
  have hl2 : fooledVals.length = 247 := by decide +kernel
  obtain ⟨w', i, hw, hfile⟩ := fresh_write quietEnv_noFault h0 fooledIDs fooledVals (by rw [hl1, hl2])
    (by rw [hl1]; omega) (by rw [hl1]; omega) fooled_fits
  have hfile : w'.file.bytes = fooledFile := by
    rw [fooledFile, hfile, show quietEnv.clock i = 1700000000 from rfl]
  have hacc := fooledFile_accepted
  rw [← hfile] at hacc
  cases hr : newReader (B := IdSet) w'.file.bytes with
  | err e => rw [hr] at hacc; cases hacc
  | panic => rw [hr] at hacc; cases hacc
  | ok r =>
    rw [hr] at hacc
    dsimp only at hacc
    rw [Bool.and_eq_true] at hacc
    exact ⟨w, w', fooledIDs, fooledVals, r, ⟨w, h0, rfl⟩, hl1, hl2, hw, hr, List.length_eq_zero_iff.1 (by simpa using hacc.1)⟩

/-- The hypotheses of `C27_crash` are met by the history of two blocks, a rejected call and a
`Finalize` in between. -/
example : ∃ (calls : List Call) (w2 : Writer IdSet), calls.length = 4 ∧ ∀ n k,
    ReadsBack IdSet (crashedFile IdSet exampleOpts calls quietEnv n k) (acked exampleLog) ∨
    Rejected IdSet (crashedFile IdSet exampleOpts calls quietEnv n k) ∨
    ((crashedFile IdSet exampleOpts calls quietEnv n k).length + 24 < w2.file.bytes.length ∧
      EndsWithMagic (crashedFile IdSet exampleOpts calls quietEnv n k)) := by
  obtain ⟨file, hf⟩ := example_finalized
  obtain ⟨calls, w, w2, hh, h2, rfl⟩ := hf.made
  refine ⟨calls, w2, ?_, ?_⟩
  · rw [hh.calls_eq]; rfl
  · exact C27_crash quietEnv_noFault (fun _ => show (1700000000 : UInt64).toNat < 2 ^ 48 by decide) (by unfold SymEnc; decide) (hh.bounded hf.bounded) hh h2 hf.size
      (by decide)

/-! ### C42: writing on after `Finalize` -/

/-- **C42.** A file that was finalized and is then extended: after a `WriteBlock` that persisted
a block, the file is not readable any more (unless the block exactly fills its last page and ends
with the magic number), although it was readable before; the next successful `Finalize` makes it
readable again, with the old and the new block. -/
theorem C42_extend {env : Env} {opts : List WriterOption} (henc : SymEnc (chosenEncoding opts)) {calls : List Call}
    {log : Log} {w w1 w2 w3 : Writer B} (h : History B env opts calls log w) (hno : NoIOError log)
    (hb : ∀ ev ∈ log, ev.1.Bounded) (hn : (acked log).length < maxBlocks)
    (h1 : finalize env w = (.ok (), w1))
    (ids : List UInt64) (vals : List Int64) (hid : ids.length ≤ 2 ^ 27) {r : Result}
    (h2 : writeBlock ids vals env w1 = (r, w2)) (b : Block) (hack : ackedBy (.write ids vals) r = [b])
    (h3 : finalize env w2 = (.ok (), w3)) (hsz : w3.file.bytes.length < 2 ^ 63) :
    ReadsBack B w1.file.bytes (acked log) ∧
    (Rejected B w2.file.bytes ∨ ((w1.file.bytes.length + 80 + (idSection (chosenEncoding opts) b.1).length +
        (valSection (chosenEncoding opts) b.2).length) % 4096 = 0 ∧ EndsWithMagic w2.file.bytes)) ∧
    ReadsBack B w3.file.bytes (acked log ++ [b]) := by
  have hg2 : w2.file.bytes.length ≤ w3.file.bytes.length := by
    have := (Crashable.finalize (B := B)).grow env w2
    rw [h3] at this; exact this
  have hg1 : w1.file.bytes.length ≤ w2.file.bytes.length := by
    have := (Crashable.writeBlock (B := B) ids vals).grow env w1
    rw [h2] at this; exact this
  obtain ⟨w0, hnew, hrun⟩ := h.created
  have hA : History B env opts (calls ++ [.finalize]) (log ++ [(.finalize, .ok ())]) w1 := by
    refine ⟨w0, hnew, ?_⟩
    rw [runCalls_append, hrun]
    show (log ++ [(Call.finalize, (finalize env w).1)], (finalize env w).2) = _
    rw [h1]
  have hB : History B env opts (calls ++ [.finalize] ++ [.write ids vals])
      (log ++ [(.finalize, .ok ())] ++ [(.write ids vals, r)]) w2 := by
    refine ⟨w0, hnew, ?_⟩
    obtain ⟨w0', hnew', hrun'⟩ := hA.created
    rw [hnew] at hnew'
    cases hnew'
    rw [runCalls_append, hrun']
    show (log ++ [(Call.finalize, Except.ok ())] ++ [(Call.write ids vals, (writeBlock ids vals env w1).1)],
      (writeBlock ids vals env w1).2) = _
    rw [h2]
  have hrio : r ≠ .error .io := by rintro rfl; simp [ackedBy] at hack
  have hnoA : NoIOError (log ++ [(.finalize, .ok ())]) := by
    intro ev hev
    rcases List.mem_append.1 hev with hev | hev
    · exact hno ev hev
    · rw [List.mem_singleton] at hev; subst hev; simp
  have hbA : ∀ ev ∈ log ++ [(Call.finalize, Except.ok ())], ev.1.Bounded := by
    intro ev hev
    rcases List.mem_append.1 hev with hev | hev
    · exact hb ev hev
    · rw [List.mem_singleton] at hev; subst hev; trivial
  have hackA : acked (log ++ [(Call.finalize, Except.ok ())]) = acked log := by simp [acked, ackedBy]
  have hackB : acked (log ++ [(Call.finalize, Except.ok ())] ++ [(Call.write ids vals, r)]) = acked log ++ [b] := by
    rw [show acked (log ++ [(Call.finalize, Except.ok ())] ++ [(Call.write ids vals, r)]) =
      acked (log ++ [(Call.finalize, Except.ok ())]) ++ ackedBy (.write ids vals) r by simp [acked], hackA, hack]
  refine ⟨?_, ?_, ?_⟩
  · exact C01_roundtrip (opts := opts) (env := env) ⟨⟨_, _, _, h, h1, rfl⟩, hno, hb, by omega⟩ henc (by omega)
  · rcases C27_between henc hA hnoA hbA ids vals hid h2 b hack (by omega) with hx | ⟨ha, _, hc⟩
    · exact .inl hx
    · exact .inr ⟨ha, hc⟩
  · have hnoB : NoIOError (log ++ [(Call.finalize, Except.ok ())] ++ [(Call.write ids vals, r)]) := by
      intro ev hev
      rcases List.mem_append.1 hev with hev | hev
      · exact hnoA ev hev
      · rw [List.mem_singleton] at hev; subst hev; exact hrio
    have hbB : ∀ ev ∈ log ++ [(Call.finalize, Except.ok ())] ++ [(Call.write ids vals, r)], ev.1.Bounded := by
      intro ev hev
      rcases List.mem_append.1 hev with hev | hev
      · exact hbA ev hev
      · rw [List.mem_singleton] at hev; subst hev; exact hid
    have := C01_roundtrip (opts := opts) (env := env) ⟨⟨_, _, _, hB, h3, rfl⟩, hnoB, hbB, hsz⟩ henc
      (by rw [hackB, List.length_append, List.length_singleton]; omega)
    rwa [hackB] at this

/-- The hypotheses of `C42_extend` are met by the example history, which ends with a `Finalize`, a
`WriteBlock` and a `Finalize`. -/
example : ∃ (calls : List Call) (log : Log) (w w1 w2 w3 : Writer IdSet),
    History IdSet quietEnv exampleOpts calls log w ∧ log.length = 2 ∧ finalize quietEnv w = (.ok (), w1) ∧
    writeBlock [5, 1] [7, -9223372036854775807] quietEnv w1 = (.ok (), w2) ∧ finalize quietEnv w2 = (.ok (), w3) ∧
    w3.file.bytes.length < 2 ^ 63 := by
  obtain ⟨file, hf⟩ := example_finalized
  obtain ⟨calls, w2, w3, hh, h3, rfl⟩ := hf.made
  obtain ⟨w, hw, hfin, hpost⟩ := hh.split (pre := exampleLog.take 2) (c := .finalize) (r := .ok ())
    (post := exampleLog.drop 3) rfl
  have hfin' : finalize quietEnv w = (.ok (), (finalize quietEnv w).2) := Prod.ext hfin rfl
  have h4 : runCalls quietEnv [.write [5, 1] [7, -9223372036854775807]] (finalize quietEnv w).2 =
    ([(.write [5, 1] [7, -9223372036854775807], .ok ())], w2) := hpost
  refine ⟨_, _, w, _, w2, w3, hw, rfl, hfin', ?_, h3, hf.size⟩
  refine Prod.ext ?_ ?_
  · have := congrArg (fun p : Log × Writer IdSet => p.1.map Prod.snd) h4
    exact List.head_eq_of_cons_eq this
  · exact congrArg (fun p : Log × Writer IdSet => p.2) h4

end VibeCol
