/-
C90: what a failed `Sync` may take with it.
-/
import Verif.Spec.SyncLoss
import Verif.Lemmas.Twin
import Verif.Props.Damage
import Verif.Props.ManyWriters
import Verif.Props.Faults
import Verif.Props.Power
import Verif.Props.Multi
import Verif.Props.SimpleLayout
namespace VibeCol.SyncLoss
open VibeCol ManyWriters
set_option linter.unusedSectionVars false
variable {B : Type} [Bitmap B]

/-! ### A finished file that agrees with a well-formed one in its header fields and from the bitmap on -/

theorem parseHeader_congr {a b : Bytes} (h : ∀ p, p < 60 → a[p]? = b[p]?) : parseHeader a = parseHeader b := by
  have hs : ∀ o n, o + n ≤ 60 → (a.drop o).take n = (b.drop o).take n := by
    intro o n hn
    exact slice_congr fun p _ hp => h p (by omega)
  unfold parseHeader rd64 rd32
  rw [hs 0 8 (by omega), hs 8 4 (by omega), hs 12 4 (by omega), hs 16 8 (by omega), hs 24 4 (by omega), hs 28 4 (by omega),
    hs 32 4 (by omega), hs 36 8 (by omega), hs 44 8 (by omega), hs 52 8 (by omega)]

theorem readHeader_congr {f g : Bytes} (hl : g.length = f.length) (h : ∀ p, p < 60 → g[p]? = f[p]?) : readHeader g = readHeader f := by
  have e1 : ∀ x : Bytes, readBytesAt x 0 (Int64.ofNat headerSize) = .ok (x.take 64 ++ List.replicate (64 - (x.take 64).length) 0) := by
    intro x
    rfl
  unfold readHeader
  rw [e1, e1, Res.ok_bind, Res.ok_bind]
  have : parseHeader (g.take 64 ++ List.replicate (64 - (g.take 64).length) 0) =
      parseHeader (f.take 64 ++ List.replicate (64 - (f.take 64).length) 0) := by
    refine parseHeader_congr fun p hp => ?_
    rw [List.getElem?_append, List.getElem?_append, List.length_take, List.length_take, hl, List.getElem?_take, List.getElem?_take,
      h p hp]
  rw [this]

theorem opens_over {bytes bytes' buf : Bytes} {h : FileHeader} {e : UInt32} {blks : List Blk} {bo fs : Nat}
    (H : FileOK bytes h e blks buf bo fs) (hcnt : blks.length * 56 ≤ 2 ^ 32) (hl : bytes'.length = bytes.length)
    (hsame : ∀ p, p < 60 ∨ bo ≤ p → bytes'[p]? = bytes[p]?) :
    newReader (B := B) bytes' = .ok { okReader bytes h e blks with bytes := bytes' } := by
  have hsm := H.small
  have hfit := H.bmFits
  have hfs := H.fsLe
  have hbo := H.bo64
  have hrh : VibeCol.readHeader bytes' = VibeCol.readHeader bytes := readHeader_congr hl fun p hp => hsame p (.inl hp)
  have hdrop : bytes'.drop fs = bytes.drop fs := by
    refine List.ext_getElem? fun i => ?_
    rw [List.getElem?_drop, List.getElem?_drop, hsame _ (.inr (by omega))]
  have hf : ∀ hd, readFooter bytes' hd = readFooter bytes hd := by
    intro hd
    have hil := H.index_length
    rw [readFooter_any (fs := fs) (n := blks.length) (by omega) (by omega) (by omega) (by omega) (by rw [hil])
        (by rw [hdrop]; exact H.foot),
      readFooter_any (fs := fs) (n := blks.length) hsm (by omega) (by omega) (by omega) (by rw [hil]) H.foot]
  have h0 := H.newReader (B := B) hcnt
  unfold VibeCol.newReader at h0 ⊢
  obtain ⟨hd, h1, h0⟩ := Res.bind_ok h0
  obtain ⟨x, h2, h0⟩ := Res.bind_ok h0
  rw [hrh, h1, Res.ok_bind, hf, h2, Res.ok_bind]
  simp only [Res.ok.injEq] at h0 ⊢
  rw [← h0]

/-! ### Twins -/

/-- What becomes of a file if `w` finalizes it, where `w` would be in order if its file had other bytes. -/
theorem finalize_twin {env : Env} {w s w' : Writer B} {e : UInt32} {blks : List Blk} {extra : List UInt64} (he : SymEnc e)
    (ht : Twin w s) (hi : Inv s blks extra) (henc : w.encodingType = e)
    (hfew : blks.length ≤ maxBlocks ∨ w'.file.bytes.length ≤ maxFileSize)
    (hf : finalize env w = (.ok (), w')) (hsz : w'.file.bytes.length < 2 ^ 63) :
    ∃ r : Reader B, newReader w'.file.bytes = .ok r ∧ Indexed r (blks.map Blk.pairs) ∧
      ∀ i b b', blks[i]? = some b → b'.OK e → Alike e b b' → b'.off + (b'.img e).length ≤ w.file.pos → 64 ≤ b'.off →
        slice w.file.bytes b'.off (b'.img e).length = b'.img e → getPairs r (UInt64.ofNat i) = .ok b'.pairs := by
  obtain ⟨g, d, rfl, hg⟩ := ht
  generalize hs0 : w.put g d = a at hi
  have hap : a.file.pos = w.file.pos := by rw [← hs0]; rfl
  have hal : a.file.bytes.length = w.file.bytes.length := by rw [← hs0]; exact hg
  have hae : a.encodingType = e := by rw [← hs0]; exact henc
  have h64 := hi.pos64
  have hle := hi.posLe
  have hnear := hi.near
  obtain ⟨_, hcnt, t, hs⟩ := wp_ok (finalize_spec env w (by omega) (by omega) (by omega)) hf
  have hbm : bitmapBytes w = bitmapBytes a := by rw [← hs0]; rfl
  have hl1x := phase1_length w (by omega)
  have hl1a := phase1_length a (by omega)
  have htail : tailBytes w = tailBytes a := by
    have hl : (phase1 w).length = (phase1 a).length := by rw [hl1x, hl1a, hap, hbm]
    unfold tailBytes footPad
    rw [hl, ← hs0]
    rfl
  have hhead : finHeader t w = finHeader t a := by rw [← hs0]; rfl
  have hfile : w'.file.bytes = finalBytes t w := by rw [hs.file]
  have hlen2x := phase2_length t w (by omega) (by omega)
  have hlen2a := phase2_length t a h64 hle
  have hlen : (finalBytes t w).length = (finalBytes t a).length := by
    unfold finalBytes
    rw [List.length_append, List.length_append, hlen2x, hlen2a, hl1x, hl1a, htail, hap, hbm]
  have hcnt' : a.blockCount = 0 ∨ a.blockPositions.length = a.blockCount := by rw [← hs0]; exact hcnt
  obtain ⟨_, _, _, _, hok, _⟩ := final_inv a { a with file := { bytes := finalBytes t a, pos := (finalBytes t a).length } } blks extra
    hi hcnt' t ⟨_, _, rfl⟩
  obtain ⟨hd, bo, fs, H, _, hbo⟩ := hok (by show (finalBytes t a).length < _; rw [← hlen, ← hfile]; exact hsz)
  rw [hae] at H
  change FileOK (finalBytes t a) hd e blks _ bo fs at H
  have hfew : blks.length ≤ maxBlocks := hfew.elim id fun h => H.few (by rw [← hlen, ← hfile]; exact h)
  have hsame : ∀ p, p < 60 ∨ bo ≤ p → (finalBytes t w)[p]? = (finalBytes t a)[p]? := by
    intro p hp
    rcases Nat.lt_or_ge p 60 with h60 | h60
    · unfold finalBytes phase2
      have hfl := headerFields_length (finHeader t a)
      rw [List.append_assoc, List.append_assoc, List.getElem?_append_left (by rw [hhead]; omega), List.getElem?_append_left (by omega), hhead]
    · have hp : bo ≤ p := by omega
      rw [hbo] at hp
      have key : ∀ y : Writer B, y.file.pos = a.file.pos → a.file.pos ≤ y.file.bytes.length → bitmapBytes y = bitmapBytes a → tailBytes y = tailBytes a →
          (finalBytes t y)[p]? = (bitmapBytes a ++ tailBytes a)[p - a.file.pos]? := by
        intro y h1 h2 h3 h4
        have hfl := headerFields_length (finHeader t y)
        unfold finalBytes phase2 phase1
        rw [h1, h3, h4, List.drop_append_of_le_length (by rw [List.length_take]; omega), List.append_assoc, List.append_assoc,
          List.getElem?_append_right (by omega), List.getElem?_append_right (by rw [List.length_drop, List.length_take]; omega)]
        congr 1
        rw [List.length_drop, List.length_take]
        omega
      rw [key w hap.symm (by omega) hbm htail, key a rfl (by omega) rfl rfl]
  have hmax := hfew
  unfold maxBlocks at hmax
  have hopen := opens_over (B := B) H (bytes' := finalBytes t w) (by omega) hlen hsame
  rw [hfile]
  have hI := H.indexed (B := B) hfew
  refine ⟨_, hopen, ⟨hI.few, hI.count, hI.index, hI.entry, hI.ok⟩, fun i b b' hib okb hal hin hlo himgb => ?_⟩
  obtain ⟨hia, rfl⟩ := List.getElem?_eq_some_iff.mp hib
  have oka := H.ok _ (List.getElem_mem hia)
  have hil := Blk.img_length e _ okb
  have himg : slice (finalBytes t w) b'.off (b'.img e).length = b'.img e := by
    rw [finalBytes_slice_old t w (by omega) (by omega) _ _ (by omega) (by omega)]
    exact himgb
  have hidl := okb.sec.1
  have hvall := okb.sec.2
  unfold getPairs
  rw [uint64_ofNat_toInt64 i, H.readBlock_damaged (B := B) hlen i hia ?_ { okReader (finalBytes t a) hd e blks with bytes := finalBytes t w } rfl
    H.enc (by simp [okReader, hia]) (by omega), hal.off, hal.idSize, hal.valSize, hal.len]
  · have s1 := slice_of_slice himg 80 (idSize e b'.ids) (by omega)
    have s2 := slice_of_slice himg (80 + idSize e b'.ids) (valSize e b'.vals) (by omega)
    rw [Nat.add_assoc, s1, s2]
    have d1 : slice (b'.img e) 80 (idSize e b'.ids) = idSection e b'.ids := by
      have hl := layoutBytes_length e b'.ids b'.vals
      have h52 := header52_length e b'.ids b'.vals
      show slice (image e b'.ids b'.vals) _ _ = _
      unfold image
      rw [slice_append_left _ _ _ _ (by simp only [List.length_append, h52, hl, hidl, le32_length]; omega),
        slice_append_right _ _ _ _ (by simp [h52, hl])]
      simp only [List.length_append, h52, hl, le32_length]
      simp [slice, ← hidl]
    have d2 : slice (b'.img e) (80 + idSize e b'.ids) (valSize e b'.vals) = valSection e b'.vals := by
      have hl := layoutBytes_length e b'.ids b'.vals
      have h52 := header52_length e b'.ids b'.vals
      show slice (image e b'.ids b'.vals) _ _ = _
      unfold image
      rw [slice_append_right _ _ _ _ (by simp only [List.length_append, h52, hl, hidl, le32_length]; omega)]
      simp only [List.length_append, h52, hl, le32_length, hidl]
      simp [slice, ← hvall]
    rw [d1, d2]
    exact decodeBlockData_sections _ he _ _ okb.len
  · have e1 := slice_of_slice himg 64 16 (by omega)
    have e2 := slice_of_slice (H.img _ (List.getElem_mem hia)) 64 16 (by rw [Blk.img_length e _ oka]; omega)
    rw [hal.off] at e2 ⊢
    rw [e1, e2]
    have lay : ∀ b : Blk, slice (b.img e) 64 16 = layoutBytes e b.ids b.vals := by
      intro b
      have hl := layoutBytes_length e b.ids b.vals
      have h52 := header52_length e b.ids b.vals
      show slice (image e b.ids b.vals) _ _ = _
      simp [slice, image, List.drop_append, List.drop_eq_nil_of_le, h52, hl]
    rw [lay, lay]
    unfold layoutBytes
    rw [hal.idSize, hal.valSize]

/-! ### One call -/

/-- An acknowledged block is in the file, at the place where the cursor was, and everything is synced. -/
theorem acked_image {env : Env} {w : Writer B} {c : Call} (hb : c.Bounded) (hk : KnownEnc w.encodingType)
    (hle : w.file.pos ≤ w.file.bytes.length) (hnear : w.file.bytes.length ≤ w.file.pos + 4) {p : Block}
    (hp : ackedBy c (c.run env w).1 = [p]) :
    AllSynced (c.run env w).2 ∧ w.file.pos + (image w.encodingType p.1 p.2).length ≤ (c.run env w).2.file.pos ∧
      (c.run env w).2.file.pos ≤ (c.run env w).2.file.bytes.length ∧
      slice (c.run env w).2.file.bytes w.file.pos (image w.encodingType p.1 p.2).length = image w.encodingType p.1 p.2 := by
  cases c with
  | estimate ids vals => simp [ackedBy] at hp
  | finalize => simp [ackedBy] at hp
  | write ids vals =>
    simp only [Call.run] at hp ⊢
    have hack : Acknowledges (writeBlock ids vals env w).1 := by
      generalize (writeBlock ids vals env w).1 = r at hp
      unfold ackedBy at hp
      split at hp
      · exact .inl rfl
      · exact .inr ⟨_, rfl⟩
      · cases hp
    refine ⟨writeBlock_synced rfl hack, ?_⟩
    have key : ∀ ids' vals', Committed w ids' vals' (writeBlock ids vals env w).2 → p = (ids', vals') →
        w.file.pos + (image w.encodingType p.1 p.2).length ≤ (writeBlock ids vals env w).2.file.pos ∧
      (writeBlock ids vals env w).2.file.pos ≤ (writeBlock ids vals env w).2.file.bytes.length ∧
      slice (writeBlock ids vals env w).2.file.bytes w.file.pos (image w.encodingType p.1 p.2).length = image w.encodingType p.1 p.2 := by
      rintro ids' vals' hc rfl
      rw [hc.fields.1]
      unfold committedFile
      dsimp only
      have hpl := padded_length w.file.pos (image w.encodingType ids' vals')
      refine ⟨by omega, by rw [List.length_append, List.length_take]; omega, ?_⟩
      rw [slice_append_right _ _ _ _ (by simp only [List.length_take, Nat.min_eq_left hle]; omega)]
      simp only [List.length_take, Nat.min_eq_left hle, Nat.sub_self]
      simp [slice, padded]
    by_cases hl : ids.length = vals.length
    · by_cases hne : ids.length = 0
      · have h1 : ids = [] := List.eq_nil_of_length_eq_zero hne
        have h2 : vals = [] := List.eq_nil_of_length_eq_zero (by omega)
        subst h1 h2
        rw [writeBlock_empty] at hp
        simp [ackedBy] at hp
      · have hout := writeBlock_out env w ids vals hk hl (by omega) hb hle hnear
        generalize writeBlock ids vals env w = res at hout hp key ⊢
        obtain ⟨r, w'⟩ := res
        dsimp only at hout hp key ⊢
        cases hout with
        | full _ hopen hm hfit hc => exact key _ _ hc (by simpa [ackedBy] using hp.symm)
        | part _ k hk1 hk2 hbig hfit hmax hopen hm hc => exact key _ _ hc (by simpa [ackedBy] using hp.symm)
        | noop _ hF h => simp [ackedBy] at hp
        | fail e2 _ k hk1 hk2 hfit h =>
          cases h <;> simp [ackedBy] at hp
    · rw [writeBlock_lengthMismatch env w ids vals hl] at hp
      simp [ackedBy] at hp

variable [LawfulBitmap B]

/-- The block `b` holds the pairs `p`; its bytes are in the file and on the device, and the cursor is behind it. -/
structure Safe (e : UInt32) (w : Writer B) (b : Blk) (p : Block) : Prop where
  pairs : b.pairs = p
  low : 64 ≤ b.off
  kept : ∃ ref, KeepP True b.off (b.off + (b.img e).length) ref (b.off + (b.img e).length) w ∧
    slice ref b.off (b.img e).length = b.img e

/-- The blocks with the numbers `idx` are safe and hold the pairs `acks`. -/
structure Held (e : UInt32) (w : Writer B) (blks : List Blk) (idx : List Nat) (acks : List Block) : Prop where
  twin : ∃ s extra, Twin w s ∧ Inv s blks extra
  enc : w.encodingType = e
  increasing : idx.Pairwise (· < ·)
  bound : ∀ i ∈ idx, i < blks.length
  safe : Each (fun i p => ∃ b, blks[i]? = some b ∧ Safe e w b p) idx acks

omit [LawfulBitmap B] in
theorem Safe.call {e : UInt32} {env : Env} {c : Call} {w w1 : Writer B} {b : Blk} {p : Block} (h : Safe e w b p) (hl : Leaves env c w w1)
    (hfin : c = .finalize → (c.run env w).1 ≠ .error .io) : Safe e w1 b p := by
  obtain ⟨ref, hk, himg⟩ := h.kept
  refine ⟨h.pairs, h.low, ref, ?_, himg⟩
  have h1 := (call_keep (env := env) c (fun _ => h.low) hk).2 hfin
  cases hl with
  | all => exact h1
  | some f hio hf hlen =>
    have h2 := h1.1
    refine ⟨⟨?_, fun i hi1 hi2 => h2.remains trivial hf i hi1 hi2, h2.slen, h2.synced, h2.away⟩, h1.2⟩
    show _ ≤ f.length
    rw [hlen]
    exact h2.len

omit [Bitmap B] [LawfulBitmap B] in
theorem left_cases {c : Call} {r : Result} {bs : List Block} (h : Left c r bs) : bs = ackedBy c r ∨ ackedBy c r = [] := by
  cases h with
  | acked => exact .inl rfl
  | torn => exact .inr rfl

omit [Bitmap B] [LawfulBitmap B] in
theorem ackedBy_cases (c : Call) (r : Result) : ackedBy c r = [] ∨ ∃ p, ackedBy c r = [p] := by
  unfold ackedBy
  split
  · exact .inr ⟨_, rfl⟩
  · exact .inr ⟨_, rfl⟩
  · exact .inl rfl

theorem Held.call {e : UInt32} (he : SymEnc e) {env : Env} {c : Call} {w w1 : Writer B} {blks : List Blk} {idx : List Nat} {acks : List Block}
    (h : Held e w blks idx acks) (hb : c.Bounded) (hl : Leaves env c w w1) (hfin : c = .finalize → (c.run env w).1 ≠ .error .io) :
    ∃ new idx', Left c (c.run env w).1 (new.map Blk.pairs) ∧ Held e w1 (blks ++ new) (idx ++ idx') (acks ++ ackedBy c (c.run env w).1) := by
  obtain ⟨s, extra, ht, hi⟩ := h.twin
  obtain ⟨hr, ht'⟩ := ht.call env c
  obtain ⟨new, extra', hleft, hinv, hsame, _, _, hadv⟩ := call_inv env c hb s blks extra hi (by rw [hr]; exact hfin)
  rw [hr] at hleft
  have hT : Twin w1 (c.run env s).2 := by
    cases hl with
    | all => exact ht'
    | some f hio hf hlen => exact ht'.put f _ hlen
  have hpos : s.file.pos = w.file.pos := by obtain ⟨g, d, rfl, _⟩ := ht; rfl
  have hlen : s.file.bytes.length = w.file.bytes.length := by obtain ⟨g, d, rfl, hg⟩ := ht; exact hg
  have hse : s.encodingType = e := by rw [← h.enc]; obtain ⟨g, d, rfl, _⟩ := ht; rfl
  have henc1 : w1.encodingType = e := by
    have h1 : (c.run env s).2.encodingType = e := hsame.enc.trans hse
    obtain ⟨g, d, hg, _⟩ := hT
    rw [hg] at h1
    exact h1
  have old : Each (fun i p => ∃ b, (blks ++ new)[i]? = some b ∧ Safe e w1 b p) idx acks := by
    refine h.safe.imp fun i p hip => ?_
    obtain ⟨b, hb, hs⟩ := hip
    refine ⟨b, ?_, hs.call hl hfin⟩
    have hi := (List.getElem?_eq_some_iff.mp hb).1
    rw [List.getElem?_append_left hi]
    exact hb
  rcases ackedBy_cases c (c.run env w).1 with ha | ⟨p, ha⟩
  · refine ⟨new, [], hleft, ⟨_, _, hT, hinv⟩, henc1, ?_, ?_, ?_⟩
    · rw [List.append_nil]; exact h.increasing
    · rw [List.append_nil]
      intro i hi
      have := h.bound i hi
      rw [List.length_append]; omega
    · rw [List.append_nil, ha, List.append_nil]; exact old
  · have hnew : new.map Blk.pairs = [p] := by
      rcases left_cases hleft with h1 | h1
      · rw [h1, ha]
      · rw [ha] at h1; cases h1
    obtain ⟨b, rfl, hbp⟩ : ∃ b, new = [b] ∧ b.pairs = p := by
      match new, hnew with
      | [b], h => exact ⟨b, rfl, by simpa using h⟩
    have hfresh := hadv.fresh b (List.mem_singleton.mpr rfl)
    obtain ⟨hsync, h1, h2, h3⟩ := acked_image (env := env) hb (by rw [h.enc]; exact he.known) (by have := hi.posLe; omega)
      (by have := hi.near; omega) ha
    have hoff : b.off = w.file.pos := hfresh.off.trans hpos
    have himg : image w.encodingType p.1 p.2 = b.img e := by rw [h.enc, ← hbp]; rfl
    rw [himg, ← hoff] at h1 h3
    have hw1 : w1 = (c.run env w).2 := by
      cases hl with
      | all => rfl
      | some f hio hf hlen => rw [hio] at ha; cases c <;> simp [ackedBy] at ha
    refine ⟨[b], [blks.length], hleft, ⟨_, _, hT, hinv⟩, henc1, ?_, ?_, ?_⟩
    · rw [List.pairwise_append]
      refine ⟨h.increasing, List.pairwise_singleton _ _, fun i hi j hj => ?_⟩
      rw [List.mem_singleton] at hj
      rw [hj]
      exact h.bound i hi
    · intro i hi
      rw [List.length_append, List.length_singleton]
      rcases List.mem_append.mp hi with h' | h'
      · have := h.bound i h'; omega
      · rw [List.mem_singleton] at h'; omega
    · rw [ha]
      refine old.append (.cons ⟨b, ?_, hbp, by rw [hoff, ← hpos]; exact hi.pos64, (c.run env w).2.file.bytes, ?_, h3⟩ .nil)
      · rw [List.getElem?_append_right (Nat.le_refl _), Nat.sub_self]; rfl
      · rw [hw1]
        unfold AllSynced at hsync
        refine ⟨⟨by omega, fun _ _ _ => rfl, fun _ => ?_, fun _ i _ _ => ?_, fun _ q hq => ?_⟩, h1⟩
        · rw [hsync]; dsimp only; omega
        · rw [hsync]
        · rw [hsync] at hq; cases hq

theorem Held.run {e : UInt32} (he : SymEnc e) {env : Env} {calls : List Call} {w w1 : Writer B} {log : Log} (hrun : Lossy env calls w log w1)
    {blks : List Blk} {idx : List Nat} {acks : List Block} (h : Held e w blks idx acks) (hb : ∀ c ∈ calls, c.Bounded)
    (hfin : FinalizeNoIOError log) :
    ∃ new idx', LeftBy log (new.map Blk.pairs) ∧ Held e w1 (blks ++ new) (idx ++ idx') (acks ++ acked log) := by
  induction hrun generalizing blks idx acks with
  | nil w => exact ⟨[], [], .nil, by simpa [acked] using h⟩
  | @cons c cs w w1 w2 log hl t ih =>
    obtain ⟨new, idx', h1, h2⟩ := h.call he (hb c (List.mem_cons_self ..)) hl (fun hc => hfin _ (List.mem_cons_self ..) hc)
    obtain ⟨new2, idx2, g1, g2⟩ := ih h2 (fun c' hc' => hb c' (List.mem_cons_of_mem _ hc')) (fun ev hev => hfin ev (List.mem_cons_of_mem _ hev))
    refine ⟨new ++ new2, idx' ++ idx2, ?_, ?_⟩
    · rw [List.map_append]; exact .cons h1 g1
    · have : acked ((c, (c.run env w).1) :: log) = ackedBy c (c.run env w).1 ++ acked log := rfl
      rw [this, ← List.append_assoc, ← List.append_assoc, ← List.append_assoc]
      exact g2

/-- **C90.** Whatever the operating system drops after calls that reported an I/O error: if a later `Finalize` returns nil, then the file, also as a
power failure leaves it, opens and holds every acknowledged block, in the order in which they were acknowledged, at strictly increasing block
numbers. The numbers in between belong to failed `WriteBlock` calls; `Aggregate` without filters counts these blocks too. -/
theorem C90_acknowledged {env env' : Env} {opts : List WriterOption} (henc : SymEnc (chosenEncoding opts)) {calls : List Call} {log : Log}
    {w0 w w' : Writer B} (hnew : newWriter opts env = (.ok (), w0)) (hrun : Lossy env calls w0 log w) (hb : ∀ c ∈ calls, c.Bounded)
    (hn : log.length ≤ maxBlocks) (hfin : FinalizeNoIOError log) (hf : finalize env' w = (.ok (), w'))
    (hsz : w'.file.bytes.length < 2 ^ 63) {f : Bytes} (hr : MayRemain w'.disk f) :
    ∃ (r : Reader B) (blocks : List Block) (idx : List Nat), newReader f = .ok r ∧ LeftBy log blocks ∧
      r.header.blockCount.toNat = blocks.length ∧ idx.Pairwise (· < ·) ∧
      Each (fun i b => blocks[i]? = some b ∧ getPairs r (UInt64.ofNat i) = .ok b) idx (acked log) ∧
      (StatsRepresentable blocks → ∀ (sched : Sched) (_ : sched.Fair) (workers : Int),
        ∃ res, aggregateWithOptions sched r { parallel := workers } = .ok res ∧ IsAggregate res (valuesOf blocks)) := by
  obtain ⟨hi, hc, ho, he, ht, _⟩ := newWriter_inv hnew
  have h0 : Held (chosenEncoding opts) w0 [] [] [] := ⟨⟨w0, _, .refl w0, hi⟩, he, .nil, fun _ h => (by cases h), .nil⟩
  obtain ⟨new, idx, h1, h2⟩ := h0.run henc hrun hb hfin
  rw [List.nil_append, List.nil_append, List.nil_append] at h2
  obtain ⟨s, extra, hT, hI⟩ := h2.twin
  have hl := h1.length_le
  rw [List.length_map] at hl
  obtain ⟨r, hr1, hr2, hr3⟩ := finalize_twin henc hT hI h2.enc (.inl (by omega)) hf hsz
  have hfe : f = w'.file.bytes := (AllSynced.remains (wp_ok (Syncs.finalize env' w) hf) f).mp hr
  rw [hfe]
  refine ⟨r, _, idx, hr1, h1, hr2.count_toNat, h2.increasing, h2.safe.imp fun i p hip => ?_,
    fun hrep sched hs workers => ⟨_, by rw [hr2.parallel_eq sched hs, hr2.footer _ rfl rfl rfl hrep], accOf_isAggregate _⟩⟩
  obtain ⟨b, hb, hs⟩ := hip
  obtain ⟨ref, hk, himg⟩ := hs.kept
  refine ⟨by rw [List.getElem?_map, hb]; exact congrArg some hs.pairs, ?_⟩
  rw [hr3 i b b hb ?_ ⟨rfl, rfl, rfl, rfl⟩ hk.2 hs.low ?_, hs.pairs]
  · have := hI.ok b (List.mem_of_getElem? hb)
    rwa [show s.encodingType = chosenEncoding opts by rw [← h2.enc]; obtain ⟨g, d, rfl, _⟩ := hT; rfl] at this
  exact (slice_congr fun q h1 h2 => hk.1.file q h1 h2).trans himg

/-! ### What does not hold of the other blocks -/

/-- The file in which the value of the only pair, and what is derived from it, has not arrived. -/
def withoutValue : Bytes := List.replicate 64 0 ++ image 0 [1] [0] ++ List.replicate 3936 0

theorem onlyZeros : ∀ j < 96, (image 0 [1] [0])[j]? = some 0 ∨ (image 0 [1] [0])[j]? = (image 0 [1] [1])[j]? := by
  decide +kernel

theorem image_lengths : (image 0 [1] [0]).length = 96 ∧ (image 0 [1] [1]).length = 96 := by
  decide +kernel

theorem withoutValue_length : withoutValue.length = 4096 := by
  unfold withoutValue
  rw [List.length_append, List.length_append, List.length_replicate, List.length_replicate, image_lengths.1]

theorem withoutValue_slice : slice withoutValue 64 96 = image 0 [1] [0] := by
  unfold withoutValue slice
  rw [List.append_assoc, List.drop_append_of_le_length (by rw [List.length_replicate]; exact Nat.le_refl _),
    List.drop_eq_nil_of_le (by rw [List.length_replicate]; exact Nat.le_refl _), List.nil_append,
    List.take_append_of_le_length (by rw [image_lengths.1]; exact Nat.le_refl _), List.take_of_length_le (by rw [image_lengths.1]; exact Nat.le_refl _)]

theorem withoutValue_remains {d : Disk} {f : Bytes} (h : MayRemain d f) (hl : f.length = 4096) (hs : d.synced.length = 0)
    (hf : (f.drop 64).take 96 = image 0 [1] [1]) : MayRemain d withoutValue := by
  refine h.mix (by rw [withoutValue_length, hl]) fun i b hb => ?_
  obtain ⟨l1, l2⟩ := image_lengths
  unfold withoutValue at hb
  rcases Nat.lt_or_ge i 64 with h1 | h1
  · rw [List.append_assoc, List.getElem?_append_left (by rw [List.length_replicate]; exact h1), List.getElem?_replicate, if_pos h1] at hb
    exact .inr (.inr ⟨by omega, (Option.some.inj hb).symm⟩)
  · rw [List.append_assoc, List.getElem?_append_right (by rw [List.length_replicate]; exact h1), List.length_replicate] at hb
    rcases Nat.lt_or_ge (i - 64) 96 with h2 | h2
    · rw [List.getElem?_append_left (by omega)] at hb
      rcases onlyZeros _ h2 with h3 | h3
      · rw [h3] at hb
        exact .inr (.inr ⟨by omega, (Option.some.inj hb).symm⟩)
      · rw [h3, ← hf, List.getElem?_take, if_pos h2, List.getElem?_drop, show 64 + (i - 64) = i by omega] at hb
        exact .inl hb
    · rw [List.getElem?_append_right (by omega), List.getElem?_replicate] at hb
      split at hb
      · exact .inr (.inr ⟨by omega, (Option.some.inj hb).symm⟩)
      · cases hb

/-- A `WriteBlock` that failed and was made again. -/
theorem failedBlock {env : Env} {w0 : Writer IdSet} (h0 : newWriter [] env = (.ok (), w0))
    (h1 : (Call.run env (.write [1] [1]) w0).1 = .error .io)
    (h2 : (Call.run env (.write [1] [1]) w0).2.file.bytes.length = 4096) (h3 : (Call.run env (.write [1] [1]) w0).2.disk.synced.length = 0)
    (h4 : ((Call.run env (.write [1] [1]) w0).2.file.bytes.drop 64).take 96 = image 0 [1] [1])
    (ho : runOutcome env againCalls = (.ok (), againLog, .ok (), 2, 8192, 16)) :
    ∃ (w w' : Writer IdSet) (r : Reader IdSet), Lossy env againCalls w0 againLog w ∧ finalize env w = (.ok (), w') ∧
      newReader w'.file.bytes = .ok r ∧ r.header.blockCount.toNat = 2 ∧
      getPairs r 0 = .ok ([1], [0]) ∧ w'.file.bytes.length ≤ 2 ^ 20 := by
  obtain ⟨hi, _, _, he, _, hp0, _⟩ := newWriter_inv h0
  have hrem : MayRemain (Call.run env (.write [1] [1]) w0).2.disk withoutValue :=
    withoutValue_remains (C45_current (calls := [.write [1] [1]]) ⟨w0, h0, rfl⟩) h2 h3 h4
  -- the run in which nothing is dropped
  obtain ⟨s, s', ⟨x, hx, hrun⟩, hsf, hsn, hsp, hsb⟩ := outcome_history ho
  rw [h0] at hx
  obtain rfl : w0 = x := (Prod.mk.inj hx).2
  obtain ⟨new1, ex1, hl1, hi1, hs1, _, _, ha1⟩ := call_inv env (.write [1] [1]) (by decide) w0 [] [] hi (fun h => by cases h)
  generalize hq : Call.run env (.write [1] [1]) w0 = q at *
  obtain ⟨r1, a⟩ := q
  dsimp only at h1 h2 h3 h4 hrem hl1 hi1 hs1 ha1
  have hrun' : (runCalls env againCalls w0) = ((.write [1] [1], r1) :: [(.write [1] [1], (Call.run env (.write [1] [1]) a).1)],
      (Call.run env (.write [1] [1]) a).2) := by
    have : runCalls env againCalls w0 = ((.write [1] [1], (Call.run env (.write [1] [1]) w0).1) ::
      [(.write [1] [1], (Call.run env (.write [1] [1]) (Call.run env (.write [1] [1]) w0).2).1)],
      (Call.run env (.write [1] [1]) (Call.run env (.write [1] [1]) w0).2).2) := rfl
    rw [this, hq]
  rw [hrun'] at hrun
  obtain ⟨hlog, hs⟩ := Prod.mk.inj hrun
  obtain ⟨new2, ex2, _, hi2, hs2, _, _, ha2⟩ := call_inv env (.write [1] [1]) (by decide) a _ _ hi1 (fun h => by cases h)
  have hr2 : (Call.run env (.write [1] [1]) a).1 = .ok () := by
    have := congrArg (fun l : Log => l.getLast?.map (·.2)) hlog
    simpa [againLog] using this
  rw [hs] at hi2
  have hc := hi2.cnt
  rw [hsn, List.nil_append, List.length_append] at hc
  have hone1 := ha1.one
  have hone2 := ha2.one
  obtain ⟨b, rfl⟩ : ∃ b, new1 = [b] := by
    match new1, (show new1.length = 1 by omega) with
    | [b], _ => exact ⟨b, rfl⟩
  have hbp : b.pairs = ([1], [1]) := by
    rw [h1] at hl1
    have key : ∀ bs, Left (.write [1] [1]) (.error .io) bs → bs ≠ [] → bs = [([1], [1])] := by
      intro bs h hne
      generalize hc : Call.write [1] [1] = c at h
      cases h with
      | acked => subst hc; exact absurd rfl hne
      | torn ids vals k hk1 hk2 =>
        cases hc
        have : k = 1 := by simp at hk2; omega
        subst this
        rfl
    have := key _ hl1 (by simp)
    simpa using this
  have hboff : b.off = 64 := (ha1.fresh b (List.mem_singleton.mpr rfl)).off.trans hp0
  -- the run in which something is dropped
  have ht1 : Twin ({ a with file := { bytes := withoutValue, pos := a.file.pos } } : Writer IdSet) a :=
    (Twin.refl a).put withoutValue a.disk (by rw [withoutValue_length, h2])
  generalize hw1 : ({ a with file := { bytes := withoutValue, pos := a.file.pos } } : Writer IdSet) = w1 at ht1
  obtain ⟨g1, ht2⟩ := ht1.call env (.write [1] [1])
  obtain ⟨g2, ht3⟩ := Blind.finalize env _ _ ht2
  rw [hs] at ht2 ht3 g2
  rw [hsf] at g2 ht3
  have hapos := hi1.near
  rw [h2] at hapos
  have hk1 : KeepP False 64 160 withoutValue 160 w1 := by
    rw [← hw1]
    exact ⟨⟨by show 160 ≤ withoutValue.length; rw [withoutValue_length]; omega, fun _ _ _ => rfl, fun h => h.elim, fun h => h.elim, fun h => h.elim⟩,
      by show 160 ≤ a.file.pos; omega⟩
  have hk2 := (call_keep (env := env) (.write [1] [1]) (fun h => by cases h) hk1).2 (fun h => by cases h)
  have hlossy : Lossy env againCalls w0 againLog (Call.run env (.write [1] [1]) w1).2 := by
    have e1 : againLog = (.write [1] [1], (Call.run env (.write [1] [1]) w0).1) :: (.write [1] [1], (Call.run env (.write [1] [1]) w1).1) :: [] := by
      rw [hq, h1, ← g1, hr2]; rfl
    rw [e1]
    refine .cons (w1 := w1) ?_ (.cons .all (.nil _))
    rw [← hw1]
    have := Leaves.some (env := env) (c := .write [1] [1]) (w := w0) withoutValue (by rw [hq]; exact h1) (by rw [hq]; exact hrem)
      (by rw [hq, withoutValue_length]; exact h2.symm)
    rw [hq] at this
    exact this
  generalize Call.run env (.write [1] [1]) w1 = q2 at *
  obtain ⟨r2, w⟩ := q2
  dsimp only at *
  obtain ⟨w', hf⟩ : ∃ w', finalize env w = (.ok (), w') := ⟨_, Prod.ext g2.symm rfl⟩
  rw [hf] at ht3
  have hwe : w.encodingType = 0 := by
    have : s.encodingType = 0 := by rw [← hs, hs2.enc, hs1.enc, he]; rfl
    obtain ⟨g, d, hg, _⟩ := ht2
    rw [hg] at this
    exact this
  have hsz : w'.file.bytes.length ≤ 2 ^ 20 := by
    obtain ⟨_, _, _, _, _, _, hsz⟩ := wp_ok (finalize_inv env s _ _ hi2) hsf
    rw [← hi2.cnt, hsn, hsp, hsb] at hsz
    obtain ⟨g, d, hg, hl⟩ := ht3
    have : s'.file.bytes.length = w'.file.bytes.length := by rw [hg]; exact hl
    omega
  obtain ⟨r, hr, hx, hread⟩ := finalize_twin (e := 0) (.inl rfl) ht2 hi2 hwe (.inl (by rw [← hi2.cnt, hsn]; decide)) hf (by omega)
  refine ⟨w, w', r, hlossy, hf, hr, ?_, ?_, hsz⟩
  · rw [hx.count_toNat, List.length_map, ← hi2.cnt, hsn]
  · have hids : b.ids = [1] := congrArg Prod.fst hbp
    have hvals : b.vals = [1] := congrArg Prod.snd hbp
    have himg : (⟨64, [1], [0]⟩ : Blk).img 0 = image 0 [1] [0] := rfl
    refine hread 0 b ⟨64, [1], [0]⟩ rfl ⟨by decide, by decide, by decide, by decide, by decide⟩ ⟨hboff, by rw [hids], by rw [hids], by rw [hvals]; decide⟩ ?_ (Nat.le_refl _) ?_
    · rw [himg, image_lengths.1]
      exact hk2.2
    · rw [himg, image_lengths.1]
      exact (slice_congr fun q h1 h2 => hk2.1.file q h1 h2).trans withoutValue_slice

theorem brokenCall_eq : (newWriter (B := IdSet) [] (faultAt 36)).1 = .ok () ∧
    (Call.run (faultAt 36) (.write [1] [1]) (newWriter (B := IdSet) [] (faultAt 36)).2).1 = .error .io ∧
    (Call.run (faultAt 36) (.write [1] [1]) (newWriter (B := IdSet) [] (faultAt 36)).2).2.file.bytes.length = 4096 ∧
    (Call.run (faultAt 36) (.write [1] [1]) (newWriter (B := IdSet) [] (faultAt 36)).2).2.disk.synced.length = 0 ∧
    ((Call.run (faultAt 36) (.write [1] [1]) (newWriter (B := IdSet) [] (faultAt 36)).2).2.file.bytes.drop 64).take 96 = image 0 [1] [1] := by
  decide +kernel

/-- **C90, the limit.** A block of a `WriteBlock` that failed in its `Sync` is in the index all the same, and if the operating system dropped
some of it, then after a successful retry and a `Finalize` that returned nil the file has two blocks, of which the first reads back, without an
error, as a pair that was never written. -/
theorem C90_refuted : ∃ (env : Env) (w0 w w' : Writer IdSet) (r : Reader IdSet), newWriter [] env = (.ok (), w0) ∧
    Lossy env [.write [1] [1], .write [1] [1]] w0 [(.write [1] [1], .error .io), (.write [1] [1], .ok ())] w ∧
    finalize env w = (.ok (), w') ∧ newReader w'.file.bytes = .ok r ∧ r.header.blockCount.toNat = 2 ∧
      getPairs r 0 = .ok ([1], [0]) ∧ w'.file.bytes.length < 2 ^ 63 := by
  obtain ⟨h0, h1, h2, h3, h4⟩ := brokenCall_eq
  have ho := againOutcome_eq
  generalize faultAt 36 = env at *
  generalize hq : newWriter (B := IdSet) [] env = q at *
  obtain ⟨r0, w0⟩ := q
  dsimp only at h0 h1 h2 h3 h4
  subst h0
  obtain ⟨w, w', r, g1, g2, g3, g4, g5⟩ := failedBlock hq h1 h2 h3 h4 ho
  exact ⟨env, w0, w, w', r, hq, g1, g2, g3, g4, g5.1, by omega⟩

/-- The hypotheses of `C90_acknowledged` are met by this run: the acknowledged block is the second one. -/
theorem C90_example : ∃ (env : Env) (w0 w w' : Writer IdSet) (r : Reader IdSet), newWriter [] env = (.ok (), w0) ∧
    Lossy env [.write [1] [1], .write [1] [1]] w0 [(.write [1] [1], .error .io), (.write [1] [1], .ok ())] w ∧
    finalize env w = (.ok (), w') ∧ newReader w'.file.bytes = .ok r ∧ getPairs r 1 = .ok ([1], [1]) := by
  obtain ⟨env, w0, w, w', r, h0, h1, h2, h3, h4, h5, hsz⟩ := C90_refuted
  refine ⟨env, w0, w, w', r, h0, h1, h2, h3, ?_⟩
  obtain ⟨r', blocks, idx, g1, g2, g3, g4, g5, _⟩ := C90_acknowledged (.inl rfl) h0 h1 (by decide) (by decide) (by unfold FinalizeNoIOError; decide)
    h2 hsz ((C45_finalize h2 w'.file.bytes).mpr rfl)
  rw [h3] at g1
  obtain rfl : r = r' := by injection g1
  generalize hq : acked [(Call.write [1] [1], Except.error Err.io), (Call.write [1] [1], Except.ok ())] = q at g5
  have hq' : q = [([1], [1])] := hq.symm
  subst hq'
  cases g5 with
  | @cons i _ is _ hi ht =>
    obtain ⟨hi1, hi2⟩ := hi
    have hlt : i < 2 := by rw [← h4, g3]; exact (List.getElem?_eq_some_iff.mp hi1).1
    match i, hlt with
    | 0, _ => rw [show UInt64.ofNat 0 = 0 from rfl, h5] at hi2; injection hi2 with e; injection e with _ e; injection e with e; exact absurd e (by decide)
    | 1, _ => exact hi2

end VibeCol.SyncLoss
