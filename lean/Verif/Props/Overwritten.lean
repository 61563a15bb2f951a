/-
C67: a reader of a file that is being overwritten block by block.
-/
import Verif.Props.ManyWriters
import Verif.Props.Replaced

namespace VibeCol.Overwritten
open VibeCol.ManyWriters VibeCol.Replaced
variable {B : Type} [Bitmap B]

/-- Reading, with the index of a file, a block of the same shape from other contents. -/
theorem read_other {file now buf : Bytes} {hd : FileHeader} {e : UInt32} {as : List Blk} {bo fs : Nat} (he : SymEnc e)
    (H : FileOK file hd e as buf bo fs) {i : Nat} (hia : i < as.length) (hi63 : i < 2 ^ 63) {b : Blk} (hal : Alike e as[i] b) (okb : b.OK e)
    (himg0 : slice now b.off (b.img e).length = b.img e) (hstop : b.stop e ≤ now.length) :
    getPairsLive now (okReader (B := B) file hd e as) (UInt64.ofNat i) = .ok b.pairs := by
  have hoka : as[i].OK e := H.ok _ (List.getElem_mem hia)
  have hla := H.laid.mem _ (List.getElem_mem hia)
  have hil := Blk.img_length e _ okb
  have hila := Blk.img_length e _ hoka
  have hsz := Blk.img_le_size e b
  have hsza := Blk.img_le_size e as[i]
  have hst : b.stop e = b.off + b.size e := rfl
  have hsta : as[i].stop e = as[i].off + as[i].size e := rfl
  have hsame : as[i].size e = b.size e := by
    rw [Blk.size_eq, Blk.size_eq, hila, hil, hal.off, hal.idSize, hal.valSize]
  have hfit := H.bmFits
  have hfs := H.fsLe
  have hsm := H.small
  have hszlt := Blk.size_lt e _ hoka
  have hoff := hal.off
  have hstopf : b.stop e ≤ file.length := by omega
  -- a file of the old length with the new block
  generalize hnow' : now.take (b.stop e) ++ file.drop (b.stop e) = now'
  have hl' : now'.length = file.length := by
    rw [← hnow', List.length_append, List.length_take, List.length_drop]; omega
  have hp' : ∀ p, p < b.stop e → now'[p]? = now[p]? := by
    intro p hp
    rw [← hnow', List.getElem?_append_left (by rw [List.length_take]; omega), List.getElem?_take_of_lt hp]
  have hread : getPairsLive now (okReader (B := B) file hd e as) (UInt64.ofNat i) =
      readBlock { okReader (B := B) file hd e as with bytes := now' } (Int64.ofNat i) := by
    unfold getPairsLive readBlockLive readBlock
    rw [uint64_ofNat_toInt64, if_neg (int64_ofNat_not_neg i hi63), if_neg (int64_ofNat_not_neg i hi63)]
    dsimp only
    rw [int64_toInt_ofNat _ hi63, Int.toNat_natCast, show (okReader (B := B) file hd e as).blockIndex[i]? = some (as[i].entry e) by simp [okReader, hia]]
    dsimp only
    have eo : (as[i].entry e).blockOffset = UInt64.ofNat as[i].off := rfl
    have es : (as[i].entry e).blockSize = UInt32.ofNat (as[i].size e) := rfl
    rw [eo, es, ofNat32_toNat _ hszlt, uint64_ofNat_toInt64,
      show (64 : Int64) = Int64.ofNat 64 from rfl, int64_ofNat_add, int64_ofNat_sub _ _ (by omega) (by omega)]
    rw [readBytesAt_congr (f := now') (g := now) fun p h1 h2 => ?_]
    rw [int64_toInt_ofNat _ (by omega), Int.toNat_natCast] at h1 h2
    rw [int64_toInt_ofNat _ (by omega), Int.toNat_natCast] at h2
    exact (hp' p (by have := hal.off; omega)).symm
  have himg : slice now' b.off (b.img e).length = b.img e :=
    (slice_congr fun p h1 h2 => hp' p (by omega)).trans himg0
  have hidl := okb.sec.1
  have hvall := okb.sec.2
  rw [hread, H.readBlock_damaged (B := B) hl' i hia ?_ { okReader file hd e as with bytes := now' } rfl
    H.enc (by simp [okReader, hia]) hi63, hal.off, hal.idSize, hal.valSize, hal.len]
  · have s1 := slice_of_slice himg 80 (idSize e b.ids) (by omega)
    have s2 := slice_of_slice himg (80 + idSize e b.ids) (valSize e b.vals) (by omega)
    rw [Nat.add_assoc, s1, s2]
    have hl := layoutBytes_length e b.ids b.vals
    have h52 := header52_length e b.ids b.vals
    have d1 : slice (b.img e) 80 (idSize e b.ids) = idSection e b.ids := by
      show slice (image e b.ids b.vals) _ _ = _
      unfold image
      rw [slice_append_left _ _ _ _ (by simp only [List.length_append, h52, hl, hidl, le32_length]; omega),
        slice_append_right _ _ _ _ (by simp [h52, hl])]
      simp only [List.length_append, h52, hl, le32_length]
      simp [slice, ← hidl]
    have d2 : slice (b.img e) (80 + idSize e b.ids) (valSize e b.vals) = valSection e b.vals := by
      show slice (image e b.ids b.vals) _ _ = _
      unfold image
      rw [slice_append_right _ _ _ _ (by simp only [List.length_append, h52, hl, hidl, le32_length]; omega)]
      simp only [List.length_append, h52, hl, le32_length, hidl]
      simp [slice, ← hvall]
    rw [d1, d2]
    exact decodeBlockData_sections _ he _ _ okb.len
  · have e1 := slice_of_slice himg 64 16 (by omega)
    have e2 := slice_of_slice (H.img _ (List.getElem_mem hia)) 64 16 (by rw [hila]; omega)
    rw [hal.off] at e2 ⊢
    rw [e1, e2]
    have lay : ∀ b : Blk, slice (b.img e) 64 16 = layoutBytes e b.ids b.vals := by
      intro b
      have hl := layoutBytes_length e b.ids b.vals
      have h52 := header52_length e b.ids b.vals
      show slice (image e b.ids b.vals) _ _ = _
      simp [slice, image, List.drop_append, List.drop_eq_nil_of_le, h52, hl]
    rw [lay, lay]
    unfold layoutBytes
    rw [hal.idSize, hal.valSize]

variable [LawfulBitmap B]

omit [Bitmap B] [LawfulBitmap B] in
theorem chain_take {e : UInt32} {lo hi : Nat} {as : List Blk} (h : Chain e lo as hi) (n : Nat) : ∃ hi', Chain e lo (as.take n) hi' := by
  induction as generalizing lo n with
  | nil => rw [List.take_nil]; exact ⟨hi, h⟩
  | cons a as ih =>
    cases n with
    | zero => exact ⟨lo, rfl⟩
    | succ n =>
      obtain ⟨h1, h2⟩ := h
      obtain ⟨hi', h3⟩ := ih h2 n
      exact ⟨hi', h1, h3⟩

/-- **C67.** While a file is overwritten by a new writer, whose blocks take the same room as the first blocks of the old file, a
reader of the old file gets each new block from the moment it is acknowledged on, whatever the writer does next, without an error. -/
theorem C67_overwritten {env env' : Env} {opts opts' : List WriterOption} {log log' : Log} {calls' : List Call} {file : Bytes} {w : Writer B}
    (h : Finalized B env opts log file) (hno : ∀ ev ∈ log, ev.1 ≠ .finalize) (henc : SymEnc (chosenEncoding opts))
    (hn : (acked log).length ≤ maxBlocks) (r : Reader B) (hr : newReader file = .ok r)
    (h' : History B env' opts' calls' log' w) (hb' : ∀ c ∈ calls', c.Bounded) (hio' : NoIOError log') (hno' : Call.finalize ∉ calls')
    (hsame : chosenEncoding opts' = chosenEncoding opts)
    (hroom : Each (SameRoom (chosenEncoding opts)) ((acked log).take (acked log').length) (acked log'))
    {now : Bytes} (hsee : MaySee anyCall w now) (i : Nat) (hi : i < (acked log').length) :
    getPairsLive now r (UInt64.ofNat i) = .ok (acked log')[i] := by
  obtain ⟨calls, a, wa, hA, hf, hfile⟩ := h.made
  have hcalls := hA.calls_eq
  have hfin : Call.finalize ∉ calls := by
    rw [hcalls]
    intro hm
    obtain ⟨ev, h1, h2⟩ := List.mem_map.1 hm
    exact hno ev h1 h2
  have hb : ∀ c ∈ calls, c.Bounded := hA.bounded h.bounded
  obtain ⟨as, hra, hpa⟩ := ready hA hb henc h.noIOError hfin
  obtain ⟨bs, hrb, hpb⟩ := ready h' hb' (hsame ▸ henc) hio' hno'
  rw [hsame] at hrb
  have hoka : ∀ b ∈ as, b.OK (chosenEncoding opts) := by have := hra.inv.ok; rwa [hra.enc] at this
  have hokb : ∀ b ∈ bs, b.OK (chosenEncoding opts) := by have := hrb.inv.ok; rwa [hrb.enc] at this
  obtain ⟨top, hch⟩ := chain_take hra.chain (acked log').length
  obtain ⟨hall, _⟩ := alike_chain henc.regular hch hrb.chain (fun b hb => hoka b (List.mem_of_mem_take hb)) hokb
    (by rw [List.map_take, hpa, hpb]; exact hroom)
  obtain ⟨hl, hget⟩ := hall.get
  have hlb : bs.length = (acked log').length := by rw [← hpb, List.length_map]
  have hla : as.length = (acked log).length := by rw [← hpa, List.length_map]
  rw [List.length_take] at hl
  have hia : i < as.length := by omega
  have hib : i < bs.length := by omega
  have hal := hget i (by rw [List.length_take]; omega) hib
  rw [List.getElem_take] at hal
  -- the old file
  obtain ⟨_, hcnt, t, hs⟩ := wp_ok (finalize_spec env a hra.inv.pos64 hra.inv.posLe hra.inv.near) hf
  obtain ⟨_, _, _, _, hok, _⟩ := final_inv a wa as [] hra.inv hcnt t hs
  obtain ⟨hd, bo, fs, H, _, _⟩ := hok (by rw [hfile]; exact h.size)
  rw [hra.enc, hfile] at H
  unfold maxBlocks at hn
  have hopen := H.newReader (B := B) (by omega)
  rw [hr] at hopen
  cases hopen
  -- the new contents
  have hmb : bs[i] ∈ bs := List.getElem_mem hib
  have himgb := hrb.clean.img _ hmb
  rw [hrb.enc] at himgb
  have hlaidb : Laid (chosenEncoding opts) 64 bs w.file.pos := by have := hrb.clean.laid; rwa [hrb.enc] at this
  have hmem := hlaidb.mem _ hmb
  have hbpos := hrb.clean.atEnd
  have hx := hsee.extends 64 (fun _ => Nat.le_refl _) (by omega)
  have hszb := Blk.img_le_size (chosenEncoding opts) bs[i]
  have hst : bs[i].stop (chosenEncoding opts) = bs[i].off + bs[i].size (chosenEncoding opts) := rfl
  have := read_other (B := B) henc H hia (by omega) hal (hokb _ hmb)
    ((slice_congr fun p h1 h2 => hx.2 p (by omega) (by omega)).trans himgb) (by have := hx.1; omega)
  rw [this]
  simp [← hpb]

/-- What the new writer of the example below has acknowledged. -/
def newLog : Log := [(.write [8, 9, 10] [1, 2, 3], .ok ())]

/-- A case that meets the hypotheses of `C67_overwritten`: the file of `oldLog` is being overwritten, and the new writer has
acknowledged one block. -/
theorem C67_overwritten_example : ∃ (file : Bytes) (r : Reader IdSet) (w : Writer IdSet), Finalized IdSet quietEnv [] oldLog file ∧
    newReader file = .ok r ∧ getPairsLive file r 0 = .ok ([3, 1, 2], [30, -10, 20]) ∧
    History IdSet quietEnv [] [.write [8, 9, 10] [1, 2, 3]] newLog w ∧
    ∀ now, MaySee anyCall w now → getPairsLive now r 0 = .ok ([8, 9, 10], [1, 2, 3]) := by
  obtain ⟨file, h⟩ := old_raw
  obtain ⟨r, hr, _⟩ := C29_accessors h (by decide)
  obtain ⟨w0, h0⟩ := newWriter_ok (B := IdSet) quietEnv quietEnv_noFault []
  have hlog : (runCalls quietEnv [.write [8, 9, 10] [1, 2, 3]] (newWriter (B := IdSet) [] quietEnv).2).1 = newLog := by decide +kernel
  have hh : History IdSet quietEnv [] [.write [8, 9, 10] [1, 2, 3]] newLog (runCalls quietEnv [.write [8, 9, 10] [1, 2, 3]] w0).2 := by
    generalize newLog = l at hlog ⊢
    refine ⟨w0, h0, ?_⟩
    rw [h0] at hlog
    exact Prod.ext hlog rfl
  have henc : SymEnc (chosenEncoding []) := by unfold SymEnc; decide
  refine ⟨file, r, _, h, hr, ?_, hh, fun now hsee => ?_⟩
  · have := C67_replaced h h (.inl rfl) rfl (by decide) (by decide) (by decide) (by decide) r hr 0 (by decide) (by decide) (fun _ _ => rfl)
    exact this
  · have := C67_overwritten h (by decide) henc (by decide) r hr hh (by decide)
      (by intro ev hev; simp only [newLog, List.mem_cons, List.not_mem_nil, or_false] at hev; subst hev; simp) (by decide) rfl
      (.cons ⟨rfl, by decide, by decide⟩ .nil) hsee 0 (by decide)
    exact this

end VibeCol.Overwritten
