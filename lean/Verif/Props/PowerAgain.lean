/-
C69: power failures during a repeated `Finalize`.
-/
import Verif.Props.Power
import Verif.Props.Live
import Verif.Props.Robust
set_option linter.unusedSectionVars false
namespace VibeCol.PowerAgain
variable {B : Type} [Bitmap B] [LawfulBitmap B]

/-! ### Files with a torn header -/

theorem torn_header {f : Bytes} {a b : FileHeader} {e : UInt32} (hm : Mix f a.fields.flatten b.fields.flatten)
    (ha : a.magic = magicNumber ∧ a.version = version ∧ a.encodingType = e)
    (hb : b.magic = magicNumber ∧ b.version = version ∧ b.encodingType = e)
    (hl : 64 ≤ f.length) (hsm : f.length < 2 ^ 63) :
    ∃ hd, readHeader f = .ok hd ∧ hd.encodingType = e ∧ (a.blockCount = b.blockCount → hd.blockCount = b.blockCount) := by
  obtain ⟨a1, a2, a3⟩ := ha
  obtain ⟨b1, b2, b3⟩ := hb
  obtain ⟨sa1, sa2, sa3, sa4⟩ := header_slices a
  obtain ⟨sb1, sb2, sb3, sb4⟩ := header_slices b
  have la : 60 ≤ a.fields.flatten.length := by rw [headerFields_length]; omega
  have r64 : ∀ o x, o + 8 ≤ 60 → slice f o 8 = le64 x → rd64 (slice f 0 64) o = x := by
    intro o x ho hx
    apply rd64_of_slice
    have : slice (slice f 0 64) o 8 = le64 x := by rw [slice_slice _ _ _ _ _ (by omega), Nat.zero_add]; exact hx
    exact this
  have r32 : ∀ o x, o + 4 ≤ 60 → slice f o 4 = le32 x → rd32 (slice f 0 64) o = x := by
    intro o x ho hx
    apply rd32_of_slice
    have : slice (slice f 0 64) o 4 = le32 x := by rw [slice_slice _ _ _ _ _ (by omega), Nat.zero_add]; exact hx
    exact this
  have h1 : rd64 (slice f 0 64) 0 = magicNumber :=
    r64 _ _ (by omega) (hm.slice (by omega) (by rw [sa1, a1]) (by rw [sb1, b1]) (by omega) la)
  have h2 : rd32 (slice f 0 64) 8 = version :=
    r32 _ _ (by omega) (hm.slice (by omega) (by rw [sa2, a2]) (by rw [sb2, b2]) (by omega) la)
  have h3 : rd32 (slice f 0 64) 32 = e :=
    r32 _ _ (by omega) (hm.slice (by omega) (by rw [sa4, a3]) (by rw [sb4, b3]) (by omega) la)
  refine ⟨parseHeader (slice f 0 64), ?_, h3, fun hc => ?_⟩
  · unfold readHeader
    rw [show (0 : Int64) = Int64.ofNat 0 from rfl, readBytesAt_ok _ _ _ (by simp [headerSize]; omega) hsm]
    have e1 : (parseHeader (slice f 0 headerSize)).magic = magicNumber := h1
    have e2 : (parseHeader (slice f 0 headerSize)).version = version := h2
    simp only [Res.ok_bind, e1, e2, ne_eq, not_true, if_false]
    rfl
  · exact r64 16 b.blockCount (by omega) (hm.slice (by omega) (by rw [sa3, hc]) (by rw [sb3]) (by omega) la)

/-- A file with a mixture of two headers that agree on format and encoding, but with the blocks and the footer of a finalized
file, opens and delivers the same blocks. -/
theorem torn_reads {f F : Bytes} {a b h : FileHeader} {e : UInt32} {blks : List Blk} {buf : Bytes} {bo fs : Nat}
    (H : FileOK F h e blks buf bo fs) (he : SymEnc e) (hcnt : blks.length ≤ maxBlocks)
    (hm : Mix f a.fields.flatten b.fields.flatten)
    (ha : a.magic = magicNumber ∧ a.version = version ∧ a.encodingType = e)
    (hb : b.magic = magicNumber ∧ b.version = version ∧ b.encodingType = e)
    (hl : f.length = F.length) (hblocks : ∀ i, 64 ≤ i → i < bo → f[i]? = F[i]?) (hfoot : f.drop fs = F.drop fs) :
    ∃ r : Reader B, newReader f = .ok r ∧ r.blockIndex.length = blks.length ∧ blks.length ≤ r.blockCount.toNat ∧
      (a.blockCount = UInt64.ofNat blks.length → b.blockCount = UInt64.ofNat blks.length → r.blockCount.toNat = blks.length) ∧
      ∀ i, (hi : i < blks.length) → getPairs r (UInt64.ofNat i) = .ok (blks[i].ids, blks[i].vals) := by
  have hlen := H.length
  have hfs := H.fs_ge
  have hsm := H.small
  have hR := H.reads (B := B) he hcnt
  have hcnt' := hcnt
  unfold maxBlocks at hcnt'
  obtain ⟨hd, h1, h2, h3⟩ := torn_header hm ha hb (by omega) (by omega)
  have hft := readFooter_any (bytes := f) (fs := fs) (n := blks.length) (by omega) (by omega) (by omega) (by omega)
    H.index_length (hfoot.trans H.foot) hd
  have hidx : ((List.range blks.length).map fun i =>
      parseEntry (blks.map fun b => entryBytes (b.entry e)).flatten (UInt32.ofNat i)) = blks.map (Blk.entry e) := by
    apply List.ext_getElem
    · simp
    · intro i h1 h2
      simp only [List.length_map, List.length_range] at h1
      simp only [List.getElem_map, List.getElem_range]
      refine parseEntry_fields _ _ _ (by omega) ?_
      exact slice_chunks (fun b : Blk => entryBytes (b.entry e)) 56 (by simp) blks i h1
  rw [hidx] at hft
  have hn64 : (UInt64.ofNat blks.length).toNat = blks.length := by rw [UInt64.toNat_ofNat']; omega
  generalize hhd' : (if hd.blockCount < UInt64.ofNat blks.length then { hd with blockCount := UInt64.ofNat blks.length } else hd) = hd' at hft
  have he' : hd'.encodingType = e := by
    rw [← hhd']
    split
    · exact h2
    · exact h2
  have hc' : blks.length ≤ hd'.blockCount.toNat := by
    rw [← hhd']
    split
    · exact Nat.le_of_eq hn64.symm
    · rename_i hlt
      rw [UInt64.lt_iff_toNat_lt, hn64] at hlt
      omega
  let r : Reader B := { okReader f hd' e blks with bytes := f }
  have hr : newReader f = .ok r := by
    unfold newReader
    rw [h1]
    simp only [Res.ok_bind]
    rw [hft]
    rfl
  have hread : ∀ i, readBlock r i = readBlock (okReader (B := B) F h e blks) i := by
    intro i
    refine readBlock_congr _ _ _ rfl (he'.trans H.enc.symm) ?_
    intro x hx
    obtain ⟨k, hk, rfl⟩ := List.mem_map.1 hx
    have hok := H.ok k hk
    have hlaid := H.laid.mem _ hk
    have hsz := Blk.size_lt e _ hok
    have hszg := Blk.img_le_size e k
    have hil := Blk.img_length e _ hok
    have hidge := idSize_ge e k.ids
    have hfit := H.bmFits
    have hfsl := H.fsLe
    have hstop : k.off + k.size e ≤ bo := hlaid.2
    have hsz80 : 80 ≤ k.size e := by omega
    have eo : (k.entry e).blockOffset = UInt64.ofNat k.off := rfl
    have es : (k.entry e).blockSize = UInt32.ofNat (k.size e) := rfl
    rw [eo, es, ofNat32_toNat _ hsz, uint64_ofNat_toInt64, show (64 : Int64) = Int64.ofNat 64 from rfl,
      int64_ofNat_add, int64_ofNat_sub _ _ (by omega) (by omega)]
    show readBytesAt f _ _ = readBytesAt F _ _
    rw [readBytesAt_ok _ _ _ (by omega) (by omega), readBytesAt_ok _ _ _ (by omega) hsm]
    refine congrArg Res.ok ?_
    refine List.ext_getElem? fun i => ?_
    by_cases hi : i < k.size e - 64
    · rw [slice_getElem? _ _ _ _ hi, slice_getElem? _ _ _ _ hi]
      exact hblocks _ (by omega) (by omega)
    · rw [List.getElem?_eq_none (by rw [slice_length _ _ _ (by omega)]; omega),
        List.getElem?_eq_none (by rw [slice_length _ _ _ (by omega)]; omega)]
  refine ⟨r, hr, by simp [r, okReader], hc', fun hca hcb => ?_, fun i hi => ?_⟩
  · show hd'.blockCount.toNat = _
    rw [← hhd', h3 (hca.trans hcb.symm), hcb]
    split
    · exact hn64
    · rw [h3 (hca.trans hcb.symm), hcb]
      exact hn64
  · unfold getPairs
    rw [hread]
    have := hR.read i (by rw [List.length_map]; exact hi)
    unfold getPairs at this
    rw [this, List.getElem_map]

/-! ### C69 -/

/-- What the theorems below have in common: without I/O errors, blocks were written and `Finalize` returned nil (`w1`), then more
blocks were possibly written (`w2`). -/
structure Again (B : Type) [Bitmap B] (env : Env) (opts : List WriterOption) (log log2 : Log) (w1 w2 : Writer B) : Prop where
  earlier : ∃ calls w, History B env opts calls log w ∧ finalize env w = (.ok (), w1)
  more : ∃ calls2, .finalize ∉ calls2 ∧ runCalls env calls2 w1 = (log2, w2)
  noIOError : NoIOError (log ++ log2)
  bounded : ∀ ev ∈ log ++ log2, ev.1.Bounded
  symEnc : SymEnc (chosenEncoding opts)
  few : (acked (log ++ log2)).length ≤ maxBlocks

theorem Again.history {env : Env} {opts : List WriterOption} {log log2 : Log} {w1 w2 : Writer B} (H : Again B env opts log log2 w1 w2) :
    (∃ calls, History B env opts calls (log ++ (.finalize, .ok ()) :: log2) w2) ∧
    NoIOError (log ++ (.finalize, .ok ()) :: log2) ∧ (∀ ev ∈ log ++ (.finalize, .ok ()) :: log2, ev.1.Bounded) ∧
    acked (log ++ (.finalize, .ok ()) :: log2) = acked (log ++ log2) := by
  obtain ⟨calls, w, h, hf⟩ := H.earlier
  obtain ⟨calls2, _, hrun⟩ := H.more
  refine ⟨⟨_, h.extend hf hrun⟩, ?_, ?_, by simp [acked, ackedBy]⟩
  · intro ev hev
    rcases List.mem_append.1 hev with hev | hev
    · exact H.noIOError ev (List.mem_append_left _ hev)
    · rcases List.mem_cons.1 hev with rfl | hev
      · simp
      · exact H.noIOError ev (List.mem_append_right _ hev)
  · intro ev hev
    rcases List.mem_append.1 hev with hev | hev
    · exact H.bounded ev (List.mem_append_left _ hev)
    · rcases List.mem_cons.1 hev with rfl | hev
      · trivial
      · exact H.bounded ev (List.mem_append_right _ hev)

theorem Again.facts {env : Env} {opts : List WriterOption} {log log2 : Log} {w1 w2 : Writer B}
    (H : Again B env opts log log2 w1 w2) (hsz1 : w1.file.bytes.length < 2 ^ 63) :
    ∃ (blks : List Blk) (a : FileHeader), Inv w2 blks [] ∧ Clean w2 blks ∧ blks.map Blk.pairs = acked (log ++ log2) ∧
      w2.encodingType = chosenEncoding opts ∧ AllSynced w2 ∧
      (a.magic = magicNumber ∧ a.version = version ∧ a.encodingType = chosenEncoding opts) ∧
      a.blockCount = UInt64.ofNat (acked log).length ∧
      (∀ i, i < 60 → w2.file.bytes[i]? = a.fields.flatten[i]?) ∧ w1.file.bytes.length ≤ w1.file.pos := by
  obtain ⟨⟨calls', h'⟩, hno', hb', hack⟩ := H.history
  obtain ⟨calls, w, h, hf⟩ := H.earlier
  obtain ⟨calls2, hnf, hrun⟩ := H.more
  have hnoL : NoIOError log := fun ev hev => H.noIOError ev (List.mem_append_left _ hev)
  have hbL : ∀ ev ∈ log, ev.1.Bounded := fun ev hev => H.bounded ev (List.mem_append_left _ hev)
  obtain ⟨blks, hi, hc, hp, _, he, _⟩ := history_clean h' (h'.bounded hb') H.symEnc hno'
  have hfin1 : Finalized B env opts log w1.file.bytes := ⟨⟨calls, w, w1, h, hf, rfl⟩, hnoL, hbL, hsz1⟩
  obtain ⟨a, blks1, buf, bo, fs, hok, hp1, _⟩ := hfin1.fileOK
  have hpos := finalize_atEnd h hnoL hbL hf
  have hlen := hok.length
  have hfs := hok.fs_ge
  have hl1 : blks1.length = (acked log).length := by rw [← hp1, List.length_map]
  have hs1 : AllSynced w1 := wp_ok (Syncs.finalize env w) hf
  have hmis := history_noMismatch h' (h'.bounded hb') H.symEnc.allMatch hno'.finalize
  have hk := runCalls_keep (B := B) (env := env) (dk := False) (lo := 0) (hi := w1.file.bytes.length)
      (ref := w1.file.bytes) calls2 (w := w1) (fun hc => absurd hc hnf)
      ⟨⟨Nat.le_refl _, fun _ _ _ => rfl, nofun, nofun, nofun⟩, hpos⟩
      (by
        rw [hrun]
        intro ev hev
        have := List.dropLast_subset _ hev
        exact (H.noIOError.finalize) ev (List.mem_append_right _ this))
  rw [hrun] at hk
  dsimp only at hk
  obtain ⟨blks0, hi0, _⟩ := history_clean h (h.bounded hbL) H.symEnc hnoL
  obtain ⟨extra1, hi1⟩ : ∃ extra, Inv w1 blks0 extra := by
    obtain ⟨_, h1, _⟩ := wp_ok (finalize_inv env w blks0 [] hi0) hf
    exact ⟨_, h1⟩
  have hbd2 : ∀ c ∈ calls2, c.Bounded := by
    intro c hc
    refine h'.bounded hb' c ?_
    have : calls' = calls ++ .finalize :: calls2 := by
      rw [h'.calls_eq, List.map_append, List.map_cons, ← h.calls_eq]
      refine congrArg _ (congrArg _ ?_)
      have := congrArg (fun x => x.1.map Prod.fst) hrun
      dsimp only at this
      rw [← this]
      exact runCalls_fst env calls2 w1
    rw [this]
    exact List.mem_append_right _ (List.mem_cons_of_mem _ hc)
  have hs2 := runCalls_synced (env := env) calls2 hbd2 hi1
    (by rw [hrun]; exact fun ev hev => H.noIOError ev (List.mem_append_right _ hev))
    (by
      rw [hrun]
      intro ev hev
      exact hmis ev (List.mem_append_right _ (List.mem_cons_of_mem _ hev)))
    hnf (.inl hs1)
  rw [hrun] at hs2
  refine ⟨blks, a, hi, hc, hp.trans hack, he, hs2, ⟨hok.magic, hok.ver, hok.enc⟩, by rw [hok.count, hl1], fun i h60 => ?_, hpos⟩
  rw [hk.file i (Nat.zero_le _) (by omega), ← hok.hdr, slice_getElem? _ _ _ _ h60, Nat.zero_add]

/-- **C69.** The power fails during a repeated `Finalize`, or right after it, at any point. Whatever of its writes arrived: if the file that remains
has full length and its index and footer arrived, then it opens and every acknowledged block, old or new, reads back, even with
the header of the earlier `Finalize` or a mixture of the two. -/
theorem C69_recovers {env : Env} {opts : List WriterOption} {log log2 : Log} {w1 w2 : Writer B} (H : Again B env opts log log2 w1 w2)
    {env1 env2 : Env} {w3 w4 : Writer B} {r3 : Result} (h3 : finalize env1 w2 = (r3, w3)) (h4 : finalize env2 w2 = (.ok (), w4))
    (hsz : w4.file.bytes.length < 2 ^ 63) {f : Bytes} (hf : MayRemain w3.disk f)
    (hlen : f.length = w4.file.bytes.length)
    (htail : f.drop (f.length - (28 + 56 * (acked (log ++ log2)).length)) =
      w4.file.bytes.drop (w4.file.bytes.length - (28 + 56 * (acked (log ++ log2)).length))) :
    ∃ r : Reader B, newReader f = .ok r ∧ (acked (log ++ log2)).length ≤ r.blockCount.toNat ∧
      ∀ i : UInt64, getPairs r i =
        match (acked (log ++ log2))[i.toNat]? with
        | some b => .ok b
        | none => .err .badBlockIndex := by
  have hsz1 : w1.file.bytes.length < 2 ^ 63 := by
    obtain ⟨calls2, _, hrun⟩ := H.more
    have h1 := (Crashable.calls (B := B) calls2).grow env w1
    rw [hrun] at h1
    have h2 := (Crashable.finalize (B := B)).grow env2 w2
    rw [h4] at h2
    dsimp only at h1 h2
    omega
  obtain ⟨blks, a, hi, hc, hp, he, hs, ha, hac, hah, _⟩ := H.facts hsz1
  have hn := H.few
  have hbl : blks.length = (acked (log ++ log2)).length := by rw [← hp, List.length_map]
  have hcnt : w2.blockCount = 0 ∨ w2.blockPositions.length = w2.blockCount := by
    right; rw [hc.positions, hi.cnt]; simp
  obtain ⟨_, _, t2, hs2⟩ := wp_ok (finalize_spec env2 w2 hi.pos64 hi.posLe hi.near) h4
  obtain ⟨_, _, _, _, hok, _⟩ := final_inv w2 w4 blks [] hi hcnt t2 hs2
  obtain ⟨hd, bo, fs, hok, _, hbo⟩ := hok hsz
  rw [he] at hok
  have hL := hok.length
  obtain ⟨⟨t1, hhead⟩, hbody⟩ := finalize_remains hi hs h3 hf
  have hF : ∀ i, 64 ≤ i → i < w2.file.pos → w4.file.bytes[i]? = w2.file.bytes[i]? :=
    (finalize_remains hi hs h4 ((C45_finalize h4 _).mpr rfl)).2
  obtain ⟨r, hr, hix, hge, _, hR⟩ := torn_reads (B := B) (f := f) (a := a) (b := finHeader t1 w2) hok H.symEnc (by omega)
    (fun i h60 => by
      rw [← hah i h60]
      exact hhead i h60)
    ha ⟨rfl, rfl, he⟩ hlen
    (fun i h64 hib => by rw [hbody i h64 (by omega), hF i h64 (by omega)])
    (by
      have e : w4.file.bytes.length - (28 + 56 * (acked (log ++ log2)).length) = fs := by omega
      rw [hlen, e] at htail
      exact htail)
  refine ⟨r, hr, by omega, fun i => ?_⟩
  cases hb : (acked (log ++ log2))[i.toNat]? with
  | some b =>
    obtain ⟨hlt, hb'⟩ := List.getElem?_eq_some_iff.mp hb
    have := hR i.toNat (by omega)
    rw [show UInt64.ofNat i.toNat = i by simp] at this
    rw [this]
    dsimp only
    refine congrArg Res.ok ?_
    rw [← hb']
    have e2 : (blks.map Blk.pairs)[i.toNat]? = (acked (log ++ log2))[i.toNat]? := by rw [hp]
    rw [List.getElem?_map, List.getElem?_eq_getElem (by omega), List.getElem?_eq_getElem hlt] at e2
    exact Option.some.inj e2
  | none =>
    have hge := List.getElem?_eq_none_iff.mp hb
    exact C30_bounds r i (by omega) (by unfold maxBlocks at hn; omega)

/-- **C69.** `Finalize` is called twice in a row and the power fails during the second call: if nothing arrived beyond the old end of
the file, it still opens and every block reads back, with whatever mixture of the two headers. -/
theorem C69_oldLength {env : Env} {opts : List WriterOption} {calls : List Call} {log : Log} {w w1 : Writer B}
    (h : History B env opts calls log w) (hf : finalize env w = (.ok (), w1)) (hno : NoIOError log) (hb : ∀ ev ∈ log, ev.1.Bounded)
    (henc : SymEnc (chosenEncoding opts)) (hn : (acked log).length ≤ maxBlocks) (hsz : w1.file.bytes.length < 2 ^ 63)
    {env1 : Env} {w3 : Writer B} {r3 : Result} (h3 : finalize env1 w1 = (r3, w3)) {f : Bytes} (hr : MayRemain w3.disk f)
    (hlen : f.length = w1.file.bytes.length) : ReadsBack B f (acked log) := by
  have H : Again B env opts log [] w1 w1 := ⟨⟨calls, w, h, hf⟩, ⟨[], by simp, rfl⟩, by rw [List.append_nil]; exact hno,
    by rw [List.append_nil]; exact hb, henc, by rw [List.append_nil]; exact hn⟩
  obtain ⟨blks, a, hi, hc, hp, he, hs, ha, hac, hah, hpos⟩ := H.facts hsz
  rw [List.append_nil] at hp
  have hfin1 : Finalized B env opts log w1.file.bytes := ⟨⟨calls, w, w1, h, hf, rfl⟩, hno, hb, hsz⟩
  obtain ⟨hd, blks1, buf, bo, fs, hok, hp1, _⟩ := hfin1.fileOK
  have hL := hok.length
  have hfs := hok.fs_ge
  have hfit := hok.bmFits
  have hbl : blks.length = (acked log).length := by rw [← hp, List.length_map]
  have hbl1 : blks1.length = (acked log).length := by rw [← hp1, List.length_map]
  obtain ⟨⟨t1, hhead⟩, hbody⟩ := finalize_remains hi hs h3 hr
  have hsame : ∀ i, 64 ≤ i → f[i]? = w1.file.bytes[i]? := by
    intro i h64
    by_cases hlt : i < w1.file.bytes.length
    · exact hbody i h64 (by omega)
    · rw [List.getElem?_eq_none (by omega), List.getElem?_eq_none (by omega)]
  obtain ⟨r, hr, _, _, hcnt, hR⟩ := torn_reads (B := B) (f := f) (a := a) (b := finHeader t1 w1) hok henc (by omega)
    (fun i h60 => by
      rw [← hah i h60]
      exact hhead i h60)
    ha ⟨rfl, rfl, he⟩ hlen (fun i h64 _ => hsame i h64)
    (by
      refine List.ext_getElem? fun i => ?_
      rw [List.getElem?_drop, List.getElem?_drop]
      exact hsame _ (by omega))
  refine ⟨r, hr, ?_, fun i hi' => ?_⟩
  · rw [hcnt (by rw [hac, hbl1]) (by show UInt64.ofNat w1.blockCount = _; rw [hi.cnt, hbl, hbl1]), hbl1]
  · rw [hR i (by omega)]
    refine congrArg Res.ok ?_
    have e2 : (blks1.map Blk.pairs)[i]? = (acked log)[i]? := by rw [hp1]
    rw [List.getElem?_map, List.getElem?_eq_getElem (by omega), List.getElem?_eq_getElem hi'] at e2
    exact Option.some.inj e2

/-- **C69, refuted in general.** A complete file on stable storage is at risk when `Finalize` is called again: after every such history, if the
power fails in the final `Sync` of the second call, a file may remain that cannot be opened. -/
theorem C69_refuted {env : Env} {opts : List WriterOption} {calls : List Call} {log : Log} {w w1 : Writer B}
    (h : History B env opts calls log w) (hf : finalize env w = (.ok (), w1)) (hno : NoIOError log) (hb : ∀ ev ∈ log, ev.1.Bounded)
    (henc : SymEnc (chosenEncoding opts)) (hn : (acked log).length ≤ maxBlocks) {env2 : Env} {w2 : Writer B}
    (h2 : finalize env2 w1 = (.ok (), w2)) (hsz : w2.file.bytes.length < 2 ^ 63) :
    ReadsBack B w1.file.bytes (acked log) ∧ (∀ f, MayRemain w1.disk f → f = w1.file.bytes) ∧
    ∃ env1 w3 f, finalize env1 w1 = (.error .io, w3) ∧ MayRemain w3.disk f ∧ ∀ r : Reader B, newReader f ≠ .ok r := by
  have hsz1 : w1.file.bytes.length < 2 ^ 63 := by
    have h2' := (Crashable.finalize (B := B)).grow env2 w1
    rw [h2] at h2'
    dsimp only at h2'
    omega
  have H : Again B env opts log [] w1 w1 := ⟨⟨calls, w, h, hf⟩, ⟨[], by simp, rfl⟩, by rw [List.append_nil]; exact hno,
    by rw [List.append_nil]; exact hb, henc, by rw [List.append_nil]; exact hn⟩
  have hfin1 : Finalized B env opts log w1.file.bytes := ⟨⟨calls, w, w1, h, hf, rfl⟩, hno, hb, hsz1⟩
  obtain ⟨blks, a, hi, hc, hp, he, hs, ha, hac, hah, hpos⟩ := H.facts hsz1
  refine ⟨C01_roundtrip hfin1 henc hn, fun f hm => (C45_finalize hf f).mp hm, ?_⟩
  obtain ⟨env1, w3, h3, hw3, hsy, hrem⟩ := sync_crash h2 hs hi.pos64 hi.posLe
  have hcnt : w1.blockCount = 0 ∨ w1.blockPositions.length = w1.blockCount := by
    right; rw [hc.positions, hi.cnt]; simp
  obtain ⟨_, _, t2, hs2⟩ := wp_ok (finalize_spec env2 w1 hi.pos64 hi.posLe hi.near) h2
  obtain ⟨_, _, _, _, hok, _⟩ := final_inv w1 w2 blks [] hi hcnt t2 hs2
  obtain ⟨hd, bo, fs, hok, _, hbo⟩ := hok hsz
  have hL := hok.length
  have hfit := hok.bmFits
  have hgrow : w1.file.bytes.length + 8 ≤ w2.file.bytes.length := by omega
  refine ⟨env1, w3, w1.file.bytes ++ List.replicate (w2.file.bytes.length - w1.file.bytes.length) 0, h3, ?_, ?_⟩
  · refine hrem.mix (by rw [List.length_append, List.length_replicate]; omega) fun i b hb' => ?_
    rw [hsy]
    by_cases hlt : i < w1.file.bytes.length
    · rw [List.getElem?_append_left hlt] at hb'
      exact .inr (.inl hb')
    · rw [List.getElem?_append_right (by omega), List.getElem?_replicate] at hb'
      split at hb'
      · exact .inr (.inr ⟨by omega, (Option.some.inj hb').symm⟩)
      · cases hb'
  · have hlen : (w1.file.bytes ++ List.replicate (w2.file.bytes.length - w1.file.bytes.length) 0).length = w2.file.bytes.length := by
      rw [List.length_append, List.length_replicate]; omega
    refine fun r => C26_rejected _ (by rw [hlen]; exact hsz) ?_ r
    rw [hlen, List.drop_append, List.drop_eq_nil_of_le (by omega), List.nil_append, List.drop_replicate,
      show w2.file.bytes.length - w1.file.bytes.length - (w2.file.bytes.length - 8 - w1.file.bytes.length) = 8 by omega]
    decide

/-! ### Instances -/

/-- Non-vacuity: the example history, finalized, extended by a block, and about to be finalized again. -/
theorem again_example : ∃ (log log2 : Log) (w1 w2 w3 : Writer IdSet), Again IdSet quietEnv exampleOpts log log2 w1 w2 ∧
    finalize quietEnv w2 = (.ok (), w3) ∧ w3.file.bytes.length < 2 ^ 63 ∧
    (acked log).length = 1 ∧ (acked (log ++ log2)).length = 2 := by
  obtain ⟨file, hfin⟩ := example_finalized
  obtain ⟨calls, w2, w3, hh, h3, rfl⟩ := hfin.made
  obtain ⟨w, hw, hfin0, hpost⟩ := hh.split (pre := exampleLog.take 2) (c := .finalize) (r := .ok ())
    (post := exampleLog.drop 3) rfl
  have hfin' : finalize quietEnv w = (.ok (), (finalize quietEnv w).2) := Prod.ext hfin0 rfl
  have h4 : runCalls quietEnv [.write [5, 1] [7, -9223372036854775807]] (finalize quietEnv w).2 =
    ([(.write [5, 1] [7, -9223372036854775807], .ok ())], w2) := hpost
  refine ⟨exampleLog.take 2, _, _, w2, w3, ⟨⟨_, w, hw, hfin'⟩, ⟨_, by simp, h4⟩, ?_, ?_, by unfold SymEnc; decide, ?_⟩, h3,
    hfin.size, rfl, rfl⟩
  · intro ev hev
    refine hfin.noIOError ev ?_
    rcases List.mem_append.1 hev with hev | hev
    · exact List.mem_of_mem_take hev
    · rw [List.mem_singleton] at hev; subst hev; exact List.mem_of_getElem? (i := 3) rfl
  · intro ev hev
    refine hfin.bounded ev ?_
    rcases List.mem_append.1 hev with hev | hev
    · exact List.mem_of_mem_take hev
    · rw [List.mem_singleton] at hev; subst hev; exact List.mem_of_getElem? (i := 3) rfl
  · show 2 ≤ maxBlocks
    decide

/-- Non-vacuity of `C69_recovers`: the power fails in the final `Sync`, the header of the earlier `Finalize` (which counts one
block) stays, everything else arrives, and both blocks are read back. -/
example : ∃ (log log2 : Log) (w1 w2 w3 : Writer IdSet) (env1 : Env) (f : Bytes), Again IdSet quietEnv exampleOpts log log2 w1 w2 ∧
    finalize env1 w2 = (.error .io, w3) ∧ MayRemain w3.disk f ∧ f.take 64 = w2.file.bytes.take 64 ∧
    (acked log).length = 1 ∧ (acked (log ++ log2)).length = 2 ∧
    ∃ r : Reader IdSet, newReader f = .ok r ∧ ∀ i : UInt64, getPairs r i =
        match (acked (log ++ log2))[i.toNat]? with
        | some b => .ok b
        | none => .err .badBlockIndex := by
  obtain ⟨log, log2, w1, w2, w4, H, h4, hsz, hl1, hl2⟩ := again_example
  have hgrow := (Crashable.finalize (B := IdSet)).grow quietEnv w2
  rw [h4] at hgrow
  dsimp only at hgrow
  have hsz1 : w1.file.bytes.length < 2 ^ 63 := by
    obtain ⟨calls2, _, hrun⟩ := H.more
    have h1 := (Crashable.calls (B := IdSet) calls2).grow quietEnv w1
    rw [hrun] at h1
    dsimp only at h1
    omega
  obtain ⟨blks, a, hi, hc, hp, he, hs, ha, hac, hah, hpos⟩ := H.facts hsz1
  obtain ⟨env1, w3, h3, hw3, hsy, hrem⟩ := sync_crash h4 hs hi.pos64 hi.posLe
  have h64 := hi.pos64
  have hle := hi.posLe
  have hcnt : w2.blockCount = 0 ∨ w2.blockPositions.length = w2.blockCount := by
    right; rw [hc.positions, hi.cnt]; simp
  obtain ⟨_, _, t2, hs2⟩ := wp_ok (finalize_spec quietEnv w2 hi.pos64 hi.posLe hi.near) h4
  obtain ⟨_, _, _, _, hok, _⟩ := final_inv w2 w4 blks [] hi hcnt t2 hs2
  obtain ⟨hd, bo, fs, hok, _, hbo⟩ := hok hsz
  have hL := hok.length
  have hfs := hok.fs_ge
  have hbl : blks.length = 2 := by rw [← hl2, ← hp, List.length_map]
  have htl : (w2.file.bytes.take 64).length = 64 := by rw [List.length_take]; omega
  have hlen : (w2.file.bytes.take 64 ++ w4.file.bytes.drop 64).length = w4.file.bytes.length := by
    rw [List.length_append, htl, List.length_drop]; omega
  have hr : MayRemain w3.disk (w2.file.bytes.take 64 ++ w4.file.bytes.drop 64) := by
    refine hrem.mix hlen fun i b hb' => ?_
    rw [hsy]
    by_cases hlt : i < 64
    · rw [List.getElem?_append_left (by omega), List.getElem?_take_of_lt hlt] at hb'
      exact .inr (.inl hb')
    · rw [List.getElem?_append_right (by omega), htl, List.getElem?_drop, show 64 + (i - 64) = i by omega] at hb'
      exact .inl hb'
  obtain ⟨r, hr1, _, hr2⟩ := C69_recovers H h3 h4 hsz hr hlen (by
    rw [hlen, hl2, List.drop_append, List.drop_eq_nil_of_le (by omega), List.nil_append, List.drop_drop, htl]
    exact congrArg (fun n => w4.file.bytes.drop n) (by omega))
  refine ⟨log, log2, w1, w2, w3, env1, _, H, h3, hr, ?_, hl1, hl2, r, hr1, hr2⟩
  rw [List.take_append_of_le_length (by omega), List.take_take, Nat.min_self]

/-- Non-vacuity of `C69_oldLength` and `C69_refuted`: two `Finalize`s in a row. -/
example : ∃ (calls : List Call) (log : Log) (w w1 w2 : Writer IdSet), History IdSet quietEnv exampleOpts calls log w ∧
    finalize quietEnv w = (.ok (), w1) ∧ NoIOError log ∧ (∀ ev ∈ log, ev.1.Bounded) ∧ SymEnc (chosenEncoding exampleOpts) ∧
    (acked log).length = 1 ∧ finalize quietEnv w1 = (.ok (), w2) ∧ w2.file.bytes.length < 2 ^ 63 := by
  obtain ⟨file, hfin⟩ := finalized_of_log exampleOpts [.write [3, 1, 2] [30, -10, 20], .finalize]
    [(.write [3, 1, 2] [30, -10, 20], .ok ()), (.finalize, .ok ())] (by decide) (by decide +kernel) (by unfold NoMismatch; decide)
    (by decide)
  obtain ⟨calls, w2, w3, hh, h3, rfl⟩ := hfin.made
  obtain ⟨w, hw, hfin0, hpost⟩ := hh.split (pre := [(.write [3, 1, 2] [30, -10, 20], .ok ())]) (c := .finalize) (r := .ok ())
    (post := []) rfl
  have h4 : (finalize quietEnv w).2 = w2 := congrArg Prod.snd hpost
  refine ⟨_, _, w, w2, w3, hw, Prod.ext hfin0 h4, fun ev hev => hfin.noIOError ev (List.mem_append_left [(Call.finalize, Except.ok ())] hev),
    fun ev hev => hfin.bounded ev (List.mem_append_left [(Call.finalize, Except.ok ())] hev), by unfold SymEnc; decide, rfl, h3, hfin.size⟩

end VibeCol.PowerAgain
