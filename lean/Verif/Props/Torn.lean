/-
C71: opening a file at any moment, while its writer goes on and finalizes it again.
-/
import Verif.Props.Live
import Verif.Props.Readable
import Verif.Props.PowerAgain
set_option linter.unusedSectionVars false
namespace VibeCol.Torn
variable {B : Type} [Bitmap B]

/-! ### Headers -/

/-- The header of a file of this format with the given encoding. -/
def Good (e : UInt32) (a : FileHeader) : Prop := a.magic = magicNumber ∧ a.version = version ∧ a.encodingType = e

/-- Each of the first 60 bytes is that of some header of this format with the given encoding, not necessarily the same. -/
structure Headed (e : UInt32) (f : Bytes) : Prop where
  len : 64 ≤ f.length
  byte : ∀ i, i < 60 → ∃ a, Good e a ∧ f[i]? = a.fields.flatten[i]?

theorem Headed.slice {e : UInt32} {f : Bytes} (h : Headed e f) {o n : Nat} {x : Bytes} (ho : o + n ≤ 60) (hx : x.length = n)
    (ha : ∀ a, Good e a → slice a.fields.flatten o n = x) : slice f o n = x := by
  have hl := h.len
  have l1 := slice_length f o n (by omega)
  refine List.ext_getElem? fun i => ?_
  by_cases hi : i < n
  · rw [slice_getElem? _ _ _ _ hi]
    obtain ⟨a, hg, hb⟩ := h.byte (o + i) (by omega)
    rw [hb, ← slice_getElem? _ _ _ _ hi, ha a hg]
  · rw [List.getElem?_eq_none (by omega), List.getElem?_eq_none (by omega)]

/-- Such a header is accepted and has that encoding. -/
theorem Headed.read {e : UInt32} {f : Bytes} (h : Headed e f) : ∃ hd, readHeader f = .ok hd ∧ hd.encodingType = e := by
  have hl := h.len
  have s1 : VibeCol.slice f 0 8 = le64 magicNumber := h.slice (by omega) (by simp) fun a ha => by
    rw [(header_slices a).1, ha.1]
  have s2 : VibeCol.slice f 8 4 = le32 version := h.slice (by omega) (by simp) fun a ha => by
    rw [(header_slices a).2.1, ha.2.1]
  have s3 : VibeCol.slice f 32 4 = le32 e := h.slice (by omega) (by simp) fun a ha => by
    rw [(header_slices a).2.2.2, ha.2.2]
  have hb : readBytesAt f 0 (Int64.ofNat headerSize) = .ok (VibeCol.slice f 0 64) := by
    rw [readBytesAt_congr (f := f.take 64) (g := f)]
    · rw [show (0 : Int64) = Int64.ofNat 0 from rfl, readBytesAt_ok _ _ _ (by simp [headerSize]; omega) (by simp; omega)]
      simp [VibeCol.slice, headerSize, List.take_take]
    · intro p _ hp
      rw [show (0 : Int64).toInt.toNat = 0 by decide, show (Int64.ofNat headerSize).toInt.toNat = 64 by decide] at hp
      rw [List.getElem?_take_of_lt (by omega)]
  have e1 : (parseHeader (VibeCol.slice f 0 64)).magic = magicNumber := by
    apply rd64_of_slice
    have : VibeCol.slice (VibeCol.slice f 0 64) 0 8 = le64 magicNumber := by rw [slice_slice _ _ _ _ _ (by omega)]; exact s1
    exact this
  have e2 : (parseHeader (VibeCol.slice f 0 64)).version = version := by
    apply rd32_of_slice
    have : VibeCol.slice (VibeCol.slice f 0 64) 8 4 = le32 version := by rw [slice_slice _ _ _ _ _ (by omega)]; exact s2
    exact this
  have e3 : (parseHeader (VibeCol.slice f 0 64)).encodingType = e := by
    apply rd32_of_slice
    have : VibeCol.slice (VibeCol.slice f 0 64) 32 4 = le32 e := by rw [slice_slice _ _ _ _ _ (by omega)]; exact s3
    exact this
  refine ⟨_, ?_, e3⟩
  unfold readHeader
  rw [hb]
  simp only [Res.ok_bind, e1, e2, ne_eq, not_true, if_false]

variable [LawfulBitmap B]

/-- Whatever the writer does next, the header stays readable. -/
theorem call_headed {env : Env} (c : Call) {w : Writer B} {blks extra} (hi : Inv w blks extra)
    (h : Headed w.encodingType w.file.bytes) : Headed w.encodingType (c.run env w).2.file.bytes := by
  have h64 := hi.pos64
  have hle := hi.posLe
  by_cases hc : c = .finalize
  · subst hc
    obtain ⟨t, ht⟩ := finalize_header (env := env) (r := (finalize env w).1) (w' := (finalize env w).2) hi.pos64 hi.posLe hi.near rfl
    have hg := (Crashable.finalize (B := B)).grow env w
    refine ⟨Nat.le_trans h.len hg, fun i h60 => ?_⟩
    rcases ht i h60 with h1 | h1
    · obtain ⟨a, ha, hb⟩ := h.byte i h60
      exact ⟨a, ha, h1.trans hb⟩
    · exact ⟨finHeader t w, ⟨rfl, rfl, rfl⟩, h1⟩
  · have hk := (call_keep (B := B) (env := env) (dk := False) (lo := 0) (hi := 64) (ref := w.file.bytes) c (w := w)
      (fun h => absurd h hc) ⟨⟨by omega, fun _ _ _ => rfl, nofun, nofun, nofun⟩, h64⟩).1
    refine ⟨hk.len, fun i h60 => ?_⟩
    rw [hk.file i (Nat.zero_le _) (by omega)]
    exact h.byte i h60

theorem later_headed {w : Writer B} {blks extra} (hi : Inv w blks extra) (h : Headed w.encodingType w.file.bytes)
    {f : Bytes} (hf : Later Call.Bounded w f) : Headed w.encodingType f := by
  obtain ⟨env, calls, hall, hlast, rfl⟩ := hf
  induction calls generalizing w blks extra with
  | nil => exact h
  | cons c cs ih =>
    have hrun : runCalls env (c :: cs) w =
      ((c, (c.run env w).1) :: (runCalls env cs (c.run env w).2).1, (runCalls env cs (c.run env w).2).2) := rfl
    have hc := call_headed (env := env) c hi h
    cases cs with
    | nil => exact hc
    | cons c' cs =>
      have hne : (runCalls env (c' :: cs) (c.run env w).2).1 ≠ [] := by simp [runCalls]
      rw [hrun] at hlast ⊢
      rw [List.dropLast_cons_of_ne_nil hne] at hlast
      obtain ⟨new, extra', _, hi', hsame, _⟩ := call_inv env c (hall _ (List.mem_cons_self ..)) w blks extra hi
        (fun hc => hlast _ (List.mem_cons_self ..) hc)
      have henc := hsame.enc
      have := ih hi' (by rw [henc]; exact hc) (fun x hx => hall x (List.mem_cons_of_mem _ hx))
        (fun ev hev => hlast ev (List.mem_cons_of_mem _ hev))
      rw [henc] at this
      exact this

theorem maySee_headed {w : Writer B} {blks extra} (hi : Inv w blks extra) (h : Headed w.encodingType w.file.bytes)
    {f : Bytes} (hf : MaySee Call.Bounded w f) : Headed w.encodingType f := by
  obtain ⟨g, hg, hl⟩ := hf.length
  have hlen : 64 ≤ f.length := by rw [hl]; exact (later_headed hi h hg).len
  refine ⟨hlen, fun i h60 => ?_⟩
  obtain ⟨g', hg', hb⟩ := hf.byte i (by omega)
  obtain ⟨a, ha, hb'⟩ := (later_headed hi h hg').byte i h60
  exact ⟨a, ha, hb.trans hb'⟩

/-! ### C71 -/

/-- **C71.** `NewReader` determines the size of a file after a `Finalize` returned nil and reads header and footer at any later
moments, whatever the writer does meanwhile. It succeeds, with the index of that `Finalize`; the encoding is right, and the block count is
that of the header it found or the number of blocks, whichever is greater. -/
theorem C71_opens {env : Env} {opts : List WriterOption} {calls : List Call} {log : Log} {w w1 : Writer B}
    (h : History B env opts calls log w) (hno : NoIOError log) (hb : ∀ ev ∈ log, ev.1.Bounded)
    (hn : (acked log).length ≤ maxBlocks) (hf : finalize env w = (.ok (), w1)) (hsz : w1.file.bytes.length < 2 ^ 63)
    (view : Nat → Bytes) (hstat : view 0 = w1.file.bytes) (hsee : ∀ n, MaySee Call.Bounded w1 (view (n + 1))) :
    ∃ (r1 : Reader B) (hd : FileHeader), newReader w1.file.bytes = .ok r1 ∧
      newReaderLive view = .ok { r1 with header := hd } ∧ hd.encodingType = r1.header.encodingType ∧
      r1.header.blockCount.toNat = (acked log).length ∧
      ∃ hd0, readHeader (view 1) = .ok hd0 ∧ hd.blockCount.toNat = max hd0.blockCount.toNat (acked log).length := by
  have hfin : Finalized B env opts log w1.file.bytes := ⟨⟨calls, w, w1, h, hf, rfl⟩, hno, hb, hsz⟩
  have hpos := finalize_atEnd h hno hb hf
  obtain ⟨blks0, extra0, hi0, _, _, he0, _⟩ := history_faulty h (h.bounded hb) hno.finalize
  obtain ⟨_, hi1, hsame, _⟩ := wp_ok (finalize_inv env w blks0 extra0 hi0) hf
  obtain ⟨hd1, blks, buf, bo, fs, hok, hp, _⟩ := hfin.fileOK
  have hl : blks.length = (acked log).length := by rw [← hp, List.length_map]
  unfold maxBlocks at hn
  have h0 := hok.newReader (B := B) (by omega)
  have hw1e : w1.encodingType = chosenEncoding opts := hsame.enc.trans he0
  have hfs := hok.fs_ge
  have hfs' := hok.fsLe
  have hhead : Headed w1.encodingType w1.file.bytes := by
    refine ⟨by omega, fun i h60 => ⟨hd1, ⟨hok.magic, hok.ver, by rw [hok.enc, hw1e]⟩, ?_⟩⟩
    rw [← hok.hdr, slice_getElem? _ _ _ _ h60, Nat.zero_add]
  obtain ⟨hd, hrd, hde⟩ := (maySee_headed hi1 hhead (hsee 0)).read
  have hany : ∀ f, MaySee Call.Bounded w1 f → MaySee anyCall w1 f := by
    have key : ∀ g, Later Call.Bounded w1 g → Later anyCall w1 g := by
      rintro g ⟨e, cs, _, a, b⟩
      exact ⟨e, cs, fun _ _ => trivial, a, b⟩
    rintro f ⟨⟨g, hg, hl⟩, hby⟩
    exact ⟨⟨g, key g hg, hl⟩, fun i hi => let ⟨g', h1, h2⟩ := hby i hi; ⟨g', key g' h1, h2⟩⟩
  have hx : ∀ n, Extends 64 w1.file.bytes (view (n + 2)) := fun n =>
    (hany _ (hsee (n + 1))).extends 64 (fun _ => Nat.le_refl _) hpos
  have hc1 : hd1.blockCount.toNat = blks.length := by rw [hok.count, UInt64.toNat_ofNat']; omega
  have hn64 : (UInt64.ofNat blks.length).toNat = blks.length := by rw [UInt64.toNat_ofNat']; omega
  refine ⟨_, if hd.blockCount < UInt64.ofNat blks.length then { hd with blockCount := UInt64.ofNat blks.length } else hd, h0,
    ?_, ?_, hc1.trans hl, hd, hrd, ?_⟩
  · unfold newReaderLive
    dsimp only
    rw [hstat, hrd, Res.ok_bind, hok.readFooter_live (by omega) hx]
    unfold newReader at h0
    rw [hok.readHeader, Res.ok_bind] at h0
    rw [readFooter_any (fs := fs) (n := blks.length) hok.small (by omega) hok.fsLe (by omega)
      (by rw [hok.index_length]) hok.foot, Res.ok_bind] at h0 ⊢
    dsimp only at h0 ⊢
    simp only [Res.ok.injEq] at h0 ⊢
    rw [← h0]
  · have : (okReader (B := B) w1.file.bytes hd1 (chosenEncoding opts) blks).header.encodingType = chosenEncoding opts := hok.enc
    rw [this]
    split
    · exact hde.trans hw1e
    · exact hde.trans hw1e
  · rw [← hl]
    split <;> rename_i hlt <;> rw [UInt64.lt_iff_toNat_lt, hn64] at hlt
    · show (UInt64.ofNat blks.length).toNat = _
      omega
    · omega

/-- Everything else only depends on what is behind the header. -/
theorem MaySee.any {w : Writer B} {f : Bytes} (h : MaySee Call.Bounded w f) : MaySee anyCall w f := by
  have key : ∀ g, Later Call.Bounded w g → Later anyCall w g := by
    rintro g ⟨e, cs, _, a, b⟩
    exact ⟨e, cs, fun _ _ => trivial, a, b⟩
  obtain ⟨⟨g, hg, hl⟩, hby⟩ := h
  exact ⟨⟨g, key g hg, hl⟩, fun i hi => let ⟨g', h1, h2⟩ := hby i hi; ⟨g', key g' h1, h2⟩⟩

/-- **C71.** The reader delivers exactly the blocks acknowledged before that `Finalize`, whatever the writer does meanwhile, and
refuses all other indexes. -/
theorem C71_blocks {env : Env} {opts : List WriterOption} {calls : List Call} {log : Log} {w w1 : Writer B}
    (h : History B env opts calls log w) (hno : NoIOError log) (hb : ∀ ev ∈ log, ev.1.Bounded)
    (henc : SymEnc (chosenEncoding opts)) (hn : (acked log).length ≤ maxBlocks)
    (hf : finalize env w = (.ok (), w1)) (hsz : w1.file.bytes.length < 2 ^ 63)
    (view : Nat → Bytes) (hstat : view 0 = w1.file.bytes) (hsee : ∀ n, MaySee Call.Bounded w1 (view (n + 1)))
    (r : Reader B) (hr : newReaderLive view = .ok r) {now : Bytes} (hnow : MaySee Call.Bounded w1 now) (i : UInt64) :
    getPairsLive now r i =
      match (acked log)[i.toNat]? with
      | some b => .ok b
      | none => .err .badBlockIndex := by
  obtain ⟨r1, hd, h1, h2, h3, _⟩ := C71_opens h hno hb hn hf hsz view hstat hsee
  rw [hr] at h2
  cases h2
  exact C62_mixed_blocks h hno hb henc hn hf hsz r1 h1 hd h3 (MaySee.any hnow) i

theorem readable_acked {r : Reader B} {blocks : List Block} {n : Nat} (hn : blocks.length ≤ n) (hsm : n < 2 ^ 64)
    (h1 : ∀ (i : UInt64) (b : Block), blocks[i.toNat]? = some b → getPairs r i = .ok b)
    (h2 : ∀ i : UInt64, blocks[i.toNat]? = none → getPairs r i = .err .badBlockIndex) : readable r (List.range n) = blocks := by
  have key : ∀ k, k ≤ n → readable r (List.range k) = blocks.take k := by
    intro k
    induction k with
    | zero => intro _; simp [readable]
    | succ k ih =>
      intro hk
      have ih' := ih (by omega)
      unfold readable at ih' ⊢
      rw [List.range_succ, List.filterMap_append, ih', List.take_add_one]
      refine congrArg _ ?_
      rw [List.filterMap_cons, List.filterMap_nil]
      have e : (UInt64.ofNat k).toNat = k := by rw [UInt64.toNat_ofNat', Nat.mod_eq_of_lt (by omega)]
      cases hc : blocks[k]? with
      | some b => rw [h1 _ b (by rw [e, hc])]; rfl
      | none => rw [h2 _ (by rw [e, hc])]; rfl
  rw [key n (Nat.le_refl _), List.take_of_length_le hn]

/-- **C71.** Its aggregates are exact for those blocks: with filters or from the blocks with any number of workers and in every
schedule, from the index without workers. (The block count read must not exceed 2^45, see `C31_refuted_count`, and from the index with
workers aggregation may panic, see `C62_panics`.) -/
theorem C71_aggregate {env : Env} {opts : List WriterOption} {calls : List Call} {log : Log} {w w1 : Writer B}
    (h : History B env opts calls log w) (hno : NoIOError log) (hb : ∀ ev ∈ log, ev.1.Bounded)
    (henc : SymEnc (chosenEncoding opts)) (hn : (acked log).length ≤ maxBlocks)
    (hf : finalize env w = (.ok (), w1)) (hsz : w1.file.bytes.length < 2 ^ 63)
    (view : Nat → Bytes) (hstat : view 0 = w1.file.bytes) (hsee : ∀ n, MaySee Call.Bounded w1 (view (n + 1)))
    (r : Reader B) (hr : newReaderLive view = .ok r) (hcount : r.blockCount.toNat ≤ 2 ^ 45)
    (now : UInt64 → Bytes) (hnow : ∀ i, MaySee Call.Bounded w1 (now i)) (sched : Sched) (hs : sched.Fair) (o : AggregateOptions B)
    (ho : o.filter.isSome ∨ o.denyFilter.isSome ∨ o.skipPreCalculated = true ∨ (o.parallel = 0 ∧ StatsRepresentable (acked log))) :
    ∃ res, aggregateWithOptionsLive now sched r o = .ok res ∧
      IsAggregate res (selectedValues o.filter o.denyFilter (acked log)) := by
  obtain ⟨r1, hd, h1, h2, h3, hc1, _, _, hcm⟩ := C71_opens h hno hb hn hf hsz view hstat hsee
  have hcd : (acked log).length ≤ hd.blockCount.toNat := by omega
  have hfin : Finalized B env opts log w1.file.bytes := ⟨⟨calls, w, w1, h, hf, rfl⟩, hno, hb, hsz⟩
  obtain ⟨hrb, hin⟩ := hfin.readsIn hn r1 h1
  have hpos := finalize_atEnd h hno hb hf
  rw [hr] at h2
  cases h2
  have hlive : aggregateWithOptionsLive now sched { r1 with header := hd } o = aggregateWithOptions sched { r1 with header := hd } o :=
    aggregate_extends (r := { r1 with header := hd }) hin.index hin.small (fun i => by
      show Extends 64 r1.bytes (now i)
      rw [hrb]
      exact (MaySee.any (hnow i)).extends 64 (fun _ => Nat.le_refl _) hpos) sched o
  rw [hlive]
  have hget : ∀ i, getPairs ({ r1 with header := hd } : Reader B) i = getPairs r1 i := by
    intro i
    unfold getPairs readBlock
    dsimp only
    rw [h3]
  have hlv : ∀ i, getPairsLive w1.file.bytes ({ r1 with header := hd } : Reader B) i = getPairs ({ r1 with header := hd } : Reader B) i := by
    intro i
    unfold getPairsLive readBlockLive getPairs
    rw [← hrb]
  have hb1 : ∀ (i : UInt64) (b : Block), (acked log)[i.toNat]? = some b → getPairs ({ r1 with header := hd } : Reader B) i = .ok b := by
    intro i b hib
    rw [← hlv, C62_mixed_blocks h hno hb henc hn hf hsz r1 h1 hd h3 (now := w1.file.bytes) (Later.now _ _).maySee i, hib]
  have hb2 : ∀ i : UInt64, (acked log)[i.toNat]? = none → getPairs ({ r1 with header := hd } : Reader B) i = .err .badBlockIndex := by
    intro i hib
    rw [← hlv, C62_mixed_blocks h hno hb henc hn hf hsz r1 h1 hd h3 (now := w1.file.bytes) (Later.now _ _).maySee i, hib]
  have hnp : ∀ i, getPairs ({ r1 with header := hd } : Reader B) i ≠ .panic := by
    intro i
    cases hc : (acked log)[i.toNat]? with
    | some b => rw [hb1 i b hc]; nofun
    | none => rw [hb2 i hc]; nofun
  have hcount' : hd.blockCount.toNat ≤ 2 ^ 45 := hcount
  have hall : readable ({ r1 with header := hd } : Reader B) (List.range hd.blockCount.toNat) = acked log :=
    readable_acked hcd hd.blockCount.toNat_lt hb1 hb2
  have hvals : (acked log).flatMap Prod.snd = valuesOf (acked log) := by
    rw [Reads.flatMap_values _ fun b hb => ((hfin.indexed hn r1 h1).ok b hb).2.1]
    rfl
  by_cases hfl : o.filter.isSome ∨ o.denyFilter.isSome
  · obtain ⟨res, e1, e2⟩ := C49_filtered ({ r1 with header := hd } : Reader B) hnp sched hs o (hfl.imp id fun h => ⟨h, hcount⟩)
    cases hff : o.filter with
    | none =>
      refine ⟨res, e1, ?_⟩
      rw [hff] at e2
      have : considered ({ r1 with header := hd } : Reader B) none = List.range hd.blockCount.toNat := rfl
      rw [this, hall] at e2
      exact e2
    | some f =>
      obtain ⟨res1, f1, f2⟩ := C13_filtered hfin henc hn r1 h1 sched hs o hfl
      refine ⟨res1, ?_, by rw [← hff]; exact f2⟩
      rw [← f1, C15_arbitrary _ sched hs o (.inl (by rw [hff]; rfl)), C15_arbitrary r1 sched hs o (.inl (by rw [hff]; rfl))]
      unfold aggregateWithOptions aggregateSequential aggregateWithFilter filteredBlockIterator
      have hrf : (fun i : UInt64 => readBlockFiltered ({ r1 with header := hd } : Reader B) i.toInt64 o.filter o.denyFilter) =
          fun i : UInt64 => readBlockFiltered r1 i.toInt64 o.filter o.denyFilter := by
        funext i
        have := hget i
        unfold getPairs at this
        unfold readBlockFiltered
        rw [this]
      dsimp only
      rw [hff] at hrf ⊢
      simp only [hrf, Option.isSome_some, true_or, if_true, ne_eq, not_true, if_false]
  · have hf1 : o.filter = none := by
      cases hh : o.filter with
      | none => rfl
      | some f => exact absurd (.inl (by rw [hh]; rfl)) hfl
    have hf2 : o.denyFilter = none := by
      cases hh : o.denyFilter with
      | none => rfl
      | some f => exact absurd (.inr (by rw [hh]; rfl)) hfl
    obtain ⟨skip, filt, deny, par⟩ := o
    dsimp only at hf1 hf2 ho
    subst hf1 hf2
    rw [selectedValues_none]
    by_cases hsk : skip = true
    · subst hsk
      obtain ⟨res, e1, e2⟩ := C49_skip ({ r1 with header := hd } : Reader B) hnp sched hs par (.inr hcount)
      refine ⟨res, e1, ?_⟩
      have : (({ r1 with header := hd } : Reader B).blockCount.toNat) = hd.blockCount.toNat := rfl
      rw [this, hall, hvals] at e2
      exact e2
    · have hsk' : skip = false := by cases skip <;> simp at hsk ⊢
      subst hsk'
      obtain ⟨hp0, hrep⟩ : par = 0 ∧ StatsRepresentable (acked log) := by
        rcases ho with ho | ho | ho | ho
        · cases ho
        · cases ho
        · cases ho
        · exact ho
      subst hp0
      by_cases hne : r1.blockIndex.length > 0
      · obtain ⟨res1, f1, f2⟩ := C10_aggregate hfin hn hrep r1 h1 sched
        refine ⟨res1, ?_, f2⟩
        rw [← f1]
        unfold aggregate aggregateWithOptions aggregateSequential
        simp only [ne_eq, not_true, if_false, Option.isSome_none, Bool.false_eq_true, or_self, hne, and_self, if_true]
      · obtain ⟨res, e1, e2⟩ := C49_skip ({ r1 with header := hd } : Reader B) hnp sched hs 0 (.inl rfl)
        refine ⟨res, ?_, ?_⟩
        · rw [← e1]
          unfold aggregateWithOptions aggregateSequential
          simp only [ne_eq, not_true, if_false, Option.isSome_none, Bool.false_eq_true, or_self, hne, false_and, and_false, reduceCtorEq]
        · have : (({ r1 with header := hd } : Reader B).blockCount.toNat) = hd.blockCount.toNat := rfl
          rw [this, hall, hvals] at e2
          exact e2

/-- The hypotheses of the theorems above are met: a block is added and the file is finalized again; the first 30 bytes of the header,
with the block count, are read after that, the others before. The reader reports two blocks and delivers one. -/
example : ∃ (calls : List Call) (log : Log) (w w1 : Writer IdSet) (view : Nat → Bytes) (r : Reader IdSet),
    History IdSet quietEnv exampleOpts calls log w ∧ NoIOError log ∧ (∀ ev ∈ log, ev.1.Bounded) ∧ SymEnc (chosenEncoding exampleOpts) ∧
    (acked log).length = 1 ∧ finalize quietEnv w = (.ok (), w1) ∧ w1.file.bytes.length < 2 ^ 63 ∧
    view 0 = w1.file.bytes ∧ (∀ n, MaySee Call.Bounded w1 (view (n + 1))) ∧ newReaderLive view = .ok r ∧ r.blockCount.toNat = 2 := by
  obtain ⟨calls, calls2, log, log2, w, w1, w2, w3, h, hf, hrun, hf3, hno, hb, hl1, hl2, hs1, hs3, hlat2, hlat3⟩ := extended_example
  have hnoL : NoIOError log := fun ev hev => hno ev (List.mem_append_left _ hev)
  have hbL : ∀ ev ∈ log, ev.1.Bounded := fun ev hev => hb ev (List.mem_append_left _ hev)
  have hb2 : ∀ c ∈ calls2, c.Bounded := by
    intro c hc
    have e := runCalls_fst quietEnv calls2 w1
    rw [hrun] at e
    rw [← e] at hc
    obtain ⟨ev, hev, rfl⟩ := List.mem_map.1 hc
    exact hb ev (List.mem_append_right _ hev)
  have hlater : Later Call.Bounded w1 w3.file.bytes := by
    refine ⟨quietEnv, calls2 ++ [.finalize], ?_, ?_, ?_⟩
    · intro c hc
      rcases List.mem_append.1 hc with hc | hc
      · exact hb2 c hc
      · rw [List.mem_singleton] at hc; subst hc; trivial
    · rw [runCalls_append, hrun]
      show FinalizeNoIOError (log2 ++ (runCalls quietEnv [.finalize] w2).1).dropLast
      have : (runCalls quietEnv [.finalize] w2).1 = [(.finalize, .ok ())] := by
        show [(Call.finalize, (finalize quietEnv w2).1)] = _
        rw [hf3]
      rw [this, List.dropLast_concat]
      exact fun ev hev _ => hno ev (List.mem_append_right _ hev)
    · rw [runCalls_finalize, hrun, hf3]
  have hnow : Later Call.Bounded w1 w1.file.bytes := Later.now _ _
  obtain ⟨r1, r3, hr1, hr3, _, _, _, hbc⟩ := C62_mixed h hf hrun hf3 hno hb (by rw [hl2]; decide) hs3
    (fun n => if n = 0 then w1.file.bytes else w3.file.bytes) rfl rfl (fun n => hlat3.maySee)
  have hfin : Finalized IdSet quietEnv exampleOpts log w1.file.bytes := ⟨⟨calls, w, w1, h, hf, rfl⟩, hnoL, hbL, hs1⟩
  obtain ⟨_, _, _, _, _, hok, _⟩ := hfin.fileOK
  have hlen1 : 64 ≤ w1.file.bytes.length := by
    have := hok.fs_ge; have := hok.fsLe; omega
  have hlen3 : w1.file.bytes.length ≤ w3.file.bytes.length :=
    (hlat3.maySee.extends 64 (fun _ => Nat.le_refl _) (finalize_atEnd h hnoL hbL hf)).1
  let torn := w3.file.bytes.take 30 ++ w1.file.bytes.drop 30
  have ht : ∀ i, torn[i]? = if i < 30 then w3.file.bytes[i]? else w1.file.bytes[i]? := by
    intro i
    have hl : (w3.file.bytes.take 30).length = 30 := by rw [List.length_take]; omega
    show (w3.file.bytes.take 30 ++ w1.file.bytes.drop 30)[i]? = _
    by_cases hi : i < 30
    · rw [if_pos hi, List.getElem?_append_left (by omega), List.getElem?_take_of_lt hi]
    · rw [if_neg hi, List.getElem?_append_right (by omega), List.getElem?_drop, hl, Nat.add_sub_cancel' (by omega)]
  have htorn : MaySee Call.Bounded w1 torn := by
    refine ⟨⟨_, hnow, ?_⟩, fun i hi => ?_⟩
    · show (w3.file.bytes.take 30 ++ w1.file.bytes.drop 30).length = _
      rw [List.length_append, List.length_take, List.length_drop]; omega
    · rw [ht]
      split
      · exact ⟨_, hlater, rfl⟩
      · exact ⟨_, hnow, rfl⟩
  let view : Nat → Bytes := fun n => if n = 1 then torn else w1.file.bytes
  have hsee : ∀ n, MaySee Call.Bounded w1 (view (n + 1)) := by
    intro n
    show MaySee Call.Bounded w1 (if n + 1 = 1 then torn else w1.file.bytes)
    split
    · exact htorn
    · exact hnow.maySee
  obtain ⟨r1', hd, hr1', hlive, _, _, hd0, hrd, hmax⟩ := C71_opens h hnoL hbL (by rw [hl1]; decide) hf hs1 view rfl hsee
  refine ⟨calls, log, w, w1, view, _, h, hnoL, hbL, by unfold SymEnc; decide, hl1, hf, hs1, rfl, hsee, hlive, ?_⟩
  show hd.blockCount.toNat = 2
  have hfin3 : Finalized IdSet quietEnv exampleOpts (log ++ (.finalize, .ok ()) :: log2) w3.file.bytes := by
    refine ⟨⟨_, w2, w3, h.extend hf hrun, hf3, rfl⟩, ?_, ?_, hs3⟩
    · intro ev hev
      rcases List.mem_append.1 hev with hev | hev
      · exact hnoL ev hev
      · rcases List.mem_cons.1 hev with rfl | hev
        · simp
        · exact hno ev (List.mem_append_right _ hev)
    · intro ev hev
      rcases List.mem_append.1 hev with hev | hev
      · exact hbL ev hev
      · rcases List.mem_cons.1 hev with rfl | hev
        · trivial
        · exact hb ev (List.mem_append_right _ hev)
  obtain ⟨hd3, blks3, _, _, _, hok3, hp3, _⟩ := hfin3.fileOK
  have hl3 : blks3.length = 2 := by
    rw [← hl2, show acked (log ++ log2) = acked (log ++ (Call.finalize, Except.ok ()) :: log2) by simp [acked, ackedBy], ← hp3,
      List.length_map]
  have hs16 : slice torn 16 8 = le64 (UInt64.ofNat blks3.length) := by
    rw [← hok3.count, ← (header_slices hd3).2.2.1, ← hok3.hdr, slice_slice _ _ _ _ _ (by omega)]
    refine List.ext_getElem? fun i => ?_
    by_cases hi : i < 8
    · rw [slice_getElem? _ _ _ _ hi, slice_getElem? _ _ _ _ hi, ht, if_pos (by omega), Nat.zero_add]
    · have l1 : 64 ≤ torn.length := by
        show 64 ≤ (w3.file.bytes.take 30 ++ w1.file.bytes.drop 30).length
        rw [List.length_append, List.length_take, List.length_drop]; omega
      rw [List.getElem?_eq_none (by rw [slice_length _ _ _ (by omega)]; omega),
        List.getElem?_eq_none (by rw [slice_length _ _ _ (by omega)]; omega)]
  have hc0 : hd0.blockCount = 2 := by
    have l1 : torn.length = w1.file.bytes.length := by
      show (w3.file.bytes.take 30 ++ w1.file.bytes.drop 30).length = _
      rw [List.length_append, List.length_take, List.length_drop]; omega
    have hrd' : readHeader torn = .ok hd0 := hrd
    unfold readHeader at hrd'
    rw [show (0 : Int64) = Int64.ofNat 0 from rfl, readBytesAt_ok _ _ _ (by simp [headerSize]; omega) (by omega), Res.ok_bind] at hrd'
    dsimp only at hrd'
    split at hrd'
    · cases hrd'
    · split at hrd'
      · cases hrd'
      · cases hrd'
        show rd64 (slice torn 0 64) 16 = 2
        apply rd64_of_slice
        have : slice (slice torn 0 64) 16 8 = le64 2 := by
          rw [slice_slice _ _ _ _ _ (by omega), Nat.zero_add, hs16, hl3]; rfl
        exact this
  rw [hmax, hl1, hc0]
  rfl

end VibeCol.Torn
