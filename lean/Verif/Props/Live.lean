/-
C61, C62: reading a file whose writer goes on.
-/
import Verif.Model.Live
import Verif.Spec.Live
import Verif.Props.Bitmap
import Verif.Props.Damage
import Verif.Props.Power
set_option linter.unusedSectionVars false
namespace VibeCol
variable {B : Type} [Bitmap B]

/-! ### A file that does not change -/

theorem readFooterLive_static (file : Bytes) (h : FileHeader) :
    readFooterLive (fun _ => file) (Int64.ofNat file.length) h = readFooter file h := rfl

/-- On a file that does not change, this is `NewReader` of the other model. -/
theorem newReaderLive_static (file : Bytes) : newReaderLive (B := B) (fun _ => file) = newReader file := rfl

theorem readBlockLive_static (r : Reader B) : readBlockLive r.bytes r = readBlock r := rfl

theorem getGlobalIDBitmapLive_static (r : Reader B) : getGlobalIDBitmapLive (fun _ => r.bytes) r = getGlobalIDBitmap r := rfl

theorem aggregateWithOptionsLive_static (sched : Sched) (r : Reader B) (o : AggregateOptions B) :
    aggregateWithOptionsLive (fun _ => r.bytes) sched r o = aggregateWithOptions sched r o := rfl

/-! ### Calls on a reader -/

/-- The calls on a reader, each with what it finds in the file. -/
inductive LiveCall (B : Type) where
  | enable
  | disable
  | getBitmap (view : Nat → Bytes)
  | getPairs (now : Bytes) (i : UInt64)
  | aggregate (view : UInt64 → Bytes) (sched : Sched) (o : AggregateOptions B)

/-- The same call without what it finds. -/
def LiveCall.still : LiveCall B → ReaderCall B
  | .enable => .enable
  | .disable => .disable
  | .getBitmap _ => .getBitmap
  | .getPairs _ i => .getPairs i
  | .aggregate _ sched o => .aggregate sched o

/-- Everything the call may find satisfies `P`. -/
def LiveCall.Finds (P : Bytes → Prop) : LiveCall B → Prop
  | .enable => True
  | .disable => True
  | .getBitmap view => ∀ n, P (view n)
  | .getPairs now _ => P now
  | .aggregate view _ _ => ∀ i, P (view i)

/-- Run one call. -/
def LiveCall.run : LiveCall B → Reader B → ReaderOut B × Reader B
  | .enable, r => (.done, enableCaching r)
  | .disable, r => (.done, disableCaching r)
  | .getBitmap view, r => (.bitmap (getGlobalIDBitmapLive view r).1, (getGlobalIDBitmapLive view r).2)
  | .getPairs now i, r => (.pairs (getPairsLive now r i), r)
  | .aggregate view sched o, r => (.result (aggregateWithOptionsLive view sched r o), r)

/-- Run calls one after the other on the same reader. -/
def runLive : List (LiveCall B) → Reader B → List (ReaderOut B) × Reader B
  | [], r => ([], r)
  | c :: cs, r =>
    let (o, r') := c.run r
    let (os, r'') := runLive cs r'
    (o :: os, r'')

/-! ### Helpers -/

/-- `g` holds at least what `f` holds from `lo` on. -/
def Extends (lo : Nat) (f g : Bytes) : Prop := f.length ≤ g.length ∧ ∀ i, lo ≤ i → i < f.length → g[i]? = f[i]?

/-- All later contents keep what is behind the header; without `Finalize` they keep everything. -/
theorem MaySee.extends {allowed : Call → Prop} {w : Writer B} {f : Bytes} (lo : Nat) (hlo : allowed .finalize → 64 ≤ lo)
    (hpos : w.file.bytes.length ≤ w.file.pos) (h : MaySee allowed w f) : Extends lo w.file.bytes f := by
  have key : ∀ g, Later allowed w g → Extends lo w.file.bytes g := by
    rintro g ⟨env, calls, hall, hlast, rfl⟩
    have hk := runCalls_keep (B := B) (env := env) (dk := False) (lo := lo) (hi := w.file.bytes.length)
      (ref := w.file.bytes) calls (w := w) (fun hc => hlo (hall _ hc))
      ⟨⟨Nat.le_refl _, fun _ _ _ => rfl, nofun, nofun, nofun⟩, hpos⟩ hlast
    exact ⟨hk.len, hk.file⟩
  obtain ⟨g, hg, hl⟩ := h.length
  refine ⟨by rw [hl]; exact (key g hg).1, fun i h1 h2 => ?_⟩
  obtain ⟨g', hg', hb⟩ := h.byte i (by have := (key g hg).1; omega)
  rw [hb, (key g' hg').2 i h1 h2]

/-- What is needed of an index for its blocks to lie between the header and the end of the file. -/
def IndexIn (r : Reader B) (n : Nat) : Prop :=
  ∀ x ∈ r.blockIndex, 64 ≤ x.start ∧ x.start + 80 ≤ x.stop ∧ x.stop ≤ n

theorem readBlock_extends {r : Reader B} {now : Bytes} (hin : IndexIn r r.bytes.length) (hsm : r.bytes.length < 2 ^ 63)
    (hx : Extends 64 r.bytes now) (i : Int64) : readBlockLive now r i = readBlock r i := by
  unfold readBlockLive readBlock
  by_cases hi : i < 0
  · rw [if_pos hi, if_pos hi]
  rw [if_neg hi, if_neg hi]
  dsimp only
  cases he : r.blockIndex[i.toInt.toNat]? with
  | none => rfl
  | some x =>
    obtain ⟨h1, h2, h3⟩ := hin x (List.mem_of_getElem? he)
    dsimp only
    rw [readBytesAt_congr (f := r.bytes) (g := now)]
    intro p hp1 hp2
    unfold FooterEntry.stop FooterEntry.start at *
    have hs := x.blockSize.toNat_lt
    have e1 : x.blockOffset.toInt64 = Int64.ofNat x.blockOffset.toNat := by
      rw [← uint64_ofNat_toInt64]; simp
    rw [e1, show (64 : Int64) = Int64.ofNat 64 from rfl, int64_ofNat_add, int64_toInt_ofNat _ (by omega), Int.toNat_natCast] at hp1 hp2
    rw [int64_ofNat_sub _ _ (by omega) (by omega), int64_toInt_ofNat _ (by omega), Int.toNat_natCast] at hp2
    exact hx.2 p (by omega) (by omega)

/-- What is needed of a reader for all its reads to stay between the header and the end of the file. -/
structure ReadsIn (r : Reader B) : Prop where
  small : r.bytes.length < 2 ^ 63
  index : IndexIn r r.bytes.length
  bitmap : 64 ≤ r.header.bitmapOffset.toNat ∧
    r.header.bitmapOffset.toNat + 4 + (rd32 (slice r.bytes r.header.bitmapOffset.toNat 4) 0).toNat ≤ r.bytes.length

theorem getGlobalIDBitmap_extends {r : Reader B} {view : Nat → Bytes} (h : ReadsIn r)
    (hx : ∀ n, Extends 64 r.bytes (view n)) : getGlobalIDBitmapLive view r = getGlobalIDBitmap r := by
  obtain ⟨h1, h2⟩ := h.bitmap
  have hsm := h.small
  have e1 : r.header.bitmapOffset.toInt64 = Int64.ofNat r.header.bitmapOffset.toNat := by
    rw [← uint64_ofNat_toInt64]; simp
  have r1 : ∀ f, Extends 64 r.bytes f → readBytesAt f r.header.bitmapOffset.toInt64 4 = readBytesAt r.bytes r.header.bitmapOffset.toInt64 4 := by
    intro f hf
    refine readBytesAt_congr fun p hp1 hp2 => ?_
    rw [e1, int64_toInt_ofNat _ (by omega), Int.toNat_natCast] at hp1 hp2
    rw [show (4 : Int64).toInt.toNat = 4 by decide] at hp2
    exact hf.2 p (by omega) (by omega)
  have r0 : readBytesAt r.bytes r.header.bitmapOffset.toInt64 4 = .ok (slice r.bytes r.header.bitmapOffset.toNat 4) := by
    rw [e1, show (4 : Int64) = Int64.ofNat 4 from rfl, readBytesAt_ok _ _ _ (by omega) hsm]
  have r2 : ∀ f, Extends 64 r.bytes f →
      readBytesAt f (r.header.bitmapOffset.toInt64 + 4) (Int64.ofNat (rd32 (slice r.bytes r.header.bitmapOffset.toNat 4) 0).toNat) =
      readBytesAt r.bytes (r.header.bitmapOffset.toInt64 + 4) (Int64.ofNat (rd32 (slice r.bytes r.header.bitmapOffset.toNat 4) 0).toNat) := by
    intro f hf
    refine readBytesAt_congr fun p hp1 hp2 => ?_
    rw [e1, show (4 : Int64) = Int64.ofNat 4 from rfl, int64_ofNat_add, int64_toInt_ofNat _ (by omega), Int.toNat_natCast] at hp1 hp2
    rw [int64_toInt_ofNat _ (by omega), Int.toNat_natCast] at hp2
    exact hf.2 p (by omega) (by omega)
  unfold getGlobalIDBitmapLive getGlobalIDBitmap
  rw [r1 _ (hx 0), r0]
  dsimp only
  rw [r2 _ (hx 1)]
  cases r.globalIDs <;> cases r.cacheGlobalIDs <;> rfl

theorem aggregate_extends {r : Reader B} {view : UInt64 → Bytes} (hin : IndexIn r r.bytes.length) (hsm : r.bytes.length < 2 ^ 63)
    (hx : ∀ i, Extends 64 r.bytes (view i)) (sched : Sched) (o : AggregateOptions B) :
    aggregateWithOptionsLive view sched r o = aggregateWithOptions sched r o := by
  have h1 : (fun i => getPairsLive (view i) r i) = getPairs r :=
    funext fun i => readBlock_extends hin hsm (hx i) _
  have h2 : ∀ f d, (fun i : UInt64 => readBlockFilteredLive (view i) r i.toInt64 f d) =
      fun i : UInt64 => readBlockFiltered r i.toInt64 f d := by
    intro f d
    funext i
    unfold readBlockFilteredLive readBlockFiltered
    rw [readBlock_extends hin hsm (hx i)]
  have hs : ∀ o, aggregateSequentialLive view r o = aggregateSequential r o := by
    intro o
    unfold aggregateSequentialLive aggregateSequential aggregateWithFilter
    rw [h1, h2]
  unfold aggregateWithOptionsLive aggregateWithOptions aggregateParallelLive aggregateParallel
  rw [hs]
  dsimp only
  rw [hs]
  have h3 : (fun i : UInt64 => if o.filter.isSome = true ∨ o.denyFilter.isSome = true then
      readBlockFilteredLive (view i) r i.toInt64 o.filter o.denyFilter else getPairsLive (view i) r i) =
      fun i : UInt64 => if o.filter.isSome = true ∨ o.denyFilter.isSome = true then
      readBlockFiltered r i.toInt64 o.filter o.denyFilter else getPairs r i := by
    funext i
    rw [congrFun h1 i, congrFun (h2 _ _) i]
  rw [h3]

theorem ReadsIn.still {r r' : Reader B} (h : ReadsIn r) (h1 : r'.bytes = r.bytes) (h2 : r'.header = r.header)
    (h3 : r'.blockIndex = r.blockIndex) : ReadsIn r' := by
  obtain ⟨a, b, c⟩ := h
  refine ⟨by rw [h1]; exact a, ?_, by rw [h1, h2]; exact c⟩
  unfold IndexIn at b ⊢
  rw [h1, h3]
  exact b

theorem getGlobalIDBitmap_still (r : Reader B) : (getGlobalIDBitmap r).2.bytes = r.bytes ∧
    (getGlobalIDBitmap r).2.header = r.header ∧ (getGlobalIDBitmap r).2.blockIndex = r.blockIndex := by
  unfold getGlobalIDBitmap
  split
  · exact ⟨rfl, rfl, rfl⟩
  · dsimp only
    repeat' split
    all_goals exact ⟨rfl, rfl, rfl⟩

/-- Calls on a reader whose reads all stay between the header and the end of the file do not notice what happens elsewhere. -/
theorem runLive_still {r : Reader B} (calls : List (LiveCall B)) (h : ReadsIn r)
    (hx : ∀ c ∈ calls, c.Finds (Extends 64 r.bytes)) : runLive calls r = runReader (calls.map LiveCall.still) r := by
  induction calls generalizing r with
  | nil => rfl
  | cons c cs ih =>
    have hc := hx c (List.mem_cons_self ..)
    have h1 : c.run r = c.still.run r := by
      cases c with
      | enable => rfl
      | disable => rfl
      | getBitmap view =>
        simp only [LiveCall.run, LiveCall.still, ReaderCall.run]
        rw [getGlobalIDBitmap_extends h hc]
      | getPairs now i =>
        simp only [LiveCall.run, LiveCall.still, ReaderCall.run]
        unfold getPairsLive VibeCol.getPairs
        rw [readBlock_extends h.index h.small hc]
      | aggregate view sched o =>
        simp only [LiveCall.run, LiveCall.still, ReaderCall.run]
        rw [aggregate_extends h.index h.small hc]
    have h2 : (c.still.run r).2.bytes = r.bytes ∧ (c.still.run r).2.header = r.header ∧
        (c.still.run r).2.blockIndex = r.blockIndex := by
      cases c with
      | getBitmap view => exact getGlobalIDBitmap_still r
      | _ => exact ⟨rfl, rfl, rfl⟩
    obtain ⟨a, b, d⟩ := h2
    have := ih (h.still a b d) (fun c' hc' => by rw [a]; exact hx c' (List.mem_cons_of_mem _ hc'))
    show ((c.run r).1 :: (runLive cs (c.run r).2).1, (runLive cs (c.run r).2).2) =
      ((c.still.run r).1 :: (runReader (cs.map LiveCall.still) (c.still.run r).2).1, (runReader (cs.map LiveCall.still) (c.still.run r).2).2)
    rw [h1, this]

variable [LawfulBitmap B]

/-- The reader of a finalized file reads only between the header and the end of the file. -/
theorem Finalized.readsIn {env : Env} {opts log} {file : Bytes} (h : Finalized B env opts log file)
    (hn : (acked log).length ≤ maxBlocks) (r : Reader B) (hr : newReader file = .ok r) : r.bytes = file ∧ ReadsIn r := by
  obtain ⟨hd, blks, buf, bo, fs, hok, hr', hp, hfit⟩ := h.opened hn r hr
  obtain ⟨_, h2, h3, h4⟩ := C08_extents h hn r hr
  have hb : r.bytes = file := by rw [hr']; rfl
  have hh : r.header = hd := by rw [hr']; rfl
  have hsm := hok.small
  have hf1 := hok.bmFits
  have hf2 := hok.fsLe
  have hbo : hd.bitmapOffset.toNat = bo := by
    rw [hok.bmOff, UInt64.toNat_ofNat']; omega
  have hrd : rd32 (slice file bo 4) 0 = UInt32.ofNat buf.length := by
    have := slice_of_slice hok.bmBytes 0 4 (by omega)
    rw [Nat.add_zero] at this
    rw [this]; apply rd32_of_slice; simp [slice, List.take_of_length_le]
  have hle : (UInt32.ofNat buf.length).toNat ≤ buf.length := by
    rw [UInt32.toNat_ofNat']; exact Nat.mod_le _ _
  have hbo64 := hok.bo64
  refine ⟨hb, by rw [hb]; exact hsm, ?_, ?_⟩
  · intro x hx
    obtain ⟨a, b, c⟩ := h2 x hx
    rw [hh, hbo] at c
    rw [hb]
    exact ⟨a, b, by omega⟩
  · rw [hb, hh, hbo, hrd]
    omega

/-- After `Finalize` returned nil the cursor is at the end of the file. -/
theorem finalize_atEnd {env : Env} {opts : List WriterOption} {calls : List Call} {log : Log} {w w1 : Writer B}
    (h : History B env opts calls log w) (hno : NoIOError log) (hb : ∀ ev ∈ log, ev.1.Bounded)
    (hf : finalize env w = (.ok (), w1)) : w1.file.bytes.length ≤ w1.file.pos := by
  obtain ⟨blks, extra, hi, _⟩ := history_faulty h (h.bounded hb) hno.finalize
  obtain ⟨_, _, t, hs⟩ := wp_ok (finalize_spec env w hi.pos64 hi.posLe hi.near) hf
  rw [hs.file]
  exact Nat.le_refl _

/-! ### C61 -/

/-- **C61.** A reader opened on a finalized file whose writer goes on: whatever its calls find in the file, they
return what they return if the file stays as it was when `Finalize` returned. -/
theorem C61_snapshot {env : Env} {opts : List WriterOption} {calls : List Call} {log : Log} {w w1 : Writer B}
    (h : History B env opts calls log w) (hno : NoIOError log) (hb : ∀ ev ∈ log, ev.1.Bounded)
    (hn : (acked log).length ≤ maxBlocks) (hf : finalize env w = (.ok (), w1)) (hsz : w1.file.bytes.length < 2 ^ 63)
    (r : Reader B) (hr : newReader w1.file.bytes = .ok r) (rcalls : List (LiveCall B))
    (hsee : ∀ c ∈ rcalls, c.Finds (MaySee anyCall w1)) :
    (runLive rcalls r).1 = rcalls.map fun c => freshOut r c.still := by
  have hfin : Finalized B env opts log w1.file.bytes := ⟨⟨calls, w, w1, h, hf, rfl⟩, hno, hb, hsz⟩
  obtain ⟨hrb, hin⟩ := hfin.readsIn hn r hr
  have hpos := finalize_atEnd h hno hb hf
  rw [runLive_still rcalls hin fun c hc => ?_, C19_transparent w1.file.bytes r hr, List.map_map]
  · rfl
  · have := hsee c hc
    have key : ∀ f, MaySee anyCall w1 f → Extends 64 r.bytes f := fun f hf => by
      rw [hrb]
      exact hf.extends 64 (fun _ => Nat.le_refl _) hpos
    cases c with
    | enable => trivial
    | disable => trivial
    | getBitmap view => exact fun n => key _ (this n)
    | getPairs now i => exact key _ this
    | aggregate view sched o => exact fun i => key _ (this i)

/-- **C61.** In particular such a reader goes on to deliver exactly the blocks acknowledged before that `Finalize`. -/
theorem C61_blocks {env : Env} {opts : List WriterOption} {calls : List Call} {log : Log} {w w1 : Writer B}
    (h : History B env opts calls log w) (hno : NoIOError log) (hb : ∀ ev ∈ log, ev.1.Bounded)
    (henc : SymEnc (chosenEncoding opts))
    (hn : (acked log).length ≤ maxBlocks) (hf : finalize env w = (.ok (), w1)) (hsz : w1.file.bytes.length < 2 ^ 63)
    (r : Reader B) (hr : newReader w1.file.bytes = .ok r) {now : Bytes} (hsee : MaySee anyCall w1 now) :
    r.blockCount.toNat = (acked log).length ∧
    ∀ (i : Nat) (hi : i < (acked log).length), getPairsLive now r (UInt64.ofNat i) = .ok (acked log)[i] := by
  have hfin : Finalized B env opts log w1.file.bytes := ⟨⟨calls, w, w1, h, hf, rfl⟩, hno, hb, hsz⟩
  have hR := hfin.reads henc hn r hr
  refine ⟨hR.count_toNat, fun i hi => ?_⟩
  have := C61_snapshot h hno hb hn hf hsz r hr [.getPairs now (UInt64.ofNat i)]
    (fun c hc => by rw [List.mem_singleton] at hc; subst hc; exact hsee)
  have h1 := List.head_eq_of_cons_eq this
  have h2 : ReaderOut.pairs (getPairsLive now r (UInt64.ofNat i)) = ReaderOut.pairs (getPairs (B := B) r (UInt64.ofNat i)) := h1
  rw [ReaderOut.pairs.inj h2, hR.read i hi]

/-! ### C62 -/

theorem readBytesAt_extends {f g : Bytes} (hx : Extends 64 f g) (o n : Nat) (ho : 64 ≤ o) (hl : o + n ≤ f.length)
    (hsm : f.length < 2 ^ 63) : readBytesAt g (Int64.ofNat o) (Int64.ofNat n) = .ok (slice f o n) := by
  rw [← readBytesAt_ok f o n hl hsm]
  refine readBytesAt_congr fun p h1 h2 => ?_
  rw [int64_toInt_ofNat _ (by omega), Int.toNat_natCast] at h1 h2
  rw [int64_toInt_ofNat _ (by omega), Int.toNat_natCast] at h2
  exact hx.2 p (by omega) (by omega)

/-- The footer of a finalized file is found although the file has grown since its size was determined. -/
theorem FileOK.readFooter_live {bytes buf : Bytes} {h : FileHeader} {e : UInt32} {blks : List Blk} {bo fs : Nat}
    (H : FileOK bytes h e blks buf bo fs) (hcnt : blks.length < 2 ^ 32) {view : Nat → Bytes}
    (hx : ∀ n, Extends 64 bytes (view n)) (hd : FileHeader) :
    readFooterLive view (Int64.ofNat bytes.length) hd = readFooter bytes hd := by
  have hsm := H.small
  have hfs := H.fs_ge
  have hil := H.index_length
  have hlen := H.length
  have hm : slice bytes (bytes.length - 24) 24 = metaBytes (4 + 56 * blks.length) := by
    rw [hlen, show fs + (4 + 56 * blks.length) + 24 - 24 = fs + (4 + 56 * blks.length) by omega,
      H.slice_foot, slice_append_right _ _ _ _ (by simp only [List.length_append, hil, le32_length]; omega)]
    simp only [List.length_append, hil, le32_length, Nat.sub_self]
    unfold slice; rw [List.drop_zero, List.take_of_length_le (by simp [metaBytes])]
  have hm0 : rd64 (metaBytes (4 + 56 * blks.length)) 0 = UInt64.ofNat (4 + 56 * blks.length) := by
    apply rd64_of_slice; simp [metaBytes]
  have hc : rd32 (slice bytes fs 4) 0 = UInt32.ofNat blks.length := by
    have := H.slice_foot 0 4
    rw [Nat.add_zero] at this
    rw [this]
    apply rd32_of_slice
    simp [slice, List.take_append, List.take_of_length_le]
  have hcn : (UInt32.ofNat blks.length).toNat = blks.length := ofNat32_toNat _ (by omega)
  unfold readFooterLive readFooter
  dsimp only
  have e24 : (24 : Int64) = Int64.ofNat 24 := rfl
  have e4 : (4 : Int64) = Int64.ofNat 4 := rfl
  rw [e24, int64_ofNat_sub _ _ (by omega) hsm, readBytesAt_ok _ _ _ (by omega) hsm,
    readBytesAt_extends (hx 0) _ _ (by omega) (by omega) hsm]
  simp only [Res.ok_bind, hm, hm0]
  rw [uint64_ofNat_toInt64, int64_ofNat_sub _ _ (by omega) (by omega),
    show bytes.length - 24 - (4 + 56 * blks.length) = fs by omega, e4,
    readBytesAt_ok _ _ _ (by omega) hsm, readBytesAt_extends (hx 1) _ _ (by omega) (by omega) hsm]
  simp only [Res.ok_bind, hc, hcn]
  rw [int64_ofNat_add, readBytesAt_ok _ _ _ (by omega) hsm, readBytesAt_extends (hx 2) _ _ (by omega) (by omega) hsm]

/-- **C62.** A file can be opened while blocks are being added to it: if its size is determined when a `Finalize` has
returned, and the header and the footer are read at any later moments before the next `Finalize` is called, the result is the same
reader as if nothing had been added. -/
theorem C62_open {env : Env} {opts : List WriterOption} {calls : List Call} {log : Log} {w w1 : Writer B}
    (h : History B env opts calls log w) (hno : NoIOError log) (hb : ∀ ev ∈ log, ev.1.Bounded)
    (hn : (acked log).length ≤ maxBlocks) (hf : finalize env w = (.ok (), w1)) (hsz : w1.file.bytes.length < 2 ^ 63)
    (view : Nat → Bytes) (hstat : view 0 = w1.file.bytes) (hsee : ∀ n, MaySee notFinalize w1 (view (n + 1))) :
    ∃ r : Reader B, newReader w1.file.bytes = .ok r ∧ newReaderLive view = .ok r := by
  have hfin : Finalized B env opts log w1.file.bytes := ⟨⟨calls, w, w1, h, hf, rfl⟩, hno, hb, hsz⟩
  obtain ⟨hd, blks, buf, bo, fs, hok, hp, _⟩ := hfin.fileOK
  have hl : blks.length = (acked log).length := by rw [← hp, List.length_map]
  unfold maxBlocks at hn
  have h0 := hok.newReader (B := B) (by omega)
  refine ⟨_, h0, ?_⟩
  rw [← h0]
  have hpos := finalize_atEnd h hno hb hf
  have hx : ∀ n, Extends 0 w1.file.bytes (view (n + 1)) := fun n => (hsee n).extends 0 (fun hc => absurd rfl hc) hpos
  have hfs := hok.fs_ge
  have hfs' := hok.fsLe
  have hrh : readHeader (view 1) = readHeader w1.file.bytes := by
    unfold readHeader
    rw [readBytesAt_congr (f := w1.file.bytes) (g := view 1)]
    intro p _ hp'
    rw [show (0 : Int64).toInt.toNat = 0 by decide, show (Int64.ofNat headerSize).toInt.toNat = 64 by decide] at hp'
    exact (hx 0).2 p (by omega) (by omega)
  unfold newReaderLive newReader
  dsimp only
  rw [hrh, hstat]
  congr 1
  funext hdr
  rw [hok.readFooter_live (by omega) (view := fun n => view (n + 2))
    (fun n => ⟨(hx (n + 1)).1, fun i _ h2 => (hx (n + 1)).2 i (by omega) h2⟩)]

/-! #### The header may be newer than the index -/

/-- What is needed to go on after a `Finalize`. -/
theorem History.extend {env : Env} {opts : List WriterOption} {calls calls2 : List Call} {log log2 : Log} {w w1 w2 : Writer B}
    (h : History B env opts calls log w) (hf : finalize env w = (.ok (), w1)) (hrun : runCalls env calls2 w1 = (log2, w2)) :
    History B env opts (calls ++ .finalize :: calls2) (log ++ (.finalize, .ok ()) :: log2) w2 := by
  obtain ⟨w0, hnew, h0⟩ := h.created
  refine ⟨w0, hnew, ?_⟩
  rw [runCalls_append, h0]
  show (log ++ (Call.finalize, (finalize env w).1) :: (runCalls env calls2 (finalize env w).2).1,
    (runCalls env calls2 (finalize env w).2).2) = _
  rw [hf]
  dsimp only
  rw [hrun]

/-- Opening a file if the header that is read is that of a later `Finalize`. -/
theorem mixed_opened {env : Env} {opts : List WriterOption} {calls calls2 : List Call} {log log2 : Log} {w w1 w2 w3 : Writer B}
    (h : History B env opts calls log w) (hf : finalize env w = (.ok (), w1))
    (hrun : runCalls env calls2 w1 = (log2, w2)) (hf3 : finalize env w2 = (.ok (), w3))
    (hno : NoIOError (log ++ log2)) (hb : ∀ ev ∈ log ++ log2, ev.1.Bounded)
    (hn : (acked (log ++ log2)).length ≤ maxBlocks) (hsz : w3.file.bytes.length < 2 ^ 63)
    (view : Nat → Bytes) (hstat : view 0 = w1.file.bytes) (hhdr : readHeader (view 1) = readHeader w3.file.bytes)
    (hx : ∀ n, Extends 64 w1.file.bytes (view (n + 2))) :
    ∃ r1 r3 : Reader B, newReader w1.file.bytes = .ok r1 ∧ newReader w3.file.bytes = .ok r3 ∧
      newReaderLive view = .ok { r1 with header := r3.header } ∧
      r3.header.encodingType = r1.header.encodingType ∧
      r1.blockIndex.length = (acked log).length ∧ r3.header.blockCount.toNat = (acked (log ++ log2)).length := by
  have hnoL : NoIOError log := fun ev hev => hno ev (List.mem_append_left _ hev)
  have hbL : ∀ ev ∈ log, ev.1.Bounded := fun ev hev => hb ev (List.mem_append_left _ hev)
  have h13 : w1.file.bytes.length ≤ w3.file.bytes.length := by
    have h1 : w1.file.bytes.length ≤ w2.file.bytes.length := by
      have := (Crashable.calls (B := B) calls2).grow env w1
      rw [hrun] at this
      exact this
    have h2 : w2.file.bytes.length ≤ w3.file.bytes.length := by
      have := (Crashable.finalize (B := B)).grow env w2
      rw [hf3] at this
      exact this
    omega
  have hack : acked (log ++ log2) = acked log ++ acked log2 := by simp [acked]
  have hack' : acked (log ++ (Call.finalize, Except.ok ()) :: log2) = acked (log ++ log2) := by
    simp [acked, ackedBy]
  have hfin1 : Finalized B env opts log w1.file.bytes := ⟨⟨calls, w, w1, h, hf, rfl⟩, hnoL, hbL, by omega⟩
  have hfin3 : Finalized B env opts (log ++ (.finalize, .ok ()) :: log2) w3.file.bytes := by
    refine ⟨⟨_, w2, w3, h.extend hf hrun, hf3, rfl⟩, ?_, ?_, hsz⟩
    · intro ev hev
      rcases List.mem_append.1 hev with hev | hev
      · exact hno ev (List.mem_append_left _ hev)
      · rcases List.mem_cons.1 hev with rfl | hev
        · simp
        · exact hno ev (List.mem_append_right _ hev)
    · intro ev hev
      rcases List.mem_append.1 hev with hev | hev
      · exact hb ev (List.mem_append_left _ hev)
      · rcases List.mem_cons.1 hev with rfl | hev
        · trivial
        · exact hb ev (List.mem_append_right _ hev)
  obtain ⟨hd1, blks1, buf1, bo1, fs1, hok1, hp1, _⟩ := hfin1.fileOK
  obtain ⟨hd3, blks3, buf3, bo3, fs3, hok3, hp3, _⟩ := hfin3.fileOK
  rw [hack'] at hp3
  have hl1 : blks1.length = (acked log).length := by rw [← hp1, List.length_map]
  have hl3 : blks3.length = (acked (log ++ log2)).length := by rw [← hp3, List.length_map]
  have hl13 : (acked log).length ≤ (acked (log ++ log2)).length := by rw [hack, List.length_append]; omega
  unfold maxBlocks at hn
  have hr1 := hok1.newReader (B := B) (by omega)
  have hr3 := hok3.newReader (B := B) (by omega)
  have hc3 : hd3.blockCount.toNat = blks3.length := by rw [hok3.count, UInt64.toNat_ofNat']; omega
  refine ⟨_, _, hr1, hr3, ?_, hok3.enc.trans hok1.enc.symm, by simp [okReader, hl1], hc3.trans hl3⟩
  unfold newReaderLive
  dsimp only
  rw [hstat, hhdr, hok3.readHeader, Res.ok_bind, hok1.readFooter_live (by omega) hx]
  unfold newReader at hr1
  rw [hok1.readHeader, Res.ok_bind] at hr1
  rw [readFooter_any (fs := fs1) (n := blks1.length) hok1.small (by have := hok1.fs_ge; omega) hok1.fsLe (by omega)
    (by rw [hok1.index_length]) hok1.foot, Res.ok_bind] at hr1 ⊢
  dsimp only at hr1 ⊢
  simp only [Res.ok.injEq] at hr1 ⊢
  rw [if_neg (by rw [UInt64.lt_iff_toNat_lt, UInt64.toNat_ofNat', hc3]; omega)]
  rw [← hr1]
  rfl

/-- **C62.** If the header is read only after a later `Finalize` has returned, the reader has the older index with
the newer header: it delivers the older blocks, in the same encoding, but reports the newer number of blocks. -/
theorem C62_mixed {env : Env} {opts : List WriterOption} {calls calls2 : List Call} {log log2 : Log} {w w1 w2 w3 : Writer B}
    (h : History B env opts calls log w) (hf : finalize env w = (.ok (), w1))
    (hrun : runCalls env calls2 w1 = (log2, w2)) (hf3 : finalize env w2 = (.ok (), w3))
    (hno : NoIOError (log ++ log2)) (hb : ∀ ev ∈ log ++ log2, ev.1.Bounded)
    (hn : (acked (log ++ log2)).length ≤ maxBlocks) (hsz : w3.file.bytes.length < 2 ^ 63)
    (view : Nat → Bytes) (hstat : view 0 = w1.file.bytes) (hhdr : view 1 = w3.file.bytes)
    (hsee : ∀ n, MaySee anyCall w1 (view (n + 2))) :
    ∃ r1 r3 : Reader B, newReader w1.file.bytes = .ok r1 ∧ newReader w3.file.bytes = .ok r3 ∧
      newReaderLive view = .ok { r1 with header := r3.header } ∧
      r3.header.encodingType = r1.header.encodingType ∧
      r1.blockIndex.length = (acked log).length ∧ r3.header.blockCount.toNat = (acked (log ++ log2)).length := by
  have hpos := finalize_atEnd h (fun ev hev => hno ev (List.mem_append_left _ hev))
    (fun ev hev => hb ev (List.mem_append_left _ hev)) hf
  exact mixed_opened h hf hrun hf3 hno hb hn hsz view hstat (by rw [hhdr])
    fun n => (hsee n).extends 64 (fun _ => Nat.le_refl _) hpos

/-- **C62.** Such a reader delivers exactly the older blocks. -/
theorem C62_mixed_blocks {env : Env} {opts : List WriterOption} {calls : List Call} {log : Log} {w w1 : Writer B}
    (h : History B env opts calls log w) (hno : NoIOError log) (hb : ∀ ev ∈ log, ev.1.Bounded)
    (henc : SymEnc (chosenEncoding opts))
    (hn : (acked log).length ≤ maxBlocks) (hf : finalize env w = (.ok (), w1)) (hsz : w1.file.bytes.length < 2 ^ 63)
    (r1 : Reader B) (hr : newReader w1.file.bytes = .ok r1) (hd : FileHeader) (henc' : hd.encodingType = r1.header.encodingType)
    {now : Bytes} (hsee : MaySee anyCall w1 now) (i : UInt64) :
    getPairsLive now { r1 with header := hd } i =
      match (acked log)[i.toNat]? with
      | some b => .ok b
      | none => .err .badBlockIndex := by
  have hfin : Finalized B env opts log w1.file.bytes := ⟨⟨calls, w, w1, h, hf, rfl⟩, hno, hb, hsz⟩
  have e1 : getPairsLive now { r1 with header := hd } i = getPairsLive now r1 i := by
    unfold getPairsLive readBlockLive readBlock
    dsimp only
    rw [henc']
  have hR := hfin.reads henc hn r1 hr
  rw [e1]
  cases hi : (acked log)[i.toNat]? with
  | some b =>
    obtain ⟨hlt, hb'⟩ := List.getElem?_eq_some_iff.mp hi
    have := (C61_blocks h hno hb henc hn hf hsz r1 hr hsee).2 i.toNat hlt
    rw [show UInt64.ofNat i.toNat = i by simp] at this
    rw [this, hb']
  | none =>
    have hge := List.getElem?_eq_none_iff.mp hi
    unfold getPairsLive readBlockLive readBlock
    dsimp only
    by_cases h0 : i.toInt64 < 0
    · rw [if_pos h0]
    · rw [if_neg h0, toInt64_index i h0, List.getElem?_eq_none_iff.mpr (by rw [hR.index]; exact hge)]

omit [Bitmap B] [LawfulBitmap B] in
theorem sumEntries_panic (r : Reader B) (is : List UInt64) (h : ∃ i ∈ is, r.blockIndex.length ≤ i.toNat) (a : Acc) :
    sumEntries r is a = .panic := by
  induction is generalizing a with
  | nil => obtain ⟨_, h, _⟩ := h; cases h
  | cons j js ih =>
    unfold sumEntries
    cases hj : r.blockIndex[j.toNat]? with
    | none => rfl
    | some x =>
      dsimp only
      apply ih
      obtain ⟨i, hi, hle⟩ := h
      rcases List.mem_cons.1 hi with rfl | hi
      · rw [List.getElem?_eq_none_iff.mpr hle] at hj; cases hj
      · exact ⟨i, hi, hle⟩

omit [Bitmap B] [LawfulBitmap B] in
theorem sumEntries_noErr (r : Reader B) (is : List UInt64) (a : Acc) (e : Err) : sumEntries r is a ≠ .err e := by
  induction is generalizing a with
  | nil => nofun
  | cons j js ih =>
    unfold sumEntries
    cases r.blockIndex[j.toNat]? with
    | none => nofun
    | some x => exact ih _

omit [Bitmap B] [LawfulBitmap B] in
theorem footerWorkers_panic (r : Reader B) (idx : List UInt64) (n : Nat) (ws : List Nat)
    (h : ∃ i ∈ (ws.map fun k => workerSlice idx n k).flatten, r.blockIndex.length ≤ i.toNat) :
    workerResults (sumEntries r) idx n ws = .panic := by
  induction ws with
  | nil => obtain ⟨_, h, _⟩ := h; cases h
  | cons k ks ih =>
    rw [workerResults]
    obtain ⟨i, hi, hle⟩ := h
    rw [List.map_cons, List.flatten_cons, List.mem_append] at hi
    cases hs : workerSlice idx n k with
    | nil =>
      rw [hs] at hi
      dsimp only
      rcases hi with hi | hi
      · cases hi
      · exact ih ⟨i, hi, hle⟩
    | cons j js =>
      dsimp only
      rw [hs] at hi
      cases hw : sumEntries r (j :: js) Acc.init with
      | panic => rfl
      | err e => exact absurd hw (sumEntries_noErr r _ _ _)
      | ok a =>
        rcases hi with hi | hi
        · rw [sumEntries_panic r _ ⟨i, hi, hle⟩] at hw; cases hw
        · rw [Res.ok_bind, ih ⟨i, hi, hle⟩]; rfl

omit [LawfulBitmap B] in
/-- **C62.** Aggregating from the index with two or more workers panics on any reader whose header has more blocks than its
index, such as those of `C62_mixed` if a block was acknowledged in between. -/
theorem C62_panics (view : UInt64 → Bytes) (sched : Sched) (r : Reader B) (o : AggregateOptions B)
    (hidx : r.blockIndex ≠ []) (hmore : r.blockIndex.length < r.header.blockCount.toNat) (hsmall : r.header.blockCount.toNat < 2 ^ 63)
    (hskip : o.skipPreCalculated = false) (hf : o.filter = none) (hd : o.denyFilter = none) (hp : 2 ≤ o.parallel) :
    aggregateWithOptionsLive view sched r o = .panic := by
  have hpos : 0 < r.blockIndex.length := List.length_pos_iff.2 hidx
  have hbc : r.header.blockCount.toInt64.toInt = r.header.blockCount.toNat := by
    have : r.header.blockCount.toInt64 = Int64.ofNat r.header.blockCount.toNat := by
      rw [← uint64_ofNat_toInt64]; simp
    rw [this, int64_toInt_ofNat _ hsmall]
  unfold aggregateWithOptionsLive
  rw [if_pos (by omega)]
  unfold aggregateParallelLive
  dsimp only
  rw [hbc, hf, hd, hskip]
  rw [if_neg (show ¬ o.parallel < 0 by omega)]
  generalize hnw : (if o.parallel > (r.header.blockCount.toNat : Int) then (r.header.blockCount.toNat : Int) else o.parallel) = nw
  have hnw2 : 2 ≤ nw := by rw [← hnw]; split <;> omega
  rw [if_neg (by omega)]
  simp only [Option.isSome_none, Option.isNone_none, Bool.false_eq_true, or_self, if_false, and_self, and_true]
  rw [Int.toNat_natCast]
  by_cases hm : maxAlloc < 8 * r.header.blockCount.toNat
  · unfold firstBlocks
    rw [if_pos hm]; rfl
  rw [firstBlocks_ok (by omega), Res.ok_bind, if_neg (by simp; omega), if_pos hpos]
  unfold aggregateParallelWith
  rw [footerWorkers_panic]
  · rfl
  · rw [slices_flatten _ _ (by omega)]
    refine ⟨UInt64.ofNat r.blockIndex.length, List.mem_map.2 ⟨_, ?_, rfl⟩, ?_⟩
    · rw [List.mem_range]; omega
    · rw [UInt64.toNat_ofNat']; omega

omit [LawfulBitmap B] in
/-- **C62.** The ID bitmap such a reader loads is that of the newer file: it may contain IDs of blocks the reader does not
deliver. -/
theorem C62_mixed_bitmap (view : Nat → Bytes) (r1 r3 : Reader B) (h1 : r1.globalIDs = none) (h3 : r3.globalIDs = none) :
    (getGlobalIDBitmapLive view { r1 with header := r3.header }).1 = (getGlobalIDBitmapLive view r3).1 := by
  unfold getGlobalIDBitmapLive
  rw [h3]
  dsimp only
  rw [h1]
  dsimp only
  repeat' split
  all_goals rfl

/-! ### Examples -/

omit [LawfulBitmap B] in
/-- What the file holds at some later moment may be seen. -/
theorem Later.maySee {allowed : Call → Prop} {w : Writer B} {f : Bytes} (h : Later allowed w f) : MaySee allowed w f :=
  ⟨⟨f, h, rfl⟩, fun _ _ => ⟨f, h, rfl⟩⟩

omit [LawfulBitmap B] in
/-- What the file holds now may be seen. -/
theorem Later.now (allowed : Call → Prop) (w : Writer B) : Later allowed w w.file.bytes :=
  ⟨quietEnv, [], nofun, nofun, rfl⟩

/-- The example history: it can be finalized, extended by a block and finalized again. -/
theorem extended_logs : ∃ (calls calls2 : List Call) (log log2 : Log) (w w1 w2 w3 : Writer IdSet),
    History IdSet quietEnv exampleOpts calls log w ∧ finalize quietEnv w = (.ok (), w1) ∧
    runCalls quietEnv calls2 w1 = (log2, w2) ∧ finalize quietEnv w2 = (.ok (), w3) ∧
    NoIOError (log ++ log2) ∧ (∀ ev ∈ log ++ log2, ev.1.Bounded) ∧ (acked log).length = 1 ∧ (acked (log ++ log2)).length = 2 ∧
    w1.file.bytes.length < 2 ^ 63 ∧ w3.file.bytes.length < 2 ^ 63 ∧
    Later notFinalize w1 w2.file.bytes ∧ Later anyCall w1 w3.file.bytes ∧
    log = exampleLog.take 2 ∧ log2 = [(.write [5, 1] [7, -9223372036854775807], .ok ())] := by
  obtain ⟨file, hf⟩ := example_finalized
  obtain ⟨calls, w2, w3, hh, h3, rfl⟩ := hf.made
  obtain ⟨w, hw, hfin, hpost⟩ := hh.split (pre := exampleLog.take 2) (c := .finalize) (r := .ok ())
    (post := exampleLog.drop 3) rfl
  have hfin' : finalize quietEnv w = (.ok (), (finalize quietEnv w).2) := Prod.ext hfin rfl
  have h4 : runCalls quietEnv [.write [5, 1] [7, -9223372036854775807]] (finalize quietEnv w).2 =
    ([(.write [5, 1] [7, -9223372036854775807], .ok ())], w2) := hpost
  have h13 : (finalize quietEnv w).2.file.bytes.length ≤ w3.file.bytes.length := by
    have h1 := (Crashable.calls (B := IdSet) [.write [5, 1] [7, -9223372036854775807]]).grow quietEnv (finalize quietEnv w).2
    rw [h4] at h1
    have h2 := (Crashable.finalize (B := IdSet)).grow quietEnv w2
    rw [h3] at h2
    exact Nat.le_trans h1 h2
  have hsz := hf.size
  refine ⟨_, _, exampleLog.take 2, _, w, _, w2, w3, hw, hfin', h4, h3, ?_, ?_, rfl, rfl, by omega, hsz, ?_, ?_, rfl, rfl⟩
  · intro ev hev
    refine hf.noIOError ev ?_
    rcases List.mem_append.1 hev with hev | hev
    · exact List.mem_of_mem_take hev
    · rw [List.mem_singleton] at hev; subst hev; exact List.mem_of_getElem? (i := 3) rfl
  · intro ev hev
    refine hf.bounded ev ?_
    rcases List.mem_append.1 hev with hev | hev
    · exact List.mem_of_mem_take hev
    · rw [List.mem_singleton] at hev; subst hev; exact List.mem_of_getElem? (i := 3) rfl
  · refine ⟨quietEnv, [.write [5, 1] [7, -9223372036854775807]], ?_, ?_, ?_⟩
    · intro c hc; rw [List.mem_singleton] at hc; subst hc; exact nofun
    · rw [h4]; exact nofun
    · rw [h4]
  · refine ⟨quietEnv, [.write [5, 1] [7, -9223372036854775807]] ++ [.finalize], fun _ _ => trivial, ?_, ?_⟩
    · rw [runCalls_append, h4]
      intro ev hev
      have : ev = (.write [5, 1] [7, -9223372036854775807], .ok ()) := by
        simpa [runCalls] using hev
      subst this
      exact nofun
    · rw [runCalls_finalize, h4, h3]

/-- The same without the logs. -/
theorem extended_example : ∃ (calls calls2 : List Call) (log log2 : Log) (w w1 w2 w3 : Writer IdSet),
    History IdSet quietEnv exampleOpts calls log w ∧ finalize quietEnv w = (.ok (), w1) ∧
    runCalls quietEnv calls2 w1 = (log2, w2) ∧ finalize quietEnv w2 = (.ok (), w3) ∧
    NoIOError (log ++ log2) ∧ (∀ ev ∈ log ++ log2, ev.1.Bounded) ∧ (acked log).length = 1 ∧ (acked (log ++ log2)).length = 2 ∧
    w1.file.bytes.length < 2 ^ 63 ∧ w3.file.bytes.length < 2 ^ 63 ∧
    Later notFinalize w1 w2.file.bytes ∧ Later anyCall w1 w3.file.bytes := by
  obtain ⟨calls, calls2, log, log2, w, w1, w2, w3, h1, h2, h3, h4, h5, h6, h7, h8, h9, h10, h11, h12, _, _⟩ := extended_logs
  exact ⟨calls, calls2, log, log2, w, w1, w2, w3, h1, h2, h3, h4, h5, h6, h7, h8, h9, h10, h11, h12⟩

/-- The hypotheses of `C61_snapshot` are met: a reader reads a block before, and aggregates and loads the bitmap after, a
block was added and the file was finalized again. -/
example : ∃ (calls : List Call) (log : Log) (w w1 w2 w3 : Writer IdSet) (r : Reader IdSet) (rcalls : List (LiveCall IdSet)),
    History IdSet quietEnv exampleOpts calls log w ∧ NoIOError log ∧ (∀ ev ∈ log, ev.1.Bounded) ∧
    (acked log).length ≤ maxBlocks ∧ finalize quietEnv w = (.ok (), w1) ∧ w1.file.bytes.length < 2 ^ 63 ∧
    newReader w1.file.bytes = .ok r ∧ (∀ c ∈ rcalls, c.Finds (MaySee anyCall w1)) ∧
    rcalls = [.getPairs w2.file.bytes 0, .enable, .aggregate (fun _ => w3.file.bytes) inOrder { parallel := 2 },
      .getBitmap (fun n => if n = 0 then w1.file.bytes else w3.file.bytes)] := by
  obtain ⟨calls, calls2, log, log2, w, w1, w2, w3, h, hf, hrun, hf3, hno, hb, hl1, hl2, hs1, hs3, hlat2, hlat3⟩ := extended_example
  have hnoL : NoIOError log := fun ev hev => hno ev (List.mem_append_left _ hev)
  have hbL : ∀ ev ∈ log, ev.1.Bounded := fun ev hev => hb ev (List.mem_append_left _ hev)
  have hfin : Finalized IdSet quietEnv exampleOpts log w1.file.bytes := ⟨⟨calls, w, w1, h, hf, rfl⟩, hnoL, hbL, hs1⟩
  obtain ⟨hd, blks, buf, bo, fs, hok, hp, _⟩ := hfin.fileOK
  have hl : blks.length = 1 := by rw [← hl1, ← hp, List.length_map]
  refine ⟨calls, log, w, w1, w2, w3, _, _, h, hnoL, hbL, by rw [hl1]; decide, hf, hs1, hok.newReader (by omega), ?_, rfl⟩
  have hany : Later anyCall w1 w2.file.bytes := by
    obtain ⟨e, cs, _, a, b⟩ := hlat2
    exact ⟨e, cs, fun _ _ => trivial, a, b⟩
  intro c hc
  simp only [List.mem_cons, List.not_mem_nil, or_false] at hc
  rcases hc with rfl | rfl | rfl | rfl
  · exact hany.maySee
  · trivial
  · exact fun _ => hlat3.maySee
  · intro n
    dsimp only
    split
    · exact (Later.now _ _).maySee
    · exact hlat3.maySee

/-- The hypotheses of `C62_open` are met: the header is read after a block was added, the footer before. -/
example : ∃ (calls : List Call) (log : Log) (w w1 w2 : Writer IdSet) (view : Nat → Bytes),
    History IdSet quietEnv exampleOpts calls log w ∧ NoIOError log ∧ (∀ ev ∈ log, ev.1.Bounded) ∧
    (acked log).length ≤ maxBlocks ∧ finalize quietEnv w = (.ok (), w1) ∧ w1.file.bytes.length < 2 ^ 63 ∧
    view 0 = w1.file.bytes ∧ view 1 = w2.file.bytes ∧ ∀ n, MaySee notFinalize w1 (view (n + 1)) := by
  obtain ⟨calls, calls2, log, log2, w, w1, w2, w3, h, hf, hrun, hf3, hno, hb, hl1, hl2, hs1, hs3, hlat2, hlat3⟩ := extended_example
  refine ⟨calls, log, w, w1, w2, fun n => if n = 1 then w2.file.bytes else w1.file.bytes, h,
    fun ev hev => hno ev (List.mem_append_left _ hev), fun ev hev => hb ev (List.mem_append_left _ hev),
    by rw [hl1]; decide, hf, hs1, rfl, rfl, fun n => ?_⟩
  dsimp only
  split
  · exact hlat2.maySee
  · exact (Later.now _ _).maySee

/-- **C62 is refuted if `Finalize` is among the calls**: there is a run in which `NewReader` succeeds while a block is added and
the file is finalized again, and aggregating with two workers then panics. -/
theorem C62_refuted : ∃ (w1 : Writer IdSet) (view : Nat → Bytes) (r : Reader IdSet),
    view 0 = w1.file.bytes ∧ (∀ n, MaySee anyCall w1 (view n)) ∧ newReaderLive view = .ok r ∧
    ∀ sched : Sched, aggregateWithOptionsLive (fun _ => w1.file.bytes) sched r { parallel := 2 } = .panic := by
  obtain ⟨calls, calls2, log, log2, w, w1, w2, w3, h, hf, hrun, hf3, hno, hb, hl1, hl2, hs1, hs3, hlat2, hlat3⟩ := extended_example
  let view : Nat → Bytes := fun n => if n = 0 then w1.file.bytes else w3.file.bytes
  have hsee : ∀ n, MaySee anyCall w1 (view n) := by
    intro n
    dsimp only [view]
    split
    · exact (Later.now _ _).maySee
    · exact hlat3.maySee
  obtain ⟨r1, r3, hr1, hr3, hlive, _, hix, hbc⟩ := C62_mixed h hf hrun hf3 hno hb (by rw [hl2]; decide) hs3 view rfl rfl
    (fun n => hsee _)
  refine ⟨w1, view, _, rfl, hsee, hlive, fun sched => ?_⟩
  rw [hl1] at hix
  rw [hl2] at hbc
  refine C62_panics _ sched _ _ ?_ ?_ ?_ rfl rfl rfl (by decide)
  · intro hc
    have hc' : r1.blockIndex = [] := hc
    rw [hc'] at hix; cases hix
  · show r1.blockIndex.length < r3.header.blockCount.toNat
    omega
  · show r3.header.blockCount.toNat < 2 ^ 63
    omega

end VibeCol
