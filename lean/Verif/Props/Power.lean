/-
C45, C46: power failures. `MayRemain` (Spec/Power.lean) says which files a power failure may leave.
-/
import Verif.Spec.Power
import Verif.Spec.Simple
import Verif.Lemmas.PowerHist
import Verif.Lemmas.Simple
import Verif.Props.Crash
import Verif.Props.SimpleProgress
set_option linter.unusedSectionVars false
namespace VibeCol
variable {B : Type} [Bitmap B] [LawfulBitmap B]

/-! ### The notion itself -/

/-- The contents as seen by other processes is always one of those that may remain: at any point of a history,
under any faults. -/
theorem C45_current {env : Env} {opts : List WriterOption} {calls : List Call} {log : Log} {w : Writer B}
    (h : History B env opts calls log w) : MayRemain w.disk w.file.bytes := by
  obtain ⟨w0, hnew, hrun⟩ := h.created
  have h0 : Remains (startWriter opts : Writer B) := by
    rw [startWriter_eq]
    exact Remains.synced rfl
  have h1 := CanRemain.writeHeader env _ h0
  change writeHeader env (startWriter opts) = _ at hnew
  rw [hnew] at h1
  have h2 := CanRemain.calls calls env w0 h1
  dsimp only at h2
  rw [hrun] at h2
  exact h2

/-! ### C45: what has been acknowledged survives -/

/-- **C45.** When `WriteBlock` returns nil or `BlockFullError`, the file is on stable storage: a power failure
can leave nothing else, whatever happened before. -/
theorem C45_writeBlock {env : Env} {w w' : Writer B} {ids vals} {r : Result}
    (h : writeBlock ids vals env w = (r, w')) (hr : Acknowledges r) (f : Bytes) :
    MayRemain w'.disk f ↔ f = w'.file.bytes := (writeBlock_synced h hr).remains f

/-- **C45.** The same when `Finalize` returns nil. -/
theorem C45_finalize {env : Env} {w w' : Writer B} (h : finalize env w = (.ok (), w')) (f : Bytes) :
    MayRemain w'.disk f ↔ f = w'.file.bytes := AllSynced.remains (wp_ok (Syncs.finalize env w) h) f

/-- **C45.** A finalized file reads back after a power failure. -/
theorem C45_finalized {env : Env} {opts : List WriterOption} {calls : List Call} {log : Log} {w w' : Writer B}
    (h : History B env opts calls log w) (hno : NoIOError log) (hb : ∀ ev ∈ log, ev.1.Bounded)
    (henc : SymEnc (chosenEncoding opts)) (hn : (acked log).length ≤ maxBlocks)
    (hf : finalize env w = (.ok (), w')) (hsz : w'.file.bytes.length < 2 ^ 63) {f : Bytes} (hr : MayRemain w'.disk f) :
    ReadsBack B f (acked log) := by
  rw [(C45_finalize hf f).mp hr]
  exact C01_roundtrip (env := env) (opts := opts) ⟨⟨calls, w, w', h, hf, rfl⟩, hno, hb, hsz⟩ henc hn

/-- **C45.** Once a block is acknowledged, its bytes and those of all earlier blocks stay on stable storage: after any
further calls under any faults - only the last of them may be a `Finalize` that reported an I/O error -
every file that a power failure may leave agrees with the acknowledged one from the end of the header to its end. -/
theorem C45_kept {env env' : Env} {opts : List WriterOption} {calls more : List Call} {log : Log} {w w1 : Writer B}
    (h : History B env opts calls log w) (hb : ∀ ev ∈ log, ev.1.Bounded) (hno : FinalizeNoIOError log)
    {ids vals} {r : Result} (hid : ids.length ≤ 2 ^ 27) (hw : writeBlock ids vals env w = (r, w1)) (hr : Acknowledges r)
    (hlast : FinalizeNoIOError (runCalls env' more w1).1.dropLast)
    {f : Bytes} (hf : MayRemain (runCalls env' more w1).2.disk f) :
    w1.file.bytes.length ≤ f.length ∧ ∀ i, 64 ≤ i → i < w1.file.bytes.length → f[i]? = w1.file.bytes[i]? := by
  obtain ⟨blks, extra, hi, _⟩ := history_faulty h (h.bounded hb) hno
  obtain ⟨hpos, _⟩ := writeBlock_atEnd hi hid hw hr
  have hs := writeBlock_synced hw hr
  unfold AllSynced at hs
  have hk := runCalls_keep (B := B) (env := env') (dk := True) (lo := 64) (hi := w1.file.bytes.length) (ref := w1.file.bytes)
    more (w := w1) (fun _ => Nat.le_refl _)
    ⟨⟨Nat.le_refl _, fun _ _ _ => rfl, fun _ => by rw [hs]; exact Nat.le_refl _, fun _ _ _ _ => by rw [hs], fun _ p hp => by rw [hs] at hp; cases hp⟩,
      by omega⟩ hlast
  exact ⟨Nat.le_trans (hk.slen trivial) hf.grow, fun i h1 h2 => hk.remains trivial hf i h1 h2⟩

theorem simple_synced (env : Env) (c : SWCall) (sw : SimpleWriter B) (h : sw.closed = true → AllSynced sw.writer) :
    ((c.run env sw).2.closed = true → AllSynced (c.run env sw).2.writer) ∧
      (c = .close → (c.run env sw).1 = .ok () → (c.run env sw).2.closed = true) := by
  by_cases hc : sw.closed = true
  · obtain ⟨h1, _⟩ := closed_call env c sw hc
    rw [h1]
    exact ⟨h, fun _ _ => hc⟩
  · have hc' : sw.closed = false := by simpa using hc
    have flush : ∀ force (s : SimpleWriter B), (flushIfNeeded env force s).2.closed = s.closed := by
      intro force s
      induction hn : s.pendingIDs.length using Nat.strongRecOn generalizing s with
      | ind n ih =>
        rw [flushIfNeeded]
        by_cases h0 : s.pendingIDs.length = 0
        · rw [if_pos h0]
        · rw [if_neg h0]
          dsimp only
          generalize (if (!force) = true then decide (s.pendingIDs.length ≥ 1000) else force) = b
          cases b
          · rfl
          · simp only [if_true]
            split
            · rename_i k w' hw
              have := writeBlock_blockFull_bounds _ _ _ _ _ _ hw
              rw [ih _ (by rw [← hn]; dsimp only; rw [List.length_drop]; omega) _ rfl]
            · rfl
            · rfl
    cases c with
    | setTarget size =>
      refine ⟨fun h' => ?_, fun h' => by cases h'⟩
      simp [SWCall.run, setTargetBlockSize, hc'] at h'
    | write ids vals =>
      refine ⟨fun h' => ?_, fun h' => by cases h'⟩
      exfalso
      simp only [SWCall.run, SimpleWriter.write] at h'
      rw [if_neg hc] at h'
      split at h'
      · exact hc h'
      · split at h'
        · exact hc h'
        · rw [flush] at h'
          exact hc h'
    | close =>
      have hfl := flush true sw
      simp only [SWCall.run, SimpleWriter.close]
      rw [if_neg hc]
      generalize flushIfNeeded env true sw = res at hfl ⊢
      obtain ⟨r, sw'⟩ := res
      have hfl' : sw'.closed = false := hfl.trans hc'
      cases r with
      | error e =>
        refine ⟨fun h' => ?_, fun _ h' => by cases h'⟩
        exact absurd (hfl'.symm.trans h') (by decide)
      | ok u =>
        have hfin : wp finalizeAndClose (fun _ w' => AllSynced w') (fun _ _ => True) env sw'.writer := by
          unfold finalizeAndClose
          refine wp_bind (wp_mono (Syncs.finalize env sw'.writer) (fun _ w1 h1 => ?_) (fun _ _ _ => trivial))
          unfold wp fclose
          by_cases ho : w1.fileOpen = false
          · simp only [ho, if_true]
          · simp only [if_neg ho]
            rcases hf : env.fault w1.opNo with _ | k
            · exact h1
            · trivial
        dsimp only
        rcases hr : finalizeAndClose env sw'.writer with ⟨r, w'⟩
        cases r with
        | error e =>
          refine ⟨fun h' => ?_, fun _ h' => by cases h'⟩
          exact absurd (hfl'.symm.trans h') (by decide)
        | ok u => exact ⟨fun _ => wp_ok hfin hr, fun _ _ => rfl⟩

/-- **C45.** After a `Close` of a `SimpleWriter` has returned nil - whatever else was called before and after, under any
faults - a power failure can leave nothing but the finished file. -/
theorem C45_close {env : Env} {opts : List WriterOption} {calls : List SWCall} {log : SWLog} {sw : SimpleWriter B}
    (h : SWHistory B env opts calls log sw) (hc : (SWCall.close, Except.ok ()) ∈ log) (f : Bytes) :
    MayRemain sw.writer.disk f ↔ f = sw.writer.file.bytes := by
  obtain ⟨sw0, h0, hrun⟩ := h.created
  have hopen : sw0.closed = true → AllSynced sw0.writer := by
    unfold newSimpleWriter at h0
    split at h0
    · cases h0
    · cases h0
      intro h; cases h
  have key : ∀ (calls : List SWCall) (sw0 : SimpleWriter B), (sw0.closed = true → AllSynced sw0.writer) →
      ((runSW env calls sw0).2.closed = true → AllSynced (runSW env calls sw0).2.writer) ∧
      (((SWCall.close, Except.ok ()) ∈ (runSW env calls sw0).1 ∨ sw0.closed = true) → (runSW env calls sw0).2.closed = true) := by
    intro calls
    induction calls with
    | nil =>
      intro sw0 h
      refine ⟨h, fun h' => ?_⟩
      rcases h' with h' | h'
      · cases h'
      · exact h'
    | cons c cs ih =>
      intro sw0 h
      have hr : runSW env (c :: cs) sw0 =
        ((c, (c.run env sw0).1) :: (runSW env cs (c.run env sw0).2).1, (runSW env cs (c.run env sw0).2).2) := rfl
      obtain ⟨h1, h2⟩ := simple_synced env c sw0 h
      obtain ⟨h3, h4⟩ := ih _ h1
      rw [hr]
      refine ⟨h3, fun h' => h4 ?_⟩
      rcases h' with h' | h'
      · rcases List.mem_cons.1 h' with h' | h'
        · right
          injection h' with e1 e2
          exact h2 e1.symm e2.symm
        · exact .inl h'
      · right
        rw [(closed_call env c sw0 h').1]
        exact h'
  obtain ⟨h1, h2⟩ := key calls sw0 hopen
  rw [hrun] at h1 h2
  exact AllSynced.remains (h1 (h2 (.inl hc))) f

/-! ### C46: power failures during `Finalize` -/

/-- What the theorems below have in common: a history without I/O errors and without `Finalize`, in which a block was
acknowledged. -/
structure ReadyToFinalize (B : Type) [Bitmap B] (env : Env) (opts : List WriterOption) (log : Log) (w : Writer B) : Prop where
  history : ∃ calls, History B env opts calls log w
  noIOError : NoIOError log
  bounded : ∀ ev ∈ log, ev.1.Bounded
  symEnc : SymEnc (chosenEncoding opts)
  first : ∀ ev ∈ log, ev.1 ≠ .finalize
  some : acked log ≠ []
  few : (acked log).length ≤ maxBlocks

theorem ReadyToFinalize.facts {env : Env} {opts : List WriterOption} {log : Log} {w : Writer B}
    (H : ReadyToFinalize B env opts log w) :
    ∃ blks t, Inv w blks [] ∧ Clean w blks ∧ blks.map Blk.pairs = acked log ∧ w.encodingType = chosenEncoding opts ∧
      AllSynced w ∧ ∀ i, i < 64 → w.file.bytes[i]? = (startBytes t opts)[i]? := by
  obtain ⟨calls, h⟩ := H.history
  have hb := h.bounded H.bounded
  have hfirst : .finalize ∉ calls := by
    rw [h.calls_eq]
    intro hm
    obtain ⟨ev, hev, he⟩ := List.mem_map.1 hm
    exact H.first ev hev he
  obtain ⟨blks, hi, hc, hp, _, he, _⟩ := history_clean h hb H.symEnc H.noIOError
  obtain ⟨t, ht⟩ := history_start h H.noIOError hfirst
  have hmis := history_noMismatch h hb H.symEnc.allMatch H.noIOError.finalize
  refine ⟨blks, t, hi, hc, hp, he, ?_, ht⟩
  obtain ⟨w0, hnew, hrun⟩ := h.created
  obtain ⟨hi0, _⟩ := newWriter_inv hnew
  have hs := runCalls_synced (env := env) calls hb hi0 (by rw [hrun]; exact H.noIOError) (by rw [hrun]; exact hmis) hfirst
    (.inr (by rw [hrun]; exact H.some))
  rw [hrun] at hs
  exact hs

theorem startBytes_low (t : UInt64) (opts : List WriterOption) (i : Nat) (hi : i < 60) :
    (startBytes t opts)[i]? = (newFileHeader t 0 (chosenBlockSize opts) (chosenEncoding opts)).fields.flatten[i]? := by
  unfold startBytes
  rw [List.getElem?_append_left (by rw [headerFields_length]; omega)]

/-- Each of the first 60 bytes that may remain is the old or the new one; the blocks are untouched. -/
theorem finalize_remains {env1 : Env} {w w1 : Writer B} {r1 : Result} {blks extra} (hi : Inv w blks extra) (hs : AllSynced w)
    (h1 : finalize env1 w = (r1, w1)) {f : Bytes} (hf : MayRemain w1.disk f) :
    (∃ t, ∀ i, i < 60 → f[i]? = w.file.bytes[i]? ∨ f[i]? = (finHeader t w).fields.flatten[i]?) ∧
    ∀ i, 64 ≤ i → i < w.file.pos → f[i]? = w.file.bytes[i]? := by
  have hs' := hs
  unfold AllSynced at hs'
  have h64 := hi.pos64
  have hle := hi.posLe
  constructor
  · obtain ⟨t, ht⟩ := finalize_header hi.pos64 hi.posLe hi.near h1
    refine ⟨t, fun i hi60 => ?_⟩
    cases r1 with
    | ok u =>
      rw [(C45_finalize h1 f).mp hf]
      exact ht i hi60
    | error e =>
      have hA : LowA w.file.bytes w := ⟨by rw [hs'], by rw [hs']; intro p hp; exact (List.not_mem_nil hp).elim, h64, by omega⟩
      have hL := wp_error (finalize_low (env := env1) hA) h1
      have hsl : 64 ≤ w1.disk.synced.length := by rw [hL.synced]; omega
      have hfl := hf.grow
      have hb := List.getElem?_eq_getElem (l := f) (i := i) (by omega)
      rcases hf.byte i _ hb with h' | ⟨h', _⟩ | ⟨p, hp, hle', hv⟩
      · left; rw [hb, ← h', hL.synced]
      · omega
      · have := hL.low p hp (i - p.1) _ (by omega) hv
        rw [Nat.add_sub_cancel' hle'] at this
        rw [hb, ← this]
        exact ht i hi60
  · have hk := finalize_keep (B := B) (env := env1) (dk := True) (lo := 64) (hi := w.file.pos) (ref := w.file.bytes) (w := w)
      (Nat.le_refl _)
      ⟨⟨hle, fun _ _ _ => rfl, fun _ => by rw [hs']; exact hle, fun _ _ _ _ => by rw [hs'], fun _ p hp => by rw [hs'] at hp; cases hp⟩,
        Nat.le_refl _⟩
    have hk' : KeepD True 64 w.file.pos w.file.bytes w1 := by
      cases r1 with
      | ok u => exact (wp_ok hk h1).1
      | error e => exact (wp_error hk h1).1
    exact fun i h1 h2 => hk'.remains trivial hf i h1 h2

/-- `Finalize` and a power failure, for any clean state in which everything is synced. -/
theorem finalize_power {w : Writer B} {blks : List Blk} {t0 : UInt64} {opts : List WriterOption} (hi : Inv w blks []) (hc : Clean w blks)
    (he : w.encodingType = chosenEncoding opts) (hs : AllSynced w) (ht0 : ∀ i, i < 64 → w.file.bytes[i]? = (startBytes t0 opts)[i]?)
    (henc : SymEnc (chosenEncoding opts)) (hn : blks.length ≤ maxBlocks)
    {env1 env2 : Env} {w1 w2 : Writer B} {r1 : Result} (h1 : finalize env1 w = (r1, w1)) (h2 : finalize env2 w = (.ok (), w2))
    (hsz : w2.file.bytes.length < 2 ^ 63) {f : Bytes} (hf : MayRemain w1.disk f)
    (hlen : f.length = w2.file.bytes.length)
    (htail : f.drop (f.length - (28 + 56 * blks.length)) =
      w2.file.bytes.drop (w2.file.bytes.length - (28 + 56 * blks.length))) :
    ReadsBack B f (blks.map Blk.pairs) := by
  have hcnt : w.blockCount = 0 ∨ w.blockPositions.length = w.blockCount := by
    right; rw [hc.positions, hi.cnt]; simp
  obtain ⟨_, _, t2, hs2⟩ := wp_ok (finalize_spec env2 w hi.pos64 hi.posLe hi.near) h2
  obtain ⟨_, _, _, _, hok, _⟩ := final_inv w w2 blks [] hi hcnt t2 hs2
  obtain ⟨hd, bo, fs, hok, _, hbo⟩ := hok hsz
  rw [he] at hok
  have hL := hok.length
  obtain ⟨⟨t1, hhead⟩, hbody⟩ := finalize_remains hi hs h1 hf
  have hF : ∀ i, 64 ≤ i → i < w.file.pos → w2.file.bytes[i]? = w.file.bytes[i]? := by
    have := (finalize_remains hi hs h2 ((C45_finalize h2 _).mpr rfl)).2
    exact this
  obtain ⟨r, hr, hR, _⟩ := mixed_reads (B := B) (f := f) (a := newFileHeader t0 0 (chosenBlockSize opts) (chosenEncoding opts))
    (b := finHeader t1 w) hok henc hn
    (fun i h60 => by
      rw [← startBytes_low t0 opts i h60, ← ht0 i (by omega)]
      exact hhead i h60)
    ⟨rfl, rfl, rfl, rfl⟩
    ⟨rfl, rfl, he, by rw [hok.count]; show UInt64.ofNat w.blockCount = _; rw [hi.cnt]⟩
    hlen
    (fun i h64 hib => by rw [hbody i h64 (by omega), hF i h64 (by omega)])
    (by
      have e : w2.file.bytes.length - (28 + 56 * blks.length) = fs := by omega
      rw [hlen, e] at htail
      exact htail)
  exact ⟨r, hr, hR.count_toNat, hR.read⟩

/-- **C46.** The power fails during the first `Finalize`, or right after it, at any point. Whatever of its writes arrived: if the file
that remains has full length and its index and footer arrived - the last `28 + 56 n` bytes are those of any
uninterrupted `Finalize` in the same state - then it opens and every acknowledged block reads back, even if the
new header did not arrive or arrived in parts. -/
theorem C46_recovers {env : Env} {opts : List WriterOption} {log : Log} {w : Writer B} (H : ReadyToFinalize B env opts log w)
    {env1 env2 : Env} {w1 w2 : Writer B} {r1 : Result} (h1 : finalize env1 w = (r1, w1)) (h2 : finalize env2 w = (.ok (), w2))
    (hsz : w2.file.bytes.length < 2 ^ 63) {f : Bytes} (hf : MayRemain w1.disk f)
    (hlen : f.length = w2.file.bytes.length)
    (htail : f.drop (f.length - (28 + 56 * (acked log).length)) =
      w2.file.bytes.drop (w2.file.bytes.length - (28 + 56 * (acked log).length))) :
    ReadsBack B f (acked log) := by
  obtain ⟨blks, t0, hi, hc, hp, he, hs, ht0⟩ := H.facts
  have hn := H.few
  have hbl : blks.length = (acked log).length := by rw [← hp, List.length_map]
  rw [← hbl] at htail hn
  rw [← hp]
  exact finalize_power hi hc he hs ht0 H.symEnc hn h1 h2 hsz hf hlen htail

/-- Replacing bytes by synced ones, or by zeros beyond the synced contents, gives a file that may remain too. -/
theorem MayRemain.mix {d : Disk} {f g : Bytes} (hf : MayRemain d f) (hl : g.length = f.length)
    (h : ∀ i b, g[i]? = some b → f[i]? = some b ∨ d.synced[i]? = some b ∨ (d.synced.length ≤ i ∧ b = 0)) : MayRemain d g := by
  refine ⟨by rw [hl]; exact hf.grow, by rw [hl]; exact hf.bound, fun i b hb => ?_⟩
  rcases h i b hb with h' | h' | h'
  · exact hf.byte i b h'
  · exact .inl h'
  · exact .inr (.inl h')

theorem readHeader_fields {f : Bytes} {a : FileHeader} (hl : 64 ≤ f.length) (hsm : f.length < 2 ^ 63)
    (hm : a.magic = magicNumber) (hv : a.version = version) (h : ∀ i, i < 60 → f[i]? = a.fields.flatten[i]?) :
    readHeader f = .ok a := by
  unfold VibeCol.readHeader
  rw [show (0 : Int64) = Int64.ofNat 0 from rfl, readBytesAt_ok _ _ _ (by simp [headerSize]; omega) hsm]
  have hp : parseHeader (slice f 0 headerSize) = a := by
    apply parseHeader_fields
    rw [slice_zero_take, List.take_take, show min 60 headerSize = 60 from rfl]
    refine List.ext_getElem? fun i => ?_
    by_cases hi : i < 60
    · rw [List.getElem?_take_of_lt hi, h i hi]
    · rw [List.getElem?_eq_none (by rw [List.length_take]; omega), List.getElem?_eq_none (by rw [headerFields_length]; omega)]
  simp only [Res.ok_bind, hp, hm, hv, ne_eq, not_true, if_false]

/-- An index region of zeros is an empty index. -/
theorem readFooter_zeros {bytes : Bytes} {fs m : Nat} (hsm : bytes.length < 2 ^ 63) (hfs : 64 ≤ fs) (hle : fs ≤ bytes.length)
    (hfoot : bytes.drop fs = List.replicate (4 + m) 0 ++ metaBytes (4 + m)) (hd : FileHeader) :
    readFooter bytes hd = .ok (hd, { footerSize := UInt64.ofNat (4 + m), checksum := 0, magic := magicNumber }, []) := by
  have hl : bytes.length = fs + (4 + m) + 24 := by
    have h1 := congrArg List.length hfoot
    simp only [List.length_drop, List.length_append, List.length_replicate, metaBytes, le64_length] at h1
    omega
  have hsf : ∀ o k, slice bytes (fs + o) k = slice (List.replicate (4 + m) 0 ++ metaBytes (4 + m)) o k := by
    intro o k; rw [← hfoot]; unfold slice; rw [List.drop_drop]
  have hm : slice bytes (bytes.length - 24) 24 = metaBytes (4 + m) := by
    rw [hl, show fs + (4 + m) + 24 - 24 = fs + (4 + m) by omega,
      hsf, slice_append_right _ _ _ _ (by simp)]
    simp only [List.length_replicate, Nat.sub_self]
    unfold slice; rw [List.drop_zero, List.take_of_length_le (by simp [metaBytes])]
  have hm0 : rd64 (metaBytes (4 + m)) 0 = UInt64.ofNat (4 + m) := by
    apply rd64_of_slice; simp [metaBytes]
  have hm8 : rd64 (metaBytes (4 + m)) 8 = 0 := by
    apply rd64_of_slice; simp [metaBytes]
  have hm16 : rd64 (metaBytes (4 + m)) 16 = magicNumber := by
    apply rd64_of_slice; simp [metaBytes, List.drop_append, List.drop_eq_nil_of_le, List.take_of_length_le]
  have hc : rd32 (slice bytes fs 4) 0 = 0 := by
    have := hsf 0 4
    rw [Nat.add_zero] at this
    rw [this]
    apply rd32_of_slice
    rw [slice_append_left _ _ _ _ (by rw [List.length_replicate]; omega)]
    unfold slice
    rw [List.drop_zero, List.drop_zero, List.take_replicate, show min 4 (4 + m) = 4 by omega]
    decide
  unfold readFooter
  dsimp only
  rw [show (24 : Int64) = Int64.ofNat 24 from rfl, if_neg (by
    rw [int64_ofNat_lt _ _ hsm (by decide)]; omega),
    int64_ofNat_sub _ _ (by omega) hsm, readBytesAt_ok _ _ _ (by omega) hsm]
  simp only [Res.ok_bind, hm, hm0, hm8, hm16, ne_eq, not_true, if_false]
  rw [uint64_ofNat_toInt64, int64_ofNat_sub _ _ (by omega) (by omega),
    show (64 : Int64) = Int64.ofNat 64 from rfl, if_neg (by
      rw [int64_ofNat_lt _ _ (by omega) (by decide)]; omega),
    show bytes.length - 24 - (4 + m) = fs by omega,
    show (4 : Int64) = Int64.ofNat 4 from rfl, readBytesAt_ok _ _ _ (by omega) hsm]
  simp only [Res.ok_bind, hc]
  rw [int64_ofNat_add, show ((0 : UInt32).toNat * 56) = 0 from rfl, readBytesAt_ok _ _ _ (by omega) hsm]
  simp only [Res.ok_bind]
  have h0 : (UInt32.toUInt64 0) = 0 := rfl
  rw [h0]
  have hlt : ¬ (0 > hd.blockCount) := by
    intro h
    rw [gt_iff_lt, UInt64.lt_iff_toNat_lt] at h
    exact Nat.not_lt_zero _ h
  rw [if_neg hlt, ite_self]
  rfl

/-- What the two refutations have in common: the power fails in the final `Sync`. -/
theorem sync_crash_at {env2 : Env} {w w2 : Writer B} (h2 : finalize env2 w = (.ok (), w2)) (hs : AllSynced w) (h64 : 64 ≤ w.file.pos)
    (hle : w.file.pos ≤ w.file.bytes.length) :
    ∃ w1, finalize (env2.crashAt (w2.opNo - 1) 0) w = (.error .io, w1) ∧ w1.file = w2.file ∧ w1.disk.synced = w.file.bytes ∧
      MayRemain w1.disk w2.file.bytes := by
  obtain ⟨_, hcr⟩ := EndsInSync.finalize env2 w w2 h2
  obtain ⟨d, hd⟩ := hcr 0
  refine ⟨_, hd, rfl, ?_, ?_⟩
  · have hs' := hs
    unfold AllSynced at hs'
    have hA : LowA w.file.bytes w := ⟨by rw [hs'], by rw [hs']; intro p hp; exact (List.not_mem_nil hp).elim, h64, by omega⟩
    exact (wp_error (finalize_low hA) hd).synced
  · have := CanRemain.finalize (env2.crashAt (w2.opNo - 1) 0) w (Remains.synced hs)
    rw [hd] at this
    exact this

theorem sync_crash {env2 : Env} {w w2 : Writer B} (h2 : finalize env2 w = (.ok (), w2)) (hs : AllSynced w) (h64 : 64 ≤ w.file.pos)
    (hle : w.file.pos ≤ w.file.bytes.length) :
    ∃ env1 w1, finalize env1 w = (.error .io, w1) ∧ w1.file = w2.file ∧ w1.disk.synced = w.file.bytes ∧
      MayRemain w1.disk w2.file.bytes := ⟨_, sync_crash_at h2 hs h64 hle⟩

/-- **C46, refuted in general: the bitmap.** After every such history, if the power fails in the final `Sync` of `Finalize`, a file may
remain that opens and in which every block reads back, while `GetGlobalIDBitmap` returns an empty bitmap. -/
theorem C46_refuted_bitmap {env : Env} {opts : List WriterOption} {log : Log} {w : Writer B} (H : ReadyToFinalize B env opts log w)
    {env2 : Env} {w2 : Writer B} (h2 : finalize env2 w = (.ok (), w2)) (hsz : w2.file.bytes.length < 2 ^ 63) :
    ∃ env1 w1 f, finalize env1 w = (.error .io, w1) ∧ MayRemain w1.disk f ∧ ReadsBack B f (acked log) ∧
      ∃ r : Reader B, newReader f = .ok r ∧ (getGlobalIDBitmap r).1 = .ok Bitmap.empty := by
  obtain ⟨blks, t0, hi, hc, hp, he, hs, ht0⟩ := H.facts
  have henc := H.symEnc
  have hn := H.few
  have h64 := hi.pos64
  have hle := hi.posLe
  have hbl : blks.length = (acked log).length := by rw [← hp, List.length_map]
  obtain ⟨env1, w1, h1, hw1, hsy, hrem⟩ := sync_crash h2 hs h64 hle
  have hcnt : w.blockCount = 0 ∨ w.blockPositions.length = w.blockCount := by
    right; rw [hc.positions, hi.cnt]; simp
  obtain ⟨_, _, t2, hs2⟩ := wp_ok (finalize_spec env2 w hi.pos64 hi.posLe hi.near) h2
  obtain ⟨_, _, _, _, hok, _⟩ := final_inv w w2 blks [] hi hcnt t2 hs2
  obtain ⟨hd, bo, fs, hok, _, hbo⟩ := hok hsz
  rw [he] at hok
  have hL := hok.length
  have hfs := hok.fs_ge
  have hlt : (w.file.bytes.take 64).length = 64 := by rw [List.length_take]; omega
  have hglen : (w.file.bytes.take 64 ++ w2.file.bytes.drop 64).length = w2.file.bytes.length := by
    rw [List.length_append, List.length_drop, hlt]; omega
  have hlow : ∀ i, i < 64 → (w.file.bytes.take 64 ++ w2.file.bytes.drop 64)[i]? = w.file.bytes[i]? := by
    intro i h
    rw [List.getElem?_append_left (by omega), List.getElem?_take_of_lt h]
  have hhigh : ∀ i, 64 ≤ i → (w.file.bytes.take 64 ++ w2.file.bytes.drop 64)[i]? = w2.file.bytes[i]? := by
    intro i h
    rw [List.getElem?_append_right (by omega), List.getElem?_drop, hlt, Nat.add_sub_cancel' h]
  generalize w.file.bytes.take 64 ++ w2.file.bytes.drop 64 = f at hglen hlow hhigh
  have hf : MayRemain w1.disk f := by
    refine hrem.mix hglen fun i b hb => ?_
    by_cases h : i < 64
    · rw [hlow i h] at hb
      exact .inr (.inl (by rw [hsy]; exact hb))
    · rw [hhigh i (by omega)] at hb
      exact .inl hb
  obtain ⟨r, hr, hR, hrh, _, hrg⟩ := mixed_reads (B := B) (f := f) (a := newFileHeader t0 0 (chosenBlockSize opts) (chosenEncoding opts))
    (b := finHeader t2 w) hok henc (by omega)
    (fun i h60 => by
      rw [← startBytes_low t0 opts i h60, ← ht0 i (by omega)]
      exact .inl (hlow i (by omega)))
    ⟨rfl, rfl, rfl, rfl⟩
    ⟨rfl, rfl, he, by rw [hok.count]; show UInt64.ofNat w.blockCount = _; rw [hi.cnt]⟩
    hglen
    (fun i h64 _ => hhigh i h64)
    (by
      refine List.ext_getElem? fun i => ?_
      rw [List.getElem?_drop, List.getElem?_drop]
      exact hhigh _ (by omega))
  have hhead := readHeader_fields (f := f) (a := newFileHeader t0 0 (chosenBlockSize opts) (chosenEncoding opts))
    (by omega) (by omega) rfl rfl
    (fun i h60 => by rw [hlow i (by omega), ht0 i (by omega), startBytes_low t0 opts i h60])
  have hrh' := hrh _ hhead
  rw [show (blks.map fun b => (b.ids, b.vals)) = acked log from hp] at hR
  refine ⟨env1, w1, f, h1, hf, ⟨r, hr, hR.count_toNat, hR.read⟩, r, hr, ?_⟩
  unfold getGlobalIDBitmap
  rw [hrg]
  dsimp only
  rw [if_pos (.inl (by rw [hrh']; rfl))]

/-- `C46_refuted_empty`, with the moment of the power failure: the last operation of `Finalize`. -/
theorem refuted_empty_at {env : Env} {opts : List WriterOption} {log : Log} {w : Writer B} (H : ReadyToFinalize B env opts log w)
    {env2 : Env} {w2 : Writer B} (h2 : finalize env2 w = (.ok (), w2)) (hsz : w2.file.bytes.length < 2 ^ 63) :
    ∃ w1 f, finalize (env2.crashAt (w2.opNo - 1) 0) w = (.error .io, w1) ∧ MayRemain w1.disk f ∧ ReadsBack B f [] := by
  obtain ⟨blks, t0, hi, hc, hp, he, hs, ht0⟩ := H.facts
  have hn := H.few
  have h64 := hi.pos64
  have hle := hi.posLe
  have hnear := hi.near
  obtain ⟨w1, h1, hw1, hsy, hrem⟩ := sync_crash_at h2 hs h64 hle
  have hcnt : w.blockCount = 0 ∨ w.blockPositions.length = w.blockCount := by
    right; rw [hc.positions, hi.cnt]; simp
  obtain ⟨_, _, t2, hs2⟩ := wp_ok (finalize_spec env2 w hi.pos64 hi.posLe hi.near) h2
  obtain ⟨_, _, _, _, hok, _⟩ := final_inv w w2 blks [] hi hcnt t2 hs2
  obtain ⟨hd, bo, fs, hok, _, hbo⟩ := hok hsz
  have hL := hok.length
  have hfs := hok.fs_ge
  have hfit := hok.bmFits
  have hbl : blks.length = (acked log).length := by rw [← hp, List.length_map]
  have hmeta : w2.file.bytes.drop (fs + (4 + 56 * blks.length)) = metaBytes (4 + 56 * blks.length) := by
    rw [← List.drop_drop, hok.foot, List.drop_append_of_le_length (by
      simp only [List.length_append, le32_length, hok.index_length]; omega), List.drop_eq_nil_of_le (by
      simp only [List.length_append, le32_length, hok.index_length]; omega), List.nil_append]
  have hml : (metaBytes (4 + 56 * blks.length)).length = 24 := by simp [metaBytes]
  have hlt : (w.file.bytes.take 64).length = 64 := by rw [List.length_take]; omega
  have hpre : (w.file.bytes.take 64 ++ (w2.file.bytes.drop 64).take (fs - 64)).length = fs := by
    rw [List.length_append, hlt, List.length_take, List.length_drop]; omega
  generalize hG : (w.file.bytes.take 64 ++ (w2.file.bytes.drop 64).take (fs - 64)) ++
    (List.replicate (4 + 56 * blks.length) (0 : UInt8) ++ metaBytes (4 + 56 * blks.length)) = f
  have hglen : f.length = w2.file.bytes.length := by
    rw [← hG, List.length_append, hpre, List.length_append, List.length_replicate, hml]; omega
  have hlow : ∀ i, i < 64 → f[i]? = w.file.bytes[i]? := by
    intro i h
    rw [← hG, List.getElem?_append_left (by omega), List.getElem?_append_left (by omega), List.getElem?_take_of_lt h]
  have hmid : ∀ i, 64 ≤ i → i < fs → f[i]? = w2.file.bytes[i]? := by
    intro i h h'
    rw [← hG, List.getElem?_append_left (by omega), List.getElem?_append_right (by omega), hlt,
      List.getElem?_take_of_lt (by omega), List.getElem?_drop, Nat.add_sub_cancel' h]
  have hdrop : f.drop fs = List.replicate (4 + 56 * blks.length) (0 : UInt8) ++ metaBytes (4 + 56 * blks.length) := by
    rw [← hG, List.drop_left' hpre]
  have hf : MayRemain w1.disk f := by
    refine hrem.mix hglen fun i b hb => ?_
    by_cases h : i < 64
    · rw [hlow i h] at hb
      exact .inr (.inl (by rw [hsy]; exact hb))
    · by_cases h' : i < fs
      · rw [hmid i (by omega) h'] at hb
        exact .inl hb
      · have e : f[i]? = (f.drop fs)[i - fs]? := by rw [List.getElem?_drop, Nat.add_sub_cancel' (by omega)]
        rw [e, hdrop] at hb
        by_cases hz : i - fs < 4 + 56 * blks.length
        · rw [List.getElem?_append_left (by rw [List.length_replicate]; exact hz)] at hb
          obtain ⟨_, hb⟩ := List.getElem?_eq_some_iff.mp hb
          rw [List.getElem_replicate] at hb
          exact .inr (.inr ⟨by rw [hsy]; omega, hb.symm⟩)
        · left
          rw [List.getElem?_append_right (by rw [List.length_replicate]; omega), ← hmeta, List.getElem?_drop,
            List.length_replicate] at hb
          rw [show fs + (4 + 56 * blks.length) + (i - fs - (4 + 56 * blks.length)) = i by omega] at hb
          exact hb
  have hhead := readHeader_fields (f := f) (a := newFileHeader t0 0 (chosenBlockSize opts) (chosenEncoding opts))
    (by omega) (by omega) rfl rfl
    (fun i h60 => by rw [hlow i (by omega), ht0 i (by omega), startBytes_low t0 opts i h60])
  have hft := readFooter_zeros (bytes := f) (fs := fs) (m := 56 * blks.length) (by omega) (by omega) (by omega) hdrop
    (newFileHeader t0 0 (chosenBlockSize opts) (chosenEncoding opts))
  refine ⟨w1, f, h1, hf, ?_⟩
  refine ⟨{ bytes := f, header := newFileHeader t0 0 (chosenBlockSize opts) (chosenEncoding opts),
            footerMeta := { footerSize := UInt64.ofNat (4 + 56 * blks.length), checksum := 0, magic := magicNumber },
            blockIndex := [], globalIDs := none, cacheGlobalIDs := false }, ?_, rfl, fun i h => absurd h (Nat.not_lt_zero _)⟩
  unfold newReader
  rw [hhead]
  simp only [Res.ok_bind]
  rw [hft]
  rfl

/-- **C46, refuted in general: the contents.** In the same situation a file may remain that opens as a file without any block,
although blocks were acknowledged. -/
theorem C46_refuted_empty {env : Env} {opts : List WriterOption} {log : Log} {w : Writer B} (H : ReadyToFinalize B env opts log w)
    {env2 : Env} {w2 : Writer B} (h2 : finalize env2 w = (.ok (), w2)) (hsz : w2.file.bytes.length < 2 ^ 63) :
    ∃ env1 w1 f, finalize env1 w = (.error .io, w1) ∧ MayRemain w1.disk f ∧ ReadsBack B f [] := ⟨_, refuted_empty_at H h2 hsz⟩

/-! ### Instances -/

/-- Non-vacuity: the history with full blocks. -/
theorem ready_example : ∃ w w2 : Writer IdSet, ReadyToFinalize IdSet quietEnv fullOpts fullLog w ∧
    finalize quietEnv w = (.ok (), w2) ∧ w2.file.bytes.length < 2 ^ 63 := by
  obtain ⟨file, h⟩ := full_finalized
  obtain ⟨calls, w, w2, hh, hf, rfl⟩ := h.made
  exact ⟨w, w2, ⟨⟨calls, hh⟩, h.noIOError, h.bounded, by unfold SymEnc; decide, by decide, by decide, by decide⟩, hf, h.size⟩

/-- Non-vacuity of C46: a file that may remain and meets the conditions, but is not the finished file. -/
example : ∃ (w w1 w2 : Writer IdSet) (env1 : Env) (f : Bytes), ReadyToFinalize IdSet quietEnv fullOpts fullLog w ∧
    finalize env1 w = (.error .io, w1) ∧ finalize quietEnv w = (.ok (), w2) ∧ MayRemain w1.disk f ∧ (acked fullLog).length = 3 ∧
    ReadsBack IdSet f (acked fullLog) := by
  obtain ⟨w, w2, h1, h2, h3⟩ := ready_example
  obtain ⟨env1, w1, f, h4, h5, h6, _⟩ := C46_refuted_bitmap h1 h2 h3
  exact ⟨w, w1, w2, env1, f, h1, h4, h2, h5, by decide, h6⟩

/-- Non-vacuity of C45: a block that was cut short, then another one and a `Finalize`, under any faults. -/
example (env' : Env) : ∃ (w w1 : Writer IdSet) (log : Log), History IdSet quietEnv fullOpts (log.map Prod.fst) log w ∧ log ≠ [] ∧
    writeBlock [1, 2] [-10, 20] quietEnv w = (.error (.blockFull 1), w1) ∧
    FinalizeNoIOError (runCalls env' [.write [2] [2], .finalize] w1).1.dropLast ∧
    ∃ f, MayRemain (runCalls env' [.write [2] [2], .finalize] w1).2.disk f := by
  obtain ⟨w0, w2, h, _⟩ := ready_example
  obtain ⟨calls, h⟩ := h.history
  obtain ⟨w, hh, hr, _⟩ := h.split (pre := [(.write [3, 1, 2] [30, -10, 20], .ok ())]) (c := .write [1, 2] [-10, 20])
    (r := .error (.blockFull 1)) (post := [(.write [2] [20], .ok ())]) rfl
  change (writeBlock [1, 2] [-10, 20] quietEnv w).1 = _ at hr
  rcases hw : writeBlock [1, 2] [-10, 20] quietEnv w with ⟨r, w1⟩
  rw [hw] at hr
  dsimp only at hr
  subst hr
  have hrem : Remains (runCalls env' [.write [2] [2], .finalize] w1).2 :=
    CanRemain.calls [.write [2] [2], .finalize] env' w1 (Remains.synced (writeBlock_synced hw (.inr ⟨_, rfl⟩)))
  refine ⟨w, w1, _, hh, by decide, hw, ?_, _, hrem⟩
  intro ev hev he
  simp only [runCalls, List.dropLast] at hev
  rw [List.mem_singleton] at hev
  rw [hev] at he
  cases he

/-- Non-vacuity of C45 for `SimpleWriter`: a history with a successful `Close` exists (`exampleSW_history`). -/
example : ∃ (sw : SimpleWriter IdSet) (log : SWLog), SWHistory IdSet quietEnv [.withEncoding encVarIntBoth] exampleSW log sw ∧
    (SWCall.close, Except.ok ()) ∈ log := by
  obtain ⟨sw, h, _, _, _, hc⟩ := exampleSW_history
  exact ⟨sw, _, h, hc⟩

end VibeCol
