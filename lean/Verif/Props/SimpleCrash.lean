/-
C79: a `SimpleWriter` that is interrupted. The process may die at any file operation of any call,
a write possibly having put some of its bytes into the file.
-/
import Verif.Lemmas.SimpleCrash
import Verif.Props.Crash
import Verif.Props.Power
import Verif.Props.SimpleProgress
namespace VibeCol.SimpleCrash
set_option linter.unusedSectionVars false
variable {B : Type} [Bitmap B] [LawfulBitmap B]

/-- The file left behind when `NewSimpleWriter`, then `calls`, then `Close` are run and the process
dies at file operation number `n`, the `k`-th byte of that write being the last to reach the
file. -/
def crashedSimple (B : Type) [Bitmap B] (opts : List WriterOption) (calls : List SWCall) (env : Env) (n k : Nat) : Bytes :=
  match newSimpleWriter (B := B) opts (env.crashAt n k) with
  | .error _ => (newWriter (B := B) opts (env.crashAt n k)).2.file.bytes
  | .ok sw => (runSW (env.crashAt n k) (calls ++ [.close]) sw).2.writer.file.bytes

/-- A file opens, and reading its blocks in order yields the batches in call order, each in ascending ID order. -/
def HoldsBatches (B : Type) [Bitmap B] (file : Bytes) (batches : List (List Pair)) : Prop :=
  ∃ (r : Reader B) (stored : List (List Pair)), newReader file = .ok r ∧ Each SortedBatch batches stored ∧ AllPairs r stored.flatten

/-- A `SimpleWriter` stays open without `Close`. -/
theorem open_run {env : Env} (hs : LawfulSort env.sort) {opts : List WriterOption}
    {sw : SimpleWriter B} {S : List Pair} {blks : List Blk} (h : SWOpen opts sw S blks)
    (henc : SymEnc (chosenEncoding opts)) (cs : List SWCall) (hb : ∀ c ∈ cs, c.Bounded) (hc : .close ∉ cs)
    (hno : SWNoIOError (runSW env cs sw).1) :
    ∃ stored new, Each SortedBatch (accepted (runSW env cs sw).1) stored ∧
      SWOpen opts (runSW env cs sw).2 (S ++ stored.flatten) (blks ++ new) := by
  induction cs generalizing sw S blks with
  | nil => exact ⟨[], [], .nil, by simpa [runSW] using h⟩
  | cons c cs ih =>
    rw [runSW_cons] at hno ⊢
    obtain ⟨st1, new1, hf1, hcase⟩ := h.call hs henc c (hb c (by simp)) (hno _ List.mem_cons_self)
    show ∃ stored new, Each SortedBatch (acceptedBy c (c.run env sw).1 ++ accepted (runSW env cs (c.run env sw).2).1) stored ∧ _
    rcases hcase with ho | ⟨he, _, _⟩
    · obtain ⟨st2, new2, hf2, h2⟩ := ih ho (fun c' hc' => hb c' (by simp [hc'])) (fun hx => hc (List.mem_cons_of_mem _ hx))
        (fun ev hev => hno ev (List.mem_cons_of_mem _ hev))
      refine ⟨st1 ++ st2, new1 ++ new2, forall2_append hf1 hf2, ?_⟩
      rw [List.flatten_append, ← List.append_assoc, ← List.append_assoc]
      exact h2
    · subst he; exact absurd List.mem_cons_self hc

omit [LawfulBitmap B] in
theorem runSW_append (env : Env) (as bs : List SWCall) (sw : SimpleWriter B) : runSW env (as ++ bs) sw =
      ((runSW env as sw).1 ++ (runSW env bs (runSW env as sw).2).1, (runSW env bs (runSW env as sw).2).2) := by
  induction as generalizing sw with
  | nil => rfl
  | cons a as ih => rw [List.cons_append, runSW_cons, runSW_cons, ih]; rfl

theorem expectedSW_noIO (cs : List SWCall) (b : Bool) : SWNoIOError (expectedSW cs b) := by
  induction cs generalizing b with
  | nil => intro ev hev; cases hev
  | cons c cs ih =>
    intro ev hev
    rcases List.mem_cons.1 hev with rfl | hev
    · dsimp only
      cases c <;> cases b <;> simp [SWCall.expected]
      split <;> simp
    · exact ih _ ev hev

/-- A `SimpleWriter` after calls other than `Close`, without I/O errors. -/
theorem opened {env : Env} (hs : LawfulSort env.sort) {opts : List WriterOption} (henc : SymEnc (chosenEncoding opts))
    {calls : List SWCall} (hb : ∀ c ∈ calls, c.Bounded) (hc : .close ∉ calls) {log : SWLog} {sw : SimpleWriter B}
    (h : SWHistory B env opts calls log sw) (hno : SWNoIOError log) :
    ∃ stored blks, Each SortedBatch (accepted log) stored ∧ SWOpen opts sw stored.flatten blks := by
  obtain ⟨sw0, hnew, hrun⟩ := h.created
  obtain ⟨st, new, h1, h2⟩ := open_run hs (newSimpleWriter_open hnew) henc calls hb hc (by rw [hrun]; exact hno)
  rw [hrun] at h1 h2
  exact ⟨st, new, h1, by simpa using h2⟩

/-- A `Close` that succeeds: the flush, then `Finalize`. -/
theorem close_facts {env : Env} {opts : List WriterOption} (henc : SymEnc (chosenEncoding opts)) {sw sw2 : SimpleWriter B} {S : List Pair} {blks : List Blk}
    (ho : SWOpen opts sw S blks) (h2 : sw.close env = (.ok (), sw2)) (hsz : sw2.writer.file.bytes.length ≤ maxFileSize) :
    ∃ sw1 new w2, flushIfNeeded env true sw = (.ok (), sw1) ∧ SWOpen opts sw1 S (blks ++ new) ∧ S = blkPairs (blks ++ new) ∧
      finalize env sw1.writer = (.ok (), w2) ∧ sw2.writer.file = w2.file ∧ sw2.writer.blockCount = (blks ++ new).length ∧
      w2.file.bytes.length < 2 ^ 63 ∧ (blks ++ new).length ≤ maxBlocks ∧
      sw1.writer.file.bytes.length + 28 ≤ w2.file.bytes.length ∧
      sw.writer.file.bytes.length ≤ sw1.writer.file.bytes.length := by
  have hsz63 : sw2.writer.file.bytes.length < 2 ^ 63 := by unfold maxFileSize maxBlocks at hsz; omega
  -- the flush of the uninterrupted Close
  obtain ⟨sw1, hfl⟩ : ∃ sw1, flushIfNeeded env true sw = (.ok (), sw1) := by
    have := CrashAt.close_eq env sw ho.isOpen
    rw [h2] at this
    rcases hr : flushIfNeeded env true sw with ⟨r, s⟩
    rw [hr] at this
    cases r with
    | error e => cases this
    | ok u => exact ⟨s, rfl⟩
  have hid : ({ sw with pendingIDs := sw.pendingIDs ++ [], pendingValues := sw.pendingValues ++ [] } : SimpleWriter B) = sw := by
    simp
  obtain ⟨new, ho1, hpend⟩ : ∃ new, SWOpen opts sw1 S (blks ++ new) ∧ sw1.pendingIDs = [] := by
    have := ho.flush (env := env) henc true [] [] rfl (by decide)
    rw [hid, hfl] at this
    obtain ⟨_, new, h3, h4⟩ := this (by simp)
    exact ⟨new, by simpa using h3, h4 rfl⟩
  have hstream : S = blkPairs (blks ++ new) := by
    rw [ho1.stream]; simp [SimpleWriter.pending, hpend]
  -- its Finalize
  obtain ⟨w2, hfin2, hfile2, hcount⟩ : ∃ w2, finalize env sw1.writer = (.ok (), w2) ∧ sw2.writer.file = w2.file ∧
      sw2.writer.blockCount = w2.blockCount := by
    have := CrashAt.close_eq env sw ho.isOpen
    rw [h2, hfl] at this
    unfold CrashAt.afterFlush at this
    dsimp only at this
    rcases finalizeAndClose_spec env sw1.writer with ⟨e, w', h3, h4⟩ | ⟨w', h3, h4, h5, h6⟩
    · rw [h4] at this; cases this
    · refine ⟨w', h3, ?_⟩
      clear h3 h4
      rcases hfc : finalizeAndClose env sw1.writer with ⟨r, w''⟩
      rw [hfc] at this h5 h6
      cases r with
      | error e => cases this
      | ok u =>
        have : sw2 = _ := congrArg Prod.snd this
        rw [this]
        exact ⟨h5, h6⟩
  rw [hfile2] at hsz hsz63
  obtain ⟨hbl, hcnt2⟩ : (blks ++ new).length ≤ maxBlocks ∧ w2.blockCount = (blks ++ new).length := by
    obtain ⟨_, hinv, _, _, _, hok, _⟩ := wp_ok (finalize_inv env sw1.writer _ [] ho1.inv) hfin2
    obtain ⟨hd, bo, fs, hok, _⟩ := hok hsz63
    exact ⟨hok.few hsz, hinv.cnt⟩
  have hlw : sw1.writer.file.bytes.length + 28 ≤ w2.file.bytes.length := by
    obtain ⟨_, _, t, hst⟩ := wp_ok (finalize_spec env _ ho1.inv.pos64 ho1.inv.posLe ho1.inv.near) hfin2
    have hl1 := phase1_length sw1.writer ho1.inv.posLe
    have h4 : 4 ≤ (bitmapBytes sw1.writer).length := by simp [bitmapBytes]
    have h5 : 4 ≤ (footBytes sw1.writer).length := by simp [footBytes]
    rw [hst.file]; show _ ≤ (finalBytes t sw1.writer).length
    rw [final_length ho1.inv t, hl1, ho1.clean.atEnd]; omega
  have hgrow : sw.writer.file.bytes.length ≤ sw1.writer.file.bytes.length := by
    have := (CrashAt.flush true sw).grow env
    rw [hfl] at this
    exact this
  exact ⟨sw1, new, w2, hfl, ho1, hstream, hfin2, hfile2, by rw [hcount, hcnt2], hsz63, hbl, hlw, hgrow⟩

/-- **C79.** Every crash point of every `SimpleWriter` session. Let `log` be what `NewSimpleWriter` and
the calls return when nothing goes wrong and `sw2` the writer after the `Close` that then follows. The
file left by a crash during any of these calls or during `Close` either is the file this `Close` produces, byte for byte
(only the last `Sync` or the closing of the file was missing), or is rejected by `NewReader`, or
was cut off before the 24 bytes of footer metadata were begun and happens to end with the magic
number. -/
theorem C79_whole {env : Env} (hq : env.NoFault) (ht : ∀ i, (env.clock i).toNat < 2 ^ 48) (hs : LawfulSort env.sort)
    {opts : List WriterOption} (henc : SymEnc (chosenEncoding opts)) {calls : List SWCall}
    (hb : ∀ c ∈ calls, c.Bounded) (hclose : .close ∉ calls) {log : SWLog} {sw sw2 : SimpleWriter B}
    (h : SWHistory B env opts calls log sw) (h2 : sw.close env = (.ok (), sw2))
    (hsz : sw2.writer.file.bytes.length ≤ maxFileSize) (n k : Nat) :
    crashedSimple B opts calls env n k = sw2.writer.file.bytes ∨
    Rejected B (crashedSimple B opts calls env n k) ∨
    ((crashedSimple B opts calls env n k).length + 24 < sw2.writer.file.bytes.length ∧
      EndsWithMagic (crashedSimple B opts calls env n k)) := by
  obtain ⟨sw0, hnew, hrun⟩ := h.created
  have hopen0 := newSimpleWriter_open hnew
  have hno : SWNoIOError log := by
    have := hopen0.run_noFault hs hq henc calls hb
    rw [hrun] at this
    dsimp only at this
    rw [this]
    exact expectedSW_noIO _ _
  obtain ⟨stored, blks, hst, ho⟩ := opened hs henc hb hclose h hno
  obtain ⟨sw1, new, w2, hfl, ho1, hstream, hfin2, hfile2, hcount, hsz63, hbl, hlw, hgrow⟩ := close_facts henc ho h2 hsz
  rw [hfile2] at hsz ⊢
  have short : ∀ f : Bytes, f.length + 24 < w2.file.bytes.length →
      f = w2.file.bytes ∨ Rejected B f ∨ (f.length + 24 < w2.file.bytes.length ∧ EndsWithMagic f) := by
    intro f hf
    by_cases hm : EndsWithMagic f
    · exact .inr (.inr ⟨hf, hm⟩)
    · exact .inr (.inl fun r => C26_rejected f (by omega) hm r)
  -- NewWriter
  obtain ⟨w0, hnew0, hsw0⟩ : ∃ w0, newWriter (B := B) opts env = (.ok (), w0) ∧ sw0.writer = w0 := by
    unfold newSimpleWriter at hnew
    rcases hr : newWriter (B := B) opts env with ⟨r, w⟩
    rw [hr] at hnew
    cases r with
    | error e => cases hnew
    | ok u =>
      cases hnew
      exact ⟨w, rfl, rfl⟩
  by_cases hn0 : n < w0.opNo
  · right; left
    have hcr : n < (newWriter (B := B) opts (env.crashAt n k)).2.opNo :=
      newWriter_crash hq opts n k (by rw [hnew0]; exact hn0)
    have hrej : Rejected B (newWriter (B := B) opts (env.crashAt n k)).2.file.bytes :=
      C27_newWriter (env.crashAt n k) opts henc.known ht
    unfold crashedSimple newSimpleWriter
    generalize newWriter (B := B) opts (env.crashAt n k) = res at hcr hrej ⊢
    obtain ⟨r, wc⟩ := res
    cases r with
    | error e => exact hrej
    | ok u =>
      have hd := (CrashAt.calls (calls ++ [.close]) ({ writer := wc, pendingIDs := [], pendingValues := [], targetBlockSize := 128 * 1024, closed := false, totalItems := 0 } : SimpleWriter B)).dead (env.crashAt n k) (dead_crashAt env n k wc hcr)
      dsimp only at hd ⊢
      rw [hd]
      exact hrej
  · have hsame : newSimpleWriter (B := B) opts (env.crashAt n k) = .ok sw0 := by
      unfold newSimpleWriter at hnew ⊢
      rw [newWriter_agree env opts n k (by rw [hnew0]; exact Nat.le_of_not_lt hn0)]
      exact hnew
    have hf : crashedSimple B opts calls env n k =
        ((runSW (env.crashAt n k) calls sw0).2.close (env.crashAt n k)).2.writer.file.bytes := by
      unfold crashedSimple
      rw [hsame]
      dsimp only
      rw [runSW_append]
      rfl
    rw [hf]
    by_cases hn1 : n < sw.writer.opNo
    · -- during one of the calls
      have hcr := (CrashAt.calls calls sw0).crash env n k (by rw [hsw0]; omega) (by rw [hrun]; exact hn1) hq
      rw [hrun] at hcr
      generalize (runSW (env.crashAt n k) calls sw0).2 = wc at hcr ⊢
      have hd := (CrashAt.call .close wc).dead (env.crashAt n k) (dead_crashAt env n k _ hcr.2)
      change (wc.close (env.crashAt n k)).2.writer.file.bytes = _ at hd
      rw [hd]
      apply short
      have := hcr.1
      dsimp only at this
      omega
    · have hag : (runSW (env.crashAt n k) calls sw0).2 = sw := by
        rw [(CrashAt.calls calls sw0).agree_crashAt env n k (by rw [hrun]; exact Nat.le_of_not_lt hn1), hrun]
      rw [hag, CrashAt.close_eq _ sw ho.isOpen]
      by_cases hn2 : n < sw1.writer.opNo
      · -- during the flush of Close
        have hcr := (CrashAt.flush true sw).crash env n k (by omega) (by rw [hfl]; exact hn2) hq
        rw [hfl] at hcr
        have hd := (CrashAt.afterFlush_crash (flushIfNeeded (env.crashAt n k) true sw).1
          (flushIfNeeded (env.crashAt n k) true sw).2).dead (env.crashAt n k) (dead_crashAt env n k _ hcr.2)
        rw [hd]
        apply short
        have := hcr.1
        dsimp only at this
        omega
      · -- during or after Finalize
        rw [(CrashAt.flush true sw).agree_crashAt env n k (by rw [hfl]; exact Nat.le_of_not_lt hn2), hfl]
        obtain ⟨r1, w1, hfin⟩ : ∃ r1 w1, finalize (env.crashAt n k) sw1.writer = (r1, w1) := ⟨_, _, rfl⟩
        have hlast : (CrashAt.afterFlush (.ok ()) (env.crashAt n k) sw1).2.writer.file = w1.file := by
          unfold CrashAt.afterFlush
          dsimp only
          rcases finalizeAndClose_spec (env.crashAt n k) sw1.writer with ⟨e, w', h3, h4⟩ | ⟨w', h3, h4, h5, h6⟩
          · rw [hfin] at h3
            rw [h4, (Prod.mk.inj h3).2]
          · rw [hfin] at h3
            rw [(Prod.mk.inj h3).2, ← h5]
            rcases finalizeAndClose (env.crashAt n k) sw1.writer with ⟨r, w''⟩
            cases r <;> rfl
        dsimp only
        rw [hlast]
        obtain ⟨_, hb', hc'⟩ := finalize_cut ho1.inv ho1.enc henc hbl (env.crashAt n k) env w1 w2 r1 hfin hfin2 hsz63
        by_cases heq : w1.file.bytes.length = w2.file.bytes.length
        · left
          have hfull := Prefix.finalize_full hq hfin2 (n := n) (k := k) (by rw [hfin]; exact heq)
          rw [hfin] at hfull
          exact hfull
        · by_cases hge : w2.file.bytes.length ≤ w1.file.bytes.length + 24
          · exact .inr (.inl (hb' hge heq))
          · exact short _ (by omega)

/-- **C79.** The same in terms of what is read: the file left by a crash either holds every accepted batch, or is
rejected by `NewReader`, or was cut off before the footer metadata and happens to end with the magic number. -/
theorem C79_crash {env : Env} (hq : env.NoFault) (ht : ∀ i, (env.clock i).toNat < 2 ^ 48) (hs : LawfulSort env.sort)
    {opts : List WriterOption} (henc : SymEnc (chosenEncoding opts)) {calls : List SWCall}
    (hb : ∀ c ∈ calls, c.Bounded) (hclose : .close ∉ calls) {log : SWLog} {sw sw2 : SimpleWriter B}
    (h : SWHistory B env opts calls log sw) (h2 : sw.close env = (.ok (), sw2))
    (hsz : sw2.writer.file.bytes.length ≤ maxFileSize) (n k : Nat) :
    HoldsBatches B (crashedSimple B opts calls env n k) (accepted log) ∨
    Rejected B (crashedSimple B opts calls env n k) ∨
    ((crashedSimple B opts calls env n k).length + 24 < sw2.writer.file.bytes.length ∧
      EndsWithMagic (crashedSimple B opts calls env n k)) := by
  rcases C79_whole hq ht hs henc hb hclose h h2 hsz n k with he | hr
  · left
    rw [he]
    obtain ⟨sw0, hnew, hrun⟩ := h.created
    have hopen0 := newSimpleWriter_open hnew
    have hno : SWNoIOError log := by
      have := hopen0.run_noFault hs hq henc calls hb
      rw [hrun] at this
      dsimp only at this
      rw [this]
      exact expectedSW_noIO _ _
    obtain ⟨stored, blks, hst, ho⟩ := opened hs henc hb hclose h hno
    obtain ⟨sw1, new, w2, hfl, ho1, hstream, hfin2, hfile2, hcount, hsz63, hbl, hlw, hgrow⟩ := close_facts henc ho h2 hsz
    rw [hfile2] at hsz ⊢
    obtain ⟨r, h3, h4, h5⟩ := (finalize_cut ho1.inv ho1.enc henc hbl env env w2 w2 _ hfin2 hfin2 hsz63).1 rfl
    refine ⟨r, stored, h3, hst, _, h4, h5, ?_⟩
    rw [hstream]
    simp [blkPairs, List.flatMap_map]
    rfl
  · exact .inr hr

/-! ### What a power failure leaves of a file that has only a header -/

/-- Everything written so far was appended, and nothing synced. -/
structure Ahead (w : Writer B) : Prop where
  atEnd : w.file.pos = w.file.bytes.length
  synced : w.disk.synced = []
  unsynced : ∀ p ∈ w.disk.unsynced, p.1 + p.2.length ≤ w.file.bytes.length ∧
    ∀ j b, p.2[j]? = some b → w.file.bytes[p.1 + j]? = some b

theorem Ahead.put {w : Writer B} (h : Ahead w) (o : Nat) (d : Bytes) :
    Ahead { w with
      opNo := o
      file := { bytes := writeAt w.file.bytes w.file.pos d, pos := w.file.pos + d.length }
      disk := { w.disk with unsynced := w.disk.unsynced ++ [(w.file.pos, d)] } } := by
  have hb : writeAt w.file.bytes w.file.pos d = w.file.bytes ++ d := by
    rw [h.atEnd]; cases d <;> simp [writeAt]
  refine ⟨?_, h.synced, ?_⟩
  · dsimp only
    rw [hb, List.length_append, h.atEnd]
  · intro p hp
    dsimp only
    rw [hb, List.length_append]
    rcases List.mem_append.1 hp with hp | hp
    · obtain ⟨h1, h2⟩ := h.unsynced p hp
      refine ⟨by omega, fun j b hj => ?_⟩
      have hlt : j < p.2.length := (List.getElem?_eq_some_iff.1 hj).1
      rw [List.getElem?_append_left (by omega)]
      exact h2 j b hj
    · rw [List.mem_singleton] at hp
      subst hp
      refine ⟨by dsimp only; rw [h.atEnd]; exact Nat.le_refl _, fun j b hj => ?_⟩
      dsimp only at hj ⊢
      rw [h.atEnd, List.getElem?_append_right (by omega), Nat.add_sub_cancel_left]
      exact hj

theorem Ahead.fwrite {env : Env} {w : Writer B} (h : Ahead w) (d : Bytes) : Ahead (VibeCol.fwrite d env w).2 := by
  unfold VibeCol.fwrite
  dsimp only
  split
  · exact ⟨h.atEnd, h.synced, h.unsynced⟩
  · split
    · exact h.put _ _
    · exact h.put _ _

theorem Ahead.seekCur {env : Env} {w : Writer B} (h : Ahead w) : Ahead (VibeCol.seekCur env w).2 := by
  unfold VibeCol.seekCur WM.fileOp
  dsimp only
  split
  · exact ⟨h.atEnd, h.synced, h.unsynced⟩
  · split
    · exact ⟨h.atEnd, h.synced, h.unsynced⟩
    · exact ⟨h.atEnd, h.synced, h.unsynced⟩

/-- `Ahead` through a sequence. -/
theorem ahead_bind {α β : Type} {m : WM B α} {g : α → WM B β} {env : Env} {w : Writer B} (hm : Ahead (m env w).2)
    (hg : ∀ a w', Ahead w' → Ahead (g a env w').2) : Ahead ((m >>= g) env w).2 := by
  rw [WM.bind_def]
  generalize m env w = res at hm ⊢
  obtain ⟨r, w'⟩ := res
  cases r with
  | error e => exact hm
  | ok a => exact hg a w' hm

theorem Ahead.fwriteAll {env : Env} {w : Writer B} (h : Ahead w) (ds : List Bytes) : Ahead (VibeCol.fwriteAll ds env w).2 := by
  induction ds generalizing w with
  | nil => exact h
  | cons d ds ih =>
    unfold VibeCol.fwriteAll
    exact ahead_bind (h.fwrite d) fun _ _ h1 => ahead_bind (ih h1) fun _ _ h2 => h2

theorem newWriter_ahead (env : Env) (opts : List WriterOption) : Ahead (newWriter (B := B) opts env).2 := by
  have h0 : Ahead (startWriter opts : Writer B) := by
    rw [startWriter_eq]
    exact ⟨rfl, rfl, fun p hp => by cases hp⟩
  show Ahead (writeHeader env (startWriter opts : Writer B)).2
  unfold writeHeader
  refine ahead_bind h0.seekCur fun _ _ h => ahead_bind h fun _ _ h => ahead_bind h fun _ _ h => ?_
  refine ahead_bind (h.fwriteAll _) fun _ _ h => ahead_bind (h.fwrite _) fun _ _ h => ahead_bind h.seekCur fun _ _ h => ?_
  split
  · exact h
  · exact h

/-- **C79, C45.** A power failure before anything but the header was written - during `NewWriter`
(or `NewSimpleWriter`) or after it, before any block was acknowledged - leaves nothing that `NewReader` accepts, whatever arrived. -/
theorem C79_headerOnly (env : Env) (opts : List WriterOption) (hk : KnownEnc (chosenEncoding opts))
    (ht : ∀ i, (env.clock i).toNat < 2 ^ 48) (f : Bytes) (hf : MayRemain (newWriter (B := B) opts env).2.disk f) :
    Rejected B f := by
  have ha := newWriter_ahead (B := B) env opts
  obtain ⟨i, k, hbytes⟩ : ∃ i k, (newWriter (B := B) opts env).2.file.bytes = (startBytes (env.clock i) opts).take k := by
    have h := writeHeader_spec (B := B) env opts
    change wp _ _ _ env (startWriter opts : Writer B) at h
    rcases hr : (newWriter (B := B) opts env) with ⟨r, w⟩
    cases r with
    | ok u =>
      obtain ⟨i, hs⟩ := wp_ok h hr
      refine ⟨i, 64, ?_⟩
      dsimp only
      rw [hs.file, List.take_of_length_le (by rw [startBytes_length]; omega)]
    | error e =>
      obtain ⟨_, _, i, k, hs⟩ := wp_error h hr
      exact ⟨i, k, by dsimp only; rw [hs.file]⟩
  generalize newWriter (B := B) opts env = res at hf ha hbytes
  obtain ⟨r, w⟩ := res
  dsimp only at hf ha hbytes
  have hl : w.file.bytes.length ≤ 64 := by
    rw [hbytes, List.length_take, startBytes_length]; omega
  have hfl : f.length ≤ 64 := by
    rcases hf.bound with h | ⟨p, hp, h⟩
    · rw [ha.synced, List.length_nil] at h; omega
    · have := (ha.unsynced p hp).1; omega
  have hbyte : ∀ (j : Nat) b, f[j]? = some b → b = 0 ∨ (startBytes (env.clock i) opts)[j]? = some b := by
    intro j b hb
    rcases hf.byte j b hb with h | ⟨_, h⟩ | ⟨p, hp, h1, h2⟩
    · rw [ha.synced] at h; simp at h
    · exact .inl h
    · right
      have := (ha.unsynced p hp).2 _ _ h2
      rw [show p.1 + (j - p.1) = j by omega, hbytes, List.getElem?_take] at this
      split at this
      · exact this
      · cases this
  -- a position of the last seven bytes where the header is zero
  by_cases h24 : 24 ≤ f.length
  · obtain ⟨p, hp1, hp2, hpc⟩ : ∃ p, f.length - 7 ≤ p ∧ p < f.length ∧
        (p = 21 ∨ p = 28 ∨ p = 35 ∨ p = 42 ∨ p = 49 ∨ p = 56 ∨ p = 63) :=
      ⟨(f.length - 1) / 7 * 7, by omega, by omega, by omega⟩
    have hz := startBytes_zero (env.clock i) opts (ht i) (by unfold KnownEnc at hk; omega) p hpc
    have hb : f[p]? = some 0 := by
      have hb := List.getElem?_eq_getElem hp2
      rcases hbyte p _ hb with h | h
      · rw [hb, h]
      · rw [hb, ← h, hz]
    refine rejected_of_byte (by omega) (p - (f.length - 8)) fun _ => ?_
    rw [show f.length - 8 + (p - (f.length - 8)) = p by omega, hb, magic_bytes]
    obtain ⟨q, hq1, hq2⟩ : ∃ q, p - (f.length - 8) = q + 1 ∧ q < 7 := ⟨p - (f.length - 8) - 1, by omega, by omega⟩
    rw [hq1]
    clear hq1
    rcases q with _ | _ | _ | _ | _ | _ | _ | q
    all_goals first | decide | omega
  · exact rejected_of_byte (by omega) 0 fun h => absurd h h24

/-! ### Before `Close` -/

/-- The file ends with a block as `WriteBlock` writes it, padding included; its values are among `V`. -/
def EndsWithBlock (e : UInt32) (V : List Int64) (file : Bytes) : Prop :=
  ∃ P ids vals, file = P ++ padded P.length (image e ids vals) ∧ vals ≠ [] ∧ ∀ v ∈ vals, v ∈ V

theorem EndsWithBlock.mono {e : UInt32} {V V' : List Int64} {file : Bytes} (h : EndsWithBlock e V file) (hv : ∀ v ∈ V, v ∈ V') :
    EndsWithBlock e V' file := by
  obtain ⟨P, ids, vals, h1, h2, h3⟩ := h
  exact ⟨P, ids, vals, h1, h2, fun v hm => hv v (h3 v hm)⟩

theorem Committed.ends {w w' : Writer B} {ids : List UInt64} {vals : List Int64} (h : Committed w ids vals w')
    (hp : w.file.pos ≤ w.file.bytes.length) (hne : vals ≠ []) {V : List Int64} (hv : ∀ v ∈ vals, v ∈ V) :
    EndsWithBlock w.encodingType V w'.file.bytes := by
  refine ⟨w.file.bytes.take w.file.pos, ids, vals, ?_, hne, hv⟩
  rw [h.fields.1, committedFile]
  dsimp only
  rw [List.length_take, Nat.min_eq_left hp]

/-- A flush that succeeds either does nothing to the file or leaves everything synced and a block at the end. -/
theorem flush_ends (env : Env) (force : Bool) (sw : SimpleWriter B) (blks : List Blk)
    (extra : List UInt64) (hi : Inv sw.writer blks extra) (hk : KnownEnc sw.writer.encodingType)
    (hlen : sw.pendingIDs.length = sw.pendingValues.length) (hb : sw.pendingIDs.length ≤ 2 ^ 27)
    (hr : (flushIfNeeded env force sw).1 = .ok ()) :
    (∀ i, i < 64 → (flushIfNeeded env force sw).2.writer.file.bytes[i]? = sw.writer.file.bytes[i]?) ∧
    ((flushIfNeeded env force sw).2.writer = sw.writer ∨
    (AllSynced (flushIfNeeded env force sw).2.writer ∧
      EndsWithBlock sw.writer.encodingType sw.pendingValues (flushIfNeeded env force sw).2.writer.file.bytes)) := by
  induction hn : sw.pendingIDs.length using Nat.strongRecOn generalizing sw blks extra with
  | _ n ih =>
    subst hn
    rw [flushIfNeeded_eq] at hr ⊢
    by_cases h0 : sw.pendingIDs.length = 0
    · rw [if_pos h0] at hr ⊢; exact ⟨fun _ _ => rfl, .inl rfl⟩
    rw [if_neg h0] at hr ⊢
    by_cases h1 : force = true ∨ sw.pendingIDs.length ≥ 1000
    · rw [if_pos h1] at hr ⊢
      have low : ∀ {ids vals} {w' : Writer B}, Committed sw.writer ids vals w' →
          ∀ i, i < 64 → w'.file.bytes[i]? = sw.writer.file.bytes[i]? := by
        intro ids vals w' hcm i hi64
        have hp64 := hi.pos64
        have hple := hi.posLe
        rw [hcm.fields.1, committedFile]
        dsimp only
        rw [List.getElem?_append_left (by rw [List.length_take]; omega), List.getElem?_take_of_lt (by omega)]
      obtain ⟨new, extra', hadd, hinv, hcfg, _⟩ :=
        writeBlock_inv env sw.writer blks extra hi hk sw.pendingIDs sw.pendingValues hlen (by omega) hb
      have hout := writeBlock_out env sw.writer sw.pendingIDs sw.pendingValues hk hlen (by omega) hb hi.posLe hi.near
      rcases hw : writeBlock sw.pendingIDs sw.pendingValues env sw.writer with ⟨res, w'⟩
      rw [hw] at hadd hinv hcfg hr hout
      dsimp only at hout hinv hcfg
      have hsync : Acknowledges res → AllSynced w' := writeBlock_synced hw
      have hvne : sw.pendingValues ≠ [] := by
        intro hx; rw [hx] at hlen; simp at hlen; rw [hlen] at h0; simp at h0
      cases hout with
      | full _ _ _ _ hcm =>
        exact ⟨low hcm, .inr ⟨hsync (.inl rfl), Committed.ends hcm hi.posLe hvne fun v hv => hv⟩⟩
      | part _ k hk1 hk2 _ _ _ _ _ hcm =>
        have hends : EndsWithBlock sw.writer.encodingType sw.pendingValues w'.file.bytes :=
          Committed.ends hcm hi.posLe (by
            intro hx
            have := congrArg List.length hx
            rw [List.length_take] at this
            simp at this
            rcases this with h | h
            · omega
            · exact hvne h) fun v hv => List.mem_of_mem_take hv
        dsimp only at hr ⊢
        rcases ih (sw.pendingIDs.drop k).length (by rw [List.length_drop]; omega) { sw with
          writer := w'
          totalItems := sw.totalItems + k
          pendingIDs := sw.pendingIDs.drop k
          pendingValues := sw.pendingValues.drop k } _ _ hinv (by rw [hcfg.enc]; exact hk) (by simp only [List.length_drop]; omega)
          (by simp only [List.length_drop]; omega) hr rfl with ⟨hlow, h | ⟨h3, h4⟩⟩
        · refine ⟨fun i hi => (hlow i hi).trans (low hcm i hi), .inr ?_⟩
          rw [h]
          exact ⟨hsync (.inr ⟨_, rfl⟩), hends⟩
        · dsimp only at h4
          rw [hcfg.enc] at h4
          exact ⟨fun i hi => (hlow i hi).trans (low hcm i hi), .inr ⟨h3, h4.mono fun v hv => List.mem_of_mem_drop hv⟩⟩
      | noop => cases hr
      | fail e _ k _ _ _ herr =>
        cases e <;> first | cases hr | cases herr
    · rw [if_neg h1]; exact ⟨fun _ _ => rfl, .inl rfl⟩

/-- Either nothing was written since `sw0`, or everything is synced and a block is at the end. -/
def Rest (e : UInt32) (V : List Int64) (w0 w : Writer B) : Prop :=
  (∀ i, i < 64 → w.file.bytes[i]? = w0.file.bytes[i]?) ∧
  ((w.file = w0.file ∧ w.disk = w0.disk) ∨ (AllSynced w ∧ EndsWithBlock e V w.file.bytes))

theorem pending_values {opts : List WriterOption} {sw : SimpleWriter B} {S : List Pair} {blks : List Blk} (h : SWOpen opts sw S blks)
    (v : Int64) (hv : v ∈ sw.pendingValues) : v ∈ S.map Prod.snd := by
  have : v ∈ (sw.pendingIDs.zip sw.pendingValues).map Prod.snd := by
    rw [List.map_snd_zip (by rw [h.lens]; exact Nat.le_refl _)]; exact hv
  rw [h.stream, List.map_append]
  exact List.mem_append_right _ this

theorem call_rest {env : Env} (hs : LawfulSort env.sort) {opts : List WriterOption}
    {sw : SimpleWriter B} {S S' : List Pair} {blks blks' : List Blk} (h : SWOpen opts sw S blks)
    (henc : SymEnc (chosenEncoding opts)) (c : SWCall) (hb : c.Bounded) (hc : c ≠ .close) (hno : (c.run env sw).1 ≠ .error .io)
    (h' : SWOpen opts (c.run env sw).2 S' blks') (hSS : ∀ p ∈ S, p ∈ S') {w0 : Writer B}
    (hw : ∀ ids vals, c = .write ids vals → (c.run env sw).1 = .ok () → ∀ p ∈ ids.zip vals, p ∈ S')
    (hr : Rest (chosenEncoding opts) (S.map Prod.snd) w0 sw.writer) :
    Rest (chosenEncoding opts) (S'.map Prod.snd) w0 (c.run env sw).2.writer := by
  have hSV : ∀ v ∈ S.map Prod.snd, v ∈ S'.map Prod.snd := by
    intro v hv
    obtain ⟨p, hp, rfl⟩ := List.mem_map.1 hv
    exact List.mem_map.2 ⟨p, hSS p hp, rfl⟩
  have same : ∀ w : Writer B, w.file = sw.writer.file → w.disk = sw.writer.disk → Rest (chosenEncoding opts) (S'.map Prod.snd) w0 w := by
    intro w h1 h2
    refine ⟨fun i hi => by rw [h1]; exact hr.1 i hi, ?_⟩
    rcases hr.2 with ⟨h3, h4⟩ | ⟨h3, h4⟩
    · exact .inl ⟨h1.trans h3, h2.trans h4⟩
    · refine .inr ⟨?_, by rw [h1]; exact h4.mono hSV⟩
      unfold AllSynced at h3 ⊢
      rw [h1, h2]
      exact h3
  cases c with
  | close => exact absurd rfl hc
  | setTarget size =>
    refine same _ ?_ ?_ <;> simp [SWCall.run, setTargetBlockSize, h.isOpen]
  | write ids vals =>
    by_cases hl : ids.length = vals.length
    · by_cases hne : ids.length = 0
      · have hv : vals.length = 0 := by omega
        refine same _ ?_ ?_ <;> simp [SWCall.run, SimpleWriter.write, h.isOpen, hne, hv]
      · obtain ⟨h1, h2, h3⟩ := storedBatch_spec env hs ids vals hl
        have hwr := write_eq env ids vals sw h.isOpen hl hne
        simp only [SWCall.run] at hno hw ⊢
        rw [hwr] at hno hw ⊢
        obtain ⟨hr', new, ho, _⟩ := h.flush henc false _ _ (h2.trans h3.symm) (by rw [h2]; exact hb) hno
        have hfew := h.few
        have hb' : ids.length + 999 ≤ 2 ^ 27 := hb
        rcases flush_ends env false { sw with
            pendingIDs := sw.pendingIDs ++ (storedBatch env ids vals).1
            pendingValues := sw.pendingValues ++ (storedBatch env ids vals).2 } blks [] h.inv (by dsimp only; rw [h.enc]; exact henc.known)
          (by simp only [List.length_append, h.lens]; omega)
          (by simp only [List.length_append]; omega) hr' with ⟨hlow, hsm | ⟨hsy, hends⟩⟩
        · exact same _ (by rw [hsm]) (by rw [hsm])
        · refine ⟨fun i hi => (hlow i hi).trans (hr.1 i hi), .inr ⟨hsy, ?_⟩⟩
          dsimp only at hends
          rw [h.enc] at hends
          refine hends.mono fun v hv => ?_
          rcases List.mem_append.1 hv with hv | hv
          · exact hSV v (pending_values h v hv)
          · have hmem : v ∈ ((storedBatch env ids vals).1.zip (storedBatch env ids vals).2).map Prod.snd := by
              rw [List.map_snd_zip (by omega)]; exact hv
            obtain ⟨p, hp, rfl⟩ := List.mem_map.1 hmem
            exact List.mem_map.2 ⟨p, hw ids vals rfl hr' p (h1.perm.mem_iff.1 hp), rfl⟩
    · refine same _ ?_ ?_ <;> simp [SWCall.run, SimpleWriter.write, h.isOpen, hl]

theorem run_rest {env : Env} (hs : LawfulSort env.sort) {opts : List WriterOption}
    {sw : SimpleWriter B} {S : List Pair} {blks : List Blk} (h : SWOpen opts sw S blks)
    (henc : SymEnc (chosenEncoding opts)) (cs : List SWCall) (hb : ∀ c ∈ cs, c.Bounded) (hc : .close ∉ cs)
    (hno : SWNoIOError (runSW env cs sw).1) {w0 : Writer B} (hr : Rest (chosenEncoding opts) (S.map Prod.snd) w0 sw.writer) :
    Rest (chosenEncoding opts) ((S ++ (accepted (runSW env cs sw).1).flatten).map Prod.snd) w0 (runSW env cs sw).2.writer := by
  induction cs generalizing sw S blks with
  | nil => simpa [runSW, accepted] using hr
  | cons c cs ih =>
    rw [runSW_cons] at hno ⊢
    have hbc := hb c (by simp)
    have hcc : c ≠ .close := fun hx => hc (by rw [hx]; exact List.mem_cons_self)
    obtain ⟨st1, new1, hf1, hcase⟩ := h.call hs henc c hbc (hno _ List.mem_cons_self)
    rcases hcase with ho | ⟨he, _, _⟩
    · have hr1 := call_rest hs h henc c hbc hcc (hno _ List.mem_cons_self) ho (fun p hp => List.mem_append_left _ hp)
        (fun ids vals hw hok p hp => by
          rw [hok, hw] at hf1
          have : p ∈ (acceptedBy (.write ids vals) (.ok ())).flatten := by simpa [acceptedBy] using hp
          exact List.mem_append_right _ (hf1.perm.mem_iff.2 this)) hr
      have := ih ho (fun c' hc' => hb c' (by simp [hc'])) (fun hx => hc (List.mem_cons_of_mem _ hx))
        (fun ev hev => hno ev (List.mem_cons_of_mem _ hev)) hr1
      refine ⟨this.1, ?_⟩
      rcases this.2 with hx | ⟨hx, hy⟩
      · exact .inl hx
      · refine .inr ⟨hx, hy.mono fun v hv => ?_⟩
        obtain ⟨p, hp, rfl⟩ := List.mem_map.1 hv
        refine List.mem_map.2 ⟨p, ?_, rfl⟩
        show p ∈ S ++ (acceptedBy c (c.run env sw).1 ++ accepted (runSW env cs (c.run env sw).2).1).flatten
        rw [List.flatten_append]
        simp only [List.mem_append] at hp ⊢
        rcases hp with (hp | hp) | hp
        · exact .inl hp
        · exact .inr (.inl (hf1.perm.mem_iff.1 hp))
        · exact .inr (.inr hp)
    · exact absurd he hcc

/-- **C79.** A `SimpleWriter` that was not closed. After any calls other than `Close`, none of which
failed with an I/O error, let the power fail: whatever file then remains is rejected by
`NewReader` - nothing that was written can be read before `Close` - unless it is the complete file
and its last block, which holds accepted values, exactly fills its last page and ends with the
bytes of the magic number. -/
theorem C79_unclosed {env : Env} (ht : ∀ i, (env.clock i).toNat < 2 ^ 48) (hs : LawfulSort env.sort)
    {opts : List WriterOption} (henc : SymEnc (chosenEncoding opts)) {calls : List SWCall}
    (hb : ∀ c ∈ calls, c.Bounded) (hclose : .close ∉ calls) {log : SWLog} {sw : SimpleWriter B}
    (h : SWHistory B env opts calls log sw) (hno : SWNoIOError log) (hsz : sw.writer.file.bytes.length < 2 ^ 63)
    (f : Bytes) (hf : MayRemain sw.writer.disk f) :
    Rejected B f ∨
    (f = sw.writer.file.bytes ∧ EndsWithMagic f ∧ f.length % 4096 = 0 ∧
      ∃ P ids vals, f = P ++ image (chosenEncoding opts) ids vals ∧ vals ≠ [] ∧
        ∀ v ∈ vals, ∃ id, (id, v) ∈ (accepted log).flatten) := by
  obtain ⟨sw0, hnew, hrun⟩ := h.created
  obtain ⟨w0, hnew0, hsw0⟩ : ∃ w0, newWriter (B := B) opts env = (.ok (), w0) ∧ sw0.writer = w0 := by
    unfold newSimpleWriter at hnew
    rcases hr : newWriter (B := B) opts env with ⟨r, w⟩
    rw [hr] at hnew
    cases r with
    | error e => cases hnew
    | ok u =>
      cases hnew
      exact ⟨w, rfl, rfl⟩
  have hrest := run_rest hs (newSimpleWriter_open hnew) henc calls hb hclose (by rw [hrun]; exact hno) (w0 := sw0.writer)
    ⟨fun _ _ => rfl, .inl ⟨rfl, rfl⟩⟩
  rw [hrun] at hrest
  rcases hrest.2 with ⟨_, hd⟩ | ⟨hsy, P, ids, vals, hP, hne, hv⟩
  · left
    refine C79_headerOnly env opts henc.known ht f ?_
    rw [hnew0, ← hsw0, ← hd]
    exact hf
  · have hfe : f = sw.writer.file.bytes := (AllSynced.remains hsy f).1 hf
    subst hfe
    dsimp only at hP hv
    by_cases hm : EndsWithMagic sw.writer.file.bytes
    · right
      have h0 : calculatePadding (P.length + (image (chosenEncoding opts) ids vals).length) pageSize = 0 := by
        refine Classical.byContradiction fun hx => ?_
        obtain ⟨Q, hQ⟩ := padded_last _ _ hx
        have hm' := hm
        have hl8 : 80 ≤ sw.writer.file.bytes.length := by
          rw [hP, List.length_append, padded, List.length_append, image_length]; omega
        rw [hP, hQ, ← List.append_assoc] at hm' hl8
        exact absurd (endsWithMagic_last hm' (by omega)) (by decide)
      have hP' : sw.writer.file.bytes = P ++ image (chosenEncoding opts) ids vals := by
        rw [hP, padded, h0]; simp
      refine ⟨rfl, hm, ?_, P, ids, vals, hP', hne, fun v hm => ?_⟩
      · rw [hP', List.length_append]
        unfold calculatePadding pageSize at h0
        split at h0 <;> omega
      · obtain ⟨p, hp, rfl⟩ := List.mem_map.1 (hv v hm)
        exact ⟨p.1, by simpa using hp⟩
    · exact .inl fun r => C26_rejected _ hsz hm r

/-- **C79.** In raw encoding, nothing remains readable of an unclosed `SimpleWriter` unless one of the accepted values is the magic
number itself, 0x5645425F434F4C00. -/
theorem C79_raw {env : Env} (ht : ∀ i, (env.clock i).toNat < 2 ^ 48) (hs : LawfulSort env.sort)
    {opts : List WriterOption} (henc : chosenEncoding opts = encRaw) {calls : List SWCall}
    (hb : ∀ c ∈ calls, c.Bounded) (hclose : .close ∉ calls) {log : SWLog} {sw : SimpleWriter B}
    (h : SWHistory B env opts calls log sw) (hno : SWNoIOError log) (hsz : sw.writer.file.bytes.length < 2 ^ 63)
    (hmagic : ∀ p ∈ (accepted log).flatten, p.2.toUInt64 ≠ magicNumber)
    (f : Bytes) (hf : MayRemain sw.writer.disk f) : Rejected B f := by
  rcases C79_unclosed ht hs (by rw [henc]; exact .inl rfl) hb hclose h hno hsz f hf with hx | ⟨_, hm, _, P, ids, vals, hP, hne, hv⟩
  · exact hx
  · exfalso
    have hlast := List.dropLast_concat_getLast hne
    generalize vals.getLast hne = v at hlast
    obtain ⟨id, hid⟩ := hv v (by rw [← hlast]; simp)
    obtain ⟨Q, hQ⟩ : ∃ Q, f = Q ++ le64 v.toUInt64 := by
      rw [image, henc, valSection_raw, ← hlast, List.map_append, List.flatten_append] at hP
      simp only [List.map_cons, List.map_nil, List.flatten_cons, List.flatten_nil, List.append_nil, ← List.append_assoc] at hP
      exact ⟨_, hP⟩
    unfold EndsWithMagic at hm
    rw [hQ, List.length_append, le64_length, Nat.add_sub_cancel, List.drop_left] at hm
    exact hmagic _ hid (le64_injective hm)

/-! ### A power failure at any point -/

/-- The disk when the process (or the power) dies at file operation number `n`, see `crashedSimple`. -/
def crashedDisk (B : Type) [Bitmap B] (opts : List WriterOption) (calls : List SWCall) (env : Env) (n k : Nat) : Disk :=
  match newSimpleWriter (B := B) opts (env.crashAt n k) with
  | .error _ => (newWriter (B := B) opts (env.crashAt n k)).2.disk
  | .ok sw => (runSW (env.crashAt n k) (calls ++ [.close]) sw).2.writer.disk

theorem newWriter_diskIn (env : Env) (opts : List WriterOption) : DiskIn (newWriter (B := B) opts env).2 :=
  (Crashable.writeHeader (B := B)).disk env (startWriter opts) (by
    rw [startWriter_eq]
    exact ⟨Nat.le_refl _, Nat.le_refl _, fun p hp => by cases hp⟩)

/-- Nothing remains beyond what was written. -/
theorem _root_.VibeCol.DiskIn.remains {w : Writer B} (h : DiskIn w) {f : Bytes} (hf : MayRemain w.disk f) : f.length ≤ w.file.bytes.length := by
  rcases hf.bound with hx | ⟨p, hp, hx⟩
  · exact Nat.le_trans hx h.synced
  · exact Nat.le_trans hx (h.unsynced p hp)

/-- **C79.** The power fails at any file operation of a `SimpleWriter` session in which something was
accepted, up to and including `Close`. Whatever of the unsynced writes arrived: if the file that
remains has the length of the complete file and its last `28 + 56 n` bytes (the index of the `n` blocks and the footer) are
those of the complete file, then it holds every accepted batch, even if the new header did not arrive or arrived in
parts. -/
theorem C79_power {env : Env} (hq : env.NoFault) (hs : LawfulSort env.sort)
    {opts : List WriterOption} (henc : SymEnc (chosenEncoding opts)) {calls : List SWCall}
    (hb : ∀ c ∈ calls, c.Bounded) (hclose : .close ∉ calls) {log : SWLog} {sw sw2 : SimpleWriter B}
    (h : SWHistory B env opts calls log sw) (hsome : (accepted log).flatten ≠ []) (h2 : sw.close env = (.ok (), sw2))
    (hsz : sw2.writer.file.bytes.length ≤ maxFileSize) (n k : Nat) (f : Bytes)
    (hf : MayRemain (crashedDisk B opts calls env n k) f) (hlen : f.length = sw2.writer.file.bytes.length)
    (htail : f.drop (f.length - (28 + 56 * sw2.writer.blockCount)) =
      sw2.writer.file.bytes.drop (sw2.writer.file.bytes.length - (28 + 56 * sw2.writer.blockCount))) :
    HoldsBatches B f (accepted log) := by
  obtain ⟨sw0, hnew, hrun⟩ := h.created
  have hopen0 := newSimpleWriter_open hnew
  have hno : SWNoIOError log := by
    have := hopen0.run_noFault hs hq henc calls hb
    rw [hrun] at this
    dsimp only at this
    rw [this]
    exact expectedSW_noIO _ _
  obtain ⟨stored, blks, hst, ho⟩ := opened hs henc hb hclose h hno
  obtain ⟨sw1, new, w2, hfl, ho1, hstream, hfin2, hfile2, hcount, hsz63, hbl, hlw, hgrow⟩ := close_facts henc ho h2 hsz
  rw [hfile2] at hlen htail
  rw [hcount] at htail
  obtain ⟨w0, hnew0, hsw0⟩ : ∃ w0, newWriter (B := B) opts env = (.ok (), w0) ∧ sw0.writer = w0 := by
    unfold newSimpleWriter at hnew
    rcases hr : newWriter (B := B) opts env with ⟨r, w⟩
    rw [hr] at hnew
    cases r with
    | error e => cases hnew
    | ok u =>
      cases hnew
      exact ⟨w, rfl, rfl⟩
  have hd0 : DiskIn sw0.writer := by
    have := newWriter_diskIn (B := B) env opts
    rw [hnew0] at this
    rw [hsw0]
    exact this
  have hlen0 : w0.file.bytes.length ≤ sw.writer.file.bytes.length := by
    have := (CrashAt.calls calls sw0).grow env
    rw [hrun, hsw0] at this
    exact this
  by_cases hn0 : n < w0.opNo
  · -- during NewWriter
    exfalso
    have hcr := ((Crashable.writeHeader (B := B)).crash env (startWriter opts) n k
      (by rw [startWriter_eq]; exact Nat.zero_le _) (by rw [show writeHeader env (startWriter opts : Writer B) = _ from hnew0]; exact hn0) hq)
    change List.length (newWriter (B := B) opts (env.crashAt n k)).2.file.bytes ≤ List.length (newWriter (B := B) opts env).2.file.bytes ∧
      n < (newWriter (B := B) opts (env.crashAt n k)).2.opNo at hcr
    rw [hnew0] at hcr
    have hdi := newWriter_diskIn (B := B) (env.crashAt n k) opts
    unfold crashedDisk newSimpleWriter at hf
    generalize newWriter (B := B) opts (env.crashAt n k) = res at hf hcr hdi
    obtain ⟨r, wc⟩ := res
    dsimp only at hcr hdi
    cases r with
    | error e =>
      have := hdi.remains hf
      omega
    | ok u =>
      have hC := CrashAt.calls (calls ++ [.close]) ({ writer := wc, pendingIDs := [], pendingValues := [], targetBlockSize := 128 * 1024, closed := false, totalItems := 0 } : SimpleWriter B)
      have hd := hC.dead (env.crashAt n k) (dead_crashAt env n k wc hcr.2)
      have := (hC.disk (env.crashAt n k) hdi).remains hf
      dsimp only at hd this
      rw [hd] at this
      omega
  · have hsame : newSimpleWriter (B := B) opts (env.crashAt n k) = .ok sw0 := by
      unfold newSimpleWriter at hnew ⊢
      rw [newWriter_agree env opts n k (by rw [hnew0]; exact Nat.le_of_not_lt hn0)]
      exact hnew
    have hfe : crashedDisk B opts calls env n k =
        ((runSW (env.crashAt n k) calls sw0).2.close (env.crashAt n k)).2.writer.disk := by
      unfold crashedDisk
      rw [hsame]
      dsimp only
      rw [runSW_append]
      rfl
    rw [hfe] at hf
    by_cases hn1 : n < sw.writer.opNo
    · exfalso
      have hcr := (CrashAt.calls calls sw0).crash env n k (by rw [hsw0]; omega) (by rw [hrun]; exact hn1) hq
      rw [hrun] at hcr
      have hdi := (CrashAt.calls calls sw0).disk (env.crashAt n k) hd0
      generalize (runSW (env.crashAt n k) calls sw0).2 = wc at hcr hdi hf
      have hd := (CrashAt.call .close wc).dead (env.crashAt n k) (dead_crashAt env n k _ hcr.2)
      have := ((CrashAt.call .close wc).disk (env.crashAt n k) hdi).remains hf
      rw [hd] at this
      have := hcr.1
      dsimp only at this
      omega
    · have hag : (runSW (env.crashAt n k) calls sw0).2 = sw := by
        rw [(CrashAt.calls calls sw0).agree_crashAt env n k (by rw [hrun]; exact Nat.le_of_not_lt hn1), hrun]
      rw [hag, CrashAt.close_eq _ sw ho.isOpen] at hf
      have hdsw : DiskIn sw.writer := by
        have := (CrashAt.calls calls sw0).disk env hd0
        rw [hrun] at this
        exact this
      by_cases hn2 : n < sw1.writer.opNo
      · exfalso
        have hcr := (CrashAt.flush true sw).crash env n k (by omega) (by rw [hfl]; exact hn2) hq
        rw [hfl] at hcr
        have hC := CrashAt.afterFlush_crash (flushIfNeeded (env.crashAt n k) true sw).1 (flushIfNeeded (env.crashAt n k) true sw).2
        have hd := hC.dead (env.crashAt n k) (dead_crashAt env n k _ hcr.2)
        have := (hC.disk (env.crashAt n k) ((CrashAt.flush true sw).disk (env.crashAt n k) hdsw)).remains hf
        rw [hd] at this
        have := hcr.1
        dsimp only at this
        omega
      · rw [(CrashAt.flush true sw).agree_crashAt env n k (by rw [hfl]; exact Nat.le_of_not_lt hn2), hfl] at hf
        obtain ⟨r1, w1, hfin⟩ : ∃ r1 w1, finalize (env.crashAt n k) sw1.writer = (r1, w1) := ⟨_, _, rfl⟩
        have hlast : (CrashAt.afterFlush (.ok ()) (env.crashAt n k) sw1).2.writer.disk = w1.disk := by
          unfold CrashAt.afterFlush finalizeAndClose
          dsimp only
          rw [WM.bind_def, hfin]
          cases r1 with
          | error e => rfl
          | ok u =>
            dsimp only
            unfold fclose
            dsimp only
            by_cases hcl : w1.fileOpen = false
            · rw [if_pos hcl]
            · rw [if_neg hcl]
              cases (env.crashAt n k).fault w1.opNo <;> rfl
        dsimp only at hf
        rw [hlast] at hf
        -- what is known before Finalize
        have hrest := run_rest hs hopen0 henc calls hb hclose (by rw [hrun]; exact hno) (w0 := sw0.writer)
          ⟨fun _ _ => rfl, .inl ⟨rfl, rfl⟩⟩
        rw [hrun] at hrest
        dsimp only at hrest
        have hfew := ho.few
        obtain ⟨hlow, hcase⟩ := flush_ends env true sw blks [] ho.inv (by rw [ho.enc]; exact henc.known) ho.lens (by omega) (by rw [hfl])
        rw [hfl] at hlow hcase
        dsimp only at hlow hcase
        obtain ⟨t, hs0⟩ := wp_ok (writeHeader_spec (B := B) env opts) hnew0
        have hlow0 : ∀ i, i < 64 → sw1.writer.file.bytes[i]? = (startBytes (env.clock t) opts)[i]? := by
          intro i hi
          rw [hlow i hi, hrest.1 i hi, hsw0, hs0.file]
        have hsync : AllSynced sw1.writer := by
          rcases hcase with hx | ⟨hx, _⟩
          · rcases hrest.2 with ⟨hy, _⟩ | ⟨hy, _⟩
            · exfalso
              have hne : (blks ++ new) ≠ [] := by
                intro hx
                rw [hx] at hstream
                have := hst.perm
                rw [hstream] at this
                exact hsome (List.Perm.nil_eq this).symm
              have hcount := ho1.clean.laid.count (fun b hb => ho1.inv.ok b hb)
              have hpos : sw1.writer.file.pos = 64 := by
                rw [hx, hy, hsw0, hs0.file]
                exact startBytes_length _ _
              rw [hpos] at hcount
              have : 0 < (blks ++ new).length := List.length_pos_iff.2 hne
              omega
            · rw [hx]; exact hy
          · exact hx
        obtain ⟨r, h3, h4, h5⟩ := finalize_power ho1.inv ho1.clean ho1.enc hsync hlow0 henc hbl hfin hfin2 hsz63 hf hlen htail
        refine ⟨r, stored, h3, hst, _, h4, h5, ?_⟩
        rw [hstream]
        simp [blkPairs, List.flatMap_map]
        rfl

/-! ### Example -/

/-- Two batches, the first out of order; a rejected batch; a block size that forces one block per pair. -/
def exampleCalls : List SWCall :=
  [.write [3, 1, 2] [30, -10, 20], .setTarget 0, .write [5] [], .write [5, 1] [7, -9223372036854775808]]

/-- Non-vacuity of C79: a session whose `Close` writes five blocks meets the hypotheses of all its theorems. -/
theorem C79_example : ∃ (sw sw2 : SimpleWriter IdSet) (log : SWLog),
    SWHistory IdSet quietEnv [.withEncoding encVarIntBoth] exampleCalls log sw ∧ SWNoIOError log ∧
    accepted log = [[(3, 30), (1, -10), (2, 20)], [(5, 7), (1, -9223372036854775808)]] ∧
    (∀ c ∈ exampleCalls, c.Bounded) ∧ .close ∉ exampleCalls ∧
    sw.close quietEnv = (.ok (), sw2) ∧ sw2.writer.file.bytes.length ≤ maxFileSize ∧
    sw.writer.file.bytes.length < 2 ^ 63 := by
  have hb : ∀ c ∈ exampleCalls ++ [.close], c.Bounded := by
    intro c hc
    simp only [exampleCalls, List.mem_cons, List.mem_append, List.not_mem_nil, or_false] at hc
    rcases hc with (rfl | rfl | rfl | rfl) | rfl <;> simp [SWCall.Bounded]
  have henc : SymEnc (chosenEncoding [.withEncoding encVarIntBoth]) := by unfold SymEnc; decide
  obtain ⟨sw2, h2⟩ := C23_succeeds (B := IdSet) (env := quietEnv) sortByInsertion_lawful quietEnv_noFault [.withEncoding encVarIntBoth]
    henc (exampleCalls ++ [.close]) hb
  have hno2 := expectedSW_noIO (exampleCalls ++ [.close]) false
  obtain ⟨r, stored, _, heach, _, hlen, _⟩ := C20_sized sortByInsertion_lawful h2 henc hb hno2 (by simp [exampleCalls, expectedSW, SWCall.expected])
    (by simp [exampleCalls, expectedSW, SWCall.expected, SWCall.closes, accepted, acceptedBy])
    (fun L hL => by
      have h5 : L.length = 5 := by rw [hL]; rfl
      have := idSet_buffer 5 L (by omega)
      omega)
  obtain ⟨sw0, h0, hrun⟩ := h2.created
  have happ := runSW_append quietEnv exampleCalls [.close] sw0
  rw [hrun] at happ
  have hbc : ∀ c ∈ exampleCalls, c.Bounded := fun c hc => hb c (List.mem_append_left _ hc)
  have hlog := (newSimpleWriter_open h0).run_noFault sortByInsertion_lawful quietEnv_noFault henc exampleCalls hbc
  have hclose := (Prod.mk.inj happ)
  generalize hr : runSW quietEnv exampleCalls sw0 = res at hlog hclose
  obtain ⟨log, sw⟩ := res
  dsimp only at hlog hclose
  have hc2 : sw.close quietEnv = (.ok (), sw2) := by
    have e1 : (runSW quietEnv [.close] sw).1 = [(.close, (sw.close quietEnv).1)] := rfl
    have e2 : (runSW quietEnv [.close] sw).2 = (sw.close quietEnv).2 := rfl
    rw [e1, hlog] at hclose
    rw [e2] at hclose
    refine Prod.ext ?_ hclose.2.symm
    have := hclose.1
    have : [((SWCall.close : SWCall), (Except.ok () : Result))] = [(.close, (sw.close quietEnv).1)] :=
      List.append_cancel_left (as := expectedSW exampleCalls false) this
    simp only [List.cons.injEq, Prod.mk.injEq, true_and, and_true] at this
    exact this.symm
  have hsize : sw2.writer.file.bytes.length ≤ maxFileSize := by
    have hl : (accepted (expectedSW (exampleCalls ++ [.close]) false)).flatten.length = 5 := by
      simp [exampleCalls, expectedSW, SWCall.expected, SWCall.closes, accepted, acceptedBy]
    have hl2 : stored.flatten.length = 5 := by rw [heach.perm.length_eq, hl]
    have := idSet_buffer 5 (stored.flatten.map Prod.fst) (by rw [List.length_map, hl2]; omega)
    unfold bitmapOfPairs at hlen
    rw [hl] at hlen
    unfold maxFileSize maxBlocks
    omega
  have hsmall : sw.writer.file.bytes.length < 2 ^ 63 := by
    have := (CrashAt.call .close sw).grow quietEnv
    rw [show SWCall.run quietEnv .close sw = (.ok (), sw2) from hc2] at this
    dsimp only at this
    unfold maxFileSize maxBlocks at hsize
    omega
  refine ⟨sw, sw2, log, ⟨sw0, h0, hr⟩, by rw [hlog]; exact expectedSW_noIO _ _, by rw [hlog]; rfl, hbc, by simp [exampleCalls], hc2, hsize, hsmall⟩

end VibeCol.SimpleCrash
