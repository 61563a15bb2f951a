/-
C79: what an interrupted `SimpleWriter` session leaves is a prefix of the finished file, apart from the header.
-/
import Verif.Props.Cut
import Verif.Props.SimpleCrash
import Verif.Props.SimpleLayout
set_option linter.unusedSectionVars false
namespace VibeCol.CutSimple
variable {B : Type} [Bitmap B] [LawfulBitmap B] {α β : Type}
open VibeCol.Cuts (Front)
open VibeCol.Cuts.Cuts (End)
open VibeCol.SimpleCrash

/-- Started in `sw` without faults, `m` extends the file beyond the header, and a run that is cut off leaves a prefix there. -/
structure CutAt (env : Env) (m : Env → SimpleWriter B → α × SimpleWriter B) (sw : SimpleWriter B) : Prop where
  full : Front sw.writer.file.bytes (m env sw).2.writer.file.bytes
  cut : ∀ n k, sw.writer.opNo ≤ n → n < (m env sw).2.writer.opNo →
    Front (m (env.crashAt n k) sw).2.writer.file.bytes (m env sw).2.writer.file.bytes

namespace CutAt
variable {env : Env}

theorem quiet {m : Env → SimpleWriter B → α × SimpleWriter B} {sw : SimpleWriter B} (h : ∀ env, (m env sw).2.writer.file.bytes = sw.writer.file.bytes) :
    CutAt env m sw where
  full := by rw [h]; exact Front.refl _
  cut n k _ _ := by rw [h, h]; exact Front.refl _

theorem inner {P : Writer B → Prop} {m : WM B α} {Q : α → Writer B → Prop} (h : Cuts.Cuts P m Q) (hq : env.NoFault) (sw : SimpleWriter B) (hp : P sw.writer) :
    CutAt env (fun env sw => ((m env sw.writer).1, { sw with writer := (m env sw.writer).2 })) sw where
  full := h.full env sw.writer hq hp
  cut n k := h.cut env sw.writer n k hq hp

theorem seq {m : Env → SimpleWriter B → α × SimpleWriter B} {g : α → Env → SimpleWriter B → β × SimpleWriter B} {sw : SimpleWriter B}
    (hq : env.NoFault) (hm : CrashAt m sw) (hgc : ∀ env, CrashAt (g (m env sw).1) (m env sw).2) (h1 : CutAt env m sw)
    (h2 : CutAt env (g (m env sw).1) (m env sw).2) :
    CutAt env (fun env sw => g (m env sw).1 env (m env sw).2) sw where
  full := h1.full.trans h2.full
  cut n k ha hb := by
    by_cases hn : n < (m env sw).2.writer.opNo
    · obtain ⟨_, hc⟩ := hm.crash env n k ha hn hq
      show Front (g (m (env.crashAt n k) sw).1 (env.crashAt n k) (m (env.crashAt n k) sw).2).2.writer.file.bytes _
      rw [(hgc (env.crashAt n k)).dead _ (dead_crashAt env n k _ hc)]
      exact (h1.cut n k ha hn).trans h2.full
    · show Front (g (m (env.crashAt n k) sw).1 (env.crashAt n k) (m (env.crashAt n k) sw).2).2.writer.file.bytes _
      rw [hm.agree_crashAt env n k (Nat.le_of_not_lt hn)]
      exact h2.cut n k (Nat.le_of_not_lt hn) hb

theorem congr {m m' : Env → SimpleWriter B → α × SimpleWriter B} {sw : SimpleWriter B} (h : CutAt env m sw)
    (he : ∀ env, m' env sw = m env sw) : CutAt env m' sw where
  full := by rw [he]; exact h.full
  cut n k h1 h2 := by rw [he] at h2; rw [he, he]; exact h.cut n k h1 h2

theorem comap {m : Env → SimpleWriter B → α × SimpleWriter B} {sw : SimpleWriter B} (f : SimpleWriter B → SimpleWriter B)
    (h : CutAt env m (f sw)) (h1 : (f sw).writer.opNo = sw.writer.opNo) (h2 : (f sw).writer.file = sw.writer.file) :
    CutAt env (fun env s => m env (f s)) sw where
  full := by rw [← h2]; exact h.full
  cut n k hn := by rw [← h1] at hn; exact h.cut n k hn

theorem flush (hq : env.NoFault) (force : Bool) (sw : SimpleWriter B) (blks : List Blk) (hi : Inv sw.writer blks [])
    (hc : Clean sw.writer blks) (henc : SymEnc sw.writer.encodingType) (ho : sw.writer.fileOpen = true)
    (hb : sw.pendingIDs.length ≤ 2 ^ 27) : CutAt env (fun env sw => flushIfNeeded env force sw) sw := by
  induction hn : sw.pendingIDs.length using Nat.strongRecOn generalizing sw blks with
  | _ n ih =>
    subst hn
    by_cases h0 : sw.pendingIDs.length = 0
    · exact quiet fun env => by rw [flushIfNeeded_eq, if_pos h0]
    · by_cases h1 : force = true ∨ sw.pendingIDs.length ≥ 1000
      · have hend : End sw.writer.file := ⟨hc.atEnd, Nat.le_trans hi.pos64 hi.posLe⟩
        have hcont : ∀ env, CrashAt (CrashAt.afterWrite force (VibeCol.writeBlock sw.pendingIDs sw.pendingValues env sw.writer).1)
            { sw with writer := (VibeCol.writeBlock sw.pendingIDs sw.pendingValues env sw.writer).2 } := by
          intro env
          generalize VibeCol.writeBlock sw.pendingIDs sw.pendingValues env sw.writer = res
          obtain ⟨r, w'⟩ := res
          dsimp only
          unfold CrashAt.afterWrite
          split
          · rename_i k
            exact CrashAt.comap (m := fun env sw => flushIfNeeded env force sw) (fun s => { s with
              totalItems := s.totalItems + k
              pendingIDs := s.pendingIDs.drop k
              pendingValues := s.pendingValues.drop k }) (CrashAt.flush _ _) rfl rfl rfl
          · exact CrashAt.quiet _ (fun _ => rfl) rfl rfl rfl
          · exact CrashAt.quiet _ (fun _ => rfl) rfl rfl rfl
        refine congr (seq (g := CrashAt.afterWrite force) hq (CrashAt.inner (Crashable.writeBlock sw.pendingIDs sw.pendingValues) sw) hcont
          (inner (Cuts.Cuts.writeBlock sw.pendingIDs sw.pendingValues) hq sw hend) ?_) ?_
        · dsimp only
          have hio := call_noFault env hq (.write sw.pendingIDs sw.pendingValues) hb sw.writer ho blks [] hi
          obtain ⟨new, extra', _, hi', hcfg, hcl, hmis, _⟩ := call_inv env (.write sw.pendingIDs sw.pendingValues) hb sw.writer blks [] hi (fun h => by cases h)
          have hmis := hmis henc.allMatch
          obtain ⟨he', hcl2⟩ := hcl hio hmis
          subst he'
          have hcl3 := hcl2 hc
          clear hcl hcl2
          rcases hw : VibeCol.writeBlock sw.pendingIDs sw.pendingValues env sw.writer with ⟨r, w'⟩
          simp only [Call.run, hw] at hi' hcfg hcl3
          dsimp only
          unfold CrashAt.afterWrite
          split
          · rename_i k
            have hk := writeBlock_blockFull_bounds _ _ _ _ _ _ hw
            refine comap (m := fun env sw => flushIfNeeded env force sw) (fun s => { s with
              totalItems := s.totalItems + k
              pendingIDs := s.pendingIDs.drop k
              pendingValues := s.pendingValues.drop k }) (ih (sw.pendingIDs.drop k).length (by rw [List.length_drop]; omega) _ _ hi' hcl3
                (by dsimp only; rw [hcfg.enc]; exact henc) (by dsimp only; rw [hcfg.opened]; exact ho)
                (by dsimp only; rw [List.length_drop]; omega) rfl) rfl rfl
          · exact quiet fun _ => rfl
          · exact quiet fun _ => rfl
        · intro env
          dsimp only
          rw [flushIfNeeded_eq, if_neg h0, if_pos h1]
          rcases VibeCol.writeBlock sw.pendingIDs sw.pendingValues env sw.writer with ⟨r, w'⟩
          unfold CrashAt.afterWrite
          rcases r with e | u
          · cases e <;> rfl
          · rfl
      · exact quiet fun env => by rw [flushIfNeeded_eq, if_neg h0, if_neg h1]

theorem fclose (p : File → Prop) : Cuts.Cuts (B := B) (Cuts.Cuts.On p) VibeCol.fclose (fun _ => fun _ => True) :=
  Cuts.Cuts.still Crashable.fclose (fun env w => by
    unfold VibeCol.fclose
    dsimp only
    split
    · rfl
    · split <;> rfl) (fun _ _ _ _ _ _ => trivial)

/-- The end of a `Close`: the writer is marked as closed. -/
def closing (r : Except Err Unit) (_ : Env) (sw : SimpleWriter B) : Except Err Unit × SimpleWriter B :=
  match r with
  | .error e => (.error e, sw)
  | .ok _ => (.ok (), { sw with closed := true })

theorem closing_file (r : Except Err Unit) (env : Env) (sw : SimpleWriter B) : (closing r env sw).2.writer.file = sw.writer.file := by
  cases r <;> rfl

theorem finalizeAndClose_cuts : Cuts.Cuts (B := B) (Cuts.Cuts.On End) VibeCol.finalizeAndClose (fun _ => fun _ => True) :=
  Cuts.Cuts.seq Cuts.Cuts.finalize fun _ => fclose _

theorem afterFlush (hq : env.NoFault) (r : Except Err Unit) (sw : SimpleWriter B) (he : End sw.writer.file) :
    CutAt env (CrashAt.afterFlush r) sw := by
  cases r with
  | error e => exact quiet fun _ => rfl
  | ok u =>
    refine congr (seq (g := closing) hq (CrashAt.inner CrashAt.finalizeAndClose sw) ?_
      (inner finalizeAndClose_cuts hq sw he) (quiet fun e => by rw [closing_file])) ?_
    · intro env
      dsimp only
      unfold closing
      cases (VibeCol.finalizeAndClose env sw.writer).1 <;> exact CrashAt.quiet _ (fun _ => rfl) rfl rfl rfl
    · intro env
      unfold CrashAt.afterFlush closing
      dsimp only
      rcases VibeCol.finalizeAndClose env sw.writer with ⟨r, w'⟩
      cases r <;> rfl

theorem write (hq : env.NoFault) (hs : LawfulSort env.sort) {opts : List WriterOption} (henc : SymEnc (chosenEncoding opts)) {sw : SimpleWriter B} {S : List Pair}
    {blks : List Blk} (h : SWOpen opts sw S blks) (c : SWCall) (hb : c.Bounded) (hc : c ≠ .close) :
    CutAt env (fun env sw => c.run env sw) sw := by
  cases c with
  | close => exact absurd rfl hc
  | setTarget size => exact quiet fun env => by simp [SWCall.run, setTargetBlockSize, h.isOpen]
  | write ids vals =>
    by_cases hl : ids.length = vals.length
    · by_cases hne : ids.length = 0
      · have hv : vals.length = 0 := by omega
        exact quiet fun env => by simp [SWCall.run, SimpleWriter.write, h.isOpen, hne, hv]
      · obtain ⟨h1, h2, h3⟩ := storedBatch_spec env hs ids vals hl
        have hfew := h.few
        have hb' : ids.length + 999 ≤ 2 ^ 27 := hb
        have key := comap (env := env) (m := fun env sw => flushIfNeeded env false sw) (sw := sw) (fun s => { s with
            pendingIDs := s.pendingIDs ++ (storedBatch env ids vals).1
            pendingValues := s.pendingValues ++ (storedBatch env ids vals).2 })
          (flush hq false _ blks h.inv h.clean (by dsimp only; rw [h.enc]; exact henc) h.fileOpen
            (by dsimp only; rw [List.length_append]; omega)) rfl rfl
        have he : ∀ env, SWCall.run env (.write ids vals) sw = flushIfNeeded env false { sw with
            pendingIDs := sw.pendingIDs ++ (storedBatch env ids vals).1
            pendingValues := sw.pendingValues ++ (storedBatch env ids vals).2 } := fun env => write_eq env ids vals sw h.isOpen hl hne
        exact {
          full := by rw [he]; exact key.full
          cut := fun n k h4 h5 => by
            rw [he] at h5
            rw [he, he, show storedBatch (env.crashAt n k) ids vals = storedBatch env ids vals from rfl]
            exact key.cut n k h4 h5 }
    · exact quiet fun env => by simp [SWCall.run, SimpleWriter.write, h.isOpen, hl]

theorem calls (hq : env.NoFault) (hs : LawfulSort env.sort) {opts : List WriterOption} (henc : SymEnc (chosenEncoding opts)) {sw : SimpleWriter B} {S : List Pair}
    {blks : List Blk} (h : SWOpen opts sw S blks) (cs : List SWCall) (hb : ∀ c ∈ cs, c.Bounded) (hc : .close ∉ cs)
    (hno : SWNoIOError (runSW env cs sw).1) : CutAt env (fun env sw => runSW env cs sw) sw := by
  induction cs generalizing sw S blks with
  | nil => exact quiet fun _ => rfl
  | cons c cs ih =>
    rw [runSW_cons] at hno
    have hcc : c ≠ .close := fun hx => hc (by rw [hx]; exact List.mem_cons_self)
    obtain ⟨st1, new1, hf1, hcase⟩ := h.call hs henc c (hb c (by simp)) (hno _ List.mem_cons_self)
    rcases hcase with ho | ⟨he, _, _⟩
    · have hrest := ih ho (fun c' hc' => hb c' (by simp [hc'])) (fun hx => hc (List.mem_cons_of_mem _ hx))
        (fun ev hev => hno ev (List.mem_cons_of_mem _ hev))
      refine congr (seq (g := fun r env sw => ((c, r) :: (runSW env cs sw).1, (runSW env cs sw).2)) hq (CrashAt.call c sw) ?_
        (write hq hs henc h c (hb c (by simp)) hcc) ⟨hrest.full, hrest.cut⟩) fun env => by rw [runSW_cons]
      intro env
      have hx := CrashAt.calls cs (c.run env sw).2
      exact {
        count := hx.count
        grow := hx.grow
        dead := hx.dead
        agree := fun env env' h1 h2 h3 => by
          have := hx.agree env env' h1 h2 h3
          rw [this]
        crash := hx.crash
        disk := hx.disk }
    · exact absurd he hcc

end CutAt

/-- A whole session, from the newly made writer to the end of `Close`. -/
theorem session_cut {env : Env} (hq : env.NoFault) (hs : LawfulSort env.sort)
    {opts : List WriterOption} (henc : SymEnc (chosenEncoding opts)) {calls : List SWCall}
    (hb : ∀ c ∈ calls, c.Bounded) (hclose : .close ∉ calls) {log : SWLog} {sw sw2 : SimpleWriter B}
    (h : SWHistory B env opts calls log sw) (h2 : sw.close env = (.ok (), sw2)) :
    ∃ (sw0 : SimpleWriter B) (w0 : Writer B), newSimpleWriter opts env = .ok sw0 ∧ newWriter opts env = (.ok (), w0) ∧ sw0.writer = w0 ∧
      CutAt env (fun env sw => (runSW env calls sw).2.close env) sw0 ∧ ((runSW env calls sw0).2.close env).2 = sw2 := by
  obtain ⟨sw0, hnew, hrun⟩ := h.created
  have hopen0 := newSimpleWriter_open hnew
  have hno : SWNoIOError log := by
    have := hopen0.run_noFault hs hq henc calls hb
    rw [hrun] at this
    dsimp only at this
    rw [this]
    exact expectedSW_noIO _ _
  obtain ⟨stored, blks, hst, ho⟩ := opened hs henc hb hclose h hno
  obtain ⟨w0, hnew0, hsw0⟩ : ∃ w0, newWriter (B := B) opts env = (.ok (), w0) ∧ sw0.writer = w0 := by
    unfold newSimpleWriter at hnew
    rcases hr : newWriter (B := B) opts env with ⟨r, w⟩
    rw [hr] at hnew
    cases r with
    | error e => cases hnew
    | ok u =>
      cases hnew
      exact ⟨w, rfl, rfl⟩
  -- the calls, then `Close`
  have hcalls : CutAt env (fun env sw => runSW env calls sw) sw0 :=
    CutAt.calls hq hs henc hopen0 calls hb hclose (by rw [hrun]; exact hno)
  obtain ⟨sw1, hfl⟩ : ∃ sw1, flushIfNeeded env true sw = (.ok (), sw1) := by
    have := CrashAt.close_eq env sw ho.isOpen
    rw [h2] at this
    rcases hr : flushIfNeeded env true sw with ⟨r, s⟩
    rw [hr] at this
    cases r with
    | error e => cases this
    | ok u => exact ⟨s, rfl⟩
  have hend1 : End sw1.writer.file := by
    have hid : ({ sw with pendingIDs := sw.pendingIDs ++ [], pendingValues := sw.pendingValues ++ [] } : SimpleWriter B) = sw := by
      simp
    have := ho.flush (env := env) henc true [] [] rfl (by decide)
    rw [hid, hfl] at this
    obtain ⟨_, new, h3, h4⟩ := this (by simp)
    exact ⟨h3.clean.atEnd, Nat.le_trans h3.inv.pos64 h3.inv.posLe⟩
  have hcl : CutAt env (fun env sw => sw.close env) sw := by
    refine CutAt.congr (CutAt.seq (g := CrashAt.afterFlush) hq (CrashAt.flush true sw) (fun env => CrashAt.afterFlush_crash _ _)
      (CutAt.flush hq true sw blks ho.inv ho.clean (by rw [ho.enc]; exact henc) ho.fileOpen (by have := ho.few; omega)) ?_)
      fun env => CrashAt.close_eq env sw ho.isOpen
    rw [hfl]
    exact CutAt.afterFlush hq _ _ hend1
  have hboth : CutAt env (fun env sw => (runSW env calls sw).2.close env) sw0 := by
    refine CutAt.seq (m := fun env sw => runSW env calls sw) (g := fun _ env sw => sw.close env) hq (CrashAt.calls calls sw0)
      (fun env => CrashAt.call .close _) hcalls ?_
    rw [hrun]
    exact hcl
  have hfull : ((runSW env calls sw0).2.close env).2 = sw2 := by rw [hrun, h2]
  exact ⟨sw0, w0, hnew, hnew0, hsw0, hboth, hfull⟩

/-- **C79.** Wherever a `SimpleWriter` session is interrupted, the file it leaves is, from byte 60 on, a prefix of the file that the
whole session produces. -/
theorem C79_prefix {env : Env} (hq : env.NoFault) (hs : LawfulSort env.sort)
    {opts : List WriterOption} (henc : SymEnc (chosenEncoding opts)) {calls : List SWCall}
    (hb : ∀ c ∈ calls, c.Bounded) (hclose : .close ∉ calls) {log : SWLog} {sw sw2 : SimpleWriter B}
    (h : SWHistory B env opts calls log sw) (h2 : sw.close env = (.ok (), sw2)) (n k : Nat) :
    (crashedSimple B opts calls env n k).drop 60 <+: sw2.writer.file.bytes.drop 60 := by
  obtain ⟨sw0, w0, hnew, hnew0, hsw0, hboth, hfull⟩ := session_cut hq hs henc hb hclose h h2
  by_cases hn0 : n < w0.opNo
  · have hcr : n < (newWriter (B := B) opts (env.crashAt n k)).2.opNo :=
      newWriter_crash hq opts n k (by rw [hnew0]; exact hn0)
    have hpre : Front (newWriter (B := B) opts (env.crashAt n k)).2.file.bytes sw2.writer.file.bytes := by
      have := hboth.full
      rw [hfull, hsw0] at this
      exact (newWriter_front hnew0 n k).trans this
    unfold crashedSimple newSimpleWriter
    generalize newWriter (B := B) opts (env.crashAt n k) = res at hcr hpre ⊢
    obtain ⟨r, wc⟩ := res
    cases r with
    | error e => exact hpre
    | ok u =>
      have hd := (CrashAt.calls (calls ++ [.close]) ({ writer := wc, pendingIDs := [], pendingValues := [], targetBlockSize := 128 * 1024, closed := false, totalItems := 0 } : SimpleWriter B)).dead (env.crashAt n k) (dead_crashAt env n k wc hcr)
      dsimp only at hd ⊢
      rw [hd]
      exact hpre
  · have hsame : newSimpleWriter (B := B) opts (env.crashAt n k) = .ok sw0 := by
      unfold newSimpleWriter at hnew ⊢
      rw [newWriter_agree env opts n k (by rw [hnew0]; exact Nat.le_of_not_lt hn0)]
      exact hnew
    have hf : crashedSimple B opts calls env n k =
        ((runSW (env.crashAt n k) calls sw0).2.close (env.crashAt n k)).2.writer.file.bytes := by
      unfold crashedSimple
      rw [hsame]
      dsimp only
      rw [runSW_append]
      rfl
    rw [hf]
    by_cases hn1 : n < sw2.writer.opNo
    · have := hboth.cut n k (by rw [hsw0]; omega) (by rw [hfull]; exact hn1)
      rw [hfull] at this
      exact this
    · have hag := (CrashAt.seq (m := fun env sw => runSW env calls sw) (g := fun _ env sw => SimpleWriter.close env sw) (CrashAt.calls calls sw0)
        (fun env => CrashAt.call .close _)).agree_crashAt env n k (by rw [hfull]; exact Nat.le_of_not_lt hn1)
      rw [hag, hfull]
      exact List.prefix_refl _

/-- An interruption of `NewSimpleWriter` is detected; a later one leaves at least the 64 bytes of the header. -/
theorem crashedSimple_start {env : Env} (hq : env.NoFault) (ht : ∀ i, (env.clock i).toNat < 2 ^ 48) {opts : List WriterOption}
    (hk : KnownEnc (chosenEncoding opts)) (calls : List SWCall) (n k : Nat) :
    Rejected B (crashedSimple B opts calls env n k) ∨ 64 ≤ (crashedSimple B opts calls env n k).length := by
  obtain ⟨w0, hnew⟩ := newWriter_ok (B := B) env hq opts
  by_cases hn0 : n < w0.opNo
  · left
    have hcr : n < (newWriter (B := B) opts (env.crashAt n k)).2.opNo :=
      newWriter_crash hq opts n k (by rw [hnew]; exact hn0)
    have hrej : Rejected B (newWriter (B := B) opts (env.crashAt n k)).2.file.bytes :=
      C27_newWriter (env.crashAt n k) opts hk ht
    unfold crashedSimple newSimpleWriter
    generalize newWriter (B := B) opts (env.crashAt n k) = res at hcr hrej ⊢
    obtain ⟨r, wc⟩ := res
    cases r with
    | error e => exact hrej
    | ok u =>
      have hd := (CrashAt.calls (calls ++ [.close]) ({ writer := wc, pendingIDs := [], pendingValues := [], targetBlockSize := 128 * 1024, closed := false, totalItems := 0 } : SimpleWriter B)).dead (env.crashAt n k) (dead_crashAt env n k wc hcr)
      dsimp only at hd ⊢
      rw [hd]
      exact hrej
  · right
    have hsame : newWriter (B := B) opts (env.crashAt n k) = (.ok (), w0) := by
      rw [newWriter_agree env opts n k (by rw [hnew]; exact Nat.le_of_not_lt hn0), hnew]
    unfold crashedSimple newSimpleWriter
    rw [hsame]
    dsimp only
    obtain ⟨hi, _⟩ := newWriter_inv hnew
    exact Nat.le_trans (Nat.le_trans hi.pos64 hi.posLe) ((CrashAt.calls (calls ++ [.close]) ({ writer := w0, pendingIDs := [], pendingValues := [], targetBlockSize := 128 * 1024, closed := false, totalItems := 0 } : SimpleWriter B)).grow (env.crashAt n k))

/-- **C79.** If the finished file contains the magic number nowhere between its header and its last 24 bytes, then no interruption of
a `SimpleWriter` session can be mistaken. -/
theorem C79_detected {env : Env} (hq : env.NoFault) (ht : ∀ i, (env.clock i).toNat < 2 ^ 48) (hs : LawfulSort env.sort)
    {opts : List WriterOption} (henc : SymEnc (chosenEncoding opts)) {calls : List SWCall}
    (hb : ∀ c ∈ calls, c.Bounded) (hclose : .close ∉ calls) {log : SWLog} {sw sw2 : SimpleWriter B}
    (h : SWHistory B env opts calls log sw) (h2 : sw.close env = (.ok (), sw2))
    (hsz : sw2.writer.file.bytes.length ≤ maxFileSize)
    (hmagic : ∀ p, 60 ≤ p → p + 32 < sw2.writer.file.bytes.length → ¬ MagicAt sw2.writer.file.bytes p) (n k : Nat) :
    crashedSimple B opts calls env n k = sw2.writer.file.bytes ∨ Rejected B (crashedSimple B opts calls env n k) := by
  have hp := C79_prefix hq hs henc hb hclose h h2 n k
  rcases C79_whole hq ht hs henc hb hclose h h2 hsz n k with h1 | h1 | ⟨hl, hm⟩
  · exact .inl h1
  · exact .inr h1
  · rcases crashedSimple_start (B := B) hq ht henc.known calls n k with hx | h64
    · exact .inr hx
    · obtain ⟨sw0, w0, _, hnew0, hsw0, hboth, hfull⟩ := session_cut hq hs henc hb hclose h h2
      have hf := hboth.full
      rw [hfull, hsw0] at hf
      exact (no_mistake hp hl h64 (front_60 hnew0 hf) hmagic hm).elim

/-! ### Numbers of fixed width -/

theorem run_keeps {enc : Nat} {L L' : Layout} {log : SWLog} (h : Layout.Run enc L log L') (hL : L.closed = true → L.pending = []) :
    (L'.closed = true → L'.pending = []) ∧ (L.closed = true → L'.closed = true) := by
  induction h with
  | nil => exact ⟨hL, id⟩
  | cons h t ih =>
    cases h with
    | write hopen _ _ _ => exact ⟨(ih fun hc => absurd (hopen.symm.trans hc) (by simp)).1, fun hc => absurd (hopen.symm.trans hc) (by simp)⟩
    | mismatch hopen _ => exact ih hL
    | target hopen => exact ⟨(ih hL).1, fun hc => absurd (hopen.symm.trans hc) (by simp)⟩
    | close hopen _ => exact ⟨(ih fun _ => rfl).1, fun hc => absurd (hopen.symm.trans hc) (by simp)⟩
    | closed _ => exact ih hL

theorem run_closed {enc : Nat} {L L' : Layout} {log : SWLog} (h : Layout.Run enc L log L') (hL : L.closed = true → L.pending = [])
    (hc : (SWCall.close, Except.ok ()) ∈ log) : L'.closed = true := by
  induction h with
  | nil => cases hc
  | @cons L L1 L2 c r log h t ih =>
    rcases List.mem_cons.1 hc with he | hc
    · injection he with h1 h2
      subst h1
      cases h with
      | close _ _ => exact (run_keeps t fun _ => rfl).2 rfl
      | closed h3 => exact (run_keeps t hL).2 h3
    · refine ih ?_ hc
      cases h with
      | write hopen _ _ _ => exact fun hc => absurd (hopen.symm.trans hc) (by simp)
      | mismatch hopen _ => exact hL
      | target hopen => exact hL
      | close hopen _ => exact fun _ => rfl
      | closed _ => exact hL

theorem blocks_le : ∀ (bs : List (List Pair)), (∀ b ∈ bs, b ≠ []) → bs.length ≤ bs.flatten.length
  | [], _ => Nat.zero_le _
  | b :: bs, h => by
    have h1 := blocks_le bs fun x hx => h x (by simp [hx])
    have h2 : 0 < b.length := List.length_pos_iff.2 (h b (by simp))
    rw [List.flatten_cons, List.length_append, List.length_cons]
    omega

/-- The sum of the absolute values. -/
def absSum (ps : List Pair) : Nat := (ps.map fun p => p.2.toInt.natAbs).sum

theorem absSum_append (a b : List Pair) : absSum (a ++ b) = absSum a + absSum b := by
  unfold absSum; rw [List.map_append, List.sum_append]

theorem sum_le (ps : List Pair) : ((ps.map fun p : Pair => p.2.toInt).sum).natAbs ≤ absSum ps := by
  induction ps with
  | nil => exact Nat.le_refl _
  | cons p ps ih =>
    unfold absSum at ih ⊢
    simp only [List.map_cons, List.sum_cons]
    omega

theorem absSum_block {bs : List (List Pair)} {b : List Pair} (h : b ∈ bs) : absSum b ≤ absSum bs.flatten ∧ b.length ≤ bs.flatten.length := by
  induction bs with
  | nil => cases h
  | cons c cs ih =>
    rw [List.flatten_cons, absSum_append, List.length_append]
    rcases List.mem_cons.1 h with rfl | h
    · omega
    · have := ih h
      omega

/-- **C79, fixed width.** In the raw and in the delta encoding, with IDs and values below 2^47 in absolute value, at most 2^24 pairs
whose absolute values add up to less than 2^48, and ordinary bitmaps, every interruption is detected: what is left is the finished
file or is rejected by `NewReader`. -/
theorem C79_fixedWidth {env : Env} (hq : env.NoFault) (ht : ∀ i, (env.clock i).toNat < 2 ^ 48) (hs : LawfulSort env.sort)
    {opts : List WriterOption} (henc : chosenEncoding opts = encRaw ∨ chosenEncoding opts = encDeltaBoth) {calls : List SWCall}
    (hb : ∀ c ∈ calls, c.Bounded) (hclose : .close ∉ calls) {log : SWLog} {sw sw2 : SimpleWriter B}
    (h : SWHistory B env opts calls log sw) (h2 : sw.close env = (.ok (), sw2))
    (hsz : sw2.writer.file.bytes.length ≤ maxFileSize)
    (hids : ∀ p ∈ (accepted log).flatten, p.1.toNat < 2 ^ 47) (hvals : ∀ p ∈ (accepted log).flatten, p.2.toInt.natAbs < 2 ^ 47)
    (hsum : absSum (accepted log).flatten < 2 ^ 48) (hfew : (accepted log).flatten.length ≤ 2 ^ 24)
    (hbm : ∀ l : List Pair, l.Perm (accepted log).flatten → Spaced (Bitmap.toBuffer (bitmapOfPairs B l)) ∧
      (Bitmap.toBuffer (bitmapOfPairs B l)).length ≤ 2 ^ 30) (n k : Nat) :
    crashedSimple B opts calls env n k = sw2.writer.file.bytes ∨ Rejected B (crashedSimple B opts calls env n k) := by
  have hsym : SymEnc (chosenEncoding opts) := by
    rcases henc with e | e <;> rw [e] <;> unfold SymEnc <;> decide
  have henc : (chosenEncoding opts).toNat < 4 := by
    rcases henc with e | e <;> rw [e] <;> decide
  refine C79_detected hq ht hs hsym hb hclose h h2 hsz ?_ n k
  obtain ⟨sw0, hnew, hrun⟩ := h.created
  have hh : SWHistory B env opts (calls ++ [.close]) (log ++ [(.close, .ok ())]) sw2 := by
    refine ⟨sw0, hnew, ?_⟩
    rw [runSW_append, hrun]
    show (log ++ [(SWCall.close, (sw.close env).1)], (sw.close env).2) = _
    rw [h2]
  obtain ⟨L, i, hL, hfile⟩ := C53_layout hq hs hh hsym.regular (by
    intro c hc
    rcases List.mem_append.1 hc with hc | hc
    · exact hb c hc
    · rw [List.mem_singleton] at hc; subst hc; trivial)
  have hst : (Layout.start opts).closed = true → (Layout.start opts).pending = [] := fun _ => rfl
  have hcl := run_closed hL hst (by simp)
  have hpend := (run_keeps hL hst).1 hcl
  rw [hcl, if_pos rfl] at hfile
  obtain ⟨stored, hst1, hst2⟩ := hL.stream hst
  have hacc : accepted (log ++ [(.close, .ok ())]) = accepted log := by
    unfold accepted
    rw [List.flatMap_append]
    simp [acceptedBy]
  rw [hacc] at hst1
  have hperm : L.blocks.flatten.Perm (accepted log).flatten := by
    rw [hpend, List.append_nil] at hst2
    rw [hst2]
    exact hst1.perm
  have hmem : ∀ b ∈ L.blocks, ∀ p ∈ b, p ∈ (accepted log).flatten := fun b hb p hp =>
    hperm.mem_iff.1 (List.mem_flatten.2 ⟨b, hb, hp⟩)
  have habs : absSum L.blocks.flatten = absSum (accepted log).flatten := (hperm.map _).sum_nat
  have hlen := hperm.length_eq
  have hsz' : sw2.writer.file.bytes.length < 2 ^ 48 := by unfold maxFileSize maxBlocks at hsz; omega
  intro p h3 h4
  rw [hfile] at hsz' h4 ⊢
  refine file_no_magic henc _ ?_ _ (hbm _ hperm).1 (hbm _ hperm).2 ?_ hsz' p h3 h4
  · intro b hb
    obtain ⟨c, hc, rfl⟩ := List.mem_map.1 hb
    have h5 := absSum_block hc
    have h6 := sum_le c
    exact {
      ids := by
        intro x hx
        obtain ⟨y, hy, rfl⟩ := List.mem_map.1 hx
        exact hids y (hmem c hc y hy)
      vals := by
        intro x hx
        obtain ⟨y, hy, rfl⟩ := List.mem_map.1 hx
        exact hvals y (hmem c hc y hy)
      sum := by
        show ((c.map fun p : Pair => p.2.toInt).sum).natAbs < _
        omega
      few := by
        show (c.map _).length ≤ _
        rw [List.length_map]; omega
      same := by
        show (c.map _).length = (c.map _).length
        rw [List.length_map, List.length_map] }
  · rw [List.length_map]
    have := blocks_le L.blocks fun b hb => (C53_fits hL b hb).1
    omega

/-! ### Example -/

/-- Two batches, the first out of order, and a block size that forces one block per pair. -/
def tameCalls : List SWCall := [.write [3, 1, 2] [30, -10, 20], .setTarget 0, .write [5, 1] [7, -70368744177664]]

theorem idSet_mem (l : List UInt64) (s : IdSet) : ∀ x ∈ (l.foldl Bitmap.set s).ids, x ∈ s.ids ∨ x ∈ l := by
  induction l generalizing s with
  | nil => intro x hx; exact .inl hx
  | cons a as ih =>
    intro x hx
    rcases ih _ x hx with h | h
    · have : (Bitmap.set s a).ids = a :: s.ids := rfl
      rw [this] at h
      rcases List.mem_cons.1 h with h | h
      · exact .inr (by rw [h]; exact List.mem_cons_self ..)
      · exact .inl h
    · exact .inr (List.mem_cons_of_mem _ h)

/-- Non-vacuity of `C79_prefix`, `C79_detected` and `C79_fixedWidth`. -/
example : ∃ (sw sw2 : SimpleWriter IdSet) (log : SWLog),
    quietEnv.NoFault ∧ (∀ i, (quietEnv.clock i).toNat < 2 ^ 48) ∧ LawfulSort quietEnv.sort ∧ chosenEncoding [] = encRaw ∧
    (∀ c ∈ tameCalls, c.Bounded) ∧ .close ∉ tameCalls ∧ SWHistory IdSet quietEnv [] tameCalls log sw ∧
    sw.close quietEnv = (.ok (), sw2) ∧ sw2.writer.file.bytes.length ≤ maxFileSize ∧
    accepted log = [[(3, 30), (1, -10), (2, 20)], [(5, 7), (1, -70368744177664)]] ∧
    (∀ p ∈ (accepted log).flatten, p.1.toNat < 2 ^ 47) ∧ (∀ p ∈ (accepted log).flatten, p.2.toInt.natAbs < 2 ^ 47) ∧
    absSum (accepted log).flatten < 2 ^ 48 ∧ (accepted log).flatten.length ≤ 2 ^ 24 ∧
    ∀ l : List Pair, l.Perm (accepted log).flatten → Spaced (Bitmap.toBuffer (bitmapOfPairs IdSet l)) ∧
      (Bitmap.toBuffer (bitmapOfPairs IdSet l)).length ≤ 2 ^ 30 := by
  have hb : ∀ c ∈ tameCalls ++ [.close], c.Bounded := by
    intro c hc
    simp only [tameCalls, List.mem_cons, List.mem_append, List.not_mem_nil, or_false] at hc
    rcases hc with (rfl | rfl | rfl) | rfl <;> simp [SWCall.Bounded]
  have henc : SymEnc (chosenEncoding []) := by unfold SymEnc; decide
  obtain ⟨sw2, h2⟩ := C23_succeeds (B := IdSet) (env := quietEnv) sortByInsertion_lawful quietEnv_noFault []
    henc (tameCalls ++ [.close]) hb
  have hno2 := expectedSW_noIO (tameCalls ++ [.close]) false
  obtain ⟨r, stored, _, heach, _, hlen, _⟩ := C20_sized sortByInsertion_lawful h2 henc hb hno2 (by simp [tameCalls, expectedSW, SWCall.expected])
    (by simp [tameCalls, expectedSW, SWCall.expected, SWCall.closes, accepted, acceptedBy])
    (fun L hL => by
      have h5 : L.length = 5 := by rw [hL]; rfl
      have := idSet_buffer 5 L (by omega)
      omega)
  obtain ⟨sw0, h0, hrun⟩ := h2.created
  have happ := runSW_append quietEnv tameCalls [.close] sw0
  rw [hrun] at happ
  have hbc : ∀ c ∈ tameCalls, c.Bounded := fun c hc => hb c (List.mem_append_left _ hc)
  have hlog := (newSimpleWriter_open h0).run_noFault sortByInsertion_lawful quietEnv_noFault henc tameCalls hbc
  have hclose := (Prod.mk.inj happ)
  generalize hr : runSW quietEnv tameCalls sw0 = res at hlog hclose
  obtain ⟨log, sw⟩ := res
  dsimp only at hlog hclose
  have hc2 : sw.close quietEnv = (.ok (), sw2) := by
    have e1 : (runSW quietEnv [.close] sw).1 = [(.close, (sw.close quietEnv).1)] := rfl
    have e2 : (runSW quietEnv [.close] sw).2 = (sw.close quietEnv).2 := rfl
    rw [e1, hlog] at hclose
    rw [e2] at hclose
    refine Prod.ext ?_ hclose.2.symm
    have := hclose.1
    have : [((SWCall.close : SWCall), (Except.ok () : Result))] = [(.close, (sw.close quietEnv).1)] :=
      List.append_cancel_left (as := expectedSW tameCalls false) this
    simp only [List.cons.injEq, Prod.mk.injEq, true_and, and_true] at this
    exact this.symm
  have hsize : sw2.writer.file.bytes.length ≤ maxFileSize := by
    have hl : (accepted (expectedSW (tameCalls ++ [.close]) false)).flatten.length = 5 := by
      simp [tameCalls, expectedSW, SWCall.expected, SWCall.closes, accepted, acceptedBy]
    have hl2 : stored.flatten.length = 5 := by rw [heach.perm.length_eq, hl]
    have := idSet_buffer 5 (stored.flatten.map Prod.fst) (by rw [List.length_map, hl2]; omega)
    unfold bitmapOfPairs at hlen
    rw [hl] at hlen
    unfold maxFileSize maxBlocks
    omega
  have hacc : accepted log = [[(3, 30), (1, -10), (2, 20)], [(5, 7), (1, -70368744177664)]] := by rw [hlog]; rfl
  refine ⟨sw, sw2, log, quietEnv_noFault, fun i => by show (1700000000 : UInt64).toNat < _; decide, sortByInsertion_lawful, rfl,
    hbc, by simp [tameCalls], ⟨sw0, h0, hr⟩, hc2, hsize, hacc, ?_⟩
  rw [hacc]
  have hi : ∀ p ∈ ([[(3, 30), (1, -10), (2, 20)], [(5, 7), (1, -70368744177664)]] : List (List Pair)).flatten, p.1.toNat < 2 ^ 47 := by decide
  refine ⟨hi, by decide, by decide, by decide, ?_⟩
  intro l hl
  constructor
  · show Spaced (((bitmapOfPairs IdSet l).ids.map le64).flatten)
    rw [← List.flatMap_def]
    refine Spaced.flatMap _ _ fun x hx => Spaced.small x.toNat ?_
    rcases idSet_mem _ _ x hx with hx | hx
    · cases hx
    · obtain ⟨p, hp, rfl⟩ := List.mem_map.1 hx
      have := hi p (hl.mem_iff.1 hp)
      omega
  · have h5 : l.length = 5 := hl.length_eq
    have := idSet_buffer 5 (l.map Prod.fst) (by rw [List.length_map]; omega)
    unfold bitmapOfPairs
    omega

end VibeCol.CutSimple
