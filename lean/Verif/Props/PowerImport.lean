/-
C91 for `loadtest import`: a power failure while it writes.
-/
import Verif.Props.PowerCut
namespace VibeCol.PowerCut
set_option linter.unusedSectionVars false
open VibeCol.Cmd (Files)
open VibeCol.Cli (str)
open VibeCol.LoadCmd VibeCol.LoadTest VibeCol.SimpleCrash
variable {B : Type} [Bitmap B] [LawfulBitmap B]

/-- An import keeps what may be on the disk within its file. -/
theorem import_diskIn {env : Env} (g : Rng) (mv : Int64) (mi : UInt64) (rem wr k : Nat) (sw : SimpleWriter B) (hd : DiskIn sw.writer) :
    DiskIn (importLoop env g mv mi rem wr k sw).2.writer := by
  induction rem using Nat.strongRecOn generalizing wr k sw with
  | ind rem ih =>
    have hclose := (CrashAt.call .close sw).disk env hd
    change DiskIn (sw.close env).2.writer at hclose
    rw [importLoop]
    by_cases hn : rem = 0
    · rw [dif_pos hn]
      generalize sw.close env = res at hclose ⊢
      obtain ⟨r, sw1⟩ := res
      cases r with
      | error e => exact hclose
      | ok u => exact (CrashAt.call .close sw1).disk env hclose
    · rw [dif_neg hn]
      dsimp only
      generalize genBatch g mv mi (min 10000 rem) none k = res
      cases res with
      | panic => exact hclose
      | err e => exact hclose
      | ok res =>
        obtain ⟨⟨ids, vals⟩, k1⟩ := res
        dsimp only
        have hw := (CrashAt.call (.write ids vals) sw).disk env hd
        change DiskIn (sw.write env ids vals).2.writer at hw
        generalize sw.write env ids vals = res at hw ⊢
        obtain ⟨r, sw1⟩ := res
        cases r with
        | error e => exact hw
        | ok u => exact ih _ (by omega) _ _ sw1 hw

/-- What remains if the power fails during an import. -/
theorem import_power {env : Env} (hq : env.NoFault) (n kk : Nat) (g : Rng) (mv : Int64) (mi : UInt64) (rem wr k : Nat) (sw sw' : SimpleWriter B)
    {v i : Nat} (h : importLoop env g mv mi rem wr k sw = (.done v i, sw')) {batches : List (List UInt64 × List Int64)} {k' : Nat}
    (hb : Batches g mv mi rem k batches 0 k') (hn : sw.writer.opNo ≤ n) (hd : DiskIn sw.writer)
    {f : Bytes} (hf : MayRemain (importLoop (env.crashAt n kk) g mv mi rem wr k sw).2.writer.disk f) :
    f.length ≤ (runSW env (writes batches) sw).2.writer.file.bytes.length ∨
      MayRemain (runSW (env.crashAt n kk) (writes batches ++ [.close]) sw).2.writer.disk f := by
  induction rem using Nat.strongRecOn generalizing wr k sw batches with
  | ind rem ih =>
    rw [importLoop] at h hf
    by_cases hr : rem = 0
    · right
      rw [dif_pos hr] at hf
      subst hr
      cases hb with
      | cons hn _ _ => omega
      | nil =>
        have hc := close_closed (env.crashAt n kk) sw
        have hrun : runSW (env.crashAt n kk) (writes [] ++ [.close]) sw =
          ([(SWCall.close, (sw.close (env.crashAt n kk)).1)], (sw.close (env.crashAt n kk)).2) := rfl
        rw [hrun]
        generalize sw.close (env.crashAt n kk) = res at hc hf ⊢
        obtain ⟨r, sw1⟩ := res
        cases r with
        | error e => exact hf
        | ok u =>
          have h2 := (closed_call (env.crashAt n kk) .close sw1 (hc rfl)).1
          simp only [SWCall.run] at h2
          dsimp only at hf
          rw [h2] at hf
          exact hf
    · rw [dif_neg hr] at h hf
      dsimp only at h hf
      cases hb with
      | nil => exact absurd rfl hr
      | cons _ hg ht =>
        rename_i ids vals k1 rest _
        rw [hg] at h hf
        dsimp only at h hf
        have hrun : ∀ env', runSW env' (writes ((ids, vals) :: rest) ++ [.close]) sw =
            ((SWCall.write ids vals, (sw.write env' ids vals).1) ::
              (runSW env' (writes rest ++ [.close]) (sw.write env' ids vals).2).1,
             (runSW env' (writes rest ++ [.close]) (sw.write env' ids vals).2).2) := fun _ => rfl
        have hrun' : (runSW env (writes ((ids, vals) :: rest)) sw).2 = (runSW env (writes rest) (sw.write env ids vals).2).2 := rfl
        rw [hrun, hrun']
        dsimp only
        rcases hw : sw.write env ids vals with ⟨r, sw1⟩
        rw [hw] at h
        cases r with
        | error e => cases h
        | ok u =>
          dsimp only at h
          by_cases hn1 : n < sw1.writer.opNo
          · -- during this Write
            left
            obtain ⟨hlen, hcr⟩ := (CrashAt.call (.write ids vals) sw).crash env n kk hn (by
              show n < (sw.write env ids vals).2.writer.opNo
              rw [hw]; exact hn1) hq
            change (sw.write (env.crashAt n kk) ids vals).2.writer.file.bytes.length ≤ (sw.write env ids vals).2.writer.file.bytes.length at hlen
            rw [hw] at hlen
            change n < (sw.write (env.crashAt n kk) ids vals).2.writer.opNo at hcr
            have hdw := (CrashAt.call (.write ids vals) sw).disk (env.crashAt n kk) hd
            change DiskIn (sw.write (env.crashAt n kk) ids vals).2.writer at hdw
            generalize sw.write (env.crashAt n kk) ids vals = res at hcr hf hlen hdw
            obtain ⟨r, swc⟩ := res
            dsimp only at hcr hlen hdw
            have hgrow := (CrashAt.calls (writes rest) sw1).grow env
            refine Nat.le_trans ?_ (Nat.le_trans hlen hgrow)
            cases r with
            | error e => exact hdw.remains hf
            | ok u =>
              have := (import_diskIn (env := env.crashAt n kk) g mv mi _ _ _ swc hdw).remains hf
              rwa [Killed.import_dead g mv mi _ _ _ swc (dead_crashAt env n kk swc.writer hcr)] at this
          · have hag := (CrashAt.call (.write ids vals) sw).agree_crashAt env n kk (by
              show (sw.write env ids vals).2.writer.opNo ≤ n
              rw [hw]; exact Nat.le_of_not_lt hn1)
            change sw.write (env.crashAt n kk) ids vals = sw.write env ids vals at hag
            rw [hag, hw] at hf ⊢
            have hd1 := (CrashAt.call (.write ids vals) sw).disk env hd
            change DiskIn (sw.write env ids vals).2.writer at hd1
            rw [hw] at hd1
            exact ih _ (by omega) _ _ _ h ht (Nat.le_of_not_lt hn1) hd1 hf

/-- The number of blocks, as a reader sees it. -/
theorem close_count {env : Env} (hs : LawfulSort env.sort) (hq : env.NoFault) {opts : List WriterOption} (henc : SymEnc (chosenEncoding opts))
    {calls : List SWCall} (hb : ∀ c ∈ calls, c.Bounded) (hclose : .close ∉ calls) {log : SWLog} {sw sw2 : SimpleWriter B}
    (h : SWHistory B env opts calls log sw) (h2 : sw.close env = (.ok (), sw2)) (hsz : sw2.writer.file.bytes.length ≤ maxFileSize) :
    ∃ r : Reader B, newReader sw2.writer.file.bytes = .ok r ∧ r.blockCount.toNat = sw2.writer.blockCount ∧
      sw.writer.file.bytes.length < sw2.writer.file.bytes.length := by
  obtain ⟨sw0, hnew, hrun⟩ := h.created
  have hopen0 := newSimpleWriter_open hnew
  have hno : SWNoIOError log := by
    have := hopen0.run_noFault hs hq henc calls hb
    rw [hrun] at this
    dsimp only at this
    rw [this]
    exact expectedSW_noIO _ _
  obtain ⟨stored, blks, hst, ho⟩ := opened hs henc hb hclose h hno
  obtain ⟨sw1, new, w2, hfl, ho1, hstream, hfin2, hfile2, hcount, hsz63, hbl, hlw, hgrow⟩ := close_facts henc ho h2 hsz
  obtain ⟨_, hinv, _, _, _, hok, _⟩ := wp_ok (finalize_inv env sw1.writer _ [] ho1.inv) hfin2
  obtain ⟨hd, bo, fs, hok, _⟩ := hok hsz63
  rw [ho1.enc] at hok
  rw [hfile2, hcount]
  have hR := hok.reads (B := B) henc hbl
  refine ⟨_, hok.newReader (B := B) (by unfold maxBlocks at hbl; omega), ?_, by omega⟩
  have := hR.toIndexed.count_toNat
  rw [List.length_map] at this
  exact this

/-- `fs'` is what a power failure before or during a `loadtest import` command may leave: before it creates its file, while `NewSimpleWriter`
writes the first header, or later. -/
inductive PowerLeftLoad (B : Type) [Bitmap B] (w : LoadCmd.World) (fs : Files) (args : List Bytes) : Files → Prop where
  | before : PowerLeftLoad B w fs args fs
  | creating (n k : Nat) {a : ImportArgs} {f : Bytes} {e : Err} (asks : AsksImport w.now args a)
      (failed : newSimpleWriter (B := B) (options a.blockSize) (w.env.crashAt n k) = .error e)
      (remains : MayRemain (newWriter (B := B) (options a.blockSize) (w.env.crashAt n k)).2.disk f) : PowerLeftLoad B w fs args (fs.put a.file f)
  | during (n k : Nat) {fs' : Files} (h : AfterPowerLoad B { w with env := w.env.crashAt n k } fs args fs') : PowerLeftLoad B w fs args fs'

/-- **C91.** The power fails before or while a `loadtest import` command that would have succeeded writes its file. No other file is
touched. If the file has then the length of the file the command would have made and ends with the same index and footer (the last
`28 + 56 n` bytes, where `n` is its number of blocks), then it holds every batch of the generated values, whatever of the other writes
arrived. -/
theorem C91_import {w : LoadCmd.World} {fs : Files} {args : List Bytes} {a : ImportArgs} (h : AsksImport w.now args a)
    (hsort : LawfulSort w.env.sort) (hq : w.env.NoFault) (hs : (LoadCmd.main B w fs args).stop.status = 0) (hnum : 0 < a.num.toInt)
    {full : Bytes} (hfull : (LoadCmd.main B w fs args).files a.file = some full) (hsz : full.length ≤ maxFileSize) :
    ∃ (batches : List (List UInt64 × List Int64)) (k' : Nat) (r : Reader B),
      Batches (w.rng a.seed) a.maxValue a.maxID a.num.toInt.toNat 0 batches 0 k' ∧ newReader full = .ok r ∧
      ∀ fs', PowerLeftLoad B w fs args fs' → (∀ name, name ≠ a.file → fs' name = fs name) ∧
        (fs' = fs ∨ ∃ f, fs' a.file = some f ∧ (f.length = full.length →
          f.drop (f.length - (28 + 56 * r.blockCount.toNat)) = full.drop (full.length - (28 + 56 * r.blockCount.toNat)) →
          HoldsBatches B f (pairs batches))) := by
  rw [main_import h] at hs hfull
  unfold LoadCmd.runImport at hs hfull
  split at hs
  · cases hs
  rename_i hd
  rw [if_neg hd] at hfull
  split at hs
  · cases hs
  rename_i hc
  rw [if_neg hc] at hfull
  cases hrun : LoadTest.runImport (B := B) w.env (w.rng a.seed) a.num a.blockSize a.maxValue a.maxID with
  | mk e out =>
  rw [hrun] at hs hfull
  cases out with
  | none =>
    exfalso
    unfold LoadTest.runImport at hrun
    split at hrun
    · cases hrun; cases hs
    · cases hrun
  | some sw2 =>
  dsimp only at hs hfull
  rw [show fs.put a.file sw2.writer.file.bytes a.file = some sw2.writer.file.bytes from if_pos rfl] at hfull
  cases hfull
  cases e with
  | failed e => cases hs
  | panicked => cases hs
  | done v i =>
  obtain ⟨sw0, h0, h1⟩ := runImport_eq hrun
  obtain ⟨batches, k1, hb, hv, hi, hr⟩ := importLoop_done w.env _ _ _ _ _ _ _ h1
  obtain ⟨sw, hsw⟩ : ∃ sw, (runSW w.env (writes batches) sw0).2 = sw := ⟨_, rfl⟩
  have hlist : runSW w.env (writes batches) sw0 = (succeeded (writes batches), sw) ∧ sw.close w.env = (.ok (), sw2) := by
    subst hsw
    rw [runSW_append, Killed.succeeded_append] at hr
    obtain ⟨hl, hsw⟩ := Prod.mk.inj hr
    obtain ⟨hl1, hl2⟩ := List.append_inj hl (by rw [Killed.runSW_length]; simp [succeeded])
    refine ⟨Prod.ext hl1 rfl, Prod.ext ?_ hsw⟩
    have : [(SWCall.close, ((runSW w.env (writes batches) sw0).2.close w.env).1)] = [(SWCall.close, Except.ok ())] := hl2
    simpa using this
  have hist : SWHistory B w.env (options a.blockSize) (writes batches) (succeeded (writes batches)) sw := ⟨sw0, h0, hlist.1⟩
  have hbd : ∀ c ∈ writes batches, c.Bounded := fun c hc => hb.bounded c (List.mem_append_left _ hc)
  have hnoclose : SWCall.close ∉ writes batches := by simp [writes]
  have henc := LoadTest.options_enc a.blockSize
  obtain ⟨r, hr1, hr2, hlt⟩ := close_count hsort hq henc hbd hnoclose hist hlist.2 hsz
  have hacc : accepted (succeeded (writes batches)) = pairs batches := by
    simpa using accepted_succeeded batches [] (.inl rfl)
  have hsome : (accepted (succeeded (writes batches))).flatten ≠ [] := by
    rw [hacc]
    intro hnil
    have := hb.split.1
    rw [hnil, List.length_nil] at this
    omega
  obtain ⟨w0, hnew0, hsw0⟩ : ∃ w0, newWriter (B := B) (options a.blockSize) w.env = (.ok (), w0) ∧ sw0.writer = w0 := by
    unfold newSimpleWriter at h0
    rcases hr : newWriter (B := B) (options a.blockSize) w.env with ⟨r, w0⟩
    rw [hr] at h0
    cases r with
    | error e => cases h0
    | ok u => cases h0; exact ⟨w0, rfl, rfl⟩
  refine ⟨batches, k1, r, hb, hr1, fun fs' hk => ?_⟩
  rw [hr2]
  have power := C79_power hq hsort henc hbd hnoclose hist hsome hlist.2 hsz
  rw [hacc] at power
  cases hk with
  | before => exact ⟨fun _ _ => rfl, .inl rfl⟩
  | creating n k h' hfail hrem =>
    obtain rfl := asksImport_unique h' h
    rename_i a' f e
    refine ⟨fun name hne => if_neg hne, .inr ⟨f, if_pos rfl, fun hl ht => power n k f ?_ hl ht⟩⟩
    unfold crashedDisk
    rw [hfail]
    exact hrem
  | during n k hk =>
    obtain ⟨h', hrun', hrem⟩ := hk
    rename_i a' f swc e
    obtain rfl := asksImport_unique (now := w.now) h' h
    refine ⟨fun name hne => if_neg hne, .inr ⟨f, if_pos rfl, fun hl ht => power n k f ?_ hl ht⟩⟩
    obtain ⟨swc0, hc0, hc1⟩ := runImport_eq hrun'
    unfold crashedDisk
    rw [hc0]
    dsimp only
    dsimp only at hc0 hc1
    have hdn := newWriter_diskIn (B := B) (w.env.crashAt n k) (options a'.blockSize)
    have hw : swc0.writer = (newWriter (B := B) (options a'.blockSize) (w.env.crashAt n k)).2 := by
      unfold newSimpleWriter at hc0
      rcases hr : newWriter (B := B) (options a'.blockSize) (w.env.crashAt n k) with ⟨r, wc⟩
      rw [hr] at hc0
      cases r with
      | error e => cases hc0
      | ok u => cases hc0; rfl
    rw [← hw] at hdn
    have hcw : swc = (importLoop (w.env.crashAt n k) (w.rng a'.seed) a'.maxValue a'.maxID a'.num.toInt.toNat 0 0 swc0).2 := by rw [hc1]
    rw [hcw] at hrem
    by_cases hn0 : n < w0.opNo
    · exfalso
      obtain ⟨hle, hcr⟩ := (Crashable.writeHeader (B := B)).crash w.env (startWriter (options a'.blockSize)) n k
        (by rw [startWriter_eq]; exact Nat.zero_le _)
        (by change n < (newWriter (B := B) (options a'.blockSize) w.env).2.opNo; rw [hnew0]; exact hn0) hq
      change (newWriter (B := B) (options a'.blockSize) (w.env.crashAt n k)).2.file.bytes.length ≤
        (newWriter (B := B) (options a'.blockSize) w.env).2.file.bytes.length at hle
      change n < (newWriter (B := B) (options a'.blockSize) (w.env.crashAt n k)).2.opNo at hcr
      rw [← hw] at hle hcr
      rw [hnew0, ← hsw0] at hle
      have hlen := (import_diskIn (env := w.env.crashAt n k) (w.rng a'.seed) a'.maxValue a'.maxID a'.num.toInt.toNat 0 0 swc0 hdn).remains hrem
      rw [Killed.import_dead _ _ _ _ _ _ swc0 (dead_crashAt w.env n k swc0.writer hcr)] at hlen
      have hgrow := (CrashAt.calls (writes batches) sw0).grow w.env
      rw [hlist.1] at hgrow
      dsimp only at hle hgrow
      omega
    · have hsame : newSimpleWriter (B := B) (options a'.blockSize) (w.env.crashAt n k) = .ok sw0 := by
        unfold newSimpleWriter at h0 ⊢
        rw [newWriter_agree w.env (options a'.blockSize) n k (by rw [hnew0]; exact Nat.le_of_not_lt hn0)]
        exact h0
      rw [hc0] at hsame
      cases hsame
      rcases import_power hq n k _ _ _ _ _ _ _ sw2 h1 hb (by rw [hsw0]; exact Nat.le_of_not_lt hn0) hdn hrem with hx | hx
      · exfalso
        rw [hlist.1] at hx
        dsimp only at hx
        omega
      · exact hx

/-! ### An instance -/

/-- Operation numbers only grow, and a crash after the end changes nothing. -/
theorem import_agree {env : Env} (g : Rng) (mv : Int64) (mi : UInt64) (rem wr k : Nat) (sw : SimpleWriter B) :
    sw.writer.opNo ≤ (importLoop env g mv mi rem wr k sw).2.writer.opNo ∧
    ∀ n kk, (importLoop env g mv mi rem wr k sw).2.writer.opNo ≤ n →
      importLoop (env.crashAt n kk) g mv mi rem wr k sw = importLoop env g mv mi rem wr k sw := by
  induction rem using Nat.strongRecOn generalizing wr k sw with
  | ind rem ih =>
    have hcc : ∀ s : SimpleWriter B, s.writer.opNo ≤ (s.close env).2.writer.opNo := fun s => (CrashAt.call .close s).count env
    have hca : ∀ (s : SimpleWriter B) n kk, (s.close env).2.writer.opNo ≤ n → s.close (env.crashAt n kk) = s.close env :=
      fun s n kk h => (CrashAt.call .close s).agree_crashAt env n kk h
    by_cases hn : rem = 0
    · have he : ∀ env', importLoop env' g mv mi rem wr k sw = (match sw.close env' with
          | (.error e, sw) => (.failed e, sw)
          | (.ok _, sw) => (.done wr sw.totalItems, (sw.close env').2)) := fun env' => by rw [importLoop, dif_pos hn]; rfl
      simp only [he]
      have h1 := hcc sw
      have h2 := hca sw
      rcases hr : sw.close env with ⟨r, sw1⟩
      rw [hr] at h1 h2
      cases r with
      | error e => exact ⟨h1, fun n kk h => by rw [h2 n kk h]⟩
      | ok u =>
        dsimp only at h1 h2 ⊢
        have h3 := hcc sw1
        exact ⟨by omega, fun n kk h => by rw [h2 n kk (by omega)]; dsimp only; rw [hca sw1 n kk h]⟩
    · have he : ∀ env', importLoop env' g mv mi rem wr k sw = (match genBatch g mv mi (min 10000 rem) none k with
          | .panic => (.panicked, (sw.close env').2)
          | .err _ => (.panicked, (sw.close env').2)
          | .ok ((ids, values), k) =>
            match sw.write env' ids values with
            | (.error e, sw) => (.failed e, sw)
            | (.ok _, sw) => importLoop env' g mv mi (rem - min 10000 rem) (wr + min 10000 rem) k sw) := fun env' => by rw [importLoop, dif_neg hn]; rfl
      simp only [he]
      generalize genBatch g mv mi (min 10000 rem) none k = res
      cases res with
      | panic => exact ⟨hcc sw, fun n kk h => by dsimp only; rw [hca sw n kk h]⟩
      | err e => exact ⟨hcc sw, fun n kk h => by dsimp only; rw [hca sw n kk h]⟩
      | ok res =>
        obtain ⟨⟨ids, vals⟩, k1⟩ := res
        dsimp only
        have hw : sw.writer.opNo ≤ (sw.write env ids vals).2.writer.opNo := (CrashAt.call (.write ids vals) sw).count env
        have hwa : ∀ n kk, (sw.write env ids vals).2.writer.opNo ≤ n → sw.write (env.crashAt n kk) ids vals = sw.write env ids vals :=
          fun n kk h => (CrashAt.call (.write ids vals) sw).agree_crashAt env n kk h
        generalize sw.write env ids vals = res at hw hwa ⊢
        obtain ⟨r, sw1⟩ := res
        cases r with
        | error e => exact ⟨hw, fun n kk h => by rw [hwa n kk h]⟩
        | ok u =>
          dsimp only at hw hwa ⊢
          obtain ⟨h1, h2⟩ := ih (rem - min 10000 rem) (by omega) (wr + min 10000 rem) k1 sw1
          exact ⟨by omega, fun n kk h => by rw [hwa n kk (by omega)]; exact h2 n kk h⟩

/-- A file that meets the conditions of `C91_import` may be left: the complete one. -/
theorem import_may_be_complete {w : LoadCmd.World} {fs : Files} {args : List Bytes} {a : ImportArgs} (h : AsksImport w.now args a)
    (hs : (LoadCmd.main B w fs args).stop.status = 0)
    {full : Bytes} (hfull : (LoadCmd.main B w fs args).files a.file = some full) : PowerLeftLoad B w fs args (fs.put a.file full) := by
  rw [main_import h] at hs hfull
  unfold LoadCmd.runImport at hs hfull
  split at hs
  · cases hs
  rename_i hd
  rw [if_neg hd] at hfull
  split at hs
  · cases hs
  rename_i hc
  rw [if_neg hc] at hfull
  cases hrun : LoadTest.runImport (B := B) w.env (w.rng a.seed) a.num a.blockSize a.maxValue a.maxID with
  | mk e out =>
  rw [hrun] at hs hfull
  cases out with
  | none =>
    exfalso
    unfold LoadTest.runImport at hrun
    split at hrun
    · cases hrun; cases hs
    · cases hrun
  | some sw2 =>
  dsimp only at hs hfull
  rw [show fs.put a.file sw2.writer.file.bytes a.file = some sw2.writer.file.bytes from if_pos rfl] at hfull
  cases hfull
  cases e with
  | failed e => cases hs
  | panicked => cases hs
  | done v i =>
  obtain ⟨sw0, h0, h1⟩ := runImport_eq hrun
  obtain ⟨batches, k1, hb, hv, hi, hr⟩ := importLoop_done w.env _ _ _ _ _ _ _ h1
  obtain ⟨hcnt, hag⟩ := import_agree (env := w.env) (w.rng a.seed) a.maxValue a.maxID a.num.toInt.toNat 0 0 sw0
  rw [h1] at hcnt hag
  dsimp only at hcnt hag
  obtain ⟨w0, hnew0, hsw0⟩ : ∃ w0, newWriter (B := B) (options a.blockSize) w.env = (.ok (), w0) ∧ sw0.writer = w0 := by
    unfold newSimpleWriter at h0
    rcases hr : newWriter (B := B) (options a.blockSize) w.env with ⟨r, w0⟩
    rw [hr] at h0
    cases r with
    | error e => cases h0
    | ok u => cases h0; exact ⟨w0, rfl, rfl⟩
  have hsame : newSimpleWriter (B := B) (options a.blockSize) (w.env.crashAt sw2.writer.opNo 0) = .ok sw0 := by
    unfold newSimpleWriter at h0 ⊢
    rw [newWriter_agree w.env (options a.blockSize) sw2.writer.opNo 0 (by rw [hnew0]; show w0.opNo ≤ _; rw [← hsw0]; exact hcnt)]
    exact h0
  refine .during sw2.writer.opNo 0 (.mk (e := .done v i) (sw := sw2) h ?_ ((C45_close (B := B) ⟨sw0, h0, hr⟩ (by simp [succeeded]) _).2 rfl))
  unfold LoadTest.runImport
  rw [show ([.withBlockSize a.blockSize.toUInt64.toUInt32, .withEncoding encVarIntBoth] : List WriterOption) = options a.blockSize from rfl]
  dsimp only
  rw [hsame]
  dsimp only
  rw [hag _ _ (Nat.le_refl _)]

/-- Non-vacuity of C91 for `loadtest import`. -/
theorem C91_importExample : ∃ (args : List Bytes) (a : ImportArgs) (full : Bytes) (batches : List (List UInt64 × List Int64)) (k' : Nat),
    AsksImport LoadCmd.quietWorld.now args a ∧ (LoadCmd.main IdSet LoadCmd.quietWorld (fun _ => none) args).stop.status = 0 ∧
    Batches (LoadCmd.quietWorld.rng a.seed) a.maxValue a.maxID 1000 0 batches 0 k' ∧
    PowerLeftLoad IdSet LoadCmd.quietWorld (fun _ => none) args (Files.put (fun _ => none) a.file full) ∧ HoldsBatches IdSet full (pairs batches) := by
  have hs : LawfulSort LoadCmd.quietWorld.env.sort := sortByInsertion_lawful
  have hask := (C73_usage 0).2.1
  obtain ⟨h1, h2⟩ := C73_succeeds (B := IdSet) (w := LoadCmd.quietWorld) (fs := fun _ => none) hask hs quietEnv_noFault rfl rfl (by decide) (by decide)
  obtain ⟨h3, full, h4, _⟩ := C73_session (B := IdSet) (w := LoadCmd.quietWorld) (fs := fun _ => none) hask hs LoadTest.unlucky_lawful h1
  have hsz := h2 (by decide) (fun L hL => by
    have := idSet_buffer 1000 L (by rw [hL]; decide)
    omega)
  have hk := import_may_be_complete (B := IdSet) (w := LoadCmd.quietWorld) (fs := fun _ => none) hask h1 h4
  obtain ⟨batches, k', r, hb, hr, hall⟩ := C91_import (B := IdSet) (w := LoadCmd.quietWorld) (fs := fun _ => none) hask hs quietEnv_noFault h1 (by decide) h4 (hsz full h4)
  refine ⟨_, _, full, batches, k', hask, h1, hb, hk, ?_⟩
  obtain ⟨_, hx⟩ := hall _ hk
  rcases hx with hx | ⟨f, hf, hx⟩
  · have := congrFun hx (str "a.col")
    rw [show Files.put (fun _ => none) (str "a.col") full (str "a.col") = some full from if_pos rfl] at this
    cases this
  · rw [show Files.put (fun _ => none) (str "a.col") full (str "a.col") = some full from if_pos rfl] at hf
    cases hf
    exact hx rfl rfl

end VibeCol.PowerCut
