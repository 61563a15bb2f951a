/-
C80: a command-line program that is killed while it writes. The process may be killed before it creates the file or
at any file operation, a write possibly having put some of its bytes into the file.
-/
import Verif.Props.CommandLine
import Verif.Props.LoadTestMain
import Verif.Props.SimpleCrash
namespace VibeCol.Killed
set_option linter.unusedSectionVars false

section Vibecol
open VibeCol.Cmd VibeCol.Cli
variable {B : Type} [Bitmap B] [LawfulBitmap B]

/-- `fs'` is what a `vibecol` command leaves of the files `fs` if it is killed: before it creates a file, or at file operation
number `n`, the `k`-th byte of that write being the last to reach the file. -/
inductive Left (B : Type) [Bitmap B] (usage : Bytes) (w : Cmd.World) (fs : Cmd.Files) (args : List Bytes) : Cmd.Files → Prop where
  | before : Left B usage w fs args fs
  | during (n k : Nat) : Left B usage w fs args (Cmd.main B usage { w with env := w.env.crashAt n k } fs args).files

/-- The file left by `vibecol write`. -/
theorem killed_write {env : Env} (hq : env.NoFault) {name a b : Bytes} {ids : List UInt64} {vals : List Int64} (hm : Means a b ids vals)
    {w0 w1 : Writer B} (h0 : newWriter (B := B) [] env = (.ok (), w0)) (h1 : writeBlock ids vals env w0 = (.ok (), w1)) (n k : Nat) :
    ∃ wr, (runWrite (env.crashAt n k) name a b : WriteRun B).output = some wr ∧
      wr.file.bytes = crashedFile B [] [.write ids vals] env n k := by
  rw [runWrite_means hm]
  unfold crashedFile
  have hcr0 := fun (h : n < w0.opNo) => newWriter_crash (B := B) hq [] n k (by rw [h0]; exact h)
  have hag0 := fun (h : w0.opNo ≤ n) => newWriter_agree (B := B) env [] n k (by rw [h0]; exact h)
  rcases hnew : newWriter (B := B) [] (env.crashAt n k) with ⟨r, wc⟩
  rw [hnew] at hcr0 hag0
  cases r with
  | error e => exact ⟨wc, rfl, rfl⟩
  | ok u =>
    dsimp only
    have hrc : runCalls (env.crashAt n k) ([.write ids vals] ++ [.finalize]) wc =
      ([(.write ids vals, (writeBlock ids vals (env.crashAt n k) wc).1),
        (.finalize, (finalize (env.crashAt n k) (writeBlock ids vals (env.crashAt n k) wc).2).1)],
       (finalize (env.crashAt n k) (writeBlock ids vals (env.crashAt n k) wc).2).2) := by
      simp only [List.cons_append, List.nil_append, runCalls, Call.run]
    rw [hrc]
    dsimp only
    rcases hwb : writeBlock ids vals (env.crashAt n k) wc with ⟨r, wd⟩
    cases r with
    | error e =>
      refine ⟨_, rfl, ?_⟩
      dsimp only
      rw [fclose_file]
      -- the process is dead
      have hd : Dead (env.crashAt n k) wd := by
        by_cases hn0 : n < w0.opNo
        · have := (Crashable.writeBlock (B := B) ids vals).count (env.crashAt n k) wc
          rw [hwb] at this
          exact dead_mono (dead_crashAt env n k wc (hcr0 hn0)) this
        · have hwc : wc = w0 := by
            have := hag0 (Nat.le_of_not_lt hn0)
            rw [h0] at this
            exact (Prod.mk.inj this).2
          subst hwc
          by_cases hn1 : n < w1.opNo
          · have := (Crashable.writeBlock (B := B) ids vals).crash env wc n k (Nat.le_of_not_lt hn0) (by rw [h1]; exact hn1) hq
            rw [hwb] at this
            exact dead_crashAt env n k wd this.2
          · have := (Crashable.writeBlock (B := B) ids vals).agree_crashAt env wc n k (by rw [h1]; exact Nat.le_of_not_lt hn1)
            rw [hwb, h1] at this
            cases this
      exact ((Crashable.finalize (B := B)).dead _ _ hd).symm
    | ok u =>
      dsimp only
      have hf : (finalizeAndClose (env.crashAt n k) wd).2.file = (finalize (env.crashAt n k) wd).2.file := by
        unfold finalizeAndClose
        rw [WM.bind_def]
        rcases finalize (env.crashAt n k) wd with ⟨r, we⟩
        cases r with
        | error e => rfl
        | ok u => exact fclose_file _ _
      rw [← hf]
      rcases finalizeAndClose (env.crashAt n k) wd with ⟨r, we⟩
      cases r with
      | error e => exact ⟨we, rfl, rfl⟩
      | ok u => exact ⟨we, rfl, rfl⟩

omit [LawfulBitmap B] in
theorem write_files {w : World} {fs : Files} {o a b : Bytes} {wr : Writer B} (h : (runWrite w.env o a b : WriteRun B).output = some wr)
    (hc : w.creatable o ≠ false) : (write B w fs o a b).files = fs.put o wr.file.bytes := by
  unfold write
  dsimp only
  rw [h]
  dsimp only
  rw [if_neg hc]
  generalize (runWrite w.env o a b : WriteRun B).exit = e
  cases e <;> rfl

/-- A `vibecol write` command that succeeds, and the file it leaves if it is killed instead. -/
theorem write_during {usage : Bytes} {w : World} {fs : Files} {args : List Bytes} {o a b : Bytes} (h : AsksWrite args o a b)
    (hq : w.env.NoFault) (hs : (main B usage w fs args).stop = .success)
    {ids : List UInt64} {vals : List Int64} (hm : Means a b ids vals) {full : Bytes}
    (hfull : (main B usage w fs args).files o = some full) :
    ∃ w1 w2 : Writer B, History B w.env [] [.write ids vals] [(.write ids vals, .ok ())] w1 ∧ finalize w.env w1 = (.ok (), w2) ∧
      w2.file.bytes = full ∧ ∀ n k, (main B usage { w with env := w.env.crashAt n k } fs args).files o =
        some (crashedFile B [] [.write ids vals] w.env n k) := by
  have hkill := fun n k => main_write (B := B) (usage := usage) (w := { w with env := w.env.crashAt n k }) (fs := fs) h
  rw [main_write h] at hs hfull
  split at hs
  · cases hs
  · rename_i hne
    rw [if_neg hne] at hfull
    rcases hrun : (runWrite w.env o a b : WriteRun B) with ⟨ex, out⟩
    unfold write at hs hfull
    rw [hrun] at hs hfull
    dsimp only at hs hfull
    cases out with
    | none =>
      dsimp only at hs
      cases ex with
      | ok text =>
        obtain ⟨_, _, _, w1, _, _, he, _⟩ := C50_success hrun
        cases he
      | error e => cases hs
    | some wr =>
      dsimp only at hs hfull
      split at hs
      · cases hs
      · rename_i hc
        rw [if_neg hc] at hfull
        cases ex with
        | error e => cases hs
        | ok text =>
          dsimp only at hfull
          rw [show fs.put o wr.file.bytes o = some wr.file.bytes from if_pos rfl] at hfull
          cases hfull
          -- the uninterrupted run
          have hrun' := hrun
          rw [runWrite_means hm] at hrun'
          rcases h0 : newWriter (B := B) [] w.env with ⟨r0, w0⟩
          rw [h0] at hrun'
          cases r0 with
          | error e => cases hrun'
          | ok u =>
          dsimp only at hrun'
          rcases h1 : writeBlock ids vals w.env w0 with ⟨r1, w1⟩
          rw [h1] at hrun'
          cases r1 with
          | error e => cases hrun'
          | ok u =>
          dsimp only at hrun'
          obtain ⟨w2, h2, h2f⟩ : ∃ w2, finalize w.env w1 = (.ok (), w2) ∧ w2.file.bytes = wr.file.bytes := by
            rcases finalizeAndClose_spec w.env w1 with ⟨e, w', h3, h4⟩ | ⟨w', h3, h4, h5, h6⟩
            · rw [h4] at hrun'; cases hrun'
            · refine ⟨w', h3, ?_⟩
              rw [← h5]
              rcases hfc : finalizeAndClose w.env w1 with ⟨r, w''⟩
              rw [hfc] at hrun'
              cases r with
              | error e => cases hrun'
              | ok u => injection hrun' with _ e2; injection e2 with e2; rw [e2]
          refine ⟨w1, w2, ⟨w0, h0, by simp [runCalls, Call.run, h1]⟩, h2, h2f, fun n k => ?_⟩
          obtain ⟨wk, hk1, hk2⟩ := killed_write (B := B) (name := o) hq hm h0 h1 n k
          rw [hkill, if_neg hne, write_files (w := { w with env := w.env.crashAt n k }) hk1 hc,
            show fs.put o wk.file.bytes o = some wk.file.bytes from if_pos rfl, hk2]

/-- A `read` command for a file that `NewReader` rejects. -/
theorem read_rejected {usage : Bytes} {fs : Files} {o bytes : Bytes} (hf : fs o = some bytes) (hx : Rejected B bytes)
    (w' : World) (rargs : List Bytes) (dump agg : Bool) (hr : AsksRead rargs o dump agg) :
    (main B usage w' fs rargs).out = [] ∧ (main B usage w' fs rargs).stop.status ≠ 0 := by
  rw [main_read hr]
  unfold Cmd.read
  rw [hf]
  dsimp only
  split
  · exact ⟨rfl, by simp [End.status]⟩
  · unfold runRead
    cases hn : newReader (B := B) bytes with
    | ok r => exact absurd hn (hx r)
    | err e => exact ⟨rfl, by simp [End.status]⟩
    | panic => exact ⟨rfl, by simp [End.status]⟩

/-- A `vibecol write` command, killed or not, changes only the file it is asked to write. -/
theorem write_others {usage : Bytes} {w : World} {fs : Files} {args : List Bytes} {o a b : Bytes} (h : AsksWrite args o a b)
    {fs' : Files} (hk : Left B usage w fs args fs') : ∀ name, name ≠ o → fs' name = fs name := by
  cases hk with
  | before => exact fun _ _ => rfl
  | during n k =>
    intro name hname
    apply Classical.byContradiction
    intro hne
    obtain ⟨_, a', b', _, _, hw, _⟩ := C68_untouched hne
    exact hname (asksWrite_unique hw h).1

/-- **C80.** A `vibecol write` command that would have succeeded is killed. No other file is touched; the output file is
what it was (killed before it was created), or the complete file the command would have produced, byte for byte, or a file for which
every `read` command prints nothing and ends with a nonzero status, or - a file that was cut off before the 24 bytes of footer
metadata and happens to end with the magic number. -/
theorem C80_write {usage : Bytes} {w : World} {fs : Files} {args : List Bytes} {o a b : Bytes} (h : AsksWrite args o a b)
    (hq : w.env.NoFault) (ht : ∀ i, (w.env.clock i).toNat < 2 ^ 48) (hs : (main B usage w fs args).stop = .success)
    {ids : List UInt64} {vals : List Int64} (hm : Means a b ids vals) (hid : ids.length ≤ 2 ^ 27) {full : Bytes}
    (hfull : (main B usage w fs args).files o = some full) (hsz : full.length < 2 ^ 63)
    {fs' : Files} (hk : Left B usage w fs args fs') :
    (∀ name, name ≠ o → fs' name = fs name) ∧
    (fs' o = fs o ∨ fs' o = some full ∨
      (∀ (w' : World) (rargs : List Bytes) (dump agg : Bool), AsksRead rargs o dump agg →
        (main B usage w' fs' rargs).out = [] ∧ (main B usage w' fs' rargs).stop.status ≠ 0) ∨
      ∃ bytes, fs' o = some bytes ∧ bytes.length + 24 < full.length ∧ EndsWithMagic bytes) := by
  refine ⟨write_others h hk, ?_⟩
  cases hk with
  | before => exact .inl rfl
  | during n k =>
    obtain ⟨w1, w2, hist, h2, h2f, hkill⟩ := write_during h hq hs hm hfull
    rcases C27_whole hq ht (opts := []) (.inl rfl) (by simpa [Call.Bounded] using hid) hist h2 (by rw [h2f]; exact hsz)
      (by simp [acked, ackedBy, maxBlocks]) n k with hx | hx | hx
    · exact .inr (.inl (by rw [hkill, hx, h2f]))
    · exact .inr (.inr (.inl fun w' rargs dump agg hr => read_rejected (hkill n k) hx w' rargs dump agg hr))
    · exact .inr (.inr (.inr ⟨_, hkill n k, by rw [← h2f]; exact hx.1, hx.2⟩))

/-- **C80.** After the kill the same command can be given again: it does exactly what it would have done before. -/
theorem C80_writeAgain {usage : Bytes} {w : World} {fs : Files} {args : List Bytes} {o a b : Bytes} (h : AsksWrite args o a b)
    (w0 : World) {fs' : Files} (hk : Left B usage w0 fs args fs') :
    (main B usage w fs' args).stop = (main B usage w fs args).stop ∧ (main B usage w fs' args).out = (main B usage w fs args).out ∧
    (∀ name, name ≠ o → (main B usage w fs' args).files name = fs name) ∧
    ((main B usage w fs args).stop = .success → (main B usage w fs' args).files = (main B usage w fs args).files) := by
  have hothers : ∀ name, name ≠ o → fs' name = fs name := by
    intro name hname
    cases hk with
    | before => rfl
    | during n k =>
      apply Classical.byContradiction
      intro hne
      obtain ⟨_, a', b', _, _, hw, _⟩ := C68_untouched hne
      exact hname (asksWrite_unique hw h).1
  have hput : ∀ bytes, fs'.put o bytes = fs.put o bytes := by
    intro bytes
    funext name
    unfold Files.put
    split
    · rfl
    · rename_i hne
      exact hothers name hne
  have hoth : ∀ name, name ≠ o → (main B usage w fs' args).files name = fs name := by
    intro name hname
    apply Classical.byContradiction
    intro hne
    rw [← hothers name hname] at hne
    obtain ⟨_, a', b', _, _, hw, _⟩ := C68_untouched hne
    exact hname (asksWrite_unique hw h).1
  have hnone := (C50_arguments (B := B) w.env o a b).2
  refine ⟨?_, ?_, hoth, ?_⟩
  all_goals
    rw [main_write h, main_write h]
    split
    · simp
    · unfold write
      dsimp only
      generalize (runWrite w.env o a b : WriteRun B) = run at hnone
      obtain ⟨ex, out⟩ := run
      dsimp only at hnone ⊢
      cases out with
      | none =>
        obtain ⟨f, rfl⟩ := hnone rfl
        simp
      | some wr =>
        dsimp only
        split
        · simp
        · cases ex <;> simp [hput]

/-- **C80, what the programs do not give.** The old contents of the output file are gone as soon as the command starts writing:
killed at its first file operation, any `write` command that means something leaves an empty file, whatever was there before. -/
theorem C80_refuted {usage : Bytes} {w : World} {fs : Files} {args : List Bytes} {o a b : Bytes} (h : AsksWrite args o a b)
    (ha : a ≠ []) (hb : b ≠ []) {ids : List UInt64} {vals : List Int64} (hm : Means a b ids vals) (hc : w.creatable o = true) :
    ∃ fs', Left B usage w fs args fs' ∧ fs' o = some [] ∧
      ∀ (w' : World) (rargs : List Bytes) (dump agg : Bool), AsksRead rargs o dump agg →
        (main B usage w' fs' rargs).out = [] ∧ (main B usage w' fs' rargs).stop.status ≠ 0 := by
  have hnew : ∃ e wr, newWriter (B := B) [] (w.env.crashAt 0 0) = (.error e, wr) ∧ wr.file.bytes = [] := ⟨_, _, rfl, rfl⟩
  obtain ⟨e, wr, hnew, hempty⟩ := hnew
  have hrun : (runWrite (w.env.crashAt 0 0) o a b : WriteRun B).output = some wr := by
    rw [runWrite_means hm, hnew]
  have hfs : (main B usage { w with env := w.env.crashAt 0 0 } fs args).files = fs.put o [] := by
    rw [main_write h, if_neg (by simp [ha, hb]), write_files (w := { w with env := w.env.crashAt 0 0 }) hrun (by simp [hc]), hempty]
  refine ⟨_, .during 0 0, ?_⟩
  rw [hfs]
  refine ⟨if_pos rfl, fun w' rargs dump agg hr => ?_⟩
  rw [main_read hr]
  unfold Cmd.read
  rw [show fs.put o [] o = some [] from if_pos rfl]
  dsimp only
  split
  · exact ⟨rfl, by simp [End.status]⟩
  · unfold runRead
    cases hn : newReader (B := B) [] with
    | ok r =>
      have := (C26_validation [] (by decide) r hn).1
      simp at this
    | err e => exact ⟨rfl, by simp [End.status]⟩
    | panic => exact ⟨rfl, by simp [End.status]⟩

/-- Non-vacuity of C80 for `vibecol write`: a command, killed at any point. -/
theorem C80_writeExample (usage : Bytes) (fs fs' : Files)
    (hk : Left IdSet usage Cmd.quietWorld fs [str "write", str "-o", str "output.col", str "-ids", str "1,2,3", str "-values", str "100,200,300"] fs') :
    ∃ full, (main IdSet usage Cmd.quietWorld fs [str "write", str "-o", str "output.col", str "-ids", str "1,2,3", str "-values", str "100,200,300"]).files
        (str "output.col") = some full ∧
      (fs' (str "output.col") = fs (str "output.col") ∨ fs' (str "output.col") = some full ∨
        (∀ (w' : World) (rargs : List Bytes) (dump agg : Bool), AsksRead rargs (str "output.col") dump agg →
          (main IdSet usage w' fs' rargs).out = [] ∧ (main IdSet usage w' fs' rargs).stop.status ≠ 0) ∨
        ∃ bytes, fs' (str "output.col") = some bytes ∧ bytes.length + 24 < full.length ∧ EndsWithMagic bytes) := by
  have hm : Means (str "1,2,3") (str "100,200,300") [1, 2, 3] [100, 200, 300] := by
    rw [means_iff]
    decide +kernel
  obtain ⟨h1, h2⟩ := (C68_capacity (B := IdSet) (usage := usage) (w := Cmd.quietWorld) (fs := fs) C68_usageWrite.1 quietEnv_noFault rfl hm
    (by decide) idSet_small).1 (by decide) (by decide) (by decide)
  cases hf : (main IdSet usage Cmd.quietWorld fs [str "write", str "-o", str "output.col", str "-ids", str "1,2,3", str "-values", str "100,200,300"]).files
      (str "output.col") with
  | none =>
    exfalso
    obtain ⟨wk, hout⟩ := Option.isSome_iff_exists.1 ((C50_arguments (B := IdSet) quietEnv (str "output.col") (str "1,2,3") (str "100,200,300")).1.2 ⟨_, _, hm⟩)
    rw [main_write C68_usageWrite.1, if_neg (by decide), write_files (w := Cmd.quietWorld) hout (by simp [Cmd.quietWorld])] at hf
    rw [show fs.put (str "output.col") wk.file.bytes (str "output.col") = _ from if_pos rfl] at hf
    cases hf
  | some full =>
    exact ⟨full, rfl, (C80_write C68_usageWrite.1 quietEnv_noFault (fun i => by show (1700000000 : UInt64).toNat < _; decide) h1 hm (by decide) hf
      (h2 _ hf) hk).2⟩

end Vibecol

section LoadTest
open VibeCol.Cmd (Files)
open VibeCol.Cli (str)
open VibeCol.LoadCmd VibeCol.LoadTest VibeCol.SimpleCrash
variable {B : Type} [Bitmap B] [LawfulBitmap B]

/-- A dead process imports nothing. -/
theorem import_dead {env : Env} (g : Rng) (mv : Int64) (mi : UInt64) (rem wr k : Nat) (sw : SimpleWriter B) (hd : Dead env sw.writer) :
    (importLoop env g mv mi rem wr k sw).2.writer.file.bytes = sw.writer.file.bytes := by
  induction rem using Nat.strongRecOn generalizing wr k sw with
  | ind rem ih =>
    have hclose := (CrashAt.call .close sw).dead env hd
    change (sw.close env).2.writer.file.bytes = _ at hclose
    rw [importLoop]
    by_cases hn : rem = 0
    · rw [dif_pos hn]
      have hcnt := (CrashAt.call .close sw).count env
      change _ ≤ (sw.close env).2.writer.opNo at hcnt
      generalize sw.close env = res at hclose hcnt ⊢
      obtain ⟨r, sw1⟩ := res
      cases r with
      | error e => exact hclose
      | ok u =>
        have := (CrashAt.call .close sw1).dead env (dead_mono hd hcnt)
        change (sw1.close env).2.writer.file.bytes = _ at this
        dsimp only at hclose ⊢
        rw [this, hclose]
    · rw [dif_neg hn]
      dsimp only
      generalize genBatch g mv mi (min 10000 rem) none k = res
      cases res with
      | panic => exact hclose
      | err e => exact hclose
      | ok res =>
        obtain ⟨⟨ids, vals⟩, k1⟩ := res
        dsimp only
        have hw := (CrashAt.call (.write ids vals) sw).dead env hd
        have hcnt := (CrashAt.call (.write ids vals) sw).count env
        change (sw.write env ids vals).2.writer.file.bytes = _ at hw
        change _ ≤ (sw.write env ids vals).2.writer.opNo at hcnt
        generalize sw.write env ids vals = res at hw hcnt ⊢
        obtain ⟨r, sw1⟩ := res
        cases r with
        | error e => exact hw
        | ok u =>
          dsimp only at hw hcnt ⊢
          rw [ih _ (by omega) _ _ sw1 (dead_mono hd hcnt), hw]

/-- The file left by a killed import is the file left by the calls it makes. -/
theorem import_killed {env : Env} (hq : env.NoFault) (n kk : Nat) (g : Rng) (mv : Int64) (mi : UInt64) (rem wr k : Nat) (sw sw' : SimpleWriter B)
    {v i : Nat} (h : importLoop env g mv mi rem wr k sw = (.done v i, sw')) {batches : List (List UInt64 × List Int64)} {k' : Nat}
    (hb : Batches g mv mi rem k batches 0 k') (hn : sw.writer.opNo ≤ n) :
    (importLoop (env.crashAt n kk) g mv mi rem wr k sw).2.writer.file.bytes =
      (runSW (env.crashAt n kk) (writes batches ++ [.close]) sw).2.writer.file.bytes := by
  induction rem using Nat.strongRecOn generalizing wr k sw batches with
  | ind rem ih =>
    rw [importLoop] at h ⊢
    by_cases hr : rem = 0
    · rw [dif_pos hr]
      subst hr
      cases hb with
      | cons hn _ _ => omega
      | nil =>
        have hc := close_closed (env.crashAt n kk) sw
        have hrun : runSW (env.crashAt n kk) (writes [] ++ [.close]) sw =
          ([(SWCall.close, (sw.close (env.crashAt n kk)).1)], (sw.close (env.crashAt n kk)).2) := rfl
        rw [hrun]
        generalize sw.close (env.crashAt n kk) = res at hc ⊢
        obtain ⟨r, sw1⟩ := res
        cases r with
        | error e => rfl
        | ok u =>
          have h2 := (closed_call (env.crashAt n kk) .close sw1 (hc rfl)).1
          simp only [SWCall.run] at h2
          simp only [h2]
    · rw [dif_neg hr] at h ⊢
      dsimp only at h ⊢
      cases hb with
      | nil => exact absurd rfl hr
      | cons _ hg ht =>
        rename_i ids vals k1 rest _
        rw [hg] at h ⊢
        dsimp only at h ⊢
        have hrun : runSW (env.crashAt n kk) (writes ((ids, vals) :: rest) ++ [.close]) sw =
            ((SWCall.write ids vals, (sw.write (env.crashAt n kk) ids vals).1) ::
              (runSW (env.crashAt n kk) (writes rest ++ [.close]) (sw.write (env.crashAt n kk) ids vals).2).1,
             (runSW (env.crashAt n kk) (writes rest ++ [.close]) (sw.write (env.crashAt n kk) ids vals).2).2) := rfl
        rw [hrun]
        dsimp only
        rcases hw : sw.write env ids vals with ⟨r, sw1⟩
        rw [hw] at h
        cases r with
        | error e => cases h
        | ok u =>
          dsimp only at h
          by_cases hn1 : n < sw1.writer.opNo
          · -- killed during this Write
            have hcr := ((CrashAt.call (.write ids vals) sw).crash env n kk hn (by
              show n < (sw.write env ids vals).2.writer.opNo
              rw [hw]; exact hn1) hq).2
            change n < (sw.write (env.crashAt n kk) ids vals).2.writer.opNo at hcr
            generalize sw.write (env.crashAt n kk) ids vals = res at hcr ⊢
            obtain ⟨r, swc⟩ := res
            dsimp only at hcr ⊢
            have hd := dead_crashAt env n kk swc.writer hcr
            have hrest := (CrashAt.calls (writes rest ++ [.close]) swc).dead (env.crashAt n kk) hd
            rw [hrest]
            cases r with
            | error e => rfl
            | ok u => exact import_dead g mv mi _ _ _ swc hd
          · have hag := (CrashAt.call (.write ids vals) sw).agree_crashAt env n kk (by
              show (sw.write env ids vals).2.writer.opNo ≤ n
              rw [hw]; exact Nat.le_of_not_lt hn1)
            change sw.write (env.crashAt n kk) ids vals = sw.write env ids vals at hag
            rw [hag, hw]
            exact ih _ (by omega) _ _ _ h ht (Nat.le_of_not_lt hn1)

/-- The file left by a killed `loadtest import`. -/
theorem import_files {w : World} (hq : w.env.NoFault) {fs : Files} {num bs : Int64} {file : Bytes} {seed mv : Int64} {mi : UInt64}
    (hd : ¬ w.directory file = false) (hc : ¬ w.creatable file = false) {sw0 sw' : SimpleWriter B} {v i : Nat}
    (h0 : newSimpleWriter (options bs) w.env = .ok sw0)
    (h1 : importLoop w.env (w.rng seed) mv mi num.toInt.toNat 0 0 sw0 = (.done v i, sw')) {batches : List (List UInt64 × List Int64)} {k' : Nat}
    (hb : Batches (w.rng seed) mv mi num.toInt.toNat 0 batches 0 k') (n k : Nat) :
    (LoadCmd.runImport B { w with env := w.env.crashAt n k } fs num bs file seed mv mi).files =
      fs.put file (crashedSimple B (options bs) (writes batches) w.env n k) := by
  obtain ⟨w0, hnew0, hsw0⟩ : ∃ w0, newWriter (B := B) (options bs) w.env = (.ok (), w0) ∧ sw0.writer = w0 := by
    unfold newSimpleWriter at h0
    rcases hr : newWriter (B := B) (options bs) w.env with ⟨r, w0⟩
    rw [hr] at h0
    cases r with
    | error e => cases h0
    | ok u => cases h0; exact ⟨w0, rfl, rfl⟩
  unfold LoadCmd.runImport
  rw [if_neg hd, if_neg hc]
  unfold LoadTest.runImport crashedSimple
  rw [show ([.withBlockSize bs.toUInt64.toUInt32, .withEncoding encVarIntBoth] : List WriterOption) = options bs from rfl]
  dsimp only
  cases hn : newSimpleWriter (B := B) (options bs) (w.env.crashAt n k) with
  | error e => rfl
  | ok swc =>
    dsimp only
    refine congrArg (fs.put file) ?_
    by_cases hn0 : n < w0.opNo
    · have hcr := newWriter_crash (B := B) hq (options bs) n k (by rw [hnew0]; exact hn0)
      have hw : swc.writer = (newWriter (B := B) (options bs) (w.env.crashAt n k)).2 := by
        unfold newSimpleWriter at hn
        rcases hr : newWriter (B := B) (options bs) (w.env.crashAt n k) with ⟨r, wc⟩
        rw [hr] at hn
        cases r with
        | error e => cases hn
        | ok u => cases hn; rfl
      rw [← hw] at hcr
      have hdead := dead_crashAt w.env n k swc.writer hcr
      rw [import_dead _ _ _ _ _ _ swc hdead]
      exact ((CrashAt.calls (writes batches ++ [.close]) swc).dead _ hdead).symm
    · have hsame : newSimpleWriter (B := B) (options bs) (w.env.crashAt n k) = .ok sw0 := by
        unfold newSimpleWriter at h0 ⊢
        rw [newWriter_agree w.env (options bs) n k (by rw [hnew0]; exact Nat.le_of_not_lt hn0)]
        exact h0
      rw [hn] at hsame
      cases hsame
      exact import_killed hq n k _ _ _ _ _ _ sw0 sw' h1 hb (by rw [hsw0]; exact Nat.le_of_not_lt hn0)

omit [LawfulBitmap B] in
theorem runSW_length (env : Env) (cs : List SWCall) (sw : SimpleWriter B) : (runSW env cs sw).1.length = cs.length := by
  induction cs generalizing sw with
  | nil => rfl
  | cons c cs ih =>
    rw [runSW_cons]
    simp [ih]

theorem succeeded_append (as bs : List SWCall) : succeeded (as ++ bs) = succeeded as ++ succeeded bs := by simp [succeeded]

/-- `fs'` is what a `loadtest` command leaves of the files `fs` if it is killed: before it creates a file, or at file operation
number `n`, the `k`-th byte of that write being the last to reach the file. -/
inductive LeftLoad (B : Type) [Bitmap B] (w : LoadCmd.World) (fs : Cmd.Files) (args : List Bytes) : Cmd.Files → Prop where
  | before : LeftLoad B w fs args fs
  | during (n k : Nat) : LeftLoad B w fs args (LoadCmd.main B { w with env := w.env.crashAt n k } fs args).files

/-- A `loadtest` import that succeeds, and the file it leaves if it is killed instead. -/
theorem import_during {w : World} {fs : Files} {args : List Bytes} {a : ImportArgs} (h : AsksImport w.now args a)
    (hq : w.env.NoFault)
    (hs : (main B w fs args).stop.status = 0) {full : Bytes} (hfull : (main B w fs args).files a.file = some full) :
    ∃ (batches : List (List UInt64 × List Int64)) (sw sw2 : SimpleWriter B),
      SWHistory B w.env (options a.blockSize) (writes batches) (succeeded (writes batches)) sw ∧ sw.close w.env = (.ok (), sw2) ∧
      sw2.writer.file.bytes = full ∧ (∀ c ∈ writes batches, c.Bounded) ∧ SWCall.close ∉ writes batches ∧
      ∀ n k, (main B { w with env := w.env.crashAt n k } fs args).files a.file =
        some (crashedSimple B (options a.blockSize) (writes batches) w.env n k) := by
  have hkill := fun n k => main_import (B := B) (w := { w with env := w.env.crashAt n k }) (fs := fs) h
  rw [main_import h] at hs hfull
  unfold LoadCmd.runImport at hs hfull
  split at hs
  · cases hs
  · rename_i hd
    rw [if_neg hd] at hfull
    split at hs
    · cases hs
    · rename_i hc
      rw [if_neg hc] at hfull
      cases hrun : LoadTest.runImport (B := B) w.env (w.rng a.seed) a.num a.blockSize a.maxValue a.maxID with
      | mk e out =>
        rw [hrun] at hs hfull
        cases out with
        | none =>
          exfalso
          unfold LoadTest.runImport at hrun
          split at hrun
          · cases hrun; cases hs
          · cases hrun
        | some sw =>
          dsimp only at hs hfull
          rw [show fs.put a.file sw.writer.file.bytes a.file = some sw.writer.file.bytes from if_pos rfl] at hfull
          cases hfull
          cases e with
          | failed e => cases hs
          | panicked => cases hs
          | done v i =>
            obtain ⟨sw0, h0, h1⟩ := runImport_eq hrun
            obtain ⟨batches, k1, hb, hv, hi, hr⟩ := importLoop_done w.env _ _ _ _ _ _ _ h1
            -- the calls before Close
            have hlist : runSW w.env (writes batches) sw0 = (succeeded (writes batches), (runSW w.env (writes batches) sw0).2) ∧
                (runSW w.env (writes batches) sw0).2.close w.env = (.ok (), sw) := by
              rw [runSW_append, succeeded_append] at hr
              obtain ⟨hl, hsw⟩ := Prod.mk.inj hr
              obtain ⟨hl1, hl2⟩ := List.append_inj hl (by rw [runSW_length]; simp [succeeded])
              refine ⟨Prod.ext hl1 rfl, Prod.ext ?_ hsw⟩
              have : [(SWCall.close, ((runSW w.env (writes batches) sw0).2.close w.env).1)] = [(SWCall.close, Except.ok ())] := hl2
              simpa using this
            have hist : SWHistory B w.env (options a.blockSize) (writes batches) (succeeded (writes batches)) (runSW w.env (writes batches) sw0).2 :=
              ⟨sw0, h0, hlist.1⟩
            refine ⟨batches, _, sw, hist, hlist.2, rfl, fun c hc => hb.bounded c (List.mem_append_left _ hc), by simp [writes], fun n k => ?_⟩
            rw [hkill, import_files (B := B) hq (fs := fs) (file := a.file) hd hc h0 h1 hb n k]
            exact if_pos rfl

/-- An `aggregate` command for a file that `NewReader` rejects. -/
theorem aggregate_rejected {fs : Files} {file bytes : Bytes} (hf : fs file = some bytes) (hx : Rejected B bytes)
    (w' : World) (rargs : List Bytes) (skip : Bool) (par : Int64) (hr : AsksAggregate rargs file skip par) :
    (main B w' fs rargs).stop.status ≠ 0 := by
  rw [main_aggregate hr]
  unfold LoadCmd.runAggregate
  rw [hf]
  dsimp only
  split
  · simp [End.status]
  · cases hn : newReader (B := B) bytes with
    | ok r => exact absurd hn (hx r)
    | err e => simp [End.status]
    | panic => simp [End.status]

/-- A `loadtest` import, killed or not, changes only the file it is asked to write. -/
theorem import_others {w : World} {fs : Files} {args : List Bytes} {a : ImportArgs} (h : AsksImport w.now args a)
    {fs' : Files} (hk : LeftLoad B w fs args fs') : ∀ name, name ≠ a.file → fs' name = fs name := by
  cases hk with
  | before => exact fun _ _ => rfl
  | during n k =>
    intro name hname
    apply Classical.byContradiction
    intro hne
    obtain ⟨_, _, a', ha', hf'⟩ := C73_untouched hne
    rw [asksImport_unique ha' h] at hf'
    exact hname hf'.symm

/-- **C80.** A `loadtest import` command that would have succeeded is killed. No other file is touched; the output file is
what it was (killed before it was created), or the complete file the command would have produced, byte for byte, or a file for which
every `aggregate` command ends with a nonzero status, or a file that was cut off before the 24 bytes of footer
metadata and happens to end with the magic number. -/
theorem C80_import {w : World} {fs : Files} {args : List Bytes} {a : ImportArgs} (h : AsksImport w.now args a)
    (hsort : LawfulSort w.env.sort) (hq : w.env.NoFault) (ht : ∀ i, (w.env.clock i).toNat < 2 ^ 48)
    (hs : (main B w fs args).stop.status = 0) {full : Bytes} (hfull : (main B w fs args).files a.file = some full)
    (hsz : full.length ≤ maxFileSize) {fs' : Files} (hk : LeftLoad B w fs args fs') :
    (∀ name, name ≠ a.file → fs' name = fs name) ∧
    (fs' a.file = fs a.file ∨ fs' a.file = some full ∨
      (∀ (w' : World) (rargs : List Bytes) (skip : Bool) (par : Int64), AsksAggregate rargs a.file skip par →
        (main B w' fs' rargs).stop.status ≠ 0) ∨
      ∃ bytes, fs' a.file = some bytes ∧ bytes.length + 24 < full.length ∧ EndsWithMagic bytes) := by
  refine ⟨import_others h hk, ?_⟩
  cases hk with
  | before => exact .inl rfl
  | during n k =>
    obtain ⟨batches, sw, sw2, hist, h2, h2f, hb, hnoclose, hkill⟩ := import_during h hq hs hfull
    rcases C79_whole hq ht hsort (LoadTest.options_enc a.blockSize) hb hnoclose hist h2 (by rw [h2f]; exact hsz) n k with hx | hx | hx
    · exact .inr (.inl (by rw [hkill, hx, h2f]))
    · exact .inr (.inr (.inl fun w' rargs skip par hr => aggregate_rejected (hkill n k) hx w' rargs skip par hr))
    · exact .inr (.inr (.inr ⟨_, hkill n k, by rw [← h2f]; exact hx.1, hx.2⟩))

/-- **C80.** After the kill the same command can be given again: it does exactly what it would have done before. -/
theorem C80_importAgain {w : World} {fs : Files} {args : List Bytes} {a : ImportArgs} (h : AsksImport w.now args a)
    (w0 : World) (hnow : w0.now = w.now) {fs' : Files} (hk : LeftLoad B w0 fs args fs') :
    (main B w fs' args).stop = (main B w fs args).stop ∧
    (∀ name, name ≠ a.file → (main B w fs' args).files name = fs name) ∧
    ((main B w fs args).stop.status = 0 → (main B w fs' args).files = (main B w fs args).files) := by
  have hothers : ∀ name, name ≠ a.file → fs' name = fs name := by
    intro name hname
    cases hk with
    | before => rfl
    | during n k =>
      apply Classical.byContradiction
      intro hne
      obtain ⟨_, _, a', ha', hf'⟩ := C73_untouched hne
      have ha' : AsksImport w0.now args a' := ha'
      rw [hnow] at ha'
      rw [asksImport_unique ha' h] at hf'
      exact hname hf'.symm
  have hput : ∀ bytes, fs'.put a.file bytes = fs.put a.file bytes := by
    intro bytes
    funext name
    unfold Files.put
    split
    · rfl
    · rename_i hne
      exact hothers name hne
  refine ⟨?_, fun name hname => ?_, ?_⟩
  · rw [main_import h, main_import h]
    unfold LoadCmd.runImport
    split
    · rfl
    · split
      · rfl
      · generalize LoadTest.runImport (B := B) w.env (w.rng a.seed) a.num a.blockSize a.maxValue a.maxID = run
        obtain ⟨e, out⟩ := run
        cases out <;> rfl
  · apply Classical.byContradiction
    intro hne
    rw [← hothers name hname] at hne
    obtain ⟨_, _, a', ha', hf'⟩ := C73_untouched hne
    rw [asksImport_unique ha' h] at hf'
    exact hname hf'.symm
  · rw [main_import h, main_import h]
    unfold LoadCmd.runImport
    split
    · intro hx; cases hx
    · split
      · intro hx; cases hx
      · generalize LoadTest.runImport (B := B) w.env (w.rng a.seed) a.num a.blockSize a.maxValue a.maxID = run
        obtain ⟨e, out⟩ := run
        intro _
        cases out <;> exact hput _

/-- `C80_import` for a command of a succeeding world, stated with the world and the arguments as variables. -/
theorem import_succeeding {w : World} {fs : Files} {args : List Bytes} {a : ImportArgs} (h : AsksImport w.now args a)
    (hsort : LawfulSort w.env.sort) (hq : w.env.NoFault) (ht : ∀ i, (w.env.clock i).toNat < 2 ^ 48)
    (hs : (main IdSet w fs args).stop.status = 0)
    (hsz : ∀ full, (main IdSet w fs args).files a.file = some full → full.length ≤ maxFileSize)
    (hrt : ∃ full, (main IdSet w fs args).files a.file = some full)
    {fs' : Files} (hk : LeftLoad IdSet w fs args fs') {name : Bytes} (hname : a.file = name) :
    ∃ full, (main IdSet w fs args).files name = some full ∧
      (fs' name = fs name ∨ fs' name = some full ∨
        (∀ (w' : World) (rargs : List Bytes) (skip : Bool) (par : Int64), AsksAggregate rargs name skip par →
          (main IdSet w' fs' rargs).stop.status ≠ 0) ∨
        ∃ bytes, fs' name = some bytes ∧ bytes.length + 24 < full.length ∧ EndsWithMagic bytes) := by
  subst hname
  obtain ⟨full, hf⟩ := hrt
  exact ⟨full, hf, (C80_import h hsort hq ht hs hf (hsz full hf) hk).2⟩

/-- Non-vacuity of C80 for `loadtest import`: a command, killed at any point. -/
theorem C80_importExample (fs fs' : Files)
    (hk : LeftLoad IdSet LoadCmd.quietWorld fs [str "import", str "--file=a.col", str "-n", str "1_000", str "-seed", str "-0x2A"] fs') :
    ∃ full, (main IdSet LoadCmd.quietWorld fs [str "import", str "--file=a.col", str "-n", str "1_000", str "-seed", str "-0x2A"]).files
        (str "a.col") = some full ∧
      (fs' (str "a.col") = fs (str "a.col") ∨ fs' (str "a.col") = some full ∨
        (∀ (w' : World) (rargs : List Bytes) (skip : Bool) (par : Int64), AsksAggregate rargs (str "a.col") skip par →
          (main IdSet w' fs' rargs).stop.status ≠ 0) ∨
        ∃ bytes, fs' (str "a.col") = some bytes ∧ bytes.length + 24 < full.length ∧ EndsWithMagic bytes) := by
  have hs : LawfulSort LoadCmd.quietWorld.env.sort := sortByInsertion_lawful
  have hask := (C73_usage 0).2.1
  obtain ⟨h1, h2⟩ := C73_succeeds (B := IdSet) (w := LoadCmd.quietWorld) (fs := fs) hask hs quietEnv_noFault rfl rfl (by decide) (by decide)
  obtain ⟨h3, full, h4, _⟩ := C73_session (B := IdSet) (w := LoadCmd.quietWorld) (fs := fs) hask hs LoadTest.unlucky_lawful h1
  have hcl : ∀ i, (LoadCmd.quietWorld.env.clock i).toNat < 2 ^ 48 := fun i => by show (1700000000 : UInt64).toNat < _; decide
  have hsz := h2 (by decide) (fun L hL => by
    have := idSet_buffer 1000 L (by rw [hL]; decide)
    omega)
  exact import_succeeding hask hs quietEnv_noFault hcl h1 hsz ⟨full, h4⟩ hk rfl

end LoadTest
end VibeCol.Killed
