/-
Crashes of a `SimpleWriter`: its calls under an environment in which the process dies at one file operation.
-/
import Verif.Lemmas.Crash
import Verif.Lemmas.Simple
namespace VibeCol
set_option linter.unusedSectionVars false
variable {B : Type} [Bitmap B]

/-- `Crashable` for programs on a `SimpleWriter`, in one state. -/
structure CrashAt {α : Type} (m : Env → SimpleWriter B → α × SimpleWriter B) (sw : SimpleWriter B) : Prop where
  count : ∀ env, sw.writer.opNo ≤ (m env sw).2.writer.opNo
  grow : ∀ env, sw.writer.file.bytes.length ≤ (m env sw).2.writer.file.bytes.length
  dead : ∀ env, Dead env sw.writer → (m env sw).2.writer.file.bytes = sw.writer.file.bytes
  agree : ∀ env env', (∀ i, i < (m env sw).2.writer.opNo → env'.fault i = env.fault i) →
    env'.clock = env.clock → env'.sort = env.sort → m env' sw = m env sw
  crash : ∀ env n k, sw.writer.opNo ≤ n → n < (m env sw).2.writer.opNo → env.NoFault →
    (m (env.crashAt n k) sw).2.writer.file.bytes.length ≤ (m env sw).2.writer.file.bytes.length ∧
    n < (m (env.crashAt n k) sw).2.writer.opNo
  disk : ∀ env, DiskIn sw.writer → DiskIn (m env sw).2.writer

namespace CrashAt
variable {α β : Type}

theorem agree_crashAt {m : Env → SimpleWriter B → α × SimpleWriter B} {sw : SimpleWriter B} (h : CrashAt m sw) (env : Env) (n k : Nat)
    (hn : (m env sw).2.writer.opNo ≤ n) : m (env.crashAt n k) sw = m env sw := by
  refine h.agree env _ (fun i hi => ?_) rfl rfl
  simp only [Env.crashAt]
  rw [if_pos (by omega)]

/-- A step without file operations. -/
theorem quiet {m : Env → SimpleWriter B → α × SimpleWriter B} {sw : SimpleWriter B} (x : α × SimpleWriter B)
    (hm : ∀ env, m env sw = x) (h1 : x.2.writer.opNo = sw.writer.opNo) (h2 : x.2.writer.file = sw.writer.file)
    (h3 : x.2.writer.disk = sw.writer.disk) : CrashAt m sw where
  count env := by rw [hm, h1]; exact Nat.le_refl _
  grow env := by rw [hm, h2]; exact Nat.le_refl _
  dead env _ := by rw [hm, h2]
  agree env env' _ _ _ := by rw [hm, hm]
  crash env n k ha hb := by
    rw [hm, h1] at hb
    omega
  disk env h := by
    rw [hm]
    exact h.congr (by rw [h2]) h3 (by rw [h2]; exact h.pos)

/-- A program on the writer inside. -/
theorem inner {m : WM B α} (h : Crashable m) (sw : SimpleWriter B) :
    CrashAt (fun env sw => ((m env sw.writer).1, { sw with writer := (m env sw.writer).2 })) sw where
  count env := h.count env sw.writer
  grow env := h.grow env sw.writer
  dead env := h.dead env sw.writer
  agree env env' h1 h2 h3 := by
    show ((m env' sw.writer).1, ({ sw with writer := (m env' sw.writer).2 } : SimpleWriter B)) = _
    rw [h.agree env env' sw.writer h1 h2 h3]
  crash env n k := h.crash env sw.writer n k
  disk env := h.disk env sw.writer

theorem seq {m : Env → SimpleWriter B → α × SimpleWriter B} {g : α → Env → SimpleWriter B → β × SimpleWriter B} {sw : SimpleWriter B}
    (hm : CrashAt m sw) (hg : ∀ env, CrashAt (g (m env sw).1) (m env sw).2) :
    CrashAt (fun env sw => g (m env sw).1 env (m env sw).2) sw where
  count env := Nat.le_trans (hm.count env) ((hg env).count env)
  grow env := Nat.le_trans (hm.grow env) ((hg env).grow env)
  dead env h := by
    show (g (m env sw).1 env (m env sw).2).2.writer.file.bytes = _
    rw [(hg env).dead env (dead_mono h (hm.count env)), hm.dead env h]
  agree env env' h hc hs := by
    have hmid := (hg env).count env
    have h1 : m env' sw = m env sw := hm.agree env env' (fun i hi => h i (by
      show i < (g (m env sw).1 env (m env sw).2).2.writer.opNo; omega)) hc hs
    show g (m env' sw).1 env' (m env' sw).2 = g (m env sw).1 env (m env sw).2
    rw [h1]
    exact (hg env).agree env env' h hc hs
  crash env n k h1 h2 hno := by
    change n < (g (m env sw).1 env (m env sw).2).2.writer.opNo at h2
    show (g (m (env.crashAt n k) sw).1 (env.crashAt n k) (m (env.crashAt n k) sw).2).2.writer.file.bytes.length ≤
      (g (m env sw).1 env (m env sw).2).2.writer.file.bytes.length ∧
      n < (g (m (env.crashAt n k) sw).1 (env.crashAt n k) (m (env.crashAt n k) sw).2).2.writer.opNo
    by_cases hn : n < (m env sw).2.writer.opNo
    · obtain ⟨ha, hb⟩ := hm.crash env n k h1 hn hno
      have hd := dead_crashAt env n k _ hb
      have hc := (hg (env.crashAt n k)).count (env.crashAt n k)
      have hgr := (hg env).grow env
      rw [(hg (env.crashAt n k)).dead _ hd]
      omega
    · rw [hm.agree_crashAt env n k (by omega)]
      exact (hg env).crash env n k (by omega) h2 hno
  disk env h := (hg env).disk env (hm.disk env h)

theorem congr {m m' : Env → SimpleWriter B → α × SimpleWriter B} {sw : SimpleWriter B} (h : CrashAt m sw)
    (he : ∀ env, m' env sw = m env sw) : CrashAt m' sw where
  count env := by rw [he]; exact h.count env
  grow env := by rw [he]; exact h.grow env
  dead env hd := by rw [he]; exact h.dead env hd
  agree env env' h1 h2 h3 := by rw [he] at h1; rw [he, he]; exact h.agree env env' h1 h2 h3
  crash env n k h1 h2 h3 := by rw [he] at h2; rw [he, he]; exact h.crash env n k h1 h2 h3
  disk env hd := by rw [he]; exact h.disk env hd

/-- The fields other than the writer may be changed before. -/
theorem comap {m : Env → SimpleWriter B → α × SimpleWriter B} {sw : SimpleWriter B} (f : SimpleWriter B → SimpleWriter B)
    (h : CrashAt m (f sw)) (h1 : (f sw).writer.opNo = sw.writer.opNo) (h2 : (f sw).writer.file = sw.writer.file)
    (h3 : (f sw).writer.disk = sw.writer.disk) : CrashAt (fun env s => m env (f s)) sw where
  count env := by rw [← h1]; exact h.count env
  grow env := by rw [← h2]; exact h.grow env
  dead env hd := by
    rw [← h2]
    refine h.dead env fun i hi => hd i ?_
    rw [← h1]; exact hi
  agree env env' := h.agree env env'
  crash env n k hn := by rw [← h1] at hn; exact h.crash env n k hn
  disk env hd := h.disk env (hd.congr (by rw [h2]) h3 (by rw [h2]; exact hd.pos))

/-- After the `writeBlock` of a flush. -/
def afterWrite (force : Bool) (r : Except Err Unit) (env : Env) (sw : SimpleWriter B) : Except Err Unit × SimpleWriter B :=
  match r with
  | .error (.blockFull n) =>
    flushIfNeeded env force { sw with
      totalItems := sw.totalItems + n
      pendingIDs := sw.pendingIDs.drop n
      pendingValues := sw.pendingValues.drop n }
  | .error e => (.error e, sw)
  | .ok _ => (.ok (), { sw with
      totalItems := sw.totalItems + sw.pendingIDs.length
      pendingIDs := []
      pendingValues := [] })

theorem flush (force : Bool) (sw : SimpleWriter B) : CrashAt (fun env sw => flushIfNeeded env force sw) sw := by
  induction hn : sw.pendingIDs.length using Nat.strongRecOn generalizing sw with
  | _ n ih =>
    subst hn
    by_cases h0 : sw.pendingIDs.length = 0
    · exact quiet (.ok (), sw) (fun env => by rw [flushIfNeeded_eq, if_pos h0]) rfl rfl rfl
    · by_cases h1 : force = true ∨ sw.pendingIDs.length ≥ 1000
      · refine congr (seq (g := afterWrite force) (inner (Crashable.writeBlock sw.pendingIDs sw.pendingValues) sw) ?_) ?_
        · intro env
          dsimp only
          rcases hw : VibeCol.writeBlock sw.pendingIDs sw.pendingValues env sw.writer with ⟨r, w'⟩
          dsimp only
          unfold afterWrite
          split
          · rename_i k
            have hk := writeBlock_blockFull_bounds _ _ _ _ _ _ hw
            refine comap (m := fun env sw => flushIfNeeded env force sw) (fun s => { s with
              totalItems := s.totalItems + k
              pendingIDs := s.pendingIDs.drop k
              pendingValues := s.pendingValues.drop k }) (ih _ ?_ _ rfl) rfl rfl rfl
            dsimp only
            rw [List.length_drop]
            omega
          · exact quiet _ (fun _ => rfl) rfl rfl rfl
          · exact quiet _ (fun _ => rfl) rfl rfl rfl
        · intro env
          dsimp only
          rw [flushIfNeeded_eq, if_neg h0, if_pos h1]
          rcases VibeCol.writeBlock sw.pendingIDs sw.pendingValues env sw.writer with ⟨r, w'⟩
          unfold afterWrite
          rcases r with e | u
          · cases e <;> rfl
          · rfl
      · exact quiet (.ok (), sw) (fun env => by rw [flushIfNeeded_eq, if_neg h0, if_neg h1]) rfl rfl rfl

theorem finalizeAndClose : Crashable (VibeCol.finalizeAndClose : WM B _) :=
  Crashable.bind Crashable.finalize fun _ => Crashable.fclose

/-- After the flush of a `Close`. -/
def afterFlush (r : Except Err Unit) (env : Env) (sw : SimpleWriter B) : Except Err Unit × SimpleWriter B :=
  match r with
  | .error e => (.error e, sw)
  | .ok _ =>
    match VibeCol.finalizeAndClose env sw.writer with
    | (.error e, w') => (.error e, { sw with writer := w' })
    | (.ok _, w') => (.ok (), { sw with writer := w', closed := true })

theorem afterFlush_crash (r : Except Err Unit) (sw : SimpleWriter B) : CrashAt (afterFlush r) sw := by
  unfold afterFlush
  cases r with
  | error e => exact quiet _ (fun _ => rfl) rfl rfl rfl
  | ok u =>
    refine congr (seq (g := fun r _ sw => match r with | .error e => (.error e, sw) | .ok _ => (.ok (), { sw with closed := true }))
      (inner finalizeAndClose sw) ?_) ?_
    · intro env
      dsimp only
      cases (VibeCol.finalizeAndClose env sw.writer).1 <;> exact quiet _ (fun _ => rfl) rfl rfl rfl
    · intro env
      dsimp only
      rcases VibeCol.finalizeAndClose env sw.writer with ⟨r, w'⟩
      cases r <;> rfl

theorem close_eq (env : Env) (sw : SimpleWriter B) (ho : sw.closed = false) :
    sw.close env = afterFlush (flushIfNeeded env true sw).1 env (flushIfNeeded env true sw).2 := by
  unfold SimpleWriter.close
  rw [if_neg (by rw [ho]; decide)]
  unfold afterFlush
  rcases flushIfNeeded env true sw with ⟨r, s⟩
  cases r <;> rfl

theorem call (c : SWCall) (sw : SimpleWriter B) : CrashAt (fun env sw => c.run env sw) sw := by
  by_cases hc : sw.closed = true
  · exact quiet (_, sw) (fun env => Prod.ext (closed_call env c sw hc).2 (closed_call env c sw hc).1) rfl rfl rfl
  have hc' : sw.closed = false := by simpa using hc
  cases c with
  | setTarget size =>
    refine quiet (.ok (), { sw with
        targetBlockSize := size
        writer := { sw.writer with blockSizeTarget := size.toUInt64.toUInt32 } }) (fun env => ?_) rfl rfl rfl
    show setTargetBlockSize size sw = _
    unfold setTargetBlockSize
    rw [if_neg hc]
  | close =>
    refine congr (seq (g := afterFlush) (flush true sw) fun env => afterFlush_crash _ _) fun env => ?_
    exact close_eq env sw hc'
  | write ids vals =>
    by_cases hl : ids.length = vals.length
    · by_cases hne : ids.length = 0
      · refine quiet (.ok (), sw) (fun env => ?_) rfl rfl rfl
        have hv : vals.length = 0 := by omega
        simp [SWCall.run, SimpleWriter.write, hc', hne, hv]
      · have key : ∀ ps : List UInt64 × List Int64, CrashAt (fun env (sw : SimpleWriter B) => flushIfNeeded env false { sw with
            pendingIDs := sw.pendingIDs ++ ps.1
            pendingValues := sw.pendingValues ++ ps.2 }) sw := fun ps =>
          comap (m := fun env sw => flushIfNeeded env false sw) (fun s => { s with
            pendingIDs := s.pendingIDs ++ ps.1
            pendingValues := s.pendingValues ++ ps.2 }) (flush false _) rfl rfl rfl
        have he : ∀ env, SWCall.run env (.write ids vals) sw = flushIfNeeded env false { sw with
            pendingIDs := sw.pendingIDs ++ (storedBatch env ids vals).1
            pendingValues := sw.pendingValues ++ (storedBatch env ids vals).2 } := fun env => write_eq env ids vals sw hc' hl hne
        exact {
          count := fun env => by rw [he]; exact (key (storedBatch env ids vals)).count env
          grow := fun env => by rw [he]; exact (key (storedBatch env ids vals)).grow env
          dead := fun env hd => by rw [he]; exact (key (storedBatch env ids vals)).dead env hd
          agree := fun env env' h1 h2 h3 => by
            rw [he] at h1
            rw [he, he, show storedBatch env' ids vals = storedBatch env ids vals by unfold storedBatch sortByID; rw [h3]]
            exact (key (storedBatch env ids vals)).agree env env' h1 h2 h3
          crash := fun env n k h1 h2 h3 => by
            rw [he] at h2
            rw [he, he, show storedBatch (env.crashAt n k) ids vals = storedBatch env ids vals from rfl]
            exact (key (storedBatch env ids vals)).crash env n k h1 h2 h3
          disk := fun env hd => by rw [he]; exact (key (storedBatch env ids vals)).disk env hd }
    · refine quiet (.error .lengthMismatch, sw) (fun env => ?_) rfl rfl rfl
      simp [SWCall.run, SimpleWriter.write, hc', hl]

theorem calls (cs : List SWCall) (sw : SimpleWriter B) : CrashAt (fun env sw => runSW env cs sw) sw := by
  induction cs generalizing sw with
  | nil => exact quiet ([], sw) (fun _ => rfl) rfl rfl rfl
  | cons c cs ih =>
    refine congr (seq (g := fun r env sw => ((c, r) :: (runSW env cs sw).1, (runSW env cs sw).2)) (call c sw) fun env => ?_) fun env => rfl
    exact congr (seq (g := fun log _ s => ((c, (c.run env sw).1) :: log, s)) (ih (c.run env sw).2)
      fun env' => quiet _ (fun _ => rfl) rfl rfl rfl) fun _ => rfl

end CrashAt
end VibeCol
