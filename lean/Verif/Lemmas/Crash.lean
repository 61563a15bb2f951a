/-
Crashes: running a program under an environment in which the process dies at one file operation.
-/
import Verif.Lemmas.Opened
namespace VibeCol
variable {B : Type}

/-- The process dies during file operation number `n`, a write having put `min k len` bytes into
the file; no later operation has any effect. -/
def Env.crashAt (env : Env) (n k : Nat) : Env :=
  { env with fault := fun m => if m < n then env.fault m else if m = n then some k else some 0 }

/-- From operation `w.opNo` on, every operation fails without effect. -/
def Dead (env : Env) (w : Writer B) : Prop := ∀ m, w.opNo ≤ m → env.fault m = some 0

/-- The cursor, and everything that was or may have been put on the disk, is within the file. -/
structure DiskIn (w : Writer B) : Prop where
  pos : w.file.pos ≤ w.file.bytes.length
  synced : w.disk.synced.length ≤ w.file.bytes.length
  unsynced : ∀ p ∈ w.disk.unsynced, p.1 + p.2.length ≤ w.file.bytes.length

theorem DiskIn.congr {w w' : Writer B} (h : DiskIn w) (h1 : w'.file.bytes = w.file.bytes) (h2 : w'.disk = w.disk)
    (h3 : w'.file.pos ≤ w.file.bytes.length) : DiskIn w' :=
  ⟨by rw [h1]; exact h3, by rw [h1, h2]; exact h.synced, by rw [h1, h2]; exact h.unsynced⟩

/-- What holds of every program made of file operations. -/
structure Crashable {α : Type} (m : WM B α) : Prop where
  /-- Operation numbers only grow. -/
  count : ∀ env w, w.opNo ≤ (m env w).2.opNo
  /-- Files only grow. -/
  grow : ∀ env w, w.file.bytes.length ≤ (m env w).2.file.bytes.length
  /-- A dead process changes nothing. -/
  dead : ∀ env w, Dead env w → (m env w).2.file.bytes = w.file.bytes
  /-- Faults that lie after the last operation do not matter. -/
  agree : ∀ env env' w, (∀ i, i < (m env w).2.opNo → env'.fault i = env.fault i) →
    env'.clock = env.clock → env'.sort = env.sort → m env' w = m env w
  /-- A crashed run leaves at most as many bytes, and the process is dead afterwards. -/
  crash : ∀ env w n k, w.opNo ≤ n → n < (m env w).2.opNo → env.NoFault →
    (m (env.crashAt n k) w).2.file.bytes.length ≤ (m env w).2.file.bytes.length ∧
    n < (m (env.crashAt n k) w).2.opNo
  /-- Nothing beyond the file gets onto the disk. -/
  disk : ∀ env w, DiskIn w → DiskIn (m env w).2

theorem dead_crashAt (env : Env) (n k : Nat) (w : Writer B) (h : n < w.opNo) : Dead (env.crashAt n k) w := by
  intro m hm
  simp only [Env.crashAt]
  rw [if_neg (by omega), if_neg (by omega)]

theorem dead_mono {env : Env} {w w' : Writer B} (h : Dead env w) (hle : w.opNo ≤ w'.opNo) : Dead env w' :=
  fun m hm => h m (by omega)

namespace Crashable
variable {α β : Type}

theorem agree_crashAt {m : WM B α} (h : Crashable m) (env : Env) (w : Writer B) (n k : Nat)
    (hn : (m env w).2.opNo ≤ n) : m (env.crashAt n k) w = m env w := by
  refine h.agree env _ w (fun i hi => ?_) rfl rfl
  simp only [Env.crashAt]; rw [if_pos (by omega)]

theorem pure (a : α) : Crashable (pure a : WM B α) where
  count _ _ := Nat.le_refl _
  grow _ _ := Nat.le_refl _
  dead _ _ _ := rfl
  agree _ _ _ _ _ _ := rfl
  crash env w n k h1 h2 := by
    have : ((Pure.pure a : WM B α) env w).2 = w := rfl
    rw [this] at h2; omega
  disk _ _ h := h

theorem noOp {m : WM B α} (f : Env → Writer B → Except Err α) (g : Writer B → Writer B)
    (hm : ∀ env w, m env w = (f env w, g w)) (hf : ∀ env env' w, env'.clock = env.clock → f env' w = f env w)
    (h1 : ∀ w, (g w).opNo = w.opNo) (h2 : ∀ w, (g w).file = w.file) (h3 : ∀ w, (g w).disk = w.disk) : Crashable m where
  count env w := by rw [hm]; show _ ≤ (g w).opNo; rw [h1]; exact Nat.le_refl _
  grow env w := by rw [hm]; show _ ≤ (g w).file.bytes.length; rw [h2]; exact Nat.le_refl _
  dead env w _ := by rw [hm]; show (g w).file.bytes = _; rw [h2]
  agree env env' w _ hc _ := by rw [hm, hm, hf env env' w hc]
  crash env w n k ha hb := by
    rw [hm] at hb
    have : (g w).opNo = w.opNo := h1 w
    change n < (g w).opNo at hb
    omega
  disk env w h := by
    rw [hm]
    exact h.congr (by dsimp only; rw [h2]) (h3 w) (by dsimp only; rw [h2]; exact h.pos)

theorem throw (e : Err) : Crashable (WM.throw e : WM B α) :=
  noOp (fun _ _ => .error e) id (fun _ _ => rfl) (fun _ _ _ _ => rfl) (fun _ => rfl) (fun _ => rfl) (fun _ => rfl)

theorem get : Crashable (WM.get : WM B _) :=
  noOp (fun _ w => .ok w) id (fun _ _ => rfl) (fun _ _ _ _ => rfl) (fun _ => rfl) (fun _ => rfl) (fun _ => rfl)

theorem modify (f : Writer B → Writer B) (h1 : ∀ w, (f w).opNo = w.opNo) (h2 : ∀ w, (f w).file = w.file)
    (h3 : ∀ w, (f w).disk = w.disk) :
    Crashable (WM.modify f) :=
  noOp (fun _ _ => .ok ()) f (fun _ _ => rfl) (fun _ _ _ _ => rfl) h1 h2 h3

theorem lift (r : Except Err α) : Crashable (WM.lift r : WM B α) :=
  noOp (fun _ _ => r) id (fun _ _ => by cases r <;> rfl) (fun _ _ _ _ => rfl) (fun _ => rfl) (fun _ => rfl) (fun _ => rfl)

theorem now [Bitmap B] : Crashable (VibeCol.now : WM B _) :=
  noOp (fun env w => .ok (env.clock w.opNo)) id (fun _ _ => rfl) (fun _ _ _ h => by rw [h]) (fun _ => rfl)
    (fun _ => rfl) (fun _ => rfl)

/-- Two programs in sequence, whatever decides how the second depends on the first. -/
theorem seq {m : WM B α} {g : Except Err α → WM B β} (hm : Crashable m) (hg : ∀ r, Crashable (g r)) :
    Crashable (fun env w => g (m env w).1 env (m env w).2) where
  count env w := Nat.le_trans (hm.count env w) ((hg _).count env _)
  grow env w := Nat.le_trans (hm.grow env w) ((hg _).grow env _)
  dead env w h := by
    show (g (m env w).1 env (m env w).2).2.file.bytes = _
    rw [(hg _).dead env _ (dead_mono h (hm.count env w)), hm.dead env w h]
  agree env env' w h hc hs := by
    have hmid := (hg (m env w).1).count env (m env w).2
    have h1 : m env' w = m env w := hm.agree env env' w (fun i hi => h i (by
      show i < (g (m env w).1 env (m env w).2).2.opNo; omega)) hc hs
    show g (m env' w).1 env' (m env' w).2 = g (m env w).1 env (m env w).2
    rw [h1]
    exact (hg _).agree env env' _ h hc hs
  crash env w n k h1 h2 hno := by
    change n < (g (m env w).1 env (m env w).2).2.opNo at h2
    show (g (m (env.crashAt n k) w).1 (env.crashAt n k) (m (env.crashAt n k) w).2).2.file.bytes.length ≤
      (g (m env w).1 env (m env w).2).2.file.bytes.length ∧
      n < (g (m (env.crashAt n k) w).1 (env.crashAt n k) (m (env.crashAt n k) w).2).2.opNo
    by_cases hn : n < (m env w).2.opNo
    · obtain ⟨ha, hb⟩ := hm.crash env w n k h1 hn hno
      have hd := dead_crashAt env n k _ hb
      have hc := (hg (m (env.crashAt n k) w).1).count (env.crashAt n k) (m (env.crashAt n k) w).2
      have hgr := (hg (m env w).1).grow env (m env w).2
      rw [(hg _).dead _ _ hd]
      omega
    · rw [hm.agree_crashAt env w n k (by omega)]
      exact (hg _).crash env _ n k (by omega) h2 hno
  disk env w h := (hg _).disk env _ (hm.disk env w h)

theorem bind {m : WM B α} {f : α → WM B β} (hm : Crashable m) (hf : ∀ a, Crashable (f a)) :
    Crashable (m >>= f) := by
  have h := seq (g := fun r => match r with | .ok a => f a | .error e => WM.throw e) hm
    (fun r => by cases r with | ok a => exact hf a | error e => exact throw e)
  have he : (m >>= f) = fun env w =>
      (match (m env w).1 with | .ok a => f a | .error e => WM.throw e) env (m env w).2 := by
    funext env w
    rw [WM.bind_def]
    rcases m env w with ⟨r, w'⟩
    cases r <;> rfl
  rw [he]; exact h

theorem ite {c : Prop} [Decidable c] {a b : WM B α} (ha : Crashable a) (hb : Crashable b) :
    Crashable (if c then a else b) := by
  split <;> assumption

theorem fileOp {f : File → Except Err (α × File)} (hf : ∀ F a F', f F = .ok (a, F') → F'.bytes = F.bytes)
    (hp : ∀ F a F', f F = .ok (a, F') → F.pos ≤ F.bytes.length → F'.pos ≤ F.bytes.length) :
    Crashable (WM.fileOp f : WM B α) := by
  have hop : ∀ env w, ((WM.fileOp f : WM B α) env w).2.opNo = w.opNo + 1 := by
    intro env w
    unfold WM.fileOp
    dsimp only
    split
    · rfl
    · split
      · rfl
      · split <;> rfl
  have hb : ∀ env w, ((WM.fileOp f : WM B α) env w).2.file.bytes = w.file.bytes := by
    intro env w
    unfold WM.fileOp
    dsimp only
    split
    · rfl
    · split
      · rfl
      · split
        · rename_i h; exact hf _ _ _ h
        · rfl
  refine ⟨fun env w => by rw [hop]; omega, fun env w => by rw [hb]; exact Nat.le_refl _,
    fun env w _ => hb env w, ?_, ?_, ?_⟩
  · intro env env' w h _ _
    have := h w.opNo (by rw [hop]; omega)
    unfold WM.fileOp
    dsimp only
    rw [this]
  · intro env w n k h1 h2 _
    rw [hop] at h2
    rw [hb, hb, hop]
    omega
  · intro env w h
    refine h.congr (hb env w) ?_ ?_
    · unfold WM.fileOp
      dsimp only
      split
      · rfl
      · split
        · rfl
        · split <;> rfl
    · unfold WM.fileOp
      dsimp only
      split
      · exact h.pos
      · split
        · exact h.pos
        · split
          · rename_i hx; exact hp _ _ _ hx h.pos
          · exact h.pos

theorem seekCur : Crashable (VibeCol.seekCur : WM B _) :=
  fileOp (by intro F a F' h; cases h; rfl) (by intro F a F' h hp; cases h; exact hp)
theorem seekRel (o : Int) (ho : o ≤ 0) : Crashable (VibeCol.seekRel o : WM B _) :=
  fileOp (by
    intro F a F' h
    dsimp only at h
    split at h
    · cases h
    · cases h; rfl) (by
    intro F a F' h hp
    dsimp only at h
    split at h
    · cases h
    · cases h
      dsimp only
      omega)
theorem seekStart : Crashable (VibeCol.seekStart : WM B _) :=
  fileOp (by intro F a F' h; cases h; rfl) (by intro F a F' h hp; cases h; exact Nat.zero_le _)
theorem seekEnd : Crashable (VibeCol.seekEnd : WM B _) :=
  fileOp (by intro F a F' h; cases h; rfl) (by intro F a F' h hp; cases h; exact Nat.le_refl _)
theorem fsync : Crashable (VibeCol.fsync : WM B _) := by
  have hop : ∀ env w, ((VibeCol.fsync : WM B Unit) env w).2.opNo = w.opNo + 1 := by
    intro env w
    unfold VibeCol.fsync
    dsimp only
    split
    · rfl
    · split <;> rfl
  have hb : ∀ env w, ((VibeCol.fsync : WM B Unit) env w).2.file.bytes = w.file.bytes := by
    intro env w
    unfold VibeCol.fsync
    dsimp only
    split
    · rfl
    · split <;> rfl
  refine ⟨fun env w => by rw [hop]; omega, fun env w => by rw [hb]; exact Nat.le_refl _,
    fun env w _ => hb env w, ?_, ?_, ?_⟩
  · intro env env' w h _ _
    have := h w.opNo (by rw [hop]; omega)
    unfold VibeCol.fsync
    dsimp only
    rw [this]
  · intro env w n k h1 h2 _
    rw [hop] at h2
    rw [hb, hb, hop]
    omega
  · intro env w h
    unfold VibeCol.fsync
    dsimp only
    split
    · exact ⟨h.pos, h.synced, h.unsynced⟩
    · split
      · exact ⟨h.pos, h.synced, h.unsynced⟩
      · exact ⟨h.pos, Nat.le_refl _, fun p hp => by cases hp⟩

theorem writeAt_length_max (b : Bytes) (p : Nat) (d : Bytes) :
    (writeAt b p d).length = if d = [] then b.length else max b.length (p + d.length) := by
  cases d with
  | nil => rfl
  | cons x xs =>
    simp only [writeAt, List.length_append, List.length_take, List.length_replicate, List.length_drop,
      reduceCtorEq, if_false]
    omega

theorem writeAt_take_le (b : Bytes) (p : Nat) (d : Bytes) (k : Nat) :
    (writeAt b p (d.take k)).length ≤ (writeAt b p d).length := by
  rw [writeAt_length_max, writeAt_length_max]
  by_cases hd : d = []
  · subst hd; simp
  · by_cases ht : d.take k = []
    · rw [if_pos ht, if_neg hd]; omega
    · rw [if_neg ht, if_neg hd, List.length_take]; omega

theorem fwrite (d : Bytes) : Crashable (VibeCol.fwrite d : WM B _) := by
  have hop : ∀ env w, ((VibeCol.fwrite d : WM B _) env w).2.opNo = w.opNo + 1 := by
    intro env w
    unfold VibeCol.fwrite
    dsimp only
    split
    · rfl
    · split <;> rfl
  have hgrow : ∀ (b : Bytes) p d', b.length ≤ (writeAt b p d').length := by
    intro b p d'; rw [writeAt_length_max]; split <;> omega
  refine ⟨fun env w => by rw [hop]; omega, ?_, ?_, ?_, ?_, ?_⟩
  · intro env w
    unfold VibeCol.fwrite
    dsimp only
    split
    · exact Nat.le_refl _
    · split <;> exact hgrow _ _ _
  · intro env w h
    unfold VibeCol.fwrite
    rw [h w.opNo (Nat.le_refl _)]
    dsimp only
    split
    · rfl
    · rfl
  · intro env env' w h _ _
    have := h w.opNo (by rw [hop]; omega)
    unfold VibeCol.fwrite
    rw [this]
  · intro env w n k h1 h2 hno
    rw [hop] at h2
    have hn : n = w.opNo := by omega
    subst hn
    refine ⟨?_, by rw [hop]; omega⟩
    have hf : (env.crashAt w.opNo k).fault w.opNo = some k := by
      simp [Env.crashAt]
    unfold VibeCol.fwrite
    rw [hf, hno w.opNo]
    dsimp only
    split
    · exact Nat.le_refl _
    · exact writeAt_take_le _ _ _ _
  · intro env w h
    have hput : ∀ d' : Bytes, DiskIn { w with
        opNo := w.opNo + 1
        file := { bytes := writeAt w.file.bytes w.file.pos d', pos := w.file.pos + d'.length }
        disk := { w.disk with unsynced := w.disk.unsynced ++ [(w.file.pos, d')] } } := by
      intro d'
      have hpos := h.pos
      have hl : w.file.bytes.length ≤ (writeAt w.file.bytes w.file.pos d').length ∧
          w.file.pos + d'.length ≤ (writeAt w.file.bytes w.file.pos d').length := by
        rw [writeAt_length_max]
        split
        · rename_i hd; subst hd; exact ⟨Nat.le_refl _, by simpa using hpos⟩
        · omega
      refine ⟨hl.2, Nat.le_trans h.synced hl.1, fun p hp => ?_⟩
      rcases List.mem_append.1 hp with hp | hp
      · exact Nat.le_trans (h.unsynced p hp) hl.1
      · rw [List.mem_singleton] at hp
        subst hp
        exact hl.2
    unfold VibeCol.fwrite
    dsimp only
    split
    · exact ⟨h.pos, h.synced, h.unsynced⟩
    · split <;> exact hput _

theorem fclose : Crashable (VibeCol.fclose : WM B _) := by
  have hop : ∀ env w, ((VibeCol.fclose : WM B _) env w).2.opNo = w.opNo + 1 := by
    intro env w
    unfold VibeCol.fclose
    dsimp only
    split
    · rfl
    · split <;> rfl
  have hb : ∀ env w, ((VibeCol.fclose : WM B _) env w).2.file.bytes = w.file.bytes := by
    intro env w
    unfold VibeCol.fclose
    dsimp only
    split
    · rfl
    · split <;> rfl
  refine ⟨fun env w => by rw [hop]; omega, fun env w => by rw [hb]; exact Nat.le_refl _,
    fun env w _ => hb env w, ?_, ?_, ?_⟩
  · intro env env' w h _ _
    have := h w.opNo (by rw [hop]; omega)
    unfold VibeCol.fclose
    rw [this]
  · intro env w n k h1 h2 _
    rw [hop] at h2
    rw [hb, hb, hop]
    omega
  · intro env w h
    unfold VibeCol.fclose
    dsimp only
    split
    · exact ⟨h.pos, h.synced, h.unsynced⟩
    · split
      · exact ⟨h.pos, h.synced, h.unsynced⟩
      · exact ⟨h.pos, h.synced, h.unsynced⟩

theorem fwriteAll (ds : List Bytes) : Crashable (VibeCol.fwriteAll ds : WM B _) := by
  induction ds with
  | nil => exact pure 0
  | cons d ds ih =>
    unfold VibeCol.fwriteAll
    exact bind (fwrite d) fun _ => bind ih fun _ => pure _

variable [Bitmap B]

theorem writeHeader : Crashable (VibeCol.writeHeader : WM B _) := by
  unfold VibeCol.writeHeader
  refine bind seekCur fun _ => bind now fun _ => bind get fun _ => bind (fwriteAll _) fun _ =>
    bind (fwrite _) fun _ => bind seekCur fun _ => ite (throw _) (pure _)

omit [Bitmap B] in
theorem writeBlockHeader (a b c d e : UInt64) (n : UInt32) :
    Crashable (VibeCol.writeBlockHeader a b c d e n : WM B _) := by
  unfold VibeCol.writeBlockHeader
  exact bind seekCur fun _ => bind get fun _ => bind (fwriteAll _) fun _ => bind seekCur fun _ =>
    ite (throw _) (pure _)

/-- `bind` when only one result is possible. -/
theorem bindEq {m : WM B α} {f : α → WM B β} (a : α) (hm : Crashable m)
    (ha : ∀ env w, wp m (fun x _ => x = a) (fun _ _ => True) env w) (hf : Crashable (f a)) : Crashable (m >>= f) := by
  have h := bind (f := fun _ => f a) hm fun _ => hf
  have he : (m >>= f) = (m >>= fun _ => f a) := by
    funext env w
    have := ha env w
    unfold wp at this
    rw [WM.bind_def, WM.bind_def]
    generalize m env w = res at this ⊢
    obtain ⟨r, w'⟩ := res
    cases r with
    | ok x => dsimp only at this ⊢; rw [this]
    | error e => rfl
  rw [he]; exact h

omit [Bitmap B] in
theorem writeBlockHeader_52 (a b c d e : UInt64) (n : UInt32) (env : Env) (w : Writer B) :
    wp (VibeCol.writeBlockHeader a b c d e n : WM B _) (fun x _ => x = 52) (fun _ _ => True) env w := by
  have any : ∀ {γ : Type} (m : WM B γ) (Q : γ → Writer B → Prop) w, (∀ x w', Q x w') → wp m Q (fun _ _ => True) env w := by
    intro γ m Q w h
    unfold wp
    rcases m env w with ⟨r, w'⟩
    cases r with
    | ok x => exact h x w'
    | error e => exact True.intro
  unfold VibeCol.writeBlockHeader
  refine wp_bind (any _ _ _ fun _ _ => wp_bind (wp_get (wp_bind (any _ _ _ fun _ _ => wp_bind (any _ _ _ fun _ _ => ?_)))))
  exact wp_ite (fun _ => wp_throw True.intro) fun h => wp_pure (Classical.not_not.1 h)

theorem writeBlockInternal (ids : List UInt64) (vals : List Int64) :
    Crashable (VibeCol.writeBlockInternal ids vals : WM B _) := by
  unfold VibeCol.writeBlockInternal
  refine bind (modify _ (fun _ => rfl) (fun _ => rfl) (fun _ => rfl)) fun _ => bind get fun _ => bind (lift _) fun _ => ?_
  refine bind (lift _) fun _ => bind seekCur fun _ => bind (modify _ (fun _ => rfl) (fun _ => rfl) (fun _ => rfl)) fun _ => ?_
  refine bindEq 52 (writeBlockHeader _ _ _ _ _ _) (writeBlockHeader_52 _ _ _ _ _ _) <| bind (fwrite _) fun _ => bind (fwrite _) fun _ =>
    bind seekCur fun _ => bind (fwrite _) fun _ => bind (seekRel _ (by decide)) fun _ => ?_
  refine ite (throw _) (ite (throw _) (ite (throw _) ?_))
  refine bind (fwrite _) fun _ => bind seekCur fun _ => bind (fwriteAll _) fun _ => ite (throw _) ?_
  refine bind (fwriteAll _) fun _ => ite (throw _) ?_
  refine bind seekCur fun _ => ?_
  refine ite (bind (fwrite _) fun _ => ?_) ?_
  · exact ite (throw _) (bind (modify _ (fun _ => rfl) (fun _ => rfl) (fun _ => rfl)) fun _ => fsync)
  · exact ite (throw _) (bind (modify _ (fun _ => rfl) (fun _ => rfl) (fun _ => rfl)) fun _ => fsync)

omit [Bitmap B] in
theorem estimateBlockSize (ids : List UInt64) (vals : List Int64) :
    Crashable (VibeCol.estimateBlockSize ids vals : WM B _) := by
  unfold VibeCol.estimateBlockSize
  exact ite (throw _) (ite (throw _) (bind get fun _ => bind (lift _) fun _ => bind (lift _) fun _ =>
    bind seekCur fun _ => pure _))

omit [Bitmap B] in
theorem findOptimal (ids : List UInt64) (vals : List Int64) (fuel i o : Nat) :
    Crashable (VibeCol.findOptimal ids vals fuel i o : WM B _) := by
  induction fuel generalizing i o with
  | zero => exact pure _
  | succ fuel ih =>
    have he : (VibeCol.findOptimal ids vals (fuel + 1) i o : WM B _) = (WM.get >>= fun w0 => fun env w =>
        (match (VibeCol.estimateBlockSize (ids.take i) (vals.take i) env w).1 with
          | .ok size => (if size ≤ w0.blockSizeTarget.toNat then VibeCol.findOptimal ids vals fuel (i + 1) i
              else Pure.pure o : WM B Nat)
          | .error _ => (Pure.pure o : WM B Nat)) env
          (VibeCol.estimateBlockSize (ids.take i) (vals.take i) env w).2) := by
      funext env w
      show _ = (match (VibeCol.estimateBlockSize (ids.take i) (vals.take i) env w).1 with
          | .ok size => (if size ≤ w.blockSizeTarget.toNat then VibeCol.findOptimal ids vals fuel (i + 1) i
              else Pure.pure o : WM B Nat)
          | .error _ => (Pure.pure o : WM B Nat)) env
          (VibeCol.estimateBlockSize (ids.take i) (vals.take i) env w).2
      simp only [VibeCol.findOptimal]
      rcases VibeCol.estimateBlockSize (ids.take i) (vals.take i) env w with ⟨r, w'⟩
      cases r with
      | error e => rfl
      | ok size =>
        dsimp only
        split <;> rfl
    rw [he]
    refine bind get fun w0 => seq (g := fun r => match r with
      | .ok size => (if size ≤ w0.blockSizeTarget.toNat then VibeCol.findOptimal ids vals fuel (i + 1) i
              else Pure.pure o : WM B Nat)
      | .error _ => (Pure.pure o : WM B Nat)) (estimateBlockSize _ _) fun r => ?_
    cases r with
    | ok s => exact ite (ih _ _) (pure _)
    | error e => exact pure _

theorem writeBlock (ids : List UInt64) (vals : List Int64) :
    Crashable (VibeCol.writeBlock ids vals : WM B _) := by
  unfold VibeCol.writeBlock
  refine ite (throw _) (ite (throw _) (bind (estimateBlockSize _ _) fun _ => bind get fun _ => ite ?_ ?_))
  · exact bind (findOptimal _ _ _ _ _) fun _ => bind (writeBlockInternal _ _) fun _ => throw _
  · exact writeBlockInternal _ _

omit [Bitmap B] in
theorem writeBlockFooters (es : List FooterEntry) : Crashable (VibeCol.writeBlockFooters es : WM B _) := by
  induction es with
  | nil => exact pure _
  | cons e es ih =>
    unfold VibeCol.writeBlockFooters VibeCol.writeBlockFooter
    exact bind (bind seekCur fun _ => bind (fwriteAll _) fun _ => bind seekCur fun _ => ite (throw _) (pure _))
      fun _ => ih

theorem finalize : Crashable (VibeCol.finalize : WM B _) := by
  unfold VibeCol.finalize VibeCol.writeGlobalIDBitmap
  refine bind (bind seekCur fun _ => bind get fun _ => bind (fwrite _) fun _ => bind (fwrite _) fun _ =>
    bind seekCur fun _ => pure _) fun _ => ?_
  refine bind seekStart fun _ => bind now fun _ => bind get fun w => bind (fwriteAll _) fun _ =>
    bind seekEnd fun _ => bind seekCur fun _ => ?_
  have tail : ∀ fs : Nat, Crashable (do
      let footerEnd ← VibeCol.seekCur (B := B)
      let footerSize := footerEnd - fs
      let _ ← VibeCol.fwriteAll [le64 (UInt64.ofNat footerSize), le64 0, le64 magicNumber]
      let footerMetaEnd ← VibeCol.seekCur
      if footerMetaEnd - footerEnd ≠ 24 then WM.throw .footerSizeMismatch else
      if footerMetaEnd - fs ≠ footerSize + 24 then WM.throw .footerSizeMismatch else
      VibeCol.fsync) := fun fs =>
    bind seekCur fun _ => bind (fwriteAll _) fun _ => bind seekCur fun _ => ite (throw _) (ite (throw _) fsync)
  have mid : Crashable (do
      let footerStart ← VibeCol.seekCur (B := B)
      let _ ← VibeCol.fwrite (le32 (UInt32.ofNat w.blockCount))
      if w.blockCount > 0 then
        if w.blockPositions.length ≠ w.blockCount then WM.throw .positionTracking
        else VibeCol.writeBlockFooters w.entries
      let footerEnd ← VibeCol.seekCur
      let footerSize := footerEnd - footerStart
      let _ ← VibeCol.fwriteAll [le64 (UInt64.ofNat footerSize), le64 0, le64 magicNumber]
      let footerMetaEnd ← VibeCol.seekCur
      if footerMetaEnd - footerEnd ≠ 24 then WM.throw .footerSizeMismatch else
      if footerMetaEnd - footerStart ≠ footerSize + 24 then WM.throw .footerSizeMismatch else
      VibeCol.fsync) := by
    refine bind seekCur fun fs => bind (fwrite _) fun _ => ?_
    refine ite (ite (bind (throw _) fun _ => tail _) (bind (writeBlockFooters _) fun _ => tail _)) (tail _)
  exact ite (bind (fwrite _) fun _ => mid) mid

/-- One call; its error, if any, is recorded and the caller goes on. -/
theorem call (c : Call) : Crashable (fun env w => (.ok (c.run env w).1, (c.run env w).2) : WM B Result) := by
  cases c with
  | write ids vals =>
    exact seq (g := fun r => (Pure.pure r : WM B Result)) (writeBlock ids vals) fun r => pure r
  | finalize =>
    exact seq (g := fun r => (Pure.pure r : WM B Result)) finalize fun r => pure r
  | estimate ids vals =>
    have h := seq (g := fun r => (Pure.pure (match r with | .ok _ => .ok () | .error e => .error e) : WM B Result))
      (estimateBlockSize (B := B) ids vals) fun r => pure _
    refine cast ?_ h
    congr 1
    funext env w
    show _ = (Except.ok (Call.run env (.estimate ids vals) w).1, (Call.run env (.estimate ids vals) w).2)
    simp only [Call.run]
    rcases VibeCol.estimateBlockSize ids vals env w with ⟨r, w'⟩
    cases r <;> rfl

/-- A sequence of calls. -/
theorem calls (cs : List Call) :
    Crashable (fun env w => (.ok (runCalls env cs w).1, (runCalls env cs w).2) : WM B Log) := by
  induction cs with
  | nil => exact pure []
  | cons c cs ih =>
    have h := bind (call (B := B) c) fun r => bind ih fun log => pure ((c, r) :: log)
    refine cast ?_ h
    congr 1

end Crashable

/-! The same facts for whole call sequences and for `NewWriter`, in the shape the proofs use. -/

theorem runCalls_dead [Bitmap B] (env : Env) (cs : List Call) (w : Writer B) (h : Dead env w) :
    (runCalls env cs w).2.file.bytes = w.file.bytes :=
  (Crashable.calls cs).dead env w h

theorem runCalls_crash [Bitmap B] {env : Env} (hq : env.NoFault) (cs : List Call) (w : Writer B) (n k : Nat)
    (h1 : w.opNo ≤ n) (h2 : n < (runCalls env cs w).2.opNo) :
    (runCalls (env.crashAt n k) cs w).2.file.bytes.length ≤ (runCalls env cs w).2.file.bytes.length ∧
    n < (runCalls (env.crashAt n k) cs w).2.opNo :=
  (Crashable.calls cs).crash env w n k h1 h2 hq

theorem runCalls_agree [Bitmap B] (env : Env) (cs : List Call) (w : Writer B) (n k : Nat)
    (h : (runCalls env cs w).2.opNo ≤ n) :
    (runCalls (env.crashAt n k) cs w).2 = (runCalls env cs w).2 :=
  congrArg (fun p : Except Err Log × Writer B => p.2) ((Crashable.calls cs).agree_crashAt env w n k h)

theorem newWriter_agree [Bitmap B] (env : Env) (opts : List WriterOption) (n k : Nat)
    (h : (newWriter (B := B) opts env).2.opNo ≤ n) :
    newWriter (B := B) opts (env.crashAt n k) = newWriter opts env :=
  (Crashable.writeHeader (B := B)).agree_crashAt env (startWriter opts) n k h

theorem newWriter_crash [Bitmap B] {env : Env} (hq : env.NoFault) (opts : List WriterOption) (n k : Nat)
    (h2 : n < (newWriter (B := B) opts env).2.opNo) :
    n < (newWriter (B := B) opts (env.crashAt n k)).2.opNo :=
  ((Crashable.writeHeader (B := B)).crash env (startWriter opts) n k
    (by rw [startWriter_eq]; exact Nat.zero_le _) h2 hq).2

theorem runCalls_finalize [Bitmap B] (env : Env) (cs : List Call) (w : Writer B) :
    (runCalls env (cs ++ [.finalize]) w).2 = (finalize env (runCalls env cs w).2).2 := by
  rw [runCalls_append]; rfl

end VibeCol
