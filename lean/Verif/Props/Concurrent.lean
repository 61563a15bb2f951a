/-
C40: concurrent calls to `GetGlobalIDBitmap`.
-/
import Verif.Model.Concurrent
import Verif.Props.Bitmap
set_option linter.unusedSimpArgs false
namespace VibeCol
variable {B : Type}

/-- What a `GetGlobalIDBitmap` that reads the file returns. -/
def freshBitmap (file : Res B) : Res (Option B) :=
  match file with
  | .ok b => .ok (some b)
  | .err e => .err e
  | .panic => .panic

/-- Invariant of one goroutine. `quiet`: nobody disables the cache. -/
def ThreadOk (file : Res B) (quiet : Prop) (g : Option B) (t : CacheThread B) : Prop :=
  (∀ out ∈ t.outs, out = freshBitmap file ∨ (¬ quiet ∧ out = .ok none)) ∧
  (quiet → .disable ∉ t.todo) ∧
  match t.pc with
  | .ready => True
  | .checkCache => quiet → g ≠ none
  | .reread => quiet → g ≠ none
  | .load => True
  | .loaded b => file = .ok b
  | .store b => file = .ok b
  | .clear => ¬ quiet

/-- Invariant of the whole state. -/
structure CacheInv (file : Res B) (quiet : Prop) (s : CacheState B) : Prop where
  cached : ∀ b, s.globalIDs = some b → file = .ok b
  threads : ∀ i, ThreadOk file quiet s.globalIDs (s.thread i)

theorem ThreadOk.mono {file : Res B} {quiet : Prop} {g g' : Option B} {t : CacheThread B} (h : ThreadOk file quiet g t)
    (hg : quiet → g ≠ none → g' ≠ none) : ThreadOk file quiet g' t := by
  obtain ⟨h1, h2, h3⟩ := h
  refine ⟨h1, h2, ?_⟩
  cases hpc : t.pc <;> rw [hpc] at h3 <;> simp only at h3 ⊢
  · exact fun q => hg q (h3 q)
  · exact fun q => hg q (h3 q)
  · exact h3
  · exact h3
  · exact h3

theorem CacheInv.set {file : Res B} {quiet : Prop} {s : CacheState B} (h : CacheInv file quiet s) (i : Nat)
    (t : CacheThread B) (g : Option B) (c : Bool) (hg : quiet → s.globalIDs ≠ none → g ≠ none)
    (hgf : ∀ b, g = some b → file = .ok b) (ht : ThreadOk file quiet g t) :
    CacheInv file quiet ⟨g, c, fun j => if j = i then t else s.thread j⟩ := by
  refine ⟨hgf, fun j => ?_⟩
  by_cases hj : j = i
  · simpa only [if_pos hj] using ht
  · simp only [if_neg hj]
    exact (h.threads j).mono hg

theorem cacheStep_inv {file : Res B} {quiet : Prop} {s s' : CacheState B} (i : Nat) (h : CacheInv file quiet s)
    (hs : cacheStep file i s = some s') : CacheInv file quiet s' := by
  have ht := h.threads i
  obtain ⟨h1, h2, h3⟩ := ht
  have same : quiet → s.globalIDs ≠ none → s.globalIDs ≠ none := fun _ hx => hx
  have fresh : ∀ out, (out = freshBitmap file ∨ (¬ quiet ∧ out = .ok none)) →
      ∀ o ∈ (s.thread i).outs ++ [out], o = freshBitmap file ∨ (¬ quiet ∧ o = .ok none) := by
    intro out ho o hm
    rcases List.mem_append.1 hm with hm | hm
    · exact h1 o hm
    · rw [List.mem_singleton.1 hm]; exact ho
  unfold cacheStep at hs
  simp only at hs
  cases hpc : (s.thread i).pc with
  | ready =>
    rw [hpc] at hs
    simp only at hs
    cases htd : (s.thread i).todo with
    | nil => rw [htd] at hs; cases hs
    | cons c rest =>
      rw [htd] at hs
      have h2' : quiet → .disable ∉ rest := fun q hm => h2 q (by rw [htd]; exact List.mem_cons_of_mem _ hm)
      cases c with
      | get =>
        simp only at hs
        cases hg : s.globalIDs with
        | none =>
          rw [hg] at hs; cases hs
          exact h.set i _ _ _ same h.cached ⟨h1, h2', trivial⟩
        | some b =>
          rw [hg] at hs; cases hs
          exact h.set i _ _ _ same h.cached ⟨h1, h2', fun _ => by rw [hg]; simp⟩
      | enable => cases hs; exact h.set i _ _ _ same h.cached ⟨h1, h2', trivial⟩
      | disable =>
        cases hs
        have hq : ¬ quiet := fun q => h2 q (by rw [htd]; exact List.mem_cons_self)
        exact h.set i _ _ _ same h.cached ⟨h1, h2', hq⟩
  | checkCache =>
    rw [hpc] at hs h3
    simp only at hs h3
    split at hs
    · cases hs; exact h.set i _ _ _ same h.cached ⟨h1, h2, h3⟩
    · cases hs; exact h.set i _ _ _ same h.cached ⟨h1, h2, trivial⟩
  | reread =>
    rw [hpc] at hs h3
    simp only at hs h3
    cases hs
    refine h.set i _ _ _ same h.cached ⟨fresh _ ?_, h2, trivial⟩
    cases hg : s.globalIDs with
    | some b => exact .inl (by rw [h.cached b hg]; rfl)
    | none => exact .inr ⟨fun q => h3 q hg, rfl⟩
  | load =>
    rw [hpc] at hs
    simp only at hs
    cases hf : file with
    | ok b => rw [hf] at hs; cases hs; rw [← hf]; exact h.set i _ _ _ same h.cached ⟨h1, h2, hf⟩
    | err e =>
      rw [hf] at hs; cases hs
      rw [← hf]
      exact h.set i _ _ _ same h.cached ⟨fresh _ (.inl (by rw [hf]; rfl)), h2, trivial⟩
    | panic =>
      rw [hf] at hs; cases hs
      rw [← hf]
      exact h.set i _ _ _ same h.cached ⟨fresh _ (.inl (by rw [hf]; rfl)), h2, trivial⟩
  | loaded b =>
    rw [hpc] at hs h3
    simp only at hs h3
    split at hs
    · cases hs; exact h.set i _ _ _ same h.cached ⟨h1, h2, h3⟩
    · cases hs; exact h.set i _ _ _ same h.cached ⟨fresh _ (.inl (by rw [h3]; rfl)), h2, trivial⟩
  | store b =>
    rw [hpc] at hs h3
    simp only at hs h3
    cases hs
    exact h.set i _ (some b) _ (fun _ _ => by simp) (fun b' hb => by cases hb; exact h3)
      ⟨fresh _ (.inl (by rw [h3]; rfl)), h2, trivial⟩
  | clear =>
    rw [hpc] at hs h3
    simp only at hs h3
    cases hs
    exact h.set i _ none _ (fun q => absurd q h3) (fun b hb => by cases hb) ⟨h1, h2, trivial⟩

theorem cacheExec_inv {file : Res B} {quiet : Prop} (schedule : List Nat) {s s' : CacheState B}
    (h : CacheInv file quiet s) (hs : cacheExec file schedule s = some s') : CacheInv file quiet s' := by
  induction schedule generalizing s with
  | nil => cases hs; exact h
  | cons i is ih =>
    unfold cacheExec at hs
    cases h1 : cacheStep file i s with
    | none => rw [h1] at hs; cases hs
    | some s1 => rw [h1] at hs; exact ih (cacheStep_inv i h h1) hs

theorem CacheInv.start {file : Res B} {quiet : Prop} (r : Reader B) (hr : ∀ b, r.globalIDs = some b → file = .ok b)
    (calls : Nat → List CacheCall) (hq : quiet → ∀ i, .disable ∉ calls i) :
    CacheInv file quiet (CacheState.start r calls) :=
  ⟨hr, fun i => ⟨fun _ ho => (by cases ho), fun q => hq q i, trivial⟩⟩

variable [Bitmap B]

omit [Bitmap B] in
/-- A freshly opened reader has an empty cache. -/
theorem newReader_fresh {file : Bytes} {r : Reader B} (hr : newReader file = .ok r) :
    r.globalIDs = none ∧ r.cacheGlobalIDs = false := by
  unfold newReader at hr
  cases h1 : readHeader file with
  | err e => rw [h1] at hr; cases hr
  | panic => rw [h1] at hr; cases hr
  | ok hd =>
    rw [h1, Res.ok_bind] at hr
    cases h2 : readFooter file hd with
    | err e => rw [h2] at hr; cases hr
    | panic => rw [h2] at hr; cases hr
    | ok p =>
      rw [h2, Res.ok_bind] at hr
      cases hr
      exact ⟨rfl, rfl⟩

theorem loadBitmap_fresh {file : Bytes} {r : Reader B} (hr : newReader file = .ok r) :
    loadBitmap r = (getGlobalIDBitmap r).1 := by
  obtain ⟨h1, h2⟩ := newReader_fresh hr
  unfold loadBitmap
  congr 2
  cases r
  simp only at h1 h2
  subst h1; subst h2; rfl

/-- **C40.** Any number of goroutines make any calls to `GetGlobalIDBitmap` and
`EnableGlobalIDBitmapCaching` on one freshly opened reader. Under every interleaving, every
`GetGlobalIDBitmap` that has returned has returned what the first call on a fresh reader
returns; in particular never a nil bitmap without an error. -/
theorem C40_enabled (bytes : Bytes) (r : Reader B) (hr : newReader bytes = .ok r)
    (calls : Nat → List CacheCall) (hq : ∀ i, .disable ∉ calls i)
    (schedule : List Nat) (s : CacheState B) (h : cacheExec (loadBitmap r) schedule (CacheState.start r calls) = some s)
    (i : Nat) : ∀ out ∈ (s.thread i).outs, out = freshBitmap (getGlobalIDBitmap r).1 := by
  have h0 : CacheInv (loadBitmap r) True (CacheState.start r calls) :=
    .start r (fun b hb => by rw [(newReader_fresh hr).1] at hb; cases hb) calls fun _ => hq
  have := (cacheExec_inv schedule h0 h).threads i
  intro out ho
  rw [← loadBitmap_fresh hr]
  rcases this.1 out ho with h | ⟨h, _⟩
  · exact h
  · exact absurd trivial h

/-- **C40.** With `DisableGlobalIDBitmapCaching` calls as well, every `GetGlobalIDBitmap`
returns either the file's bitmap (or error) or nil without an error. -/
theorem C40_disabled (bytes : Bytes) (r : Reader B) (hr : newReader bytes = .ok r)
    (calls : Nat → List CacheCall)
    (schedule : List Nat) (s : CacheState B) (h : cacheExec (loadBitmap r) schedule (CacheState.start r calls) = some s)
    (i : Nat) : ∀ out ∈ (s.thread i).outs, out = freshBitmap (getGlobalIDBitmap r).1 ∨ out = .ok none := by
  have h0 : CacheInv (loadBitmap r) False (CacheState.start r calls) :=
    .start r (fun b hb => by rw [(newReader_fresh hr).1] at hb; cases hb) calls fun q => absurd q id
  have := (cacheExec_inv schedule h0 h).threads i
  intro out ho
  rw [← loadBitmap_fresh hr]
  rcases this.1 out ho with h | ⟨_, h⟩
  · exact .inl h
  · exact .inr h

/-- The calls of two goroutines: the first enables the cache, reads the bitmap, and disables
the cache; the second reads the bitmap. -/
def racyCalls : Nat → List CacheCall
  | 0 => [.enable, .get, .disable]
  | 1 => [.get]
  | _ => []

/-- The second goroutine finds a cached bitmap and caching enabled; then the first clears the
cache; then the second returns the cleared field. -/
def racySchedule : List Nat := [0, 0, 0, 0, 0, 1, 1, 0, 0, 1]

/-- **C40, the nil bitmap.** On every reader whose bitmap can be read, the second goroutine of
`racyCalls` obtains nil without an error under `racySchedule`. So C40 fails once
`DisableGlobalIDBitmapCaching` runs concurrently. -/
theorem C40_refuted (bytes : Bytes) (r : Reader B) (hr : newReader bytes = .ok r) (b : B)
    (hb : (getGlobalIDBitmap r).1 = .ok b) :
    ∃ s, cacheExec (loadBitmap r) racySchedule (CacheState.start r racyCalls) = some s ∧
      (s.thread 0).outs = [.ok (some b)] ∧ (s.thread 1).outs = [.ok none] ∧ (s.thread 1).todo = [] := by
  rw [loadBitmap_fresh hr, hb]
  obtain ⟨h1, h2⟩ := newReader_fresh hr
  unfold CacheState.start
  rw [h1, h2]
  exact ⟨_, rfl, rfl, rfl, rfl⟩

/-- Non-vacuity of `C40_enabled` and `C40_refuted`: the example file's reader. -/
example : ∃ bytes, ∃ r : Reader IdSet, ∃ b, newReader bytes = .ok r ∧ (getGlobalIDBitmap r).1 = .ok b := by
  obtain ⟨file, h⟩ := example_finalized
  obtain ⟨r, h1, _⟩ := C29_accessors h (by decide)
  obtain ⟨bm, h2, _⟩ := C18_bitmap h (by unfold NoMismatch; decide) (by decide) (by decide) r h1
  exact ⟨file, r, bm, h1, h2⟩

/-- A run in which two goroutines miss the cache, both store, and a third read hits it. -/
example (b : IdSet) : ((cacheExec (.ok b) [0, 0, 1, 0, 1, 0, 1, 0, 1, 1, 1, 1]
    ⟨none, false, fun i => ⟨.ready, if i = 0 then [.enable, .get] else if i = 1 then [.get, .get] else [], []⟩⟩).map
      fun s => ((s.thread 0).outs, (s.thread 1).outs)) =
    some ([.ok (some b)], [.ok (some b), .ok (some b)]) := rfl

/-! ### One goroutine alone does what the sequential model does -/

/-- The state in which goroutine `i` alone holds a reader. -/
def CacheState.of (r : Reader B) (i : Nat) (t : CacheThread B) : CacheState B :=
  ⟨r.globalIDs, r.cacheGlobalIDs, fun j => if j = i then t else ⟨.ready, [], []⟩⟩

omit [Bitmap B] in
theorem CacheState.of_set (r : Reader B) (i : Nat) (t t' : CacheThread B) (g : Option B) (c : Bool) :
    ({ (CacheState.of r i t).setThread i t' with globalIDs := g, cacheGlobalIDs := c } : CacheState B) =
      CacheState.of { r with globalIDs := g, cacheGlobalIDs := c } i t' := by
  unfold CacheState.of CacheState.setThread
  simp only [CacheState.mk.injEq, true_and]
  funext j
  split <;> simp_all

/-- The sequential model in terms of reading from the file. -/
theorem getGlobalIDBitmap_eq (r : Reader B) : getGlobalIDBitmap r =
    match r.globalIDs, r.cacheGlobalIDs with
    | some b, true => (.ok b, r)
    | _, c => (loadBitmap r, match loadBitmap r with
      | .ok b => if c then { r with globalIDs := some b } else r
      | _ => r) := by
  unfold loadBitmap getGlobalIDBitmap
  cases r with
  | mk bytes hd idx meta' g c =>
    simp only
    cases g <;> cases c <;> simp only <;>
    · split
      · rfl
      · split
        · rfl
        · rfl
        · split <;> rfl

/-- **C40, faithfulness.** `GetGlobalIDBitmap` run without interruption, from any cache state,
takes the steps of this machine and returns what the sequential model returns. -/
theorem C40_solo (r : Reader B) (i : Nat) (rest : List CacheCall) (outs : List (Res (Option B))) :
    ∃ n, cacheExec (loadBitmap r) (List.replicate n i) (.of r i ⟨.ready, .get :: rest, outs⟩) =
      some (.of (getGlobalIDBitmap r).2 i ⟨.ready, rest, outs ++ [freshBitmap (getGlobalIDBitmap r).1]⟩) := by
  have same : ∀ (t t' : CacheThread B), (CacheState.of r i t).setThread i t' = CacheState.of r i t' :=
    fun t t' => CacheState.of_set r i t t' _ _
  have th : ∀ t : CacheThread B, (CacheState.of r i t).thread i = t := fun t => if_pos rfl
  have hgl : ∀ t : CacheThread B, (CacheState.of r i t).globalIDs = r.globalIDs := fun _ => rfl
  have hca : ∀ t : CacheThread B, (CacheState.of r i t).cacheGlobalIDs = r.cacheGlobalIDs := fun _ => rfl
  rw [getGlobalIDBitmap_eq]
  cases hg : r.globalIDs with
  | none =>
    cases hl : loadBitmap r with
    | err e => exact ⟨2, by simp only [List.replicate, cacheExec, cacheStep, th, hgl, hca, hg, hl, same, Option.bind_some, CacheThread.ret, freshBitmap]⟩
    | panic => exact ⟨2, by simp only [List.replicate, cacheExec, cacheStep, th, hgl, hca, hg, hl, same, Option.bind_some, CacheThread.ret, freshBitmap]⟩
    | ok b =>
      cases hc : r.cacheGlobalIDs with
      | false => exact ⟨3, by simp only [List.replicate, cacheExec, cacheStep, th, hgl, hca, hg, hc, hl, same, Option.bind_some, CacheThread.ret, freshBitmap, Bool.false_eq_true, if_false]⟩
      | true => exact ⟨4, by simp only [List.replicate, cacheExec, cacheStep, th, hgl, hca, hg, hc, hl, same, Option.bind_some, CacheThread.ret, freshBitmap, if_true]; rfl⟩
  | some b0 =>
    cases hc : r.cacheGlobalIDs with
    | true => exact ⟨3, by simp only [List.replicate, cacheExec, cacheStep, th, hgl, hca, hg, hc, same, Option.bind_some, CacheThread.ret, freshBitmap, if_true]⟩
    | false =>
      cases hl : loadBitmap r with
      | err e => exact ⟨3, by simp only [List.replicate, cacheExec, cacheStep, th, hgl, hca, hg, hc, hl, same, Option.bind_some, CacheThread.ret, freshBitmap, Bool.false_eq_true, if_false]⟩
      | panic => exact ⟨3, by simp only [List.replicate, cacheExec, cacheStep, th, hgl, hca, hg, hc, hl, same, Option.bind_some, CacheThread.ret, freshBitmap, Bool.false_eq_true, if_false]⟩
      | ok b => exact ⟨4, by simp only [List.replicate, cacheExec, cacheStep, th, hgl, hca, hg, hc, hl, same, Option.bind_some, CacheThread.ret, freshBitmap, Bool.false_eq_true, if_false]⟩

end VibeCol
