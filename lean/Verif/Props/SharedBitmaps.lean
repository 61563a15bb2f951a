import Verif.Spec.SharedBitmaps
import Verif.Props.Concurrent
import Verif.Props.Multi
/-! # C60: shared bitmaps -/
namespace VibeCol.Pointers
set_option linter.unusedSectionVars false
variable {B : Type} [Bitmap B]

/-- The caches hold what the files contain. -/
def Good (s : State B) : Prop :=
  ∀ (k : Nat) (c : Cell B) (a : Nat), s.cells[k]? = some c → c.cached = some a → ∃ b, s.heap[a]? = some b ∧ loadBitmap c.reader = .ok b

/-- What the library may do to the bitmaps below `n` and to the caches. -/
structure Lib (n : Nat) (s s' : State B) : Prop where
  heap : ∀ a, a < n → s'.heap[a]? = s.heap[a]?
  size : s.heap.length ≤ s'.heap.length
  cells : ∀ k : Nat, s'.cells[k]?.map Cell.reader = s.cells[k]?.map Cell.reader ∧ s'.cells[k]?.map Cell.caching = s.cells[k]?.map Cell.caching
  cached : ∀ (k : Nat) (c' : Cell B) (a : Nat), s'.cells[k]? = some c' → c'.cached = some a →
    (∃ c, s.cells[k]? = some c ∧ c.cached = some a) ∨ s.heap.length ≤ a ∧ c'.caching = true

theorem Lib.refl (n : Nat) (s : State B) : Lib n s s :=
  ⟨fun _ _ => rfl, Nat.le_refl _, fun _ => ⟨rfl, rfl⟩, fun _ c' _ h1 h2 => .inl ⟨c', h1, h2⟩⟩

theorem Lib.trans {n : Nat} {s s' s'' : State B} (h : Lib n s s') (h' : Lib n s' s'') : Lib n s s'' := by
  refine ⟨fun a ha => (h'.heap a ha).trans (h.heap a ha), Nat.le_trans h.size h'.size,
    fun k => ⟨(h'.cells k).1.trans (h.cells k).1, (h'.cells k).2.trans (h.cells k).2⟩, fun k c'' a h1 h2 => ?_⟩
  rcases h'.cached k c'' a h1 h2 with ⟨c', h3, h4⟩ | ⟨h3, h4⟩
  · rcases h.cached k c' a h3 h4 with h5 | ⟨h5, h6⟩
    · exact .inl h5
    · refine .inr ⟨h5, ?_⟩
      have := (h'.cells k).2
      rw [h1, h3] at this
      simp only [Option.map_some, Option.some.injEq] at this
      rw [this, h6]
  · exact .inr ⟨Nat.le_trans h.size h3, h4⟩

theorem new_lib (s : State B) (b : B) : Lib s.heap.length s (s.new b).2 :=
  ⟨fun a ha => List.getElem?_append_left ha, by simp [State.new], fun _ => ⟨rfl, rfl⟩, fun _ c' _ h1 h2 => .inl ⟨c', h1, h2⟩⟩

theorem Lib.le {n m : Nat} {s s' : State B} (h : Lib n s s') (hm : m ≤ n) : Lib m s s' :=
  ⟨fun a ha => h.heap a (by omega), h.size, h.cells, h.cached⟩

theorem new_good {s : State B} (h : Good s) (b : B) : Good (s.new b).2 := by
  intro k c a h1 h2
  obtain ⟨x, h3, h4⟩ := h k c a h1 h2
  exact ⟨x, by rw [(new_lib s b).heap a (by have := (List.getElem?_eq_some_iff.1 h3).1; omega), h3], h4⟩

/-- `fetch` in a good state. -/
theorem fetch_spec {s : State B} (h : Good s) (k : Nat) {c : Cell B} (hk : s.cells[k]? = some c) :
    Good (fetch k c s).2 ∧ Lib s.heap.length s (fetch k c s).2 ∧
    ((∃ e, loadBitmap c.reader = .err e ∧ (fetch k c s).1 = .err e) ∨ (loadBitmap c.reader = .panic ∧ (fetch k c s).1 = .panic) ∨
      ∃ b a, loadBitmap c.reader = .ok b ∧ (fetch k c s).1 = .ok a ∧ (fetch k c s).2.heap[a]? = some b ∧
        ((c.cached = some a ∧ c.caching = true) ∨ (a = s.heap.length ∧ (c.caching = false →
          ∀ (j : Nat) (c' : Cell B), (fetch k c s).2.cells[j]? = some c' → c'.cached ≠ some a)))) := by
  unfold fetch
  cases hl : loadBitmap c.reader with
  | err e => exact ⟨h, .refl _ _, .inl ⟨e, rfl, rfl⟩⟩
  | panic => exact ⟨h, .refl _ _, .inr (.inl ⟨rfl, rfl⟩)⟩
  | ok b =>
    have hg := new_good h b
    have hlib := new_lib s b
    have hat : (s.new b).2.heap[s.heap.length]? = some b := by simp [State.new]
    dsimp only
    cases hc : c.caching with
    | false =>
      simp only [Bool.false_eq_true, if_false]
      refine ⟨hg, hlib, .inr (.inr ⟨b, s.heap.length, rfl, rfl, hat, .inr ⟨rfl, fun _ j c' hj hc' => ?_⟩⟩)⟩
      obtain ⟨x, hx, _⟩ := h j c' _ hj hc'
      have := (List.getElem?_eq_some_iff.1 hx).1
      omega
    | true =>
      simp only [if_true]
      have hcell : ∀ j : Nat, ((s.new b).2.cells.modify k fun c => { c with cached := some (s.new b).1 })[j]? =
          if k = j then s.cells[j]?.map fun c => { c with cached := some (s.new b).1 } else s.cells[j]? := by
        intro j
        rw [List.getElem?_modify]
        show _ <$> s.cells[j]? = _
        by_cases hkj : k = j
        · simp [hkj]
        · simp [hkj]
      refine ⟨?_, ⟨hlib.heap, hlib.size, fun j => ?_, fun j c' a h1 h2 => ?_⟩,
        .inr (.inr ⟨b, s.heap.length, rfl, rfl, hat, .inr ⟨rfl, fun hc => by cases hc⟩⟩)⟩
      · intro j c' a h1 h2
        dsimp only at h1 ⊢
        rw [hcell] at h1
        split at h1
        · rename_i hkj
          subst hkj
          rw [hk] at h1
          cases h1
          cases h2
          exact ⟨b, hat, hl⟩
        · exact hg j c' a h1 h2
      · dsimp only
        rw [hcell]
        split
        · cases s.cells[j]? <;> exact ⟨rfl, rfl⟩
        · exact ⟨rfl, rfl⟩
      · dsimp only at h1
        rw [hcell] at h1
        split at h1
        · rename_i hkj
          subst hkj
          rw [hk] at h1
          cases h1
          cases h2
          exact .inr ⟨Nat.le_refl _, hc⟩
        · exact .inl ⟨c', h1, h2⟩

/-- `get` in a good state. -/
theorem get_spec {s : State B} (h : Good s) (k : Nat) {c : Cell B} (hk : s.cells[k]? = some c) :
    Good (get k s).2 ∧ Lib s.heap.length s (get k s).2 ∧
    ((∃ e, loadBitmap c.reader = .err e ∧ (get k s).1 = .err e) ∨ (loadBitmap c.reader = .panic ∧ (get k s).1 = .panic) ∨
      ∃ b a, loadBitmap c.reader = .ok b ∧ (get k s).1 = .ok a ∧ (get k s).2.heap[a]? = some b ∧
        ((c.cached = some a ∧ c.caching = true) ∨ (a = s.heap.length ∧ (c.caching = false →
          ∀ (j : Nat) (c' : Cell B), (get k s).2.cells[j]? = some c' → c'.cached ≠ some a)))) := by
  have hload := fetch_spec h k hk
  unfold get
  rw [hk]
  dsimp only
  cases hcd : c.cached with
  | none =>
    rw [hcd] at hload
    exact hload
  | some a =>
    cases hc : c.caching with
    | false =>
      rw [hcd, hc] at hload
      exact hload
    | true =>
      obtain ⟨b, h1, h2⟩ := h k c a hk hcd
      exact ⟨h, .refl _ _, .inr (.inr ⟨b, a, h2, rfl, h1, .inl ⟨rfl, rfl⟩⟩)⟩

theorem or_spec (inPlace : Bool) {s : State B} (h : Good s) {d g n : Nat} {x y : B} (hd : s.heap[d]? = some x) (hg : s.heap[g]? = some y)
    (hn : n ≤ d) (hnl : n ≤ s.heap.length) (hun : ∀ (k : Nat) (c : Cell B), s.cells[k]? = some c → c.cached ≠ some d) :
    Good (or inPlace d g s).2 ∧ Lib n s (or inPlace d g s).2 ∧ n ≤ (or inPlace d g s).1 ∧
      (or inPlace d g s).2.heap[(or inPlace d g s).1]? = some (Bitmap.or x y) ∧
      ∀ (k : Nat) (c : Cell B), (or inPlace d g s).2.cells[k]? = some c → c.cached ≠ some (or inPlace d g s).1 := by
  unfold or
  rw [hd, hg]
  dsimp only
  have hdl := (List.getElem?_eq_some_iff.1 hd).1
  cases inPlace with
  | true =>
    simp only [if_true]
    refine ⟨fun k c a h1 h2 => ?_, ⟨fun a ha => List.getElem?_set_ne (by omega), by simp, fun _ => ⟨rfl, rfl⟩, fun _ c' _ h1 h2 => .inl ⟨c', h1, h2⟩⟩,
      hn, by simp [hdl], hun⟩
    obtain ⟨b, h3, h4⟩ := h k c a h1 h2
    refine ⟨b, ?_, h4⟩
    dsimp only
    rw [List.getElem?_set_ne (fun hc => hun k c h1 (by rw [h2, hc])), h3]
  | false =>
    simp only [Bool.false_eq_true, if_false]
    refine ⟨new_good h _, (new_lib s _).le hnl, hnl, by simp [State.new], fun k c h1 h2 => ?_⟩
    obtain ⟨b, h3, _⟩ := h k c _ h1 h2
    have := (List.getElem?_eq_some_iff.1 h3).1
    simp [State.new] at this

/-- The readers as they were opened. -/
def Opened (s : State B) : Prop := ∀ (k : Nat) (c : Cell B), s.cells[k]? = some c → loadBitmap c.reader = (getGlobalIDBitmap c.reader).1

theorem Lib.opened {n : Nat} {s s' : State B} (h : Lib n s s') (ho : Opened s) : Opened s' := by
  intro k c' hk
  have := (h.cells k).1
  rw [hk] at this
  cases hc : s.cells[k]? with
  | none => rw [hc] at this; cases this
  | some c =>
    rw [hc] at this
    simp only [Option.map_some, Option.some.injEq] at this
    rw [this]
    exact ho k c hc

theorem loop_spec (inPlace : Bool) (sched : Sched) (skip : Bool) (filter : Option Nat) (n : Nat) (hf : ∀ a, filter = some a → a < n)
    (ks : List Nat) : ∀ (s : State B) (d : Nat) (x : B) (res : AggregateResult), Good s → Opened s → n ≤ d → n ≤ s.heap.length →
    s.heap[d]? = some x → (∀ (k : Nat) (c : Cell B), s.cells[k]? = some c → c.cached ≠ some d) → (∀ k ∈ ks, k < s.cells.length) →
    Good (multiLoop inPlace sched skip filter ks d res s).2 ∧ Lib n s (multiLoop inPlace sched skip filter ks d res s).2 ∧
    (multiLoop inPlace sched skip filter ks d res s).1 =
      VibeCol.multiLoop sched skip (filter.bind (s.heap[·]?)) (ks.filterMap fun k => s.cells[k]?.map Cell.reader) x res := by
  induction ks with
  | nil => exact fun s d x res h _ _ _ _ _ _ => ⟨h, .refl _ _, rfl⟩
  | cons k ks ih =>
    intro s d x res h ho hnd hnl hd hun hks
    obtain ⟨c, hk⟩ : ∃ c, s.cells[k]? = some c := ⟨_, List.getElem?_eq_getElem (hks k (by simp))⟩
    obtain ⟨g1, g2, g3⟩ := get_spec h k hk
    have hlo := ho k c hk
    unfold multiLoop
    rw [hk]
    simp only [List.filterMap_cons, hk, Option.map_some, VibeCol.multiLoop]
    rw [hd]
    cases hagg : aggregateWithOptions sched c.reader { skipPreCalculated := skip, filter := filter.bind (s.heap[·]?), denyFilter := some x } with
    | err e => exact ⟨h, .refl _ _, rfl⟩
    | panic => exact ⟨h, .refl _ _, rfl⟩
    | ok rr =>
      dsimp only
      rw [Res.ok_bind, ← hlo]
      have hdl := (List.getElem?_eq_some_iff.1 hd).1
      generalize get k s = G at *
      obtain ⟨gr, s1⟩ := G
      dsimp only at g1 g2 g3
      rcases g3 with ⟨e, e1, e2⟩ | ⟨e1, e2⟩ | ⟨b, a, e1, e2, e3, e4⟩
      · subst e2
        rw [e1]
        exact ⟨g1, g2.le hnl, rfl⟩
      · subst e2
        rw [e1]
        exact ⟨g1, g2.le hnl, rfl⟩
      · subst e2
        rw [e1, Res.ok_bind]
        dsimp only
        have hd1 : s1.heap[d]? = some x := by rw [g2.heap d hdl, hd]
        have hun1 : ∀ (k : Nat) (c : Cell B), s1.cells[k]? = some c → c.cached ≠ some d := by
          intro j c' hj hc'
          rcases g2.cached j c' d hj hc' with ⟨c0, h0, h1⟩ | ⟨h0, _⟩
          · exact hun j c0 h0 h1
          · omega
        have hn1 : n ≤ s1.heap.length := Nat.le_trans hnl g2.size
        obtain ⟨o1, o2, o3, o4, o5⟩ := or_spec inPlace g1 hd1 e3 hnd hn1 hun1
        have hl12 : Lib n s (or inPlace d a s1).2 := (g2.le hnl).trans o2
        have hcl : ∀ j : Nat, (or inPlace d a s1).2.cells[j]?.map Cell.reader = s.cells[j]?.map Cell.reader := fun j => (hl12.cells j).1
        have hlen : ∀ j : Nat, j < s.cells.length → j < (or inPlace d a s1).2.cells.length := by
          intro j hj
          have := hcl j
          rw [List.getElem?_eq_getElem hj] at this
          rcases Nat.lt_or_ge j (or inPlace d a s1).2.cells.length with hlt | hge
          · exact hlt
          · rw [List.getElem?_eq_none hge] at this
            cases this
        have hflt : filter.bind ((or inPlace d a s1).2.heap[·]?) = filter.bind (s.heap[·]?) := by
          cases filter with
          | none => rfl
          | some f =>
            show (or inPlace d a s1).2.heap[f]? = s.heap[f]?
            exact hl12.heap f (hf f rfl)
        obtain ⟨r1, r2, r3⟩ := ih (or inPlace d a s1).2 (or inPlace d a s1).1 (Bitmap.or x b)
          (if res.count = 0 then rr else mergeAggregateResults res rr) o1 (hl12.opened ho) o3 (Nat.le_trans hnl hl12.size) o4 o5
          (fun j hj => hlen j (hks j (by simp [hj])))
        refine ⟨r1, hl12.trans r2, r3.trans ?_⟩
        rw [hflt]
        simp only [hcl]

theorem multi_spec (inPlace : Bool) (sched : Sched) (skip : Bool) (filter : Option Nat) (ks : List Nat) {s : State B} (h : Good s) (ho : Opened s)
    (hf : ∀ a, filter = some a → a < s.heap.length) (hks : ∀ k ∈ ks, k < s.cells.length) :
    Good (multiAggregate inPlace sched ks skip filter s).2 ∧ Lib s.heap.length s (multiAggregate inPlace sched ks skip filter s).2 ∧
    (multiAggregate inPlace sched ks skip filter s).1 =
      VibeCol.multiAggregate sched (ks.filterMap fun k => s.cells[k]?.map Cell.reader) skip (filter.bind (s.heap[·]?)) := by
  unfold multiAggregate VibeCol.multiAggregate
  have hlen : (ks.filterMap fun k => s.cells[k]?.map Cell.reader).length = ks.length := by
    induction ks with
    | nil => rfl
    | cons k ks ih =>
      rw [List.filterMap_cons, List.getElem?_eq_getElem (hks k (by simp))]
      dsimp only [Option.map_some]
      rw [List.length_cons, List.length_cons, ih (fun j hj => hks j (by simp [hj]))]
  rw [hlen]
  by_cases h0 : ks.length = 0
  · rw [if_pos h0, if_pos h0]
    exact ⟨h, .refl _ _, rfl⟩
  rw [if_neg h0, if_neg h0]
  dsimp only
  obtain ⟨r1, r2, r3⟩ := loop_spec inPlace sched skip filter s.heap.length hf ks.reverse (s.new Bitmap.empty).2 s.heap.length Bitmap.empty .zero
    (new_good h _) ((new_lib s _).opened ho) (Nat.le_refl _) (by simp [State.new]) (by simp [State.new])
    (fun k c h1 h2 => by
      obtain ⟨b, h3, _⟩ := h k c _ h1 h2
      have := (List.getElem?_eq_some_iff.1 h3).1
      omega)
    (fun k hk => hks k (List.mem_reverse.1 hk))
  refine ⟨r1, (new_lib s _).trans r2, r3.trans ?_⟩
  have hflt : filter.bind ((s.new Bitmap.empty).2.heap[·]?) = filter.bind (s.heap[·]?) := by
    cases filter with
    | none => rfl
    | some f => exact (new_lib s _).heap f (hf f rfl)
  rw [hflt, ← List.filterMap_reverse]
  rfl

/-- The process and the specification agree. -/
structure Rel (p : Process B) (q : Separate B) (caching : Nat → Bool) (shared : List Bool) : Prop where
  good : Good p.state
  opened : Opened p.state
  readers : p.state.cells.map Cell.reader = q.readers
  caching : ∀ (k : Nat) (c : Cell B), p.state.cells[k]? = some c → c.caching = caching k
  vars : q.vars = p.vars.map fun o => o.bind (p.state.heap[·]?)
  inside : ∀ a, some a ∈ p.vars → a < p.state.heap.length
  length : shared.length = p.vars.length
  alone : ∀ (v a : Nat), p.vars[v]? = some (some a) → shared[v]? = some false →
    (∀ v', p.vars[v']? = some (some a) → v' = v) ∧ ∀ (k : Nat) (c : Cell B), p.state.cells[k]? = some c → c.cached ≠ some a

theorem Rel.val {p : Process B} {q : Separate B} {g : Nat → Bool} {sh : List Bool} (h : Rel p q g sh) (v : Option Nat) :
    q.val v = (p.ptr v).bind (p.state.heap[·]?) := by
  unfold Separate.val Process.ptr
  cases v with
  | none => rfl
  | some v =>
    simp only [Option.bind_some]
    rw [h.vars, List.getElem?_map]
    cases p.vars[v]? <;> rfl

theorem Rel.ptr_lt {p : Process B} {q : Separate B} {g : Nat → Bool} {sh : List Bool} (h : Rel p q g sh) (v : Option Nat) :
    ∀ a, p.ptr v = some a → a < p.state.heap.length := by
  intro a ha
  unfold Process.ptr at ha
  cases v with
  | none => cases ha
  | some v =>
    simp only [Option.bind_some] at ha
    cases hv : p.vars[v]? with
    | none => rw [hv] at ha; cases ha
    | some o =>
      rw [hv] at ha
      simp only [Option.join_some] at ha
      subst ha
      exact h.inside a (List.mem_of_getElem? hv)

theorem map_lib {n : Nat} {s s' : State B} (h : Lib n s s') : s'.cells.map Cell.reader = s.cells.map Cell.reader := by
  refine List.ext_getElem? fun k => ?_
  rw [List.getElem?_map, List.getElem?_map]
  exact (h.cells k).1

/-- After a call of the library that returns no bitmap. -/
theorem Rel.lib {p : Process B} {q : Separate B} {g : Nat → Bool} {sh : List Bool} (h : Rel p q g sh) {s' : State B} (hg : Good s')
    (hl : Lib p.state.heap.length p.state s') : Rel { p with state := s' } q g sh := by
  refine ⟨hg, hl.opened h.opened, (map_lib hl).trans h.readers, fun k c' hk => ?_, ?_, fun a ha => Nat.lt_of_lt_of_le (h.inside a ha) hl.size, h.length,
    fun v a hv hs => ⟨(h.alone v a hv hs).1, fun k c' hk hc => ?_⟩⟩
  · have := (hl.cells k).2
    dsimp only at hk
    rw [hk] at this
    cases hc : p.state.cells[k]? with
    | none => rw [hc] at this; cases this
    | some c =>
      rw [hc] at this
      simp only [Option.map_some, Option.some.injEq] at this
      rw [this]
      exact h.caching k c hc
  · rw [h.vars]
    refine List.map_congr_left fun o ho => ?_
    cases o with
    | none => rfl
    | some a => exact (hl.heap a (h.inside a ho)).symm
  · rcases hl.cached k c' a hk hc with ⟨c, h1, h2⟩ | ⟨h1, _⟩
    · exact (h.alone v a hv hs).2 k c h1 h2
    · have := h.inside a (List.mem_of_getElem? hv)
      omega

/-- After a call that returns a bitmap. -/
theorem Rel.push {p : Process B} {q : Separate B} {g : Nat → Bool} {sh : List Bool} (h : Rel p q g sh) (o : Option Nat) (b : Option B) (flag : Bool)
    (hb : o.bind (p.state.heap[·]?) = b) (hin : ∀ a, o = some a → a < p.state.heap.length)
    (hold : ∀ a, o = some a → ∀ (v : Nat), p.vars[v]? = some (some a) → sh[v]? = some false → False)
    (hnew : flag = false → ∀ a, o = some a → (∀ (v : Nat), p.vars[v]? ≠ some (some a)) ∧
      ∀ (k : Nat) (c : Cell B), p.state.cells[k]? = some c → c.cached ≠ some a) :
    Rel { p with vars := p.vars ++ [o] } { q with vars := q.vars ++ [b] } g (sh ++ [flag]) := by
  have hlen := h.length
  refine ⟨h.good, h.opened, h.readers, h.caching, ?_, fun a ha => ?_, by simp [h.length], fun v a hv hs => ?_⟩
  · dsimp only
    rw [List.map_append, ← h.vars, List.map_singleton, hb]
  · rcases List.mem_append.1 ha with ha | ha
    · exact h.inside a ha
    · rw [List.mem_singleton] at ha
      exact hin a ha.symm
  · dsimp only at hv ⊢
    have cases : ∀ (v' : Nat), (p.vars ++ [o])[v']? = some (some a) → p.vars[v']? = some (some a) ∧ v' < p.vars.length ∨ v' = p.vars.length ∧ o = some a := by
      intro v' hv'
      rcases Nat.lt_or_ge v' p.vars.length with hlt | hge
      · rw [List.getElem?_append_left hlt] at hv'
        exact .inl ⟨hv', hlt⟩
      · rw [List.getElem?_append_right hge] at hv'
        cases hk : v' - p.vars.length with
        | zero =>
          rw [hk] at hv'
          simp at hv'
          exact .inr ⟨by omega, hv'⟩
        | succ m =>
          rw [hk] at hv'
          simp at hv'
    rcases cases v hv with ⟨h1, hlt⟩ | ⟨rfl, h1⟩
    · rw [List.getElem?_append_left (by omega)] at hs
      refine ⟨fun v' hv' => ?_, (h.alone v a h1 hs).2⟩
      rcases cases v' hv' with ⟨h2, _⟩ | ⟨rfl, h2⟩
      · exact (h.alone v a h1 hs).1 v' h2
      · exact (hold a h2 v h1 hs).elim
    · rw [List.getElem?_append_right (by omega), hlen, Nat.sub_self] at hs
      simp at hs
      obtain ⟨n1, n2⟩ := hnew hs a h1
      refine ⟨fun v' hv' => ?_, n2⟩
      rcases cases v' hv' with ⟨h2, _⟩ | ⟨h2, _⟩
      · exact absurd h2 (n1 v')
      · exact h2

/-- The state of the tracking after a step. -/
def nextCaching : Act B → (Nat → Bool) → (Nat → Bool)
  | .enable k, g => fun j => if j = k then true else g j
  | .disable k, g => fun j => if j = k then false else g j
  | _, g => g
def nextShared : Act B → (Nat → Bool) → List Bool → List Bool
  | .newBitmap, _, sh => sh ++ [false]
  | .get k, g, sh => sh ++ [g k]
  | _, _, sh => sh

theorem step_rel (inPlace : Bool) (a : Act B) {p : Process B} {q : Separate B} {g : Nat → Bool} {sh : List Bool} (h : Rel p q g sh)
    (hp : ∀ v f, a = .change v f → sh[v]? ≠ some true) :
    (a.run inPlace p).1 = (a.spec q).1 ∧ Rel (a.run inPlace p).2 (a.spec q).2 (nextCaching a g) (nextShared a g sh) := by
  cases a with
  | newBitmap =>
    refine ⟨rfl, ?_⟩
    have h1 := h.lib (new_good h.good Bitmap.empty) (new_lib p.state Bitmap.empty)
    have := h1.push (some p.state.heap.length) (some Bitmap.empty) false (by simp [State.new]) (fun a ha => by cases ha; simp [State.new])
      (fun a ha v hv _ => by
        cases ha
        exact Nat.lt_irrefl _ (h.inside _ (List.mem_of_getElem? hv)))
      (fun _ a ha => by
        cases ha
        refine ⟨fun v hv => Nat.lt_irrefl _ (h.inside _ (List.mem_of_getElem? hv)), fun k c hk hc => ?_⟩
        obtain ⟨x, hx, _⟩ := h.good k c _ hk hc
        exact Nat.lt_irrefl _ (List.getElem?_eq_some_iff.1 hx).1)
    exact this
  | look v =>
    refine ⟨?_, h⟩
    show Seen.bitmap _ = Seen.bitmap _
    rw [h.val]
  | enable k =>
    refine ⟨rfl, ?_⟩
    have hcell : ∀ j : Nat, (enable k p.state).cells[j]? = if k = j then p.state.cells[j]?.map fun c => { c with caching := true } else p.state.cells[j]? := by
      intro j
      show (p.state.cells.modify k fun c => { c with caching := true })[j]? = _
      rw [List.getElem?_modify]
      by_cases hkj : k = j <;> simp [hkj]
    have hcd : ∀ (j : Nat) (c' : Cell B), (enable k p.state).cells[j]? = some c' →
        ∃ c, p.state.cells[j]? = some c ∧ c'.reader = c.reader ∧ c'.cached = c.cached ∧ c'.caching = if j = k then true else c.caching := by
      intro j c' hj
      rw [hcell] at hj
      split at hj
      · rename_i hkj
        cases hc : p.state.cells[j]? with
        | none => rw [hc] at hj; cases hj
        | some c =>
          rw [hc] at hj
          cases hj
          exact ⟨c, rfl, rfl, rfl, by rw [if_pos hkj.symm]⟩
      · rename_i hkj
        exact ⟨c', hj, rfl, rfl, by rw [if_neg (fun h => hkj h.symm)]⟩
    refine ⟨fun j c' a hj hc => ?_, fun j c' hj => ?_, ?_, fun j c' hj => ?_, h.vars, h.inside, h.length, fun v a hv hs => ⟨(h.alone v a hv hs).1, fun j c' hj hc => ?_⟩⟩
    · obtain ⟨c, h1, h2, h3, _⟩ := hcd j c' hj
      rw [h3] at hc
      rw [h2]
      exact h.good j c a h1 hc
    · obtain ⟨c, h1, h2, h3, _⟩ := hcd j c' hj
      rw [h2]
      exact h.opened j c h1
    · rw [show (Act.spec (.enable k) q).2 = q from rfl, ← h.readers]
      refine List.ext_getElem? fun j => ?_
      rw [List.getElem?_map, List.getElem?_map]
      show (enable k p.state).cells[j]?.map _ = _
      rw [hcell]
      split
      · cases p.state.cells[j]? <;> rfl
      · rfl
    · obtain ⟨c, h1, h2, h3, h4⟩ := hcd j c' hj
      rw [h4]
      show _ = if j = k then true else g j
      rw [h.caching j c h1]
    · obtain ⟨c, h1, h2, h3, _⟩ := hcd j c' hj
      rw [h3] at hc
      exact (h.alone v a hv hs).2 j c h1 hc
  | disable k =>
    refine ⟨rfl, ?_⟩
    have hcell : ∀ j : Nat, (disable k p.state).cells[j]? =
        if k = j then p.state.cells[j]?.map fun c => { c with caching := false, cached := none } else p.state.cells[j]? := by
      intro j
      show (p.state.cells.modify k fun c => { c with caching := false, cached := none })[j]? = _
      rw [List.getElem?_modify]
      by_cases hkj : k = j <;> simp [hkj]
    have hcd : ∀ (j : Nat) (c' : Cell B), (disable k p.state).cells[j]? = some c' →
        ∃ c, p.state.cells[j]? = some c ∧ c'.reader = c.reader ∧ (c'.cached = c.cached ∨ c'.cached = none) ∧
          c'.caching = if j = k then false else c.caching := by
      intro j c' hj
      rw [hcell] at hj
      split at hj
      · rename_i hkj
        cases hc : p.state.cells[j]? with
        | none => rw [hc] at hj; cases hj
        | some c =>
          rw [hc] at hj
          cases hj
          exact ⟨c, rfl, rfl, .inr rfl, by rw [if_pos hkj.symm]⟩
      · rename_i hkj
        exact ⟨c', hj, rfl, .inl rfl, by rw [if_neg (fun h => hkj h.symm)]⟩
    have hcs : ∀ {c c' : Cell B} {a : Nat}, (c'.cached = c.cached ∨ c'.cached = none) → c'.cached = some a → c.cached = some a := by
      intro c c' a h1 h2
      rcases h1 with h1 | h1
      · rw [← h1, h2]
      · rw [h1] at h2
        cases h2
    refine ⟨fun j c' a hj hc => ?_, fun j c' hj => ?_, ?_, fun j c' hj => ?_, h.vars, h.inside, h.length, fun v a hv hs => ⟨(h.alone v a hv hs).1, fun j c' hj hc => ?_⟩⟩
    · obtain ⟨c, h1, h2, h3, _⟩ := hcd j c' hj
      rw [h2]
      exact h.good j c a h1 (hcs h3 hc)
    · obtain ⟨c, h1, h2, h3, _⟩ := hcd j c' hj
      rw [h2]
      exact h.opened j c h1
    · rw [show (Act.spec (.disable k) q).2 = q from rfl, ← h.readers]
      refine List.ext_getElem? fun j => ?_
      rw [List.getElem?_map, List.getElem?_map]
      show (disable k p.state).cells[j]?.map _ = _
      rw [hcell]
      split
      · cases p.state.cells[j]? <;> rfl
      · rfl
    · obtain ⟨c, h1, h2, h3, h4⟩ := hcd j c' hj
      rw [h4]
      show _ = if j = k then false else g j
      rw [h.caching j c h1]
    · obtain ⟨c, h1, h2, h3, _⟩ := hcd j c' hj
      exact (h.alone v a hv hs).2 j c h1 (hcs h3 hc)
  | aggregate sched k skip filter deny parallel =>
    simp only [Act.run, Act.spec, nextCaching, nextShared]
    rw [h.val, h.val, ← h.readers, List.getElem?_map]
    cases p.state.cells[k]? with
    | none => exact ⟨rfl, h⟩
    | some c => exact ⟨rfl, h⟩
  | multi sched ks skip filter =>
    simp only [Act.run, Act.spec, nextCaching, nextShared]
    have hlen : q.readers.length = p.state.cells.length := by rw [← h.readers, List.length_map]
    rw [hlen]
    by_cases hall : (ks.all fun k => k < p.state.cells.length) = true
    · rw [if_pos hall, if_pos hall]
      obtain ⟨m1, m2, m3⟩ := multi_spec inPlace sched skip (p.ptr filter) ks h.good h.opened (h.ptr_lt filter)
        (fun k hk => by simpa using List.all_eq_true.1 hall k hk)
      refine ⟨?_, h.lib m1 m2⟩
      dsimp only
      rw [m3, h.val, ← h.readers]
      simp only [List.getElem?_map]
    · rw [if_neg hall, if_neg hall]
      exact ⟨rfl, h⟩
  | change v f =>
    have hsv := hp v f rfl
    simp only [Act.run, Act.spec, nextCaching, nextShared]
    have hvl : p.ptr (some v) = p.vars[v]?.join := rfl
    cases hv : p.vars[v]? with
    | none =>
      rw [hvl, hv]
      refine ⟨rfl, ?_⟩
      rw [List.modify_eq_self (by rw [h.vars, List.length_map]; exact List.getElem?_eq_none_iff.1 hv)]
      exact h
    | some o =>
      cases o with
      | none =>
        rw [hvl, hv]
        refine ⟨rfl, ?_⟩
        have : q.vars.modify v (fun b => b.map f) = q.vars := by
          refine List.ext_getElem? fun j => ?_
          rw [List.getElem?_modify]
          by_cases hj : v = j
          · subst hj
            rw [h.vars, List.getElem?_map, hv]
            simp
          · simp [hj]
        rw [this]
        exact h
      | some a =>
        rw [hvl, hv]
        dsimp only [Option.join_some]
        have hlt : v < sh.length := by
          rw [h.length]
          exact (List.getElem?_eq_some_iff.1 hv).1
        have hs : sh[v]? = some false := by
          rw [List.getElem?_eq_getElem hlt] at hsv ⊢
          cases hb : sh[v] with
          | true => rw [hb] at hsv; exact absurd rfl hsv
          | false => rfl
        obtain ⟨al1, al2⟩ := h.alone v a hv hs
        have hheap : ∀ b, b ≠ a → (p.state.heap.modify a f)[b]? = p.state.heap[b]? := by
          intro b hb
          rw [List.getElem?_modify]
          simp [show ¬ a = b from fun h => hb h.symm]
        refine ⟨rfl, fun k c b hk hc => ?_, h.opened, h.readers, h.caching, ?_, fun b hb => by simpa using h.inside b hb, h.length, h.alone⟩
        · obtain ⟨x, h1, h2⟩ := h.good k c b hk hc
          refine ⟨x, ?_, h2⟩
          dsimp only
          rw [hheap b (fun he => al2 k c hk (by rw [hc, he])), h1]
        · dsimp only
          refine List.ext_getElem? fun j => ?_
          rw [List.getElem?_modify, h.vars, List.getElem?_map, List.getElem?_map]
          by_cases hj : v = j
          · subst hj
            rw [hv]
            simp [List.getElem?_modify]
          · cases hpj : p.vars[j]? with
            | none => simp
            | some o =>
              cases o with
              | none => simp [hj]
              | some b =>
                have hb : b ≠ a := by
                  rintro rfl
                  exact hj (al1 j hpj).symm
                simp [hj, hheap b hb]
  | get k =>
    simp only [Act.run, Act.spec, nextCaching, nextShared]
    have hbi : bitmapIn q.readers k = match p.state.cells[k]? with | none => .panic | some c => loadBitmap c.reader := by
      unfold bitmapIn
      rw [← h.readers, List.getElem?_map]
      cases hk : p.state.cells[k]? with
      | none => rfl
      | some c => exact (h.opened k c hk).symm
    cases hk : p.state.cells[k]? with
    | none =>
      rw [hk] at hbi
      have hget : get k p.state = (.panic, p.state) := by
        unfold get
        rw [hk]
      rw [hget, hbi]
      exact ⟨rfl, h.push none none _ rfl (fun a ha => (by cases ha)) (fun a ha => (by cases ha)) (fun _ a ha => (by cases ha))⟩
    | some c =>
      rw [hk] at hbi
      dsimp only at hbi
      obtain ⟨g1, g2, g3⟩ := get_spec h.good k hk
      have hc := h.caching k c hk
      generalize get k p.state = G at *
      obtain ⟨gr, s1⟩ := G
      dsimp only at g1 g2 g3 ⊢
      have hr := h.lib g1 g2
      rcases g3 with ⟨e, e1, e2⟩ | ⟨e1, e2⟩ | ⟨b, a, e1, e2, e3, e4⟩
      · subst e2
        rw [hbi, e1]
        exact ⟨rfl, hr.push none none _ rfl (fun a ha => (by cases ha)) (fun a ha => (by cases ha)) (fun _ a ha => (by cases ha))⟩
      · subst e2
        rw [hbi, e1]
        exact ⟨rfl, hr.push none none _ rfl (fun a ha => (by cases ha)) (fun a ha => (by cases ha)) (fun _ a ha => (by cases ha))⟩
      · subst e2
        rw [hbi, e1]
        refine ⟨rfl, hr.push (some a) (some b) _ e3 (fun a' ha => ?_) (fun a' ha v hv hs => ?_) (fun hfl a' ha => ?_)⟩
        · cases ha
          exact (List.getElem?_eq_some_iff.1 e3).1
        · cases ha
          rcases e4 with ⟨e5, _⟩ | ⟨e5, _⟩
          · exact (h.alone v a hv hs).2 k c hk e5
          · have := h.inside a (List.mem_of_getElem? hv)
            omega
        · cases ha
          rw [← hc] at hfl
          rcases e4 with ⟨_, e5⟩ | ⟨e5, e6⟩
          · rw [hfl] at e5
            cases e5
          · refine ⟨fun v hv => ?_, e6 hfl⟩
            have := h.inside a (List.mem_of_getElem? hv)
            omega

theorem polite_step {a : Act B} {as : List (Act B)} {g : Nat → Bool} {sh : List Bool} (h : Polite (a :: as) g sh) :
    (∀ v f, a = .change v f → sh[v]? ≠ some true) ∧ Polite as (nextCaching a g) (nextShared a g sh) := by
  cases a with
  | change v f =>
    refine ⟨fun v' f' he => ?_, h.2⟩
    cases he
    exact h.1
  | _ => exact ⟨fun v f he => (by cases he), h⟩

theorem run_rel (inPlace : Bool) (as : List (Act B)) {p : Process B} {q : Separate B} {g : Nat → Bool} {sh : List Bool} (h : Rel p q g sh)
    (hp : Polite as g sh) : (run inPlace as p).1 = (specRun as q).1 := by
  induction as generalizing p q g sh with
  | nil => rfl
  | cons a as ih =>
    obtain ⟨h1, h2⟩ := polite_step hp
    obtain ⟨h3, h4⟩ := step_rel inPlace a h h1
    simp only [run, specRun]
    rw [h3, ih h4 h2]

/-- **C60.** A program that does not change the bitmaps it obtains from readers with caching enabled sees, in all its
calls, what it would see if nothing were shared and nothing cached: every variable holds a bitmap of its own. -/
theorem C60_separate (inPlace : Bool) (readers : List (Reader B)) (hr : ∀ r ∈ readers, ∃ file, newReader file = .ok r) (acts : List (Act B))
    (hp : Polite acts (fun _ => false) []) : (run inPlace acts (.start readers)).1 = (specRun acts ⟨[], readers⟩).1 := by
  have hcell : ∀ (k : Nat) (c : Cell B), (readers.map fun r => (⟨r, none, false⟩ : Cell B))[k]? = some c →
      c.cached = none ∧ c.caching = false ∧ c.reader ∈ readers := by
    intro k c hk
    rw [List.getElem?_map] at hk
    cases hx : readers[k]? with
    | none => rw [hx] at hk; cases hk
    | some r =>
      rw [hx] at hk
      cases hk
      exact ⟨rfl, rfl, List.mem_of_getElem? hx⟩
  refine run_rel inPlace acts (g := fun _ => false) (sh := []) ⟨fun k c a hk hc => ?_, fun k c hk => ?_, ?_, fun k c hk => (hcell k c hk).2.1, rfl,
    fun a ha => (by cases ha), rfl, fun v a hv => (by cases hv)⟩ hp
  · rw [(hcell k c hk).1] at hc
    cases hc
  · obtain ⟨file, hf⟩ := hr _ (hcell k c hk).2.2
    exact loadBitmap_fresh hf
  · show (readers.map _).map _ = readers
    rw [List.map_map]
    exact List.map_id _

theorem never_polite (acts : List (Act B)) (h : ∀ k, .enable k ∉ acts) : ∀ (g : Nat → Bool) (sh : List Bool),
    (∀ k, g k = false) → (∀ (v : Nat), sh[v]? ≠ some true) → Polite acts g sh := by
  induction acts with
  | nil => intros; trivial
  | cons a as ih =>
    intro g sh hg hs
    have ih := ih fun k hk => h k (by simp [hk])
    have hsnoc : ∀ (v : Nat), (sh ++ [false])[v]? ≠ some true := by
      intro v hv
      rcases List.mem_append.1 (List.mem_of_getElem? hv) with hm | hm
      · obtain ⟨i, hi, he⟩ := List.getElem_of_mem hm
        exact hs i (by rw [List.getElem?_eq_getElem hi, he])
      · simp at hm
    cases a with
    | enable k => exact absurd (List.mem_cons_self ..) (h k)
    | disable k =>
      refine ih _ _ (fun j => ?_) hs
      split
      · rfl
      · exact hg j
    | newBitmap => exact ih _ _ hg hsnoc
    | get k =>
      refine ih _ _ hg ?_
      rw [hg k]
      exact hsnoc
    | change v f => exact ⟨hs v, ih _ _ hg hs⟩
    | look v => exact ih _ _ hg hs
    | aggregate => exact ih _ _ hg hs
    | multi => exact ih _ _ hg hs

/-- **C60.** Without caching a program may change all bitmaps as it likes. -/
theorem C60_uncached (inPlace : Bool) (readers : List (Reader B)) (hr : ∀ r ∈ readers, ∃ file, newReader file = .ok r) (acts : List (Act B))
    (hn : ∀ k, .enable k ∉ acts) : (run inPlace acts (.start readers)).1 = (specRun acts ⟨[], readers⟩).1 :=
  C60_separate inPlace readers hr acts (never_polite acts hn _ _ (fun _ => rfl) (fun v hv => by cases hv))


/-! ### Any program -/

/-- The caches point into memory. -/
def Inside (s : State B) : Prop := ∀ (k : Nat) (c : Cell B) (a : Nat), s.cells[k]? = some c → c.cached = some a → a < s.heap.length

/-- Bitmaps below `n` are as before. -/
structure Frame (n : Nat) (s s' : State B) : Prop where
  heap : ∀ a, a < n → s'.heap[a]? = s.heap[a]?
  size : s.heap.length ≤ s'.heap.length
  inside : Inside s → Inside s'

theorem Frame.refl (n : Nat) (s : State B) : Frame n s s := ⟨fun _ _ => rfl, Nat.le_refl _, id⟩

theorem Frame.trans {n m : Nat} {s s' s'' : State B} (h : Frame n s s') (h' : Frame m s' s'') (hm : n ≤ m) : Frame n s s'' :=
  ⟨fun a ha => (h'.heap a (by omega)).trans (h.heap a ha), Nat.le_trans h.size h'.size, fun hi => h'.inside (h.inside hi)⟩

theorem new_frame (s : State B) (b : B) : Frame s.heap.length s (s.new b).2 :=
  ⟨fun a ha => List.getElem?_append_left ha, by simp [State.new], fun hi k c a h1 h2 => by
    have := hi k c a h1 h2
    simp [State.new]
    omega⟩

theorem modify_inside {s : State B} (k : Nat) (f : Cell B → Cell B) (hf : ∀ c a, (f c).cached = some a → c.cached = some a ∨ a < s.heap.length)
    (hi : Inside s) : Inside { s with cells := s.cells.modify k f } := by
  intro j c' a hj ha
  dsimp only at hj ⊢
  rw [List.getElem?_modify] at hj
  cases hc : s.cells[j]? with
  | none => rw [hc] at hj; simp at hj
  | some c =>
    rw [hc] at hj
    simp only [Option.map_eq_map, Option.map_some, Option.some.injEq] at hj
    subst hj
    split at ha
    · rcases hf c a ha with h | h
      · exact hi j c a hc h
      · exact h
    · exact hi j c a hc ha

theorem get_frame (k : Nat) (s : State B) :
    Frame s.heap.length s (get k s).2 ∧ (Inside s → ∀ a, (get k s).1 = .ok a → a < (get k s).2.heap.length) := by
  unfold get
  cases hk : s.cells[k]? with
  | none => exact ⟨.refl _ _, fun _ a h => by cases h⟩
  | some c =>
    have hf : Frame s.heap.length s (fetch k c s).2 ∧ (Inside s → ∀ a, (fetch k c s).1 = .ok a → a < (fetch k c s).2.heap.length) := by
      unfold fetch
      cases loadBitmap c.reader with
      | err e => exact ⟨.refl _ _, fun _ a h => by cases h⟩
      | panic => exact ⟨.refl _ _, fun _ a h => by cases h⟩
      | ok b =>
        have hn := new_frame s b
        have hl : s.heap.length < (s.new b).2.heap.length := by simp [State.new]
        dsimp only
        split
        · refine ⟨⟨hn.heap, hn.size, fun hi => ?_⟩, fun _ a h => ?_⟩
          · exact modify_inside k _ (fun c a ha => by cases ha; exact .inr hl) (hn.inside hi)
          · cases h
            exact hl
        · exact ⟨hn, fun _ a h => by cases h; exact hl⟩
    dsimp only
    split
    · rename_i p h1 h2
      exact ⟨.refl _ _, fun hi a h => by cases h; exact hi k c _ hk h1⟩
    · exact hf

theorem or_frame (inPlace : Bool) (n a b : Nat) (s : State B) (ha : n ≤ a) (hn : n ≤ s.heap.length) :
    Frame n s (or inPlace a b s).2 ∧ n ≤ (or inPlace a b s).1 := by
  unfold or
  split
  · rename_i x y _ _
    split
    · refine ⟨⟨fun i hi => ?_, by simp, fun hi k c p h1 h2 => ?_⟩, ha⟩
      · dsimp only
        rw [List.getElem?_set_ne (by omega)]
      · have := hi k c p h1 h2
        simpa using this
    · exact ⟨(Frame.refl n s).trans (new_frame s _) hn, hn⟩
  · exact ⟨.refl _ _, ha⟩

theorem loop_frame (inPlace : Bool) (sched : Sched) (skip : Bool) (filter : Option Nat) (n : Nat) : ∀ (ks : List Nat) (d : Nat)
    (r : AggregateResult) (s : State B), n ≤ d → n ≤ s.heap.length → Frame n s (multiLoop inPlace sched skip filter ks d r s).2 := by
  intro ks
  induction ks with
  | nil => intro d r s _ _; exact .refl _ _
  | cons k ks ih =>
    intro d r s hd hn
    unfold multiLoop
    cases s.cells[k]? with
    | none => exact .refl _ _
    | some c =>
      dsimp only
      cases aggregateWithOptions sched c.reader
        { skipPreCalculated := skip, filter := filter.bind (s.heap[·]?), denyFilter := s.heap[d]? } with
      | err e => exact .refl _ _
      | panic => exact .refl _ _
      | ok rr =>
        dsimp only
        have hg := (get_frame k s).1
        generalize get k s = G at hg
        obtain ⟨g, s1⟩ := G
        have hg' : Frame n s s1 := (Frame.refl n s).trans hg hn
        have hn1 := Nat.le_trans hn hg.size
        cases g with
        | err e => exact hg'
        | panic => exact hg'
        | ok g =>
          dsimp only
          obtain ⟨o1, o2⟩ := or_frame inPlace n d g s1 hd hn1
          exact (hg'.trans o1 (Nat.le_refl _)).trans (ih _ _ _ o2 (Nat.le_trans hn1 o1.size)) (Nat.le_refl _)

/-- Variables and caches point into memory. -/
def Sane (p : Process B) : Prop := Inside p.state ∧ ∀ a, some a ∈ p.vars → a < p.state.heap.length

theorem Sane.frame {p : Process B} (h : Sane p) {n : Nat} {s : State B} (hf : Frame n p.state s) : Sane { p with state := s } :=
  ⟨hf.inside h.1, fun a ha => Nat.lt_of_lt_of_le (h.2 a ha) hf.size⟩

theorem Sane.push {p : Process B} (h : Sane p) {o : Option Nat} (ho : ∀ a, o = some a → a < p.state.heap.length) :
    Sane { p with vars := p.vars ++ [o] } :=
  ⟨h.1, fun a ha => by
    rcases List.mem_append.1 ha with ha | ha
    · exact h.2 a ha
    · rw [List.mem_singleton] at ha
      exact ho a ha.symm⟩

/-- One step in any process. -/
theorem step_sane (inPlace : Bool) (act : Act B) {p : Process B} (h : Sane p) : Sane (act.run inPlace p).2 ∧
    (∃ more, (act.run inPlace p).2.vars = p.vars ++ more) ∧
    ((∀ v f, act ≠ .change v f) → ∀ a, a < p.state.heap.length → (act.run inPlace p).2.state.heap[a]? = p.state.heap[a]?) := by
  cases act with
  | newBitmap =>
    have hn := new_frame p.state Bitmap.empty
    exact ⟨(h.frame hn).push (fun a ha => by cases ha; simp [State.new]), ⟨_, rfl⟩, fun _ => hn.heap⟩
  | change v f =>
    refine ⟨?_, ?_, fun hc => absurd rfl (hc v f)⟩
    · simp only [Act.run]
      split
      · exact h
      · refine ⟨fun k c a h1 h2 => ?_, fun a ha => ?_⟩
        · simpa using h.1 k c a h1 h2
        · simpa using h.2 a ha
    · simp only [Act.run]
      split <;> exact ⟨[], by simp⟩
  | look v => exact ⟨h, ⟨[], by simp [Act.run]⟩, fun _ _ _ => rfl⟩
  | get k =>
    obtain ⟨g1, g2⟩ := get_frame k p.state
    simp only [Act.run]
    generalize get k p.state = G at g1 g2
    obtain ⟨r, s1⟩ := G
    refine ⟨?_, ⟨_, rfl⟩, fun _ => g1.heap⟩
    refine (h.frame g1).push fun a ha => g2 h.1 a ?_
    cases r with
    | ok x =>
      dsimp only at ha
      cases ha
      rfl
    | err e => cases ha
    | panic => cases ha
  | enable k => exact ⟨⟨modify_inside k _ (fun c a ha => .inl ha) h.1, h.2⟩, ⟨[], by simp [Act.run]⟩, fun _ _ _ => rfl⟩
  | disable k => exact ⟨⟨modify_inside k _ (fun c a ha => by cases ha) h.1, h.2⟩, ⟨[], by simp [Act.run]⟩, fun _ _ _ => rfl⟩
  | aggregate sched k skip filter deny parallel =>
    simp only [Act.run]
    split
    · exact ⟨h, ⟨[], by simp⟩, fun _ _ _ => rfl⟩
    · exact ⟨h, ⟨[], by simp⟩, fun _ _ _ => rfl⟩
  | multi sched ks skip filter =>
    simp only [Act.run]
    split
    · have hm : Frame p.state.heap.length p.state (multiAggregate inPlace sched ks skip (p.ptr filter) p.state).2 := by
        unfold multiAggregate
        split
        · exact .refl _ _
        · have hn := new_frame p.state (Bitmap.empty : B)
          exact hn.trans (loop_frame inPlace sched skip _ p.state.heap.length _ _ _ _ (Nat.le_refl _) hn.size) (Nat.le_refl _)
      exact ⟨h.frame hm, ⟨[], by simp⟩, fun _ => hm.heap⟩
    · exact ⟨h, ⟨[], by simp⟩, fun _ _ _ => rfl⟩

theorem run_sane (inPlace : Bool) (acts : List (Act B)) {p : Process B} (h : Sane p) : Sane (run inPlace acts p).2 := by
  induction acts generalizing p with
  | nil => exact h
  | cons a as ih => exact ih (step_sane inPlace a h).1

/-- **C60.** The library changes no bitmap the program holds: whatever the program did before, and whatever it now calls,
other than changing a bitmap itself, all its bitmaps look as before the call. -/
theorem C60_untouched (inPlace : Bool) (readers : List (Reader B)) (acts : List (Act B)) (act : Act B) (hc : ∀ v f, act ≠ .change v f)
    (p : Process B) (hp : p = (run inPlace acts (.start readers)).2) (v : Nat) (hv : v < p.vars.length) :
    ((Act.look v).run inPlace (act.run inPlace p).2).1 = ((Act.look v).run inPlace p).1 := by
  have hs : Sane p := by
    rw [hp]
    refine run_sane inPlace acts ⟨fun k c a hk hc => ?_, fun a ha => by cases ha⟩
    simp only [Process.start, List.getElem?_map] at hk
    cases hx : readers[k]? with
    | none => rw [hx] at hk; cases hk
    | some r =>
      rw [hx] at hk
      cases hk
      cases hc
  obtain ⟨_, ⟨more, h2⟩, h3⟩ := step_sane inPlace act hs
  have h3 := h3 hc
  generalize (act.run inPlace p).2 = p' at h2 h3 ⊢
  simp only [Act.run, Process.ptr, Option.bind_some]
  rw [h2, List.getElem?_append_left hv, List.getElem?_eq_getElem hv]
  simp only [Option.join_some]
  cases ho : p.vars[v] with
  | none => rfl
  | some a => exact congrArg Seen.bitmap (h3 a (hs.2 a (by rw [← ho]; exact List.getElem_mem hv)))

/-! ### What goes wrong otherwise -/

/-- **C60.** With caching, a program that changes the bitmap it was given gets the changed bitmap from then on. -/
theorem C60_shared (inPlace : Bool) (r : Reader B) (file : Bytes) (hr : newReader file = .ok r) (b : B) (hb : (getGlobalIDBitmap r).1 = .ok b) (f : B → B) :
    (run inPlace [.enable 0, .get 0, .change 0 f, .get 0, .look 1] (.start [r])).1 =
      [.nothing, .got (.ok ()), .nothing, .got (.ok ()), .bitmap (some (f b))] ∧
    (specRun [.enable 0, .get 0, .change 0 f, .get 0, .look 1] ⟨[], [r]⟩).1 =
      [.nothing, .got (.ok ()), .nothing, .got (.ok ()), .bitmap (some b)] := by
  have hl : loadBitmap r = .ok b := (loadBitmap_fresh hr).trans hb
  constructor
  · simp [run, Act.run, Process.start, enable, get, fetch, hl, State.new, done, Process.ptr, List.modify, List.modifyTailIdx, List.modifyTailIdx.go]
  · simp [specRun, Act.spec, bitmapIn, hb, done, Separate.val]

/-- **C60.** So do the library's own calls: after the program has emptied the bitmap that the newer reader caches,
`MultiReader.Aggregate` counts the value 20, which the newer file replaces by 5, as well. -/
theorem C60_refuted : ∃ r1 r2 : Reader IdSet, Each (FileWith IdSet) [r1, r2] [acked oldLog, acked newLog] ∧
    ∃ acts : List (Act IdSet), ∀ inPlace, ∃ seen res spec,
      (run inPlace acts (.start [r1, r2])).1 = seen ++ [.result (.ok res)] ∧ (specRun acts ⟨[], [r1, r2]⟩).1 = seen ++ [.result (.ok spec)] ∧
      res.count = 6 ∧ res.sum = 50 ∧ spec.count = 5 ∧ spec.sum = 30 := by
  obtain ⟨r1, r2, hE⟩ := stack_example
  refine ⟨r1, r2, hE, [.enable 1, .get 1, .change 0 (fun _ => Bitmap.empty), .multi inOrder [0, 1] false none], fun inPlace => ?_⟩
  obtain ⟨spec, h1, h2⟩ := C24_newestWins inOrder inOrder_fair _ _ hE false none
  rw [show (visible (allowedBy (none : Option IdSet)) [acked oldLog, acked newLog]).map Prod.snd = [30, -10, -1, 5, 6] from by decide] at h2
  cases hE with
  | cons f1 hE =>
    cases hE with
    | cons f2 hE =>
      have e : Bitmap.or (Bitmap.empty : IdSet) Bitmap.empty = Bitmap.empty := rfl
      obtain ⟨⟨a1, p1, q1⟩, g1, l1, _⟩ := f1.provides inOrder inOrder_fair false none Bitmap.empty
      obtain ⟨⟨a2, p2, q2⟩, g2, l2, _⟩ := f2.provides inOrder inOrder_fair false none Bitmap.empty
      rw [show selectedValues none (some (Bitmap.empty : IdSet)) (acked oldLog) = [30, -10, 20, -1] from by decide] at q1
      rw [show selectedValues none (some (Bitmap.empty : IdSet)) (acked newLog) = [5, 6] from by decide] at q2
      have m := IsAggregate.merge q2 q1
      obtain ⟨_, _, _, file1, _, _, o1, _⟩ := f1.opened
      obtain ⟨_, _, _, file2, _, _, o2, _⟩ := f2.opened
      have k1 := (loadBitmap_fresh o1).trans l1
      have k2 := (loadBitmap_fresh o2).trans l2
      have c2 : a2.count = 2 := q2.count
      rw [if_neg (by rw [c2]; decide)] at m
      refine ⟨[.nothing, .got (.ok ()), .nothing], mergeAggregateResults a2 a1, spec, ?_, ?_, m.count, ?_, h2.count, ?_⟩
      · cases inPlace <;>
        simp [run, Act.run, Process.start, enable, get, fetch, k1, k2, State.new, done, Process.ptr, List.modify, List.modifyTailIdx, List.modifyTailIdx.go,
          multiAggregate, multiLoop, p1, p2, or, e, AggregateResult.zero, c2]
      · simp [specRun, Act.spec, bitmapIn, l2, done, Separate.val, h1]
      · rw [m.sum]; decide
      · rw [h2.sum]; decide

/-- Non-vacuity of C60_separate: a polite program that uses a cached bitmap as a filter, gets it again, and changes a
bitmap of its own. -/
example (sched : Sched) : Polite (B := IdSet)
    [.enable 1, .get 1, .aggregate sched 0 false none (some 0) 0, .newBitmap, .change 1 (Bitmap.set · 9), .get 1, .look 2,
      .multi sched [0, 1] false (some 1), .disable 1, .get 1, .change 3 (Bitmap.set · 4), .look 0] (fun _ => false) [] := by
  simp [Polite]

/-- The readers of that program. -/
example : ∃ r1 r2 : Reader IdSet, ∀ r ∈ [r1, r2], ∃ file, newReader file = .ok r := by
  obtain ⟨r1, r2, hE⟩ := stack_example
  cases hE with
  | cons f1 hE =>
    cases hE with
    | cons f2 hE =>
      obtain ⟨_, _, _, file1, _, _, o1, _⟩ := f1.opened
      obtain ⟨_, _, _, file2, _, _, o2, _⟩ := f2.opened
      refine ⟨r1, r2, fun r hr => ?_⟩
      rcases List.mem_cons.1 hr with rfl | hr
      · exact ⟨_, o1⟩
      · rw [List.mem_singleton] at hr
        subst hr
        exact ⟨_, o2⟩

end VibeCol.Pointers
