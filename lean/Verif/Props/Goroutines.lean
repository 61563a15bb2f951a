/-
C81: readers shared by goroutines.
-/
import Verif.Spec.Goroutines
import Verif.Lemmas.Goroutines
import Verif.Props.MultiIO
import Verif.Props.Aggregation
namespace VibeCol.Goroutines
set_option linter.unusedSectionVars false
variable {B : Type} [Bitmap B]

/-- The program of a call returns what it should. -/
theorem prog_sound (g : Int) {reader : Nat → Reader B} {faulty : Nat → Bool}
    (hfresh : ∀ k, (reader k).globalIDs = none ∧ (reader k).cacheGlobalIDs = false)
    (hl : ∀ k, (reader k).blockIndex.length ≤ 2 ^ 64) (call : Call B) (hc : ∀ k, call = .close k → faulty k = true) (S : Nat → Prop) :
    Sound reader faulty (ReturnsFaulty g reader faulty call) (call.prog g reader) S := by
  cases call with
  | getPairs k i => exact Sound.andThen (fun p S hp => hp) (getPairsG_sound k i S)
  | aggregate k o => exact Sound.andThen (fun p S hp => hp) (aggregateG_sound g k (hl k) o S)
  | getBitmap k =>
    refine Sound.andThen (fun p S hp => ?_) (getGlobalIDBitmapG_sound k (hfresh k) S)
    obtain ⟨fail, h1, h2⟩ := hp
    refine ⟨fail, h1, ?_⟩
    cases hio : (getGlobalIDBitmapIO fail (reader k)).1 <;> (rw [hio] at h2; exact h2)
  | enable k => exact True.intro
  | multi ks skip filter => exact Sound.andThen (fun p S hp => hp) (multiAggregateG_sound g hfresh hl skip filter ks S)
  | close k => exact ⟨hc k rfl, fun _ => hc k rfl⟩

/-- One goroutine in a reachable state. -/
def GoInv (g : Int) (reader : Nat → Reader B) (faulty : Nat → Bool) (ids : Nat → Option B) (calls : List (Call B)) (t : Goroutine B) : Prop :=
  ∃ made, made.length = t.outs.length ∧ Answers (ReturnsFaulty g reader faulty) made t.outs ∧
    match t.current with
    | none => calls = made ++ t.todo
    | some p => ∃ call, calls = made ++ call :: t.todo ∧ ∃ S : Nat → Prop, (∀ k, S k → ids k ≠ none) ∧
        Sound reader faulty (ReturnsFaulty g reader faulty call) p S

/-- A reachable state. -/
structure Inv (g : Int) (reader : Nat → Reader B) (faulty : Nat → Bool) (calls : Nat → List (Call B)) (st : State B) : Prop where
  bytes : ∀ k, st.shared.bytes k = (reader k).bytes
  isOpen : ∀ k, st.shared.isOpen k = false → faulty k = true
  ids : ∀ k b, st.shared.globalIDs k = some b → Good reader k b
  go : ∀ i, GoInv g reader faulty st.shared.globalIDs (calls i) (st.go i)

variable {g : Int} {reader : Nat → Reader B} {faulty : Nat → Bool} {calls : Nat → List (Call B)} {st : State B}

/-- A goroutine is not disturbed by a bitmap being cached. -/
theorem GoInv.mono {ids ids' : Nat → Option B} {cs : List (Call B)} {t : Goroutine B} (h : GoInv g reader faulty ids cs t)
    (hid : ∀ k, ids k ≠ none → ids' k ≠ none) : GoInv g reader faulty ids' cs t := by
  obtain ⟨made, h1, h2, h3⟩ := h
  refine ⟨made, h1, h2, ?_⟩
  cases hc : t.current with
  | none => rw [hc] at h3; exact h3
  | some p =>
    rw [hc] at h3
    obtain ⟨call, h4, S, h5, h6⟩ := h3
    exact ⟨call, h4, S, fun k hk => hid k (h5 k hk), h6⟩

theorem upd_same {α : Type} (f : Nat → α) (k : Nat) (a : α) : upd f k a k = a := if_pos rfl
theorem upd_other {α : Type} (f : Nat → α) {j k : Nat} (a : α) (h : j ≠ k) : upd f k a j = f j := if_neg h

/-- A goroutine goes on, and what is shared changes in a way that is allowed. -/
theorem Inv.move (H : Inv g reader faulty calls st) {i : Nat} {t : Goroutine B} {s : Shared B}
    (hb : ∀ k, s.bytes k = (reader k).bytes) (ho : ∀ k, s.isOpen k = false → faulty k = true)
    (hids : ∀ k b, s.globalIDs k = some b → Good reader k b) (hmono : ∀ k, st.shared.globalIDs k ≠ none → s.globalIDs k ≠ none)
    (ht : GoInv g reader faulty s.globalIDs (calls i) t) : Inv g reader faulty calls ⟨s, upd st.go i t⟩ := by
  refine ⟨hb, ho, hids, fun j => ?_⟩
  by_cases hj : j = i
  · subst hj
    show GoInv _ _ _ _ _ (upd st.go j t j)
    rw [upd_same]
    exact ht
  · show GoInv _ _ _ _ _ (upd st.go i t j)
    rw [upd_other _ _ hj]
    exact (H.go j).mono hmono

/-- The goroutine that is chosen makes an access. -/
theorem Inv.access (H : Inv g reader faulty calls st) (c : Choice) (hfail : c.fails = true → ∀ k, faulty k = true)
    {p : Prog B (Out B)} (hp : (st.go c.thread).current = some p) :
    Inv g reader faulty calls ⟨(p.step c st.shared).1, upd st.go c.thread { st.go c.thread with current := some (p.step c st.shared).2 }⟩ := by
  obtain ⟨made, h1, h2, h3⟩ := H.go c.thread
  rw [hp] at h3
  obtain ⟨call, h4, S, h5, h6⟩ := h3
  have same : ∀ (p' : Prog B (Out B)) (T : Nat → Prop), (∀ k, T k → st.shared.globalIDs k ≠ none) →
      Sound reader faulty (ReturnsFaulty g reader faulty call) p' T →
      Inv g reader faulty calls ⟨st.shared, upd st.go c.thread { st.go c.thread with current := some p' }⟩ :=
    fun p' T hT hs => H.move H.bytes H.isOpen H.ids (fun _ hk => hk) ⟨made, h1, h2, call, h4, T, hT, hs⟩
  cases p with
  | ret a => exact same _ S h5 h6
  | readAt k o n next =>
    have := h6 (!st.shared.isOpen k || c.fails) (by
      intro hor
      cases hop : st.shared.isOpen k with
      | false => exact H.isOpen k hop
      | true =>
        rw [hop] at hor
        exact hfail hor k)
    rw [← H.bytes k] at this
    exact same _ S h5 this
  | loadIDs k next =>
    show Inv g reader faulty calls ⟨st.shared, upd st.go c.thread { st.go c.thread with current := some (next (st.shared.globalIDs k)) }⟩
    cases hid : st.shared.globalIDs k with
    | none => exact same _ S h5 (h6.2 fun hk => h5 k hk hid)
    | some b =>
      refine same _ _ ?_ (h6.1 b (H.ids k b hid))
      rintro j (hj | rfl)
      · exact h5 j hj
      · rw [hid]; nofun
  | storeIDs k v next =>
    obtain ⟨⟨b, rfl, hb⟩, hs⟩ := h6
    have hm : ∀ j, st.shared.globalIDs j ≠ none → upd st.shared.globalIDs k (some b) j ≠ none := by
      intro j hj
      unfold upd
      split
      · nofun
      · exact hj
    refine H.move (s := { st.shared with globalIDs := upd st.shared.globalIDs k (some b) }) H.bytes H.isOpen ?_ hm
      ⟨made, h1, h2, call, h4, S, fun j hj => hm j (h5 j hj), hs⟩
    intro j b' hj
    change upd st.shared.globalIDs k (some b) j = some b' at hj
    unfold upd at hj
    split at hj
    · rename_i hjk
      cases hj
      rw [hjk]
      exact hb
    · exact H.ids j b' hj
  | loadFlag k next => exact same _ S h5 (h6 _)
  | storeFlag k v next =>
    exact H.move (s := { st.shared with cacheGlobalIDs := upd st.shared.cacheGlobalIDs k v }) H.bytes H.isOpen H.ids (fun _ hk => hk)
      ⟨made, h1, h2, call, h4, S, h5, h6⟩
  | closeFile k next =>
    refine H.move (s := { st.shared with isOpen := upd st.shared.isOpen k false }) H.bytes ?_ H.ids (fun _ hk => hk)
      ⟨made, h1, h2, call, h4, S, h5, h6.2 _⟩
    intro j hj
    change upd st.shared.isOpen k false j = false at hj
    unfold upd at hj
    split at hj
    · rename_i hjk
      rw [hjk]
      exact h6.1
    · exact H.isOpen j hj
  | choose next => exact same _ S h5 (h6 _)

/-- Beginning a call. -/
theorem step_begin {c : Choice} {call : Call B} {rest : List (Call B)} (h1 : (st.go c.thread).current = none)
    (h2 : (st.go c.thread).todo = call :: rest) :
    st.step g reader c = ⟨st.shared, upd st.go c.thread ⟨some (call.prog g reader), rest, (st.go c.thread).outs⟩⟩ := by
  unfold State.step
  simp only [h1, h2]

/-- Having made all calls. -/
theorem step_done {c : Choice} (h1 : (st.go c.thread).current = none) (h2 : (st.go c.thread).todo = []) :
    st.step g reader c = st := by
  unfold State.step
  simp only [h1, h2]

/-- Leaving a call. -/
theorem step_ret {c : Choice} {out : Out B} (h1 : (st.go c.thread).current = some (.ret out)) :
    st.step g reader c = ⟨st.shared, upd st.go c.thread ⟨none, (st.go c.thread).todo, (st.go c.thread).outs ++ [out]⟩⟩ := by
  unfold State.step
  simp only [h1]

/-- Going on with a call. -/
theorem step_access {c : Choice} {p : Prog B (Out B)} (h1 : (st.go c.thread).current = some p) (hp : ∀ out, p ≠ .ret out) :
    st.step g reader c =
      ⟨(p.step c st.shared).1, upd st.go c.thread { st.go c.thread with current := some (p.step c st.shared).2 }⟩ := by
  unfold State.step
  simp only [h1]

theorem Inv.step (hfresh : ∀ k, (reader k).globalIDs = none ∧ (reader k).cacheGlobalIDs = false)
    (hl : ∀ k, (reader k).blockIndex.length ≤ 2 ^ 64) (hclose : ∀ i k, .close k ∈ calls i → faulty k = true)
    (H : Inv g reader faulty calls st) (c : Choice) (hfail : c.fails = true → ∀ k, faulty k = true) :
    Inv g reader faulty calls (st.step g reader c) := by
  obtain ⟨made, h1, h2, h3⟩ := H.go c.thread
  cases hc : (st.go c.thread).current with
  | none =>
    rw [hc] at h3
    dsimp only at h3
    cases ht : (st.go c.thread).todo with
    | nil => rw [step_done hc ht]; exact H
    | cons call rest =>
      rw [step_begin hc ht]
      rw [ht] at h3
      refine H.move H.bytes H.isOpen H.ids (fun _ hk => hk) ⟨made, h1, h2, call, h3, fun _ => False, fun _ hk => hk.elim, ?_⟩
      refine prog_sound g hfresh hl call (fun k hk => hclose c.thread k ?_) _
      rw [h3, hk]
      simp
  | some p =>
    by_cases hret : ∃ out, p = .ret out
    · obtain ⟨out, rfl⟩ := hret
      rw [step_ret hc]
      rw [hc] at h3
      obtain ⟨call, h4, S, h5, h6⟩ := h3
      refine H.move H.bytes H.isOpen H.ids (fun _ hk => hk) ⟨made ++ [call], by simp [h1], ?_, by simpa using h4⟩
      intro n out' hn
      dsimp only at hn
      by_cases hlt : n < (st.go c.thread).outs.length
      · rw [List.getElem?_append_left hlt] at hn
        obtain ⟨call', h7, h8⟩ := h2 n out' hn
        exact ⟨call', by rw [List.getElem?_append_left (by omega)]; exact h7, h8⟩
      · have he : n = (st.go c.thread).outs.length := by
          have := (List.getElem?_eq_some_iff.1 hn).1
          simp at this
          omega
        subst he
        rw [List.getElem?_append_right (Nat.le_refl _), Nat.sub_self] at hn
        cases hn
        refine ⟨call, ?_, h6⟩
        rw [List.getElem?_append_right (by omega), h1, Nat.sub_self]
        rfl
    · rw [step_access hc (fun out ho => hret ⟨out, ho⟩)]
      exact H.access c hfail hc

theorem Inv.run (hfresh : ∀ k, (reader k).globalIDs = none ∧ (reader k).cacheGlobalIDs = false)
    (hl : ∀ k, (reader k).blockIndex.length ≤ 2 ^ 64) (hclose : ∀ i k, .close k ∈ calls i → faulty k = true)
    (cs : List Choice) (hfail : ∀ c ∈ cs, c.fails = true → ∀ k, faulty k = true) :
    {st : State B} → Inv g reader faulty calls st → Inv g reader faulty calls (st.run g reader cs) := by
  induction cs with
  | nil => exact fun H => H
  | cons c cs ih =>
    intro st H
    exact ih (fun c' hc' => hfail c' (List.mem_cons_of_mem _ hc')) (H.step hfresh hl hclose c (hfail c List.mem_cons_self))

/-- **C81, with failing reads and closed files.** Goroutines share readers that `NewReader` returned. Whatever the schedule,
every call that has returned has returned what it returns alone for some choice of failing reads; only reads of readers in
`faulty` fail, provided that only those are closed and that read errors, if there are any, may concern them all. -/
theorem C81_faulty (gomaxprocs : Int) (reader : Nat → Reader B) (hr : ∀ k, ∃ file, newReader file = .ok (reader k))
    (calls : Nat → List (Call B)) (faulty : Nat → Bool) (hclose : ∀ i k, .close k ∈ calls i → faulty k = true)
    (cs : List Choice) (hfail : ∀ c ∈ cs, c.fails = true → ∀ k, faulty k = true) (i : Nat) :
    Answers (ReturnsFaulty gomaxprocs reader faulty) (calls i) (((State.start reader calls).run gomaxprocs reader cs).go i).outs := by
  have hfresh : ∀ k, (reader k).globalIDs = none ∧ (reader k).cacheGlobalIDs = false := fun k => newReader_fresh (hr k).choose_spec
  have hl : ∀ k, (reader k).blockIndex.length ≤ 2 ^ 64 := by
    intro k
    have := C30_index_small _ _ (hr k).choose_spec
    omega
  have H0 : Inv gomaxprocs reader faulty calls (State.start reader calls) := by
    refine ⟨fun _ => rfl, (fun _ h => by cases h), fun k b h => ?_, fun i => ⟨[], rfl, (fun n out h => by simp [State.start] at h), rfl⟩⟩
    change (reader k).globalIDs = some b at h
    rw [(hfresh k).1] at h
    cases h
  obtain ⟨made, h1, h2, h3⟩ := (H0.run hfresh hl hclose cs hfail).go i
  obtain ⟨rest, hrest⟩ : ∃ rest, calls i = made ++ rest := by
    split at h3
    · exact ⟨_, h3⟩
    · obtain ⟨call, h4, _⟩ := h3
      exact ⟨_, h4⟩
  intro n out hn
  obtain ⟨call, h4, h5⟩ := h2 n out hn
  refine ⟨call, ?_, h5⟩
  rw [hrest, List.getElem?_append_left]
  · exact h4
  · exact (List.getElem?_eq_some_iff.1 h4).1

/-- Without failing reads the loop over files is the one of the model without failures. -/
theorem multiLoopIO_none (sched : Sched) (skip : Bool) (filter : Option B) : (l : List (ReadFails × OpenReader B)) →
    (∀ x ∈ l, (∀ i, x.1.blocks i = false) ∧ (∀ n, x.1.bitmap n = false) ∧ x.2.isOpen = true) → (deny : B) → (result : AggregateResult) →
    (multiLoopIO sched skip filter l deny result).1 = multiLoop sched skip filter (l.map fun x => x.2.reader) deny result
  | [], _, _, _ => rfl
  | (f, s) :: rest, h, deny, result => by
    obtain ⟨h1, h2, h3⟩ := h _ List.mem_cons_self
    dsimp only at h1 h2 h3
    have ih := multiLoopIO_none sched skip filter rest (fun x hx => h x (List.mem_cons_of_mem _ hx))
    unfold multiLoopIO
    rw [List.map_cons]
    unfold multiLoop
    have e1 : (fun i => !s.isOpen || f.blocks i) = fun _ => false := by funext i; rw [h1, h3]; rfl
    have e2 : (fun n => !s.isOpen || f.bitmap n) = fun _ => false := by funext i; rw [h2, h3]; rfl
    rw [e1, e2, aggregateIO_none]
    cases aggregateWithOptions sched s.reader { skipPreCalculated := skip, filter := filter, denyFilter := some deny } with
    | err e => rfl
    | panic => rfl
    | ok a =>
      dsimp only
      rw [Res.ok_bind, ← getGlobalIDBitmapIO_none]
      cases hb : getGlobalIDBitmapIO (fun _ => false) s.reader with
      | mk b r =>
        cases b with
        | err e => rfl
        | panic => rfl
        | ok b => exact ih _ _

/-- Without faulty readers a call returns what it returns alone. -/
theorem returns_alone {call : Call B} {out : Out B} (h : ReturnsFaulty g reader (fun _ => false) call out) :
    ReturnsAlone g reader call out := by
  have nf : ∀ b : Bool, (b = true → (false : Bool) = true) → b = false := by
    intro b hb
    cases b
    · rfl
    · exact (hb rfl).symm
  cases call <;> cases out <;> try exact h.elim
  case getPairs.pairs k i p =>
    obtain ⟨f, h1, h2⟩ := h
    rw [nf f h1, getPairsIO_false] at h2
    exact h2
  case aggregate.result k o a =>
    obtain ⟨fail, sched, h1, h2, h3, h4⟩ := h
    have : fail = fun _ => false := funext fun i => nf _ (h1 i)
    rw [this, aggregateIO_none] at h4
    exact ⟨sched, h2, h3, h4⟩
  case getBitmap.bitmap k p =>
    obtain ⟨fail, h1, h2⟩ := h
    have : fail = fun _ => false := funext fun i => nf _ (h1 i)
    rw [this, getGlobalIDBitmapIO_none] at h2
    exact h2
  case enable.done => exact True.intro
  case multi.result ks skip filter a =>
    obtain ⟨fails, h1, h2⟩ := h
    intro sched
    rw [h2 sched]
    unfold multiAggregateIO multiAggregate
    rw [List.length_map, List.length_map]
    split
    · rfl
    · dsimp only
      rw [multiLoopIO_none]
      · congr 1
        rw [List.map_reverse, List.map_map]
        congr 1
        apply List.ext_getElem
        · simp
        · intro n _ _
          simp
      · intro x hx
        rw [List.mem_reverse] at hx
        obtain ⟨n, hn, rfl⟩ := List.getElem_of_mem hx
        simp at hn
        obtain ⟨h3, h4⟩ := h1 n ks[n] (List.getElem?_eq_getElem hn)
        simp only [List.getElem_map, List.getElem_zipIdx, Nat.zero_add]
        exact ⟨fun i => nf _ (h3 i), fun i => nf _ (h4 i), trivial⟩
  case close.closed => exact True.intro

/-- **C81.** Any number of goroutines share readers that `NewReader` returned; they read pairs, aggregate, with any number of
workers, get and cache bitmaps, and aggregate over stacks of the readers; none closes a reader and no read fails. Whatever the
schedule, every call that has returned has returned what it returns alone. -/
theorem C81_alone (gomaxprocs : Int) (reader : Nat → Reader B) (hr : ∀ k, ∃ file, newReader file = .ok (reader k))
    (calls : Nat → List (Call B)) (hclose : ∀ i k, .close k ∉ calls i) (cs : List Choice) (hfail : ∀ c ∈ cs, c.fails = false) (i : Nat) :
    Answers (ReturnsAlone gomaxprocs reader) (calls i) (((State.start reader calls).run gomaxprocs reader cs).go i).outs := by
  intro n out hn
  obtain ⟨call, h1, h2⟩ := C81_faulty gomaxprocs reader hr calls (fun _ => false) (fun i k h => absurd h (hclose i k)) cs
    (fun c hc hf => by rw [hfail c hc] at hf; cases hf) i n out hn
  exact ⟨call, h1, returns_alone h2⟩

/-- The state after `n` steps of an endless schedule. -/
def after (g : Int) (reader : Nat → Reader B) (calls : Nat → List (Call B)) (σ : Nat → Choice) (n : Nat) : State B :=
  (State.start reader calls).run g reader ((List.range n).map σ)

theorem after_succ (σ : Nat → Choice) (n : Nat) :
    after g reader calls σ (n + 1) = (after g reader calls σ n).step g reader (σ n) := by
  unfold after State.run
  rw [List.range_succ, List.map_append, List.foldl_append]
  rfl

/-- A step of another goroutine. -/
theorem step_other (c : Choice) {i : Nat} (h : c.thread ≠ i) : (st.step g reader c).go i = st.go i := by
  have hi : i ≠ c.thread := fun e => h e.symm
  cases hc : (st.go c.thread).current with
  | none =>
    cases ht : (st.go c.thread).todo with
    | nil => rw [step_done hc ht]
    | cons call rest => rw [step_begin hc ht]; exact upd_other _ _ hi
  | some p =>
    by_cases hret : ∃ out, p = .ret out
    · obtain ⟨out, rfl⟩ := hret
      rw [step_ret hc]; exact upd_other _ _ hi
    · rw [step_access hc (fun out ho => hret ⟨out, ho⟩)]; exact upd_other _ _ hi

/-- A goroutine that is scheduled later is until then where it is. -/
theorem waits (σ : Nat → Choice) (i : Nat) : (d n : Nat) → (σ (n + d)).thread = i →
    ∃ m, n ≤ m ∧ (σ m).thread = i ∧ (after g reader calls σ m).go i = (after g reader calls σ n).go i
  | 0, n, h => ⟨n, Nat.le_refl n, h, rfl⟩
  | d + 1, n, h => by
    by_cases hn : (σ n).thread = i
    · exact ⟨n, Nat.le_refl n, hn, rfl⟩
    · obtain ⟨m, h1, h2, h3⟩ := waits σ i d (n + 1) (by rw [← h]; congr 2; omega)
      refine ⟨m, by omega, h2, ?_⟩
      rw [h3, after_succ, step_other _ hn]

/-- A call that has begun is going to return. -/
theorem call_ends (σ : Nat → Choice) (i : Nat) (fair : ∀ n, ∃ m, n ≤ m ∧ (σ m).thread = i) (p : Prog B (Out B)) :
    (n : Nat) → ((after g reader calls σ n).go i).current = some p →
    ∃ m out, (after g reader calls σ m).go i =
      ⟨none, ((after g reader calls σ n).go i).todo, ((after g reader calls σ n).go i).outs ++ [out]⟩ := by
  have turn : ∀ n, ∃ m, (σ m).thread = i ∧ (after g reader calls σ m).go i = (after g reader calls σ n).go i := by
    intro n
    obtain ⟨m, h1, h2⟩ := fair n
    obtain ⟨m', _, h4, h5⟩ := waits (g := g) (reader := reader) (calls := calls) σ i (m - n) n (by rw [← h2]; congr 2; omega)
    exact ⟨m', h4, h5⟩
  have next : ∀ (p : Prog B (Out B)), (∀ out, p ≠ .ret out) → ∀ n, ((after g reader calls σ n).go i).current = some p →
      ∃ m c s, (after g reader calls σ m).go i = { (after g reader calls σ n).go i with current := some (p.step c s).2 } := by
    intro p hp n hn
    obtain ⟨m, rfl, h2⟩ := turn n
    refine ⟨m + 1, σ m, (after g reader calls σ m).shared, ?_⟩
    rw [after_succ, step_access (by rw [h2]; exact hn) hp]
    show upd _ _ _ _ = _
    rw [upd_same, h2]
  have go : ∀ (p : Prog B (Out B)), (∀ out, p ≠ .ret out) →
      (∀ c s n, ((after g reader calls σ n).go i).current = some (p.step c s).2 →
        ∃ m out, (after g reader calls σ m).go i =
          ⟨none, ((after g reader calls σ n).go i).todo, ((after g reader calls σ n).go i).outs ++ [out]⟩) →
      ∀ n, ((after g reader calls σ n).go i).current = some p →
        ∃ m out, (after g reader calls σ m).go i =
          ⟨none, ((after g reader calls σ n).go i).todo, ((after g reader calls σ n).go i).outs ++ [out]⟩ := by
    intro p hp ih n hn
    obtain ⟨m, c, s, h1⟩ := next p hp n hn
    obtain ⟨m', out, h2⟩ := ih c s m (by rw [h1])
    exact ⟨m', out, by rw [h2, h1]⟩
  induction p with
  | ret out =>
    intro n hn
    obtain ⟨m, rfl, h2⟩ := turn n
    refine ⟨m + 1, out, ?_⟩
    rw [after_succ, step_ret (by rw [h2]; exact hn)]
    show upd _ _ _ _ = _
    rw [upd_same, h2]
  | readAt k o l f ih => exact go _ nofun fun c s n => ih _ n
  | loadIDs k f ih => exact go _ nofun fun c s n => ih _ n
  | storeIDs k v f ih => exact go _ nofun fun c s n => ih n
  | loadFlag k f ih => exact go _ nofun fun c s n => ih _ n
  | storeFlag k v f ih => exact go _ nofun fun c s n => ih n
  | closeFile k f ih => exact go _ nofun fun c s n => ih _ n
  | choose f ih => exact go _ nofun fun c s n => ih _ n

/-- **C81, no call waits for another goroutine.** A goroutine that is scheduled again and again makes all its calls and every
one of them returns, whatever the other goroutines do, and also if they are never scheduled, reads fail or files are closed. -/
theorem C81_progress (gomaxprocs : Int) (reader : Nat → Reader B) (calls : Nat → List (Call B)) (σ : Nat → Choice) (i : Nat)
    (fair : ∀ n, ∃ m, n ≤ m ∧ (σ m).thread = i) :
    ∃ n, (((State.start reader calls).run gomaxprocs reader ((List.range n).map σ)).go i).outs.length = (calls i).length := by
  suffices h : ∀ (todo : List (Call B)) (n : Nat) (outs : List (Out B)),
      (after gomaxprocs reader calls σ n).go i = ⟨none, todo, outs⟩ → outs.length + todo.length = (calls i).length →
      ∃ m, ((after gomaxprocs reader calls σ m).go i).outs.length = (calls i).length from
    h (calls i) 0 [] rfl (by simp)
  intro todo
  induction todo with
  | nil => intro n outs h1 h2; exact ⟨n, by rw [h1]; simpa using h2⟩
  | cons call rest ih =>
    intro n outs h1 h2
    obtain ⟨m, h3, h4⟩ := fair n
    obtain ⟨m, _, rfl, h5⟩ := waits (g := gomaxprocs) (reader := reader) (calls := calls) σ i (m - n) n (by rw [← h4]; congr 2; omega)
    rw [h1] at h5
    have h6 : (after gomaxprocs reader calls σ (m + 1)).go (σ m).thread = ⟨some (call.prog gomaxprocs reader), rest, outs⟩ := by
      rw [after_succ, step_begin (call := call) (rest := rest) (by rw [h5]) (by rw [h5])]
      show upd _ _ _ _ = _
      rw [upd_same, h5]
    obtain ⟨m', out, h7⟩ := call_ends σ _ fair _ (m + 1) (by rw [h6])
    rw [h6] at h7
    exact ih m' _ h7 (by simp at h2 ⊢; omega)

section Written
variable [LawfulBitmap B]

/-- The blocks that were written are those that are read. -/
theorem pairs_written {r : Reader B} {blocks : List Block} (h : FileWith B r blocks) (i : UInt64) :
    getPairs r i = match blocks[i.toNat]? with
      | some b => .ok b
      | none => .err .badBlockIndex := by
  obtain ⟨env, opts, log, file, hf, henc, hr, rfl⟩ := h.opened
  have H := hf.reads henc h.few r hr
  have hlen : r.blockIndex.length = (acked log).length := H.index
  cases hb : (acked log)[i.toNat]? with
  | none =>
    have hlt := H.lt64
    have := List.getElem?_eq_none_iff.1 hb
    have hfew := h.few
    unfold maxBlocks at hfew
    exact C30_bounds r i (by omega) (by omega)
  | some b =>
    obtain ⟨hi, rfl⟩ := List.getElem?_eq_some_iff.1 hb
    have := H.read i.toNat hi
    rwa [UInt64.ofNat_toNat] at this

/-- The number of a block that does not exist is noticed before anything is read. -/
theorem pairs_bounds (f : Bool) (r : Reader B) (i : UInt64) (h : r.blockIndex.length ≤ i.toNat) :
    getPairsIO f r i = .err .badBlockIndex := by
  unfold getPairsIO readBlockIO
  split
  · rfl
  rename_i hnn
  have hz : (0 : Int64).toInt = 0 := by decide
  have hidx : i.toInt64.toInt.toNat = i.toNat := by
    have h1 : 0 ≤ i.toInt64.toInt := by
      rw [Int64.lt_iff_toInt_lt, hz] at hnn; omega
    have h2 : i.toInt64.toInt = (i.toNat : Int).bmod (2 ^ 64) := by
      show BitVec.toInt _ = _
      rw [BitVec.toInt_eq_toNat_bmod]; rfl
    have h3 := i.toNat_lt
    rw [h2] at h1 ⊢
    simp only [Int.bmod_def] at h1 ⊢
    omega
  rw [hidx, List.getElem?_eq_none h]

/-- What is returned with failing reads is what was written. -/
theorem stored_faulty {blocks : Nat → List Block} (h : ∀ k, FileWith B (reader k) (blocks k)) {call : Call B} {out : Out B}
    (hret : ReturnsFaulty g reader faulty call out) : StoredFaulty blocks faulty call out := by
  cases call <;> cases out <;> try exact hret.elim
  case getPairs.pairs k i p =>
    obtain ⟨f, h1, rfl⟩ := hret
    have hp := pairs_written (h k) i
    show (match (blocks k)[i.toNat]? with
      | some b => getPairsIO f (reader k) i = .ok b ∨ faulty k = true ∧ getPairsIO f (reader k) i = .err .io
      | none => getPairsIO f (reader k) i = .err .badBlockIndex)
    cases hb : (blocks k)[i.toNat]? with
    | some b =>
      rw [hb] at hp
      rcases getPairsIO_or f (reader k) i with h2 | ⟨h2, h3⟩
      · exact .inl (h2.trans hp)
      · exact .inr ⟨h1 h2, h3⟩
    | none =>
      obtain ⟨env, opts, log, file, hf, henc, hr, hacked⟩ := (h k).opened
      have H := hf.reads henc (by rw [hacked]; exact (h k).few) (reader k) hr
      exact pairs_bounds f _ i (by rw [H.index, hacked]; exact List.getElem?_eq_none_iff.1 hb)
  case aggregate.result k o a =>
    obtain ⟨fail, sched, h1, h2, h3, rfl⟩ := hret
    obtain ⟨env, opts, log, file, hf, henc, hr, hacked⟩ := (h k).opened
    have hfew : (acked log).length ≤ maxBlocks := by rw [hacked]; exact (h k).few
    have H := hf.reads henc hfew (reader k) hr
    constructor
    · intro ho
      rw [← hacked]
      obtain ⟨res, h4, h5⟩ := H.unfailed_aggregate fail sched h2 o ho
      exact ⟨_, fun i hi => h1 _ hi, res, h4, h5⟩
    · rintro ⟨ho1, ho2, ho3, hrep⟩
      rw [← hacked] at hrep ⊢
      obtain ⟨skip, f, d, w⟩ := o
      dsimp only at ho1 ho2 ho3
      subst ho1 ho2 ho3
      have hu := newReader_uncached hr
      obtain ⟨res, h4, h5⟩ := C52_footer hf hfew hrep (fun _ => false) (reader k) (by
        rcases newReaderIO_or (B := B) (fun _ => false) file with h0 | ⟨⟨_, h0⟩, _⟩
        · exact h0.trans hr
        · cases h0) [] fail sched h2 w
      refine ⟨res, ?_, h5⟩
      have h6 : IOOut.result (B := B) (aggregateWithOptionsIO (fun i => !true || fail i) sched (reader k) { parallel := w }) = .result (.ok res) := h4
      rw [Bool.not_true] at h6
      simp only [Bool.false_or] at h6
      exact IOOut.result.inj h6
  case getBitmap.bitmap k p =>
    obtain ⟨fail, h1, h2⟩ := hret
    obtain ⟨bm, h3, h4⟩ := ((h k).provides inOrder inOrder_fair false none Bitmap.empty).2
    rcases getGlobalIDBitmapIO_or fail (reader k) with h5 | ⟨⟨n, h5⟩, h6⟩
    · rw [h5, h3] at h2
      exact .inl ⟨bm, h2, h4⟩
    · rw [h6] at h2
      exact .inr ⟨h1 n h5, h2⟩
  case enable.done => exact True.intro
  case multi.result ks skip filter a =>
    obtain ⟨fails, h1, h2⟩ := hret
    have hE : Each (FileWith B) (ks.map reader) (ks.map blocks) := by
      refine MultiIO.each_of_index _ _ (by simp) fun i r f hr hf => ?_
      rw [List.getElem?_map] at hr hf
      cases hk : ks[i]? with
      | none => rw [hk] at hr; cases hr
      | some k =>
        rw [hk] at hr hf
        cases hr
        cases hf
        exact h k
    obtain ⟨res, h3, h4⟩ := MultiIO.C65_aggregate hE [] fails inOrder inOrder_fair skip filter
    have h5 : MultiOut.result (B := B) (multiAggregateIO fails inOrder ((ks.map reader).map fun r => ⟨r, true⟩) skip filter).1 = .result res := h3
    rw [List.map_map] at h5
    have h6 := (h2 inOrder).trans (MultiOut.result.inj h5)
    rcases h4 with ⟨rfl, i, hi, h7⟩ | ⟨res', rfl, h7⟩
    · rw [List.length_map] at hi
      refine .inl ⟨h6, ks[i], List.getElem_mem hi, ?_⟩
      rcases h7 with h7 | ⟨n, h7⟩
      · cases h7
      · exact (h1 i _ (List.getElem?_eq_getElem hi)).2 n h7
    · exact .inr ⟨_, fun n k hn i hi => (h1 n k hn).1 _ hi, res', h6, h7⟩
  case close.closed k e => exact hret

/-- **C81, what was written, with failing reads and closed files.** Goroutines share readers of finalized files. Whatever the
schedule, and whatever reads fail and whichever files are closed while other goroutines use them, every call returns what was
written, or an error, or the aggregate of the blocks that could be read. -/
theorem C81_closing (gomaxprocs : Int) (reader : Nat → Reader B) (blocks : Nat → List Block)
    (hr : ∀ k, FileWith B (reader k) (blocks k)) (calls : Nat → List (Call B)) (faulty : Nat → Bool)
    (hclose : ∀ i k, .close k ∈ calls i → faulty k = true) (cs : List Choice)
    (hfail : ∀ c ∈ cs, c.fails = true → ∀ k, faulty k = true) (i : Nat) :
    Answers (StoredFaulty blocks faulty) (calls i) (((State.start reader calls).run gomaxprocs reader cs).go i).outs := by
  intro n out hn
  obtain ⟨call, h1, h2⟩ := C81_faulty gomaxprocs reader (fun k => by
    obtain ⟨_, _, _, file, _, _, h, _⟩ := (hr k).opened
    exact ⟨file, h⟩) calls faulty hclose cs hfail i n out hn
  exact ⟨call, h1, stored_faulty hr h2⟩

/-- **C81, what was written.** Goroutines share readers of finalized files; no reader is closed and no read fails. Whatever the
schedule, every call returns what was written. -/
theorem C81_written (gomaxprocs : Int) (reader : Nat → Reader B) (blocks : Nat → List Block)
    (hr : ∀ k, FileWith B (reader k) (blocks k)) (calls : Nat → List (Call B)) (hclose : ∀ i k, .close k ∉ calls i)
    (cs : List Choice) (hfail : ∀ c ∈ cs, c.fails = false) (i : Nat) :
    Answers (Stored blocks) (calls i) (((State.start reader calls).run gomaxprocs reader cs).go i).outs := by
  intro n out hn
  obtain ⟨call, h1, h2⟩ := C81_alone gomaxprocs reader (fun k => by
    obtain ⟨_, _, _, file, _, _, h, _⟩ := (hr k).opened
    exact ⟨file, h⟩) calls hclose cs hfail i n out hn
  refine ⟨call, h1, ?_⟩
  have hmem := List.mem_of_getElem? h1
  cases call <;> cases out <;> try exact h2.elim
  case getPairs.pairs k j p => exact h2.trans (pairs_written (hr k) j)
  case aggregate.result k o a =>
    obtain ⟨sched, h3, _, rfl⟩ := h2
    intro ho
    obtain ⟨env, opts, log, file, hf, henc, hop, hacked⟩ := (hr k).opened
    rw [← hacked] at ho ⊢
    exact C13_general hf henc (by rw [hacked]; exact (hr k).few) _ hop sched h3 o ho
  case getBitmap.bitmap k p =>
    obtain ⟨bm, h3, h4⟩ := ((hr k).provides inOrder inOrder_fair false none Bitmap.empty).2
    refine ⟨bm, ?_, h4⟩
    change (match (getGlobalIDBitmap (reader k)).1 with
      | .ok b => p = .ok (some b)
      | .err e => p = .err e
      | .panic => p = .panic) at h2
    rw [h3] at h2
    exact h2
  case enable.done => exact True.intro
  case multi.result ks skip filter a =>
    have hE : Each (FileWith B) (ks.map reader) (ks.map blocks) := by
      refine MultiIO.each_of_index _ _ (by simp) fun i r f hr' hf => ?_
      rw [List.getElem?_map] at hr' hf
      cases hk : ks[i]? with
      | none => rw [hk] at hr'; cases hr'
      | some k =>
        rw [hk] at hr' hf
        cases hr'
        cases hf
        exact hr k
    obtain ⟨res, h3, h4⟩ := C24_newestWins inOrder inOrder_fair _ _ hE skip filter
    exact ⟨res, (h2 inOrder).trans h3, h4⟩
  case close.closed k e => exact absurd hmem (hclose i k)

end Written

/-- Three goroutines, with the two readers of `stack_example`: one reads pairs and turns on a cache, one aggregates the stack and
then one file with two workers, one gets a bitmap twice. -/
def exampleCalls : Nat → List (Call IdSet)
  | 0 => [.getPairs 0 0, .enable 1, .getPairs 1 7]
  | 1 => [.multi [0, 1] false none, .aggregate 0 { skipPreCalculated := true, parallel := 2 }]
  | 2 => [.getBitmap 1, .getBitmap 1]
  | _ => []

/-- The goroutines in turn. -/
def inTurn (n : Nat) : Choice := ⟨n % 3, false, n⟩

theorem exampleCalls_open (i k : Nat) : .close k ∉ exampleCalls i := by
  intro h
  unfold exampleCalls at h
  split at h <;> simp at h

theorem inTurn_works (n : Nat) : ∀ c ∈ (List.range n).map inTurn, c.fails = false := by
  intro c hc
  obtain ⟨m, _, rfl⟩ := List.mem_map.1 hc
  rfl

theorem inTurn_fair (i : Nat) (hi : i < 3) (n : Nat) : ∃ m, n ≤ m ∧ (inTurn m).thread = i :=
  ⟨3 * n + i, by omega, by show (3 * n + i) % 3 = i; omega⟩

/-- Non-vacuity of C81: with the goroutines of `exampleCalls` making their accesses in turn, the second one gets both its
aggregates, in the first of which the newer file hides the value 20 of ID 2 in the older one, and the first one its pairs. -/
theorem C81_example : ∃ (reader : Nat → Reader IdSet) (blocks : Nat → List Block), (∀ k, FileWith IdSet (reader k) (blocks k)) ∧
    (∃ n a b, (((State.start reader exampleCalls).run 4 reader ((List.range n).map inTurn)).go 1).outs = [.result (.ok a), .result (.ok b)] ∧
      a.count = 5 ∧ a.sum = 30 ∧ b.count = 4 ∧ b.sum = 39) ∧
    ∃ n, (((State.start reader exampleCalls).run 4 reader ((List.range n).map inTurn)).go 0).outs =
      [.pairs (.ok ([3, 1, 2], [30, -10, 20])), .done, .pairs (.err .badBlockIndex)] := by
  obtain ⟨reader, blocks, hF, e0, e1⟩ : ∃ (reader : Nat → Reader IdSet) (blocks : Nat → List Block),
      (∀ k, FileWith IdSet (reader k) (blocks k)) ∧ blocks 0 = acked oldLog ∧ blocks 1 = acked newLog := by
    obtain ⟨r1, r2, hE⟩ := stack_example
    cases hE with
    | cons f1 hE =>
    cases hE with
    | cons f2 hE =>
    refine ⟨fun k => if k = 0 then r1 else r2, fun k => if k = 0 then acked oldLog else acked newLog, fun k => ?_, rfl, rfl⟩
    dsimp only
    split
    · exact f1
    · exact f2
  refine ⟨reader, blocks, hF, ?_, ?_⟩
  · obtain ⟨n, hn⟩ := C81_progress 4 reader exampleCalls inTurn 1 (inTurn_fair 1 (by omega))
    refine ⟨n, ?_⟩
    have H := C81_written 4 reader blocks hF exampleCalls exampleCalls_open _ (inTurn_works n) 1
    generalize (((State.start reader exampleCalls).run 4 reader ((List.range n).map inTurn)).go 1).outs = outs at hn H ⊢
    match outs, hn, H with
    | [o1, o2], _, H =>
      obtain ⟨c1, h1, h2⟩ := H 0 o1 rfl
      obtain ⟨c2, h3, h4⟩ := H 1 o2 rfl
      cases h1
      cases h3
      cases o1 with
      | result a =>
        obtain ⟨a, rfl, h2⟩ := h2
        cases o2 with
        | result b =>
          obtain ⟨b, rfl, h5⟩ := h4 (.inr (.inr (.inl rfl)))
          rw [List.map_cons, List.map_cons, List.map_nil] at h2
          rw [e0, e1] at h2
          rw [e0] at h5
          dsimp only at h5
          rw [show (visible (allowedBy (none : Option IdSet)) [acked oldLog, acked newLog]).map Prod.snd = [30, -10, -1, 5, 6] from by decide] at h2
          rw [show selectedValues (none : Option IdSet) none (acked oldLog) = [30, -10, 20, -1] from by decide] at h5
          refine ⟨a, b, rfl, h2.count, ?_, h5.count, ?_⟩
          · rw [h2.sum]; decide
          · rw [h5.sum]; decide
        | _ => exact h4.elim
      | _ => exact h2.elim
  · obtain ⟨n, hn⟩ := C81_progress 4 reader exampleCalls inTurn 0 (inTurn_fair 0 (by omega))
    refine ⟨n, ?_⟩
    have H := C81_written 4 reader blocks hF exampleCalls exampleCalls_open _ (inTurn_works n) 0
    generalize (((State.start reader exampleCalls).run 4 reader ((List.range n).map inTurn)).go 0).outs = outs at hn H ⊢
    match outs, hn, H with
    | [o1, o2, o3], _, H =>
      obtain ⟨c1, h1, h2⟩ := H 0 o1 rfl
      obtain ⟨c2, h3, h4⟩ := H 1 o2 rfl
      obtain ⟨c3, h5, h6⟩ := H 2 o3 rfl
      cases h1
      cases h3
      cases h5
      cases o1 with
      | pairs p =>
        cases o2 with
        | done =>
          cases o3 with
          | pairs q =>
            have h2' : p = match (blocks 0)[(0 : UInt64).toNat]? with
              | some b => .ok b
              | none => .err .badBlockIndex := h2
            have h6' : q = match (blocks 1)[(7 : UInt64).toNat]? with
              | some b => .ok b
              | none => .err .badBlockIndex := h6
            rw [e0] at h2'
            rw [e1] at h6'
            rw [h2', h6']
            rfl
          | _ => exact h6.elim
        | _ => exact h4.elim
      | _ => exact h2.elim

end VibeCol.Goroutines
