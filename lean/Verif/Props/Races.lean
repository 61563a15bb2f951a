/-
C82: data races between goroutines that share readers.
-/
import Verif.Spec.Races
import Verif.Props.GoroutinesClose
namespace VibeCol.Goroutines
set_option linter.unusedSectionVars false
variable {B : Type} [Bitmap B]

/-- All accesses of `p` to fields are allowed by `acc`, if the fields have the values `ids` and `flag`. -/
def Within {α : Type} (acc : Field → Bool → Prop) (ids : Nat → Option B) (flag : Nat → Bool) : Prog B α → Prop
  | .ret _ => True
  | .readAt _ _ _ next => ∀ x, Within acc ids flag (next x)
  | .loadIDs k next => acc (.globalIDs k) false ∧ Within acc ids flag (next (ids k))
  | .storeIDs k _ next => acc (.globalIDs k) true ∧ Within acc ids flag next
  | .loadFlag k next => acc (.cacheGlobalIDs k) false ∧ Within acc ids flag (next (flag k))
  | .storeFlag k _ next => acc (.cacheGlobalIDs k) true ∧ Within acc ids flag next
  | .closeFile _ next => ∀ e, Within acc ids flag (next e)
  | .choose next => ∀ n, Within acc ids flag (next n)

variable {acc : Field → Bool → Prop} {ids : Nat → Option B} {flag : Nat → Bool}

theorem Within.ret {α : Type} (a : α) : Within acc ids flag (.ret a : Prog B α) := True.intro

theorem Within.andThen {α β : Type} {f : α → Prog B β} (hf : ∀ a, Within acc ids flag (f a)) : {p : Prog B α} →
    Within acc ids flag p → Within acc ids flag (p.andThen f)
  | .ret _, _ => hf _
  | .readAt _ _ _ _, h => fun x => Within.andThen hf (h x)
  | .loadIDs _ _, h => ⟨h.1, Within.andThen hf h.2⟩
  | .storeIDs _ _ _, h => ⟨h.1, Within.andThen hf h.2⟩
  | .loadFlag _ _, h => ⟨h.1, Within.andThen hf h.2⟩
  | .storeFlag _ _ _, h => ⟨h.1, Within.andThen hf h.2⟩
  | .closeFile _ _, h => fun e => Within.andThen hf (h e)
  | .choose _, h => fun n => Within.andThen hf (h n)

theorem Within.onOk {α β : Type} {f : α → Prog B (Res β)} (hf : ∀ a, Within acc ids flag (f a)) {p : Prog B (Res α)}
    (h : Within acc ids flag p) : Within acc ids flag (p.onOk f) :=
  Within.andThen (fun a => by
    cases a with
    | ok a => exact hf a
    | err e => exact True.intro
    | panic => exact True.intro) h

theorem readBytesAtG_within (k : Nat) (o n : Int64) : Within acc ids flag (readBytesAtG k o n) := by
  unfold readBytesAtG
  split
  · exact True.intro
  · exact fun _ => True.intro

theorem readBlockG_within (k : Nat) (r : Reader B) (i : Int64) : Within acc ids flag (readBlockG k r i) := by
  unfold readBlockG
  split
  · exact True.intro
  · split
    · exact True.intro
    · exact Within.onOk (fun _ => Within.ret _) (readBytesAtG_within ..)

theorem readBlockFilteredG_within (k : Nat) (r : Reader B) (i : Int64) (allow deny : Option B) :
    Within acc ids flag (readBlockFilteredG k r i allow deny) := by
  refine Within.onOk (fun a => ?_) (readBlockG_within k r i)
  obtain ⟨_, _⟩ := a
  dsimp only
  split <;> exact True.intro

theorem addBlockG_within {read : UInt64 → Prog B (Res (List UInt64 × List Int64))} (h : ∀ i, Within acc ids flag (read i))
    (i : UInt64) (a : Acc) : Within acc ids flag (addBlockG read i a) := by
  refine Within.andThen (fun x => ?_) (h i)
  cases x <;> exact True.intro

theorem sumBlocksG_within {add : UInt64 → Acc → Prog B (Res Acc)} (h : ∀ i a, Within acc ids flag (add i a)) :
    (is : List UInt64) → (a : Acc) → Within acc ids flag (sumBlocksG add is a)
  | [], _ => True.intro
  | i :: is, a => Within.onOk (fun a' => sumBlocksG_within h is a') (h i a)

theorem aggregateSequentialG_within (k : Nat) (r : Reader B) (o : AggregateOptions B) :
    Within acc ids flag (aggregateSequentialG k r o) := by
  unfold aggregateSequentialG
  split
  · refine Within.onOk (fun bs => ?_) (Within.ret _)
    split
    · exact True.intro
    · exact Within.onOk (fun _ => Within.ret _) (sumBlocksG_within (addBlockG_within fun i => readBlockFilteredG_within ..) _ _)
  · split
    · exact True.intro
    · exact Within.onOk (fun _ => Within.ret _) (sumBlocksG_within (addBlockG_within fun i => readBlockG_within ..) _ _)

theorem workersG_within {add : UInt64 → Acc → Prog B (Res Acc)} (h : ∀ i a, Within acc ids flag (add i a)) :
    (n : Nat) → (live : List (List UInt64 × Acc)) → (sent : List AggregateResult) → Within acc ids flag (workersG add n live sent)
  | 0, _, _ => True.intro
  | n + 1, live, sent => by
    unfold workersG
    split
    · exact True.intro
    · intro c
      dsimp only
      split
      · exact True.intro
      · exact workersG_within h n _ _
      · exact Within.onOk (fun a' => workersG_within h n _ _) (h _ _)

theorem aggregateParallelWithG_within {add : UInt64 → Acc → Prog B (Res Acc)} (h : ∀ i a, Within acc ids flag (add i a))
    (bs : List UInt64) (n : Nat) : Within acc ids flag (aggregateParallelWithG add bs n) :=
  Within.onOk (fun _ => Within.ret _) (workersG_within h _ _ _)

theorem addEntryG_within (r : Reader B) (i : UInt64) (a : Acc) : Within acc ids flag (addEntryG r i a) := by
  unfold addEntryG
  split <;> exact True.intro

theorem aggregateWithOptionsG_within (g : Int) (k : Nat) (r : Reader B) (o : AggregateOptions B) :
    Within acc ids flag (aggregateWithOptionsG g k r o) := by
  unfold aggregateWithOptionsG
  split
  · unfold aggregateParallelG
    dsimp only
    generalize (if (if o.parallel < 0 then g else o.parallel) > r.header.blockCount.toInt64.toInt then
      r.header.blockCount.toInt64.toInt else if o.parallel < 0 then g else o.parallel) = numWorkers
    split
    · exact aggregateSequentialG_within _ _ _
    · refine Within.onOk (fun bs => ?_) (Within.ret _)
      split
      · exact True.intro
      · split
        · exact aggregateParallelWithG_within (addEntryG_within r) _ _
        · refine aggregateParallelWithG_within (addBlockG_within fun i => ?_) _ _
          split
          · exact readBlockFilteredG_within ..
          · exact readBlockG_within ..
  · exact aggregateSequentialG_within _ _ _

/-- Only reads. -/
def readOnly (_ : Field) (write : Bool) : Prop := write = false

theorem rememberG_within (k : Nat) (b : B) (h : flag k = false) : Within readOnly ids flag (rememberG k b) := by
  refine ⟨rfl, ?_⟩
  dsimp only
  rw [h]
  exact True.intro

theorem getGlobalIDBitmapG_within (k : Nat) (r : Reader B) (h : flag k = false ∨ (ids k).isSome) :
    Within readOnly ids flag (getGlobalIDBitmapG k r) := by
  have hload : flag k = false → Within readOnly ids flag (loadBitmapG k r) := by
    intro hf
    unfold loadBitmapG
    split
    · exact rememberG_within k _ hf
    · exact Within.onOk (fun _ => Within.onOk (fun _ => rememberG_within k _ hf) (readBytesAtG_within ..)) (readBytesAtG_within ..)
  refine ⟨rfl, ?_⟩
  cases hids : ids k with
  | none =>
    rw [hids] at h
    exact hload (h.resolve_right nofun)
  | some b =>
    refine ⟨rfl, ?_⟩
    cases hf : flag k with
    | false => exact hload hf
    | true => exact ⟨rfl, True.intro⟩

theorem multiLoopG_within (g : Int) (skip : Bool) (filter : Option B) (h : ∀ k, flag k = false ∨ (ids k).isSome) :
    (rs : List (Nat × Reader B)) → (deny : B) → (result : AggregateResult) → Within readOnly ids flag (multiLoopG g skip filter rs deny result)
  | [], _, _ => True.intro
  | (k, r) :: rest, deny, result => by
    unfold multiLoopG
    refine Within.onOk (fun a => Within.onOk (fun b => ?_) (getGlobalIDBitmapG_within k r (h k))) (aggregateWithOptionsG_within ..)
    cases b with
    | none => exact True.intro
    | some b => exact multiLoopG_within g skip filter h rest _ _

/-- Calls that touch no field: all but those about bitmaps. -/
def Untouching : Call B → Prop
  | .getPairs _ _ => True
  | .aggregate _ _ => True
  | .close _ => True
  | _ => False

theorem untouching_within (g : Int) (reader : Nat → Reader B) {call : Call B} (h : Untouching call) :
    Within acc ids flag (call.prog g reader) := by
  cases call with
  | getPairs k i => exact Within.andThen (fun _ => Within.ret _) (readBlockG_within ..)
  | aggregate k o => exact Within.andThen (fun _ => Within.ret _) (aggregateWithOptionsG_within ..)
  | close k => exact fun _ => True.intro
  | _ => exact h.elim

theorem call_within (g : Int) (reader : Nat → Reader B) (h : ∀ k, flag k = false ∨ (ids k).isSome) {call : Call B}
    (hc : ∀ k, call ≠ .enable k) : Within readOnly ids flag (call.prog g reader) := by
  cases call with
  | getPairs k i => exact untouching_within g reader True.intro
  | aggregate k o => exact untouching_within g reader True.intro
  | close k => exact untouching_within g reader True.intro
  | enable k => exact absurd rfl (hc k)
  | getBitmap k => exact Within.andThen (fun _ => Within.ret _) (getGlobalIDBitmapG_within k _ (h k))
  | multi ks skip filter =>
    refine Within.andThen (fun _ => Within.ret _) ?_
    unfold multiAggregateG
    split
    · exact True.intro
    · exact multiLoopG_within g skip filter h _ _ _

/-- An access keeps a program within its bounds. -/
theorem Within.step {p : Prog B (Out B)} {c : Choice} {s : Shared B} (h : Within acc ids flag p)
    (h1 : (∃ f w, acc f w) → s.globalIDs = ids ∧ s.cacheGlobalIDs = flag) : Within acc ids flag (p.step c s).2 := by
  cases p with
  | ret a => exact True.intro
  | readAt k o n next => exact h _
  | loadIDs k next => rw [show ((Prog.loadIDs k next).step c s).2 = next (s.globalIDs k) from rfl, (h1 ⟨_, _, h.1⟩).1]; exact h.2
  | storeIDs k v next => exact h.2
  | loadFlag k next => rw [show ((Prog.loadFlag k next).step c s).2 = next (s.cacheGlobalIDs k) from rfl, (h1 ⟨_, _, h.1⟩).2]; exact h.2
  | storeFlag k v next => exact h.2
  | closeFile k next => exact h _
  | choose next => exact h _

theorem Within.next {α : Type} {p : Prog B α} {f : Field} {w : Bool} (h : Within acc ids flag p) (hn : p.next = some (f, w)) : acc f w := by
  cases p <;> simp only [Prog.next, Option.some.injEq, Prod.mk.injEq, reduceCtorEq] at hn
  all_goals
    obtain ⟨rfl, rfl⟩ := hn
    exact h.1

variable {g : Int} {reader : Nat → Reader B} {calls : Nat → List (Call B)} {st : State B}

/-! ### No race -/

/-- Nothing is written and every goroutine only reads. -/
theorem free_run (h : ∀ k, (reader k).cacheGlobalIDs = false ∨ (reader k).globalIDs.isSome) (hc : ∀ i k, .enable k ∉ calls i)
    (cs : List Choice) :
    let st := (State.start reader calls).run g reader cs
    (st.shared.globalIDs = fun k => (reader k).globalIDs) ∧ (st.shared.cacheGlobalIDs = fun k => (reader k).cacheGlobalIDs) ∧
      ∀ i, (∀ k, .enable k ∉ (st.go i).todo) ∧ ∀ p, (st.go i).current = some p →
        Within readOnly (fun k => (reader k).globalIDs) (fun k => (reader k).cacheGlobalIDs) p := by
  suffices H : ∀ st : State B, (st.shared.globalIDs = fun k => (reader k).globalIDs) ∧
      (st.shared.cacheGlobalIDs = fun k => (reader k).cacheGlobalIDs) ∧
      (∀ i, (∀ k, .enable k ∉ (st.go i).todo) ∧ ∀ p, (st.go i).current = some p →
        Within readOnly (fun k => (reader k).globalIDs) (fun k => (reader k).cacheGlobalIDs) p) →
      ((st.run g reader cs).shared.globalIDs = fun k => (reader k).globalIDs) ∧
      ((st.run g reader cs).shared.cacheGlobalIDs = fun k => (reader k).cacheGlobalIDs) ∧
      (∀ i, (∀ k, .enable k ∉ ((st.run g reader cs).go i).todo) ∧ ∀ p, ((st.run g reader cs).go i).current = some p →
        Within readOnly (fun k => (reader k).globalIDs) (fun k => (reader k).cacheGlobalIDs) p) from
    H _ ⟨rfl, rfl, fun i => ⟨hc i, nofun⟩⟩
  induction cs with
  | nil => exact fun _ H => H
  | cons c cs ih =>
    intro st H
    refine ih (st.step g reader c) ?_
    obtain ⟨h1, h2, h3⟩ := H
    have move : ∀ (s : Shared B) (t : Goroutine B), s.globalIDs = st.shared.globalIDs → s.cacheGlobalIDs = st.shared.cacheGlobalIDs →
        (∀ k, .enable k ∉ t.todo) → (∀ p, t.current = some p →
          Within readOnly (fun k => (reader k).globalIDs) (fun k => (reader k).cacheGlobalIDs) p) →
        (s.globalIDs = fun k => (reader k).globalIDs) ∧ (s.cacheGlobalIDs = fun k => (reader k).cacheGlobalIDs) ∧
        ∀ i, (∀ k, .enable k ∉ (upd st.go c.thread t i).todo) ∧ ∀ p, (upd st.go c.thread t i).current = some p →
          Within readOnly (fun k => (reader k).globalIDs) (fun k => (reader k).cacheGlobalIDs) p := by
      intro s t e1 e2 h4 h5
      refine ⟨e1.trans h1, e2.trans h2, fun i => ?_⟩
      by_cases hi : i = c.thread
      · rw [hi, upd_same]; exact ⟨h4, h5⟩
      · rw [upd_other _ _ hi]; exact h3 i
    obtain ⟨h4, h5⟩ := h3 c.thread
    cases hcur : (st.go c.thread).current with
    | none =>
      cases ht : (st.go c.thread).todo with
      | nil => rw [step_done hcur ht]; exact ⟨h1, h2, h3⟩
      | cons call rest =>
        rw [step_begin hcur ht]
        rw [ht] at h4
        refine move _ _ rfl rfl (fun k hk => h4 k (List.mem_cons_of_mem _ hk)) (fun p hp => ?_)
        cases hp
        exact call_within g reader h (fun k hk => h4 k (by rw [hk]; exact List.mem_cons_self))
    | some p =>
      by_cases hret : ∃ out, p = .ret out
      · obtain ⟨out, rfl⟩ := hret
        rw [step_ret hcur]
        exact move _ _ rfl rfl h4 nofun
      · rw [step_access hcur (fun out ho => hret ⟨out, ho⟩)]
        have hw := h5 p hcur
        have hs : (p.step c st.shared).1.globalIDs = st.shared.globalIDs ∧ (p.step c st.shared).1.cacheGlobalIDs = st.shared.cacheGlobalIDs := by
          cases p with
          | storeIDs k v next => exact absurd hw.1 nofun
          | storeFlag k v next => exact absurd hw.1 nofun
          | _ => exact ⟨rfl, rfl⟩
        refine move _ _ hs.1 hs.2 h4 (fun q hq => ?_)
        cases hq
        exact hw.step fun _ => ⟨h1, h2⟩

/-- **C82.** Goroutines share readers, of each of which caching is off or the bitmap is in the cache when they start, and none
of them calls `EnableGlobalIDBitmapCaching`. Whatever else they call and whatever the schedule, no goroutine ever writes a field,
so there is no data race. -/
theorem C82_free (gomaxprocs : Int) (reader : Nat → Reader B)
    (h : ∀ k, (reader k).cacheGlobalIDs = false ∨ (reader k).globalIDs.isSome) (calls : Nat → List (Call B))
    (hc : ∀ i k, .enable k ∉ calls i) (cs : List Choice) :
    (∀ i f, ¬ About ((State.start reader calls).run gomaxprocs reader cs) i f true) ∧
      ¬ DataRace ((State.start reader calls).run gomaxprocs reader cs) := by
  obtain ⟨_, _, h3⟩ := free_run (g := gomaxprocs) h hc cs
  have key : ∀ i f, ¬ About ((State.start reader calls).run gomaxprocs reader cs) i f true := by
    rintro i f ⟨p, h4, h5⟩
    exact absurd (((h3 i).2 p h4).next h5) nofun
  refine ⟨key, ?_⟩
  rintro ⟨i, j, f, v, w, _, h4, h5, rfl | rfl⟩
  · exact key i f h4
  · exact key j f h5

/-- No access to any field. -/
def never (_ : Field) (_ : Bool) : Prop := False

/-- The goroutine accesses no field in a call that has nothing to do with bitmaps. -/
def PrivateGo (cs : List (Call B)) (t : Goroutine B) : Prop :=
  t.todo = cs.drop (begun t) ∧ ∀ p call, t.current = some p → cs[t.outs.length]? = some call → Untouching call →
    Within never (fun _ => none) (fun _ => false) p

theorem private_run (cs : List Choice) : {st : State B} → (∀ i, PrivateGo (calls i) (st.go i)) →
    ∀ i, PrivateGo (calls i) ((st.run g reader cs).go i) := by
  induction cs with
  | nil => exact fun H => H
  | cons c cs ih =>
    intro st H
    refine ih (st := st.step g reader c) ?_
    have move : ∀ (t : Goroutine B), PrivateGo (calls c.thread) t → ∀ i, PrivateGo (calls i) (upd st.go c.thread t i) := by
      intro t ht i
      by_cases hi : i = c.thread
      · rw [hi, upd_same]; exact ht
      · rw [upd_other _ _ hi]; exact H i
    obtain ⟨h1, h2⟩ := H c.thread
    unfold begun at h1
    cases hcur : (st.go c.thread).current with
    | none =>
      rw [hcur] at h1
      dsimp only at h1
      cases ht : (st.go c.thread).todo with
      | nil => rw [step_done hcur ht]; exact H
      | cons call rest =>
        rw [step_begin hcur ht]
        rw [ht] at h1
        obtain ⟨h3, h4⟩ := drop_cons h1
        refine move _ ⟨h4, fun p call' hp hcall hu => ?_⟩
        dsimp only at hp hcall
        cases hp
        rw [h3] at hcall
        cases hcall
        exact untouching_within g reader hu
    | some p =>
      rw [hcur] at h1
      dsimp only at h1
      by_cases hret : ∃ out, p = .ret out
      · obtain ⟨out, rfl⟩ := hret
        rw [step_ret hcur]
        refine move _ ⟨?_, nofun⟩
        show (st.go c.thread).todo = (calls c.thread).drop ((st.go c.thread).outs ++ [out]).length
        rw [h1, List.length_append]
        rfl
      · rw [step_access hcur (fun out ho => hret ⟨out, ho⟩)]
        refine move _ ⟨h1, fun q call hq hcall hu => ?_⟩
        cases hq
        exact (h2 p call hcur hcall hu).step fun ⟨_, _, h⟩ => h.elim

/-- **C82.** A goroutine that is in a call of `GetPairs`, `AggregateWithOptions` or `Close` accesses none of the fields that
anybody writes, so such a call takes part in no data race, whatever the other goroutines call. -/
theorem C82_untouched (gomaxprocs : Int) (reader : Nat → Reader B) (calls : Nat → List (Call B)) (cs : List Choice) (i : Nat)
    (call : Call B) (hcall : (calls i)[(((State.start reader calls).run gomaxprocs reader cs).go i).outs.length]? = some call)
    (hkind : (∃ k b, call = .getPairs k b) ∨ (∃ k o, call = .aggregate k o) ∨ ∃ k, call = .close k) (f : Field) (write : Bool) :
    ¬ About ((State.start reader calls).run gomaxprocs reader cs) i f write := by
  rintro ⟨p, h1, h2⟩
  obtain ⟨_, h3⟩ := private_run (g := gomaxprocs) (reader := reader) cs (st := State.start reader calls) (calls := calls)
    (fun i => ⟨rfl, nofun⟩) i
  refine (h3 p call h1 hcall ?_).next h2
  rcases hkind with ⟨k, b, rfl⟩ | ⟨k, o, rfl⟩ | ⟨k, rfl⟩ <;> exact True.intro

/-! ### Races -/

/-- The first goroutine can get to `q` alone, without changing anything that is shared. -/
def Gets (g : Int) (reader : Nat → Reader B) (calls : Nat → List (Call B)) (q : Prog B (Out B)) : Prop :=
  ∃ cs, ((State.start reader calls).run g reader cs).shared = (State.start reader calls).shared ∧
    (((State.start reader calls).run g reader cs).go 0).current = some q ∧
    ((State.start reader calls).run g reader cs).go 1 = ⟨none, calls 1, []⟩

theorem Gets.start {call : Call B} (h : (calls 0).head? = some call) : Gets g reader calls (call.prog g reader) := by
  obtain ⟨rest, hr⟩ : ∃ rest, calls 0 = call :: rest := by
    cases hc : calls 0 with
    | nil => rw [hc] at h; cases h
    | cons x xs => rw [hc] at h; cases h; exact ⟨xs, rfl⟩
  refine ⟨[⟨0, false, 0⟩], ?_⟩
  have e : (State.start reader calls).run g reader [⟨0, false, 0⟩] = _ :=
    step_begin (st := State.start reader calls) (g := g) (reader := reader) (c := ⟨0, false, 0⟩) (call := call) (rest := rest) rfl hr
  rw [e]
  exact ⟨rfl, by dsimp only; rw [upd_same], by dsimp only; rw [upd_other _ _ (by decide)]; rfl⟩

theorem Gets.step {p q : Prog B (Out B)} (h : Gets g reader calls p) (hp : ∀ out, p ≠ .ret out)
    (hq : p.step ⟨0, false, 0⟩ (State.start reader calls).shared = ((State.start reader calls).shared, q)) : Gets g reader calls q := by
  obtain ⟨cs, h1, h2, h3⟩ := h
  refine ⟨cs ++ [⟨0, false, 0⟩], ?_⟩
  rw [run_append]
  generalize (State.start reader calls).run g reader cs = st at *
  have e : st.run g reader [⟨0, false, 0⟩] = _ :=
    step_access (g := g) (reader := reader) (st := st) (c := ⟨0, false, 0⟩) (p := p) h2 hp
  rw [e, h1, hq]
  exact ⟨rfl, by dsimp only; rw [upd_same], by dsimp only; rw [upd_other _ _ (by decide)]; exact h3⟩

/-- **C82, the condition is needed.** If caching is on and the bitmap can be read but is not yet in the cache, two goroutines that
call `GetGlobalIDBitmap` can come to a data race: one is about to write the field that the other one is about to read. -/
theorem C82_race (gomaxprocs : Int) (reader : Nat → Reader B) (h1 : (reader 0).cacheGlobalIDs = true)
    (h2 : (reader 0).globalIDs = none) (b : B) (h3 : (getGlobalIDBitmap (reader 0)).1 = .ok b) (calls : Nat → List (Call B))
    (hc0 : (calls 0).head? = some (.getBitmap 0)) (hc1 : (calls 1).head? = some (.getBitmap 0)) :
    ∃ cs, DataRace ((State.start reader calls).run gomaxprocs reader cs) := by
  have hids : (State.start reader calls).shared.globalIDs 0 = none := h2
  have hflag : (State.start reader calls).shared.cacheGlobalIDs 0 = true := h1
  have hb : (State.start reader calls).shared.bytes 0 = (reader 0).bytes := rfl
  -- the first goroutine gets to its write
  have hget : ∃ v next, Gets gomaxprocs reader calls (.storeIDs 0 v next) := by
    have g0 : Gets gomaxprocs reader calls ((getGlobalIDBitmapG 0 (reader 0)).andThen fun b => .ret (.bitmap b)) := Gets.start hc0
    have g1 : Gets gomaxprocs reader calls ((loadBitmapG 0 (reader 0)).andThen fun b => .ret (.bitmap b)) := by
      refine g0.step nofun ?_
      show (_, Prog.andThen (match (State.start reader calls).shared.globalIDs 0 with
        | none => loadBitmapG 0 (reader 0)
        | some _ => _) _) = _
      rw [hids]
    have remember : ∀ b, Gets gomaxprocs reader calls ((rememberG 0 b).andThen fun b => .ret (.bitmap b)) →
        ∃ v next, Gets gomaxprocs reader calls (.storeIDs 0 v next) := by
      intro b hg
      refine ⟨some b, .ret (.bitmap (.ok (some b))), hg.step nofun ?_⟩
      show (_, Prog.andThen (if (State.start reader calls).shared.cacheGlobalIDs 0 then _ else _) _) = _
      rw [hflag]
      rfl
    unfold getGlobalIDBitmap at h3
    rw [h2] at h3
    dsimp only at h3
    unfold loadBitmapG at g1
    by_cases hoff : (reader 0).header.bitmapOffset = 0 ∨ (reader 0).header.bitmapSize = 0
    · rw [if_pos hoff] at g1
      exact remember _ g1
    · rw [if_neg hoff] at g1
      rw [if_neg hoff] at h3
      have rd : ∀ o n, readBytesAtIO false (reader 0).bytes o n = readBytesAt (reader 0).bytes o n := readBytesAtIO_false _
      cases hr1 : readBytesAt (reader 0).bytes (reader 0).header.bitmapOffset.toInt64 4 with
      | err e => rw [hr1] at h3; cases h3
      | panic => rw [hr1] at h3; cases h3
      | ok sizeBuf =>
        rw [hr1] at h3
        dsimp only at h3
        cases hr2 : readBytesAt (reader 0).bytes ((reader 0).header.bitmapOffset.toInt64 + 4) (Int64.ofNat (rd32 sizeBuf 0).toNat) with
        | err e => rw [hr2] at h3; cases h3
        | panic => rw [hr2] at h3; cases h3
        | ok bitmapBuf =>
          have hneg : ¬ Int64.ofNat (rd32 sizeBuf 0).toNat < 0 := by
            intro hn
            rw [readBytesAt, if_pos hn] at hr2
            cases hr2
          have read : ∀ (o n : Int64) (next : Res Bytes → Prog B (Out B)),
              (Prog.readAt 0 o n next).step ⟨0, false, 0⟩ (State.start reader calls).shared
                = ((State.start reader calls).shared, next (readBytesAt (reader 0).bytes o n)) := by
            intro o n next
            show (_, next (readBytesAtIO (!true || false) (reader 0).bytes o n)) = _
            rw [show (!true || false) = false from rfl, readBytesAtIO_false]
          unfold readBytesAtG at g1
          rw [if_neg (by decide : ¬ (4 : Int64) < 0)] at g1
          have g2 := Gets.step g1 nofun (read _ _ _)
          rw [hr1] at g2
          dsimp only [Prog.andThen] at g2
          rw [if_neg hneg] at g2
          have g3 := Gets.step g2 nofun (read _ _ _)
          rw [hr2] at g3
          exact remember _ g3
  obtain ⟨v, next, cs, h4, h5, h6⟩ := hget
  obtain ⟨rest, hr⟩ : ∃ rest, calls 1 = .getBitmap 0 :: rest := by
    cases hc : calls 1 with
    | nil => rw [hc] at hc1; cases hc1
    | cons x xs => rw [hc] at hc1; cases hc1; exact ⟨xs, rfl⟩
  refine ⟨cs ++ [⟨1, false, 0⟩], ?_⟩
  rw [run_append]
  generalize (State.start reader calls).run gomaxprocs reader cs = st at *
  have e : st.run gomaxprocs reader [⟨1, false, 0⟩] = _ :=
    step_begin (st := st) (g := gomaxprocs) (reader := reader) (c := ⟨1, false, 0⟩) (call := .getBitmap 0) (rest := rest)
      (by rw [h6]) (by rw [h6]; exact hr)
  rw [e]
  refine ⟨0, 1, .globalIDs 0, true, false, by decide, ⟨.storeIDs 0 v next, ?_, rfl⟩, ⟨(Call.getBitmap 0).prog gomaxprocs reader, ?_, rfl⟩, .inl rfl⟩
  · dsimp only
    rw [upd_other _ _ (by decide)]
    exact h5
  · dsimp only
    rw [upd_same]

/-- **C82, the other condition is needed.** Two goroutines that enable caching of the same reader can come to a data race. -/
theorem C82_raceEnable (gomaxprocs : Int) (reader : Nat → Reader B) (calls : Nat → List (Call B)) (k : Nat)
    (hc0 : (calls 0).head? = some (.enable k)) (hc1 : (calls 1).head? = some (.enable k)) :
    ∃ cs, DataRace ((State.start reader calls).run gomaxprocs reader cs) := by
  obtain ⟨cs, -, h5, h6⟩ := Gets.start (g := gomaxprocs) (reader := reader) hc0
  obtain ⟨rest, hr⟩ : ∃ rest, calls 1 = .enable k :: rest := by
    cases hc : calls 1 with
    | nil => rw [hc] at hc1; cases hc1
    | cons x xs => rw [hc] at hc1; cases hc1; exact ⟨xs, rfl⟩
  refine ⟨cs ++ [⟨1, false, 0⟩], ?_⟩
  rw [run_append]
  generalize (State.start reader calls).run gomaxprocs reader cs = st at *
  have e : st.run gomaxprocs reader [⟨1, false, 0⟩] = _ :=
    step_begin (st := st) (g := gomaxprocs) (reader := reader) (c := ⟨1, false, 0⟩) (call := .enable k) (rest := rest)
      (by rw [h6]) (by rw [h6]; exact hr)
  rw [e]
  refine ⟨0, 1, .cacheGlobalIDs k, true, true, by decide, ⟨(Call.enable k).prog gomaxprocs reader, ?_, rfl⟩,
    ⟨(Call.enable k).prog gomaxprocs reader, ?_, rfl⟩, .inl rfl⟩
  · dsimp only
    rw [upd_other _ _ (by decide)]
    exact h5
  · dsimp only
    rw [upd_same]

/-! ### Readers that are free of races -/

/-- **C82.** If all readers are as `NewReader` returned them, of whatever files, and nobody enables caching, nothing races. -/
theorem C82_opened (gomaxprocs : Int) (file : Nat → Bytes) (reader : Nat → Reader B) (h : ∀ k, newReader (file k) = .ok (reader k))
    (calls : Nat → List (Call B)) (hc : ∀ i k, .enable k ∉ calls i) (cs : List Choice) :
    ¬ DataRace ((State.start reader calls).run gomaxprocs reader cs) :=
  (C82_free gomaxprocs reader (fun k => .inl (newReader_fresh (h k)).2) calls hc cs).2

/-- **C82.** If caching is enabled and the bitmap of each reader got once before the goroutines start, nothing races. -/
theorem C82_warm (gomaxprocs : Int) (r reader : Nat → Reader B) (b : Nat → B)
    (h : ∀ k, getGlobalIDBitmap (enableCaching (r k)) = (.ok (b k), reader k))
    (calls : Nat → List (Call B)) (hc : ∀ i k, .enable k ∉ calls i) (cs : List Choice) :
    ¬ DataRace ((State.start reader calls).run gomaxprocs reader cs) := by
  refine (C82_free gomaxprocs reader (fun k => .inr ?_) calls hc cs).2
  have hk := h k
  generalize reader k = r' at hk ⊢
  generalize b k = b' at hk
  unfold enableCaching getGlobalIDBitmap at hk
  dsimp only at hk
  split at hk
  · next x e1 e2 => cases hk; dsimp only; rw [e1]; rfl
  · split at hk
    · cases hk; rfl
    · split at hk
      · cases hk
      · cases hk
      · split at hk
        · cases hk
        · cases hk
        · cases hk; rfl

/-- Three goroutines that use both readers of `stack_example` and enable nothing. -/
def quietCalls : Nat → List (Call IdSet)
  | 0 => [.getBitmap 0, .getPairs 0 0]
  | 1 => [.getBitmap 0, .multi [0, 1] false none]
  | 2 => [.aggregate 0 { skipPreCalculated := true, parallel := 2 }, .close 0]
  | _ => []

/-- Non-vacuity of C82: the same goroutines race with each other if caching has just been enabled, and do not race in any schedule
if it has not, or if the bitmaps have been got since. -/
theorem C82_example : ∃ r : Nat → Reader IdSet, FileWith IdSet (r 0) (acked oldLog) ∧
    (∀ cs, ¬ DataRace ((State.start r quietCalls).run 4 r cs)) ∧
    (∃ cs, DataRace ((State.start (fun k => enableCaching (r k)) quietCalls).run 4
      (fun k => enableCaching (r k)) cs)) ∧
    ∃ warm : Nat → Reader IdSet, (∀ k, warm k = (getGlobalIDBitmap (enableCaching (r k))).2) ∧
      ∀ cs, ¬ DataRace ((State.start warm quietCalls).run 4 warm cs) := by
  obtain ⟨r1, r2, hE⟩ := stack_example
  cases hE with
  | cons f1 hE =>
  have hq : ∀ i k, Call.enable k ∉ quietCalls i := by
    intro i k h
    unfold quietCalls at h
    split at h <;> simp at h
  obtain ⟨env, opts, log, file, hf, henc, hr, hlog⟩ := f1.opened
  have hb : ∃ b, (getGlobalIDBitmap (enableCaching r1)).1 = .ok b := by
    obtain ⟨g, hg, -⟩ := (f1.provides inOrder inOrder_fair false none (⟨[]⟩ : IdSet)).2
    refine ⟨g, ?_⟩
    rw [← hg]
    have hn := (newReader_fresh hr).1
    unfold enableCaching getGlobalIDBitmap
    rw [hn]
    dsimp only
    split
    · rfl
    · cases readBytesAt r1.bytes r1.header.bitmapOffset.toInt64 4 with
      | ok s => dsimp only; cases readBytesAt r1.bytes (r1.header.bitmapOffset.toInt64 + 4) (Int64.ofNat (rd32 s 0).toNat) <;> rfl
      | err e => rfl
      | panic => rfl
  obtain ⟨b, hb⟩ := hb
  refine ⟨fun _ => r1, f1, C82_opened 4 (fun _ => file) _ (fun _ => hr) _ hq, ?_, ?_⟩
  · exact C82_race 4 _ rfl (newReader_fresh hr).1 b hb _ rfl rfl
  · exact ⟨fun _ => (getGlobalIDBitmap (enableCaching r1)).2, fun _ => rfl,
      C82_warm 4 (fun _ => r1) _ (fun _ => b) (fun _ => Prod.ext hb rfl) _ hq⟩

end VibeCol.Goroutines
