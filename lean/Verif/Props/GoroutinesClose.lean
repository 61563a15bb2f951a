/-
C81, closing readers that goroutines share.
-/
import Verif.Props.Goroutines
namespace VibeCol.Goroutines
set_option linter.unusedSectionVars false
variable {B : Type} [Bitmap B] {g : Int} {reader : Nat → Reader B} {calls : Nat → List (Call B)} {st : State B}

/-! ### Closing -/

/-- What the calls of a goroutine have returned, the one that is just returning included. -/
def said (t : Goroutine B) : List (Out B) :=
  t.outs ++ (match t.current with
    | some (.ret out) => [out]
    | _ => [])

/-- The goroutine is in the call that follows those that have returned. -/
def ShapeOK (cs : List (Call B)) (t : Goroutine B) : Prop :=
  match t.current with
  | none => t.todo = cs.drop t.outs.length
  | some p => t.todo = cs.drop (t.outs.length + 1) ∧
      ∀ k, cs[t.outs.length]? = some (.close k) → p = .closeFile k (fun e => .ret (.closed e)) ∨ ∃ e, p = .ret (.closed e)

/-- A call of `Close` has closed the file if it has anything to return, and only one of them has nil to return. -/
structure CloseInv (calls : Nat → List (Call B)) (st : State B) : Prop where
  shape : ∀ i, ShapeOK (calls i) (st.go i)
  shut : ∀ (i n k : Nat) e, (calls i)[n]? = some (.close k) → (said (st.go i))[n]? = some (.closed e) → st.shared.isOpen k = false
  once : ∀ (i n j m k : Nat), (calls i)[n]? = some (.close k) → (said (st.go i))[n]? = some (.closed (.ok ())) →
    (calls j)[m]? = some (.close k) → (said (st.go j))[m]? = some (.closed (.ok ())) → i = j ∧ n = m

theorem said_none {t : Goroutine B} (h : t.current = none) : said t = t.outs := by
  unfold said
  rw [h]
  exact List.append_nil _

theorem said_ret {t : Goroutine B} {out : Out B} (h : t.current = some (.ret out)) : said t = t.outs ++ [out] := by
  unfold said
  rw [h]

theorem said_length (t : Goroutine B) : (said t).length ≤ t.outs.length + 1 := by
  unfold said
  rw [List.length_append]
  split <;> simp

theorem said_old {t : Goroutine B} {n : Nat} (h : n < t.outs.length) : (said t)[n]? = t.outs[n]? := by
  unfold said
  rw [List.getElem?_append_left h]

/-- No access opens a file. -/
theorem step_isOpen (p : Prog B (Out B)) (c : Choice) (s : Shared B) (k : Nat) (h : s.isOpen k = false) :
    (p.step c s).1.isOpen k = false := by
  cases p with
  | closeFile j f =>
    show upd s.isOpen j false k = false
    unfold upd
    split
    · rfl
    · exact h
  | _ => exact h

theorem drop_cons {α : Type} {l : List α} {n : Nat} {x : α} {rest : List α} (h : x :: rest = l.drop n) :
    l[n]? = some x ∧ rest = l.drop (n + 1) := by
  constructor
  · rw [← List.head?_drop, ← h]; rfl
  · rw [← List.drop_drop, ← h]; rfl

/-- A step that changes nothing of what was said keeps the invariant. -/
theorem CloseInv.quiet (H : CloseInv calls st) {i : Nat} {t : Goroutine B} {s : Shared B}
    (ho : ∀ k, st.shared.isOpen k = false → s.isOpen k = false)
    (hsaid : ∀ (n k : Nat), (calls i)[n]? = some (.close k) → (said t)[n]? = (said (st.go i))[n]?) (ht : ShapeOK (calls i) t) :
    CloseInv calls ⟨s, upd st.go i t⟩ := by
  have key : ∀ (j n k : Nat), (calls j)[n]? = some (.close k) → (said (upd st.go i t j))[n]? = (said (st.go j))[n]? := by
    intro j n k hk
    by_cases hj : j = i
    · subst hj
      rw [upd_same]
      exact hsaid n k hk
    · rw [upd_other _ _ hj]
  refine ⟨fun j => ?_, fun j n k e h1 h2 => ?_, fun j n l m k h1 h2 h3 h4 => ?_⟩
  · show ShapeOK (calls j) (upd st.go i t j)
    by_cases hj : j = i
    · subst hj
      rw [upd_same]
      exact ht
    · rw [upd_other _ _ hj]
      exact H.shape j
  · change (said (upd st.go i t j))[n]? = _ at h2
    rw [key j n k h1] at h2
    exact ho k (H.shut j n k e h1 h2)
  · change (said (upd st.go i t j))[n]? = _ at h2
    change (said (upd st.go i t l))[m]? = _ at h4
    rw [key j n k h1] at h2
    rw [key l m k h3] at h4
    exact H.once j n l m k h1 h2 h3 h4

theorem CloseInv.step (H : CloseInv calls st) (c : Choice) : CloseInv calls (st.step g reader c) := by
  have hshape := H.shape c.thread
  cases hc : (st.go c.thread).current with
  | none =>
    unfold ShapeOK at hshape
    rw [hc] at hshape
    dsimp only at hshape
    cases ht : (st.go c.thread).todo with
    | nil => rw [step_done hc ht]; exact H
    | cons call rest =>
      rw [step_begin hc ht]
      rw [ht] at hshape
      obtain ⟨h1, h2⟩ := drop_cons hshape
      refine H.quiet (fun _ h => h) ?_ ⟨h2, fun k hk => ?_⟩
      · intro n k hk
        rw [said_none hc]
        by_cases hn : n = (st.go c.thread).outs.length
        · rw [hn, h1] at hk
          cases hk
          rw [hn]
          show (List.append _ [])[_]? = _
          simp
        · unfold said
          dsimp only
          by_cases hlt : n < (st.go c.thread).outs.length
          · rw [List.getElem?_append_left hlt]
          · rw [List.getElem?_eq_none (l := (st.go c.thread).outs) (by omega), List.getElem?_eq_none]
            rw [List.length_append]
            split <;> simp <;> omega
      · dsimp only at hk
        rw [h1] at hk
        cases hk
        exact .inl rfl
  | some p =>
    unfold ShapeOK at hshape
    rw [hc] at hshape
    dsimp only at hshape
    obtain ⟨h1, h2⟩ := hshape
    by_cases hret : ∃ out, p = .ret out
    · obtain ⟨out, rfl⟩ := hret
      rw [step_ret hc]
      refine H.quiet (fun _ h => h) (fun n k hk => ?_) ?_
      · rw [said_ret hc]
        rw [said_none rfl]
      · show (st.go c.thread).todo = _
        rw [h1]
        simp
    · have hp : ∀ out, p ≠ .ret out := fun out ho => hret ⟨out, ho⟩
      rw [step_access hc hp]
      by_cases hclose : ∃ k, (calls c.thread)[(st.go c.thread).outs.length]? = some (.close k)
      · obtain ⟨k, hk⟩ := hclose
        have hpk : p = .closeFile k (fun e => .ret (.closed e)) := by
          rcases h2 k hk with h | ⟨e, h⟩
          · exact h
          · exact absurd h (hp _)
        subst hpk
        -- the file is closed now, and at most one call has returned nil
        generalize hres : (if st.shared.isOpen k ∧ c.fails = false then (.ok () : Except Err Unit) else .error .io) = res
        have e1 : ((Prog.closeFile k (fun e => .ret (.closed e)) : Prog B (Out B)).step c st.shared) =
            ({ st.shared with isOpen := upd st.shared.isOpen k false }, .ret (.closed res)) := by
          rw [← hres]; rfl
        rw [e1]
        dsimp only
        have hs : said (st.go c.thread) = (st.go c.thread).outs := by
          unfold said
          rw [hc]
          exact List.append_nil _
        have hold : ∀ (j n : Nat) out, (said (upd st.go c.thread { st.go c.thread with current := some (.ret (.closed res)) } j))[n]? = some out →
            (said (st.go j))[n]? = some out ∨ j = c.thread ∧ n = (st.go c.thread).outs.length ∧ out = .closed res := by
          intro j n out hn
          by_cases hj : j = c.thread
          · subst hj
            rw [upd_same, said_ret rfl] at hn
            dsimp only at hn
            rw [hs]
            by_cases hlt : n < (st.go c.thread).outs.length
            · rw [List.getElem?_append_left hlt] at hn
              exact .inl hn
            · rw [List.getElem?_append_right (by omega)] at hn
              have h0 := (List.getElem?_eq_some_iff.1 hn).1
              simp at h0
              have : n = (st.go c.thread).outs.length := by omega
              subst this
              simp at hn
              exact .inr ⟨rfl, rfl, hn.symm⟩
          · rw [upd_other _ _ hj] at hn
            exact .inl hn
        have hopen : res = .ok () → st.shared.isOpen k = true := by
          intro h
          rw [← hres] at h
          split at h
          · rename_i h'; exact h'.1
          · cases h
        refine ⟨fun j => ?_, fun j n k' e h3 h4 => ?_, fun j n l m k' h3 h4 h5 h6 => ?_⟩
        · show ShapeOK (calls j) (upd st.go c.thread _ j)
          by_cases hj : j = c.thread
          · subst hj
            rw [upd_same]
            exact ⟨h1, fun _ _ => .inr ⟨res, rfl⟩⟩
          · rw [upd_other _ _ hj]
            exact H.shape j
        · show upd st.shared.isOpen k false k' = false
          unfold upd
          split
          · rfl
          · rename_i hne
            rcases hold j n _ h4 with h | ⟨rfl, rfl, _⟩
            · exact H.shut j n k' e h3 h
            · rw [hk] at h3
              cases h3
              exact absurd rfl hne
        · rcases hold j n _ h4 with h7 | ⟨h7, h8, h9⟩ <;> rcases hold l m _ h6 with h10 | ⟨h10, h11, h12⟩
          · exact H.once j n l m k' h3 h7 h5 h10
          · rw [h10, h11, hk] at h5
            cases h5
            have := H.shut j n k _ h3 h7
            rw [hopen (by cases h12; rfl)] at this
            cases this
          · rw [h7, h8, hk] at h3
            cases h3
            have := H.shut l m k _ h5 h10
            rw [hopen (by cases h9; rfl)] at this
            cases this
          · exact ⟨h7.trans h10.symm, h8.trans h11.symm⟩
      · refine H.quiet (step_isOpen p c st.shared) (fun n k hk => ?_) ⟨h1, fun k hk => absurd ⟨k, hk⟩ hclose⟩
        have hs : said (st.go c.thread) = (st.go c.thread).outs := by
          unfold said
          rw [hc]
          cases p with
          | ret out => exact absurd rfl (hp out)
          | _ => exact List.append_nil _
        rw [hs]
        by_cases hlt : n < (st.go c.thread).outs.length
        · exact said_old (t := { st.go c.thread with current := some (p.step c st.shared).2 }) hlt
        · have hne : n ≠ (st.go c.thread).outs.length := by
            intro h
            rw [h] at hk
            exact hclose ⟨k, hk⟩
          rw [List.getElem?_eq_none (l := (st.go c.thread).outs) (by omega), List.getElem?_eq_none]
          exact Nat.le_trans (said_length _) (by show (st.go c.thread).outs.length + 1 ≤ n; omega)

theorem CloseInv.run (cs : List Choice) : {st : State B} → CloseInv calls st → CloseInv calls (st.run g reader cs) := by
  induction cs with
  | nil => exact fun H => H
  | cons c cs ih => exact fun H => ih (H.step c)

theorem CloseInv.start (reader : Nat → Reader B) (calls : Nat → List (Call B)) : CloseInv calls (State.start reader calls) :=
  ⟨fun i => rfl, (fun i n k e _ h => by simp [said, State.start] at h), (fun i n j m k _ h _ _ => by simp [said, State.start] at h)⟩

theorem outs_said {t : Goroutine B} {n : Nat} {out : Out B} (h : t.outs[n]? = some out) : (said t)[n]? = some out := by
  rw [said_old (List.getElem?_eq_some_iff.1 h).1]
  exact h

/-- **C81, closing once.** However many goroutines close a reader, and whatever the schedule, at most one call returns nil. -/
theorem C81_closeOnce (gomaxprocs : Int) (reader : Nat → Reader B) (calls : Nat → List (Call B)) (cs : List Choice) (i n j m k : Nat)
    (h1 : (calls i)[n]? = some (.close k)) (h2 : (calls j)[m]? = some (.close k))
    (h3 : (((State.start reader calls).run gomaxprocs reader cs).go i).outs[n]? = some (.closed (.ok ())))
    (h4 : (((State.start reader calls).run gomaxprocs reader cs).go j).outs[m]? = some (.closed (.ok ()))) : i = j ∧ n = m :=
  ((CloseInv.start reader calls).run cs).once i n j m k h1 (outs_said h3) h2 (outs_said h4)

/-! ### After closing -/

/-- The number of calls a goroutine has begun. -/
def begun (t : Goroutine B) : Nat := match t.current with
  | none => t.outs.length
  | some _ => t.outs.length + 1

/-- The calls of `GetPairs` from number `n0` on see that reader `k` is closed. -/
structure ClosedGo (g : Int) (reader : Nat → Reader B) (cs : List (Call B)) (k n0 : Nat) (t : Goroutine B) : Prop where
  todo : t.todo = cs.drop (begun t)
  current : ∀ p b, t.current = some p → n0 ≤ t.outs.length → cs[t.outs.length]? = some (.getPairs k b) →
    p = (Call.getPairs k b).prog g reader ∨ p = .ret (.pairs (getPairsIO true (reader k) b))
  outs : ∀ (n : Nat) b, n0 ≤ n → n < t.outs.length → cs[n]? = some (.getPairs k b) →
    t.outs[n]? = some (.pairs (getPairsIO true (reader k) b))

/-- Reader `k` is closed and goroutine `i` sees it. -/
def ClosedInv (g : Int) (reader : Nat → Reader B) (cs : List (Call B)) (i k n0 : Nat) (st : State B) : Prop :=
  st.shared.isOpen k = false ∧ ClosedGo g reader cs k n0 (st.go i)

/-- `GetPairs` on a closed file. -/
theorem pairs_closed (c : Choice) {s : Shared B} {k : Nat} (b : UInt64) (hs : s.isOpen k = false) (hb : s.bytes k = (reader k).bytes) :
    (∃ out, (Call.getPairs k b).prog g reader = .ret out ∧ out = .pairs (getPairsIO true (reader k) b)) ∨
    (((Call.getPairs k b).prog g reader).step c s).2 = .ret (.pairs (getPairsIO true (reader k) b)) := by
  show (∃ out : Out B, (readBlockG k (reader k) b.toInt64).andThen (fun p => Prog.ret (Out.pairs p)) = Prog.ret out ∧ out = .pairs (readBlockIO true (reader k) b.toInt64)) ∨
    (((readBlockG k (reader k) b.toInt64).andThen (fun p => Prog.ret (Out.pairs p))).step c s).2 = .ret (.pairs (readBlockIO true (reader k) b.toInt64))
  unfold readBlockG readBlockIO
  split
  · exact .inl ⟨_, rfl, rfl⟩
  · cases (reader k).blockIndex[b.toInt64.toInt.toNat]? with
    | none => exact .inl ⟨_, rfl, rfl⟩
    | some entry =>
      dsimp only
      unfold readBytesAtG
      split
      · rename_i h
        refine .inl ⟨_, rfl, ?_⟩
        unfold readBytesAtIO
        rw [if_pos h]
        rfl
      · right
        show (Prog.andThen (Prog.andThen (.ret (readBytesAtIO (!s.isOpen k || c.fails) (s.bytes k) _ _)) _) _) = _
        rw [hs, hb]
        show (Prog.andThen (Prog.andThen (.ret (readBytesAtIO true (reader k).bytes _ _)) _) _) = _
        cases readBytesAtIO true (reader k).bytes (entry.blockOffset.toInt64 + 64) (Int64.ofNat entry.blockSize.toNat - 64) <;> rfl

theorem bytes_step (p : Prog B (Out B)) (c : Choice) (s : Shared B) : (p.step c s).1.bytes = s.bytes := by
  cases p <;> rfl

theorem ClosedInv.step {cs : List (Call B)} {i k n0 : Nat} (hb : st.shared.bytes k = (reader k).bytes) (H : ClosedInv g reader cs i k n0 st)
    (c : Choice) : ClosedInv g reader cs i k n0 (st.step g reader c) ∧ (st.step g reader c).shared.bytes k = (reader k).bytes := by
  obtain ⟨hclosed, H⟩ := H
  have other : ∀ (s : Shared B) (t : Goroutine B), c.thread ≠ i → s.isOpen k = false → ClosedInv g reader cs i k n0 ⟨s, upd st.go c.thread t⟩ := by
    intro s t hi hs
    refine ⟨hs, ?_⟩
    show ClosedGo g reader cs k n0 (upd st.go c.thread t i)
    rw [upd_other _ _ (fun h => hi h.symm)]
    exact H
  have same : ∀ (s : Shared B) (t : Goroutine B), c.thread = i → s.isOpen k = false → ClosedGo g reader cs k n0 t →
      ClosedInv g reader cs i k n0 ⟨s, upd st.go c.thread t⟩ := by
    intro s t hi hs ht
    refine ⟨hs, ?_⟩
    show ClosedGo g reader cs k n0 (upd st.go c.thread t i)
    rw [hi, upd_same]
    exact ht
  by_cases hi : c.thread = i
  · rw [← hi] at H
    have htodo := H.todo
    unfold begun at htodo
    cases hc : (st.go c.thread).current with
    | none =>
      rw [hc] at htodo
      dsimp only at htodo
      cases ht : (st.go c.thread).todo with
      | nil => rw [step_done hc ht]; exact ⟨⟨hclosed, hi ▸ H⟩, hb⟩
      | cons call rest =>
        rw [step_begin hc ht]
        rw [ht] at htodo
        obtain ⟨h1, h2⟩ := drop_cons htodo
        refine ⟨same _ _ hi hclosed ⟨h2, fun p b hp _ hcs => ?_, H.outs⟩, hb⟩
        dsimp only at hp hcs
        cases hp
        rw [h1] at hcs
        cases hcs
        exact .inl rfl
    | some p =>
      rw [hc] at htodo
      dsimp only at htodo
      by_cases hret : ∃ out, p = .ret out
      · obtain ⟨out, rfl⟩ := hret
        rw [step_ret hc]
        refine ⟨same _ _ hi hclosed ⟨?_, nofun, fun n b h1 h2 h3 => ?_⟩, hb⟩
        · show (st.go c.thread).todo = cs.drop ((st.go c.thread).outs ++ [out]).length
          rw [htodo, List.length_append]
          rfl
        · dsimp only at h2 ⊢
          rw [List.length_append] at h2
          by_cases hlt : n < (st.go c.thread).outs.length
          · rw [List.getElem?_append_left hlt]
            exact H.outs n b h1 hlt h3
          · have hn : n = (st.go c.thread).outs.length := by simp at h2; omega
            subst hn
            rw [List.getElem?_append_right (by omega), Nat.sub_self]
            show some out = _
            rcases H.current _ b hc h1 h3 with h4 | h4
            · rcases pairs_closed (g := g) c b hclosed hb with ⟨out', h5, h6⟩ | h5
              · rw [h5] at h4
                cases h4
                rw [h6]
              · rw [← h4] at h5
                cases h5
                rfl
            · cases h4
              rfl
      · have hp : ∀ out, p ≠ .ret out := fun out ho => hret ⟨out, ho⟩
        rw [step_access hc hp]
        refine ⟨same _ _ hi (step_isOpen p c st.shared k hclosed) ⟨htodo, fun q b hq h1 h2 => ?_, H.outs⟩, by dsimp only; rw [bytes_step]; exact hb⟩
        dsimp only at hq h1 h2
        cases hq
        right
        rcases H.current p b hc h1 h2 with h4 | h4
        · rcases pairs_closed (g := g) c b hclosed hb with ⟨out', h5, h6⟩ | h5
          · rw [h5] at h4
            exact absurd h4 (hp _)
          · rw [← h4] at h5
            exact h5
        · exact absurd h4 (hp _)
  · cases hc : (st.go c.thread).current with
    | none =>
      cases ht : (st.go c.thread).todo with
      | nil => rw [step_done hc ht]; exact ⟨⟨hclosed, H⟩, hb⟩
      | cons call rest => rw [step_begin hc ht]; exact ⟨other _ _ hi hclosed, hb⟩
    | some p =>
      by_cases hret : ∃ out, p = .ret out
      · obtain ⟨out, rfl⟩ := hret
        rw [step_ret hc]
        exact ⟨other _ _ hi hclosed, hb⟩
      · rw [step_access hc (fun out ho => hret ⟨out, ho⟩)]
        exact ⟨other _ _ hi (step_isOpen p c st.shared k hclosed), by dsimp only; rw [bytes_step]; exact hb⟩

theorem ClosedInv.run {cs : List (Call B)} {i k n0 : Nat} (sched : List Choice) : {st : State B} →
    st.shared.bytes k = (reader k).bytes → ClosedInv g reader cs i k n0 st → ClosedInv g reader cs i k n0 (st.run g reader sched) := by
  induction sched with
  | nil => exact fun _ H => H
  | cons c sched ih => exact fun hb H => ih (H.step hb c).2 (H.step hb c).1

theorem run_append (a b : List Choice) : st.run g reader (a ++ b) = (st.run g reader a).run g reader b := List.foldl_append

theorem run_bytes (cs : List Choice) : {st : State B} → (st.run g reader cs).shared.bytes = st.shared.bytes := by
  induction cs with
  | nil => exact rfl
  | cons c cs ih =>
    intro st
    refine (ih (st := st.step g reader c)).trans ?_
    cases hc : (st.go c.thread).current with
    | none =>
      cases ht : (st.go c.thread).todo with
      | nil => rw [step_done hc ht]
      | cons call rest => rw [step_begin hc ht]
    | some p =>
      by_cases hret : ∃ out, p = .ret out
      · obtain ⟨out, rfl⟩ := hret
        rw [step_ret hc]
      · rw [step_access hc (fun out ho => hret ⟨out, ho⟩)]
        exact bytes_step p c _

/-- **C81, after closing.** Once a call of `Close` has returned, also if it returned an error, every call of `GetPairs` on that
reader that begins later, in whichever goroutine, returns what it returns alone when the read fails. -/
theorem C81_afterClose (gomaxprocs : Int) (reader : Nat → Reader B) (calls : Nat → List (Call B)) (before after : List Choice)
    (i j m n k : Nat) (e : Except Err Unit) (b : UInt64)
    (hclose : (calls j)[m]? = some (.close k))
    (hdone : (((State.start reader calls).run gomaxprocs reader before).go j).outs[m]? = some (.closed e))
    (hlater : (((State.start reader calls).run gomaxprocs reader before).go i).outs.length ≤ n)
    (hidle : (((State.start reader calls).run gomaxprocs reader before).go i).current = none)
    (hcall : (calls i)[n]? = some (.getPairs k b)) (out : Out B)
    (hout : (((State.start reader calls).run gomaxprocs reader (before ++ after)).go i).outs[n]? = some out) :
    out = .pairs (getPairsIO true (reader k) b) := by
  have H := (CloseInv.start reader calls).run (g := gomaxprocs) (reader := reader) before
  have hshut := H.shut j m k e hclose (outs_said hdone)
  have hb : ((State.start reader calls).run gomaxprocs reader before).shared.bytes k = (reader k).bytes := by
    rw [run_bytes]; rfl
  rw [run_append] at hout
  have hshape := H.shape i
  generalize (State.start reader calls).run gomaxprocs reader before = st at *
  have H0 : ClosedInv gomaxprocs reader (calls i) i k (st.go i).outs.length st := by
    refine ⟨hshut, ?_, (fun p b hp => by rw [hidle] at hp; cases hp), (fun n b h1 h2 => by omega)⟩
    unfold ShapeOK at hshape
    unfold begun
    rw [hidle] at hshape ⊢
    exact hshape
  have H1 := (H0.run after hb).2.outs n b hlater (List.getElem?_eq_some_iff.1 hout).1 hcall
  rw [hout] at H1
  exact Option.some.inj H1

/-- What has been returned stays. -/
theorem run_outs (cs : List Choice) (i n : Nat) (out : Out B) : {st : State B} → (st.go i).outs[n]? = some out →
    ((st.run g reader cs).go i).outs[n]? = some out := by
  induction cs with
  | nil => exact fun h => h
  | cons c cs ih =>
    intro st h
    refine ih (st := st.step g reader c) ?_
    by_cases hi : c.thread = i
    · subst hi
      cases hc : (st.go c.thread).current with
      | none =>
        cases ht : (st.go c.thread).todo with
        | nil => rw [step_done hc ht]; exact h
        | cons call rest => rw [step_begin hc ht]; dsimp only; rw [upd_same]; exact h
      | some p =>
        by_cases hret : ∃ out, p = .ret out
        · obtain ⟨out', rfl⟩ := hret
          rw [step_ret hc]
          dsimp only
          rw [upd_same]
          dsimp only
          rw [List.getElem?_append_left (List.getElem?_eq_some_iff.1 h).1]
          exact h
        · rw [step_access hc (fun out ho => hret ⟨out, ho⟩)]
          dsimp only
          rw [upd_same]
          exact h
    · rw [step_other c hi]
      exact h

/-- Two goroutines: one closes a reader, the other one reads from it and closes it too. -/
def closingCalls : Nat → List (Call B)
  | 0 => [.close 0]
  | 1 => [.getPairs 0 1, .close 0]
  | _ => []

/-- The first goroutine makes its call, then the second one its calls. -/
def closeFirst (n : Nat) : Choice := ⟨if n < 3 then 0 else 1, false, 0⟩

theorem closeFirst_start (reader : Nat → Reader B) :
    (((State.start reader closingCalls).run 4 reader ((List.range 3).map closeFirst)).go 0).outs = [.closed (.ok ())] ∧
    ((State.start reader closingCalls).run 4 reader ((List.range 3).map closeFirst)).go 1 = ⟨none, [.getPairs 0 1, .close 0], []⟩ :=
  ⟨rfl, rfl⟩

theorem closeFirst_split {n : Nat} (h : 3 ≤ n) : (List.range n).map closeFirst =
    (List.range 3).map closeFirst ++ (List.range (n - 3)).map fun m => closeFirst (3 + m) := by
  have : n = 3 + (n - 3) := by omega
  rw [this, List.range_add, List.map_append, List.map_map]
  simp

/-- Non-vacuity of C81_afterClose and C81_closeOnce, on a finalized file: the second goroutine gets an error for a block that
exists, and an error from `Close`. -/
theorem C81_example_close : ∃ (reader : Nat → Reader IdSet) (blocks : Nat → List Block), (∀ k, FileWith IdSet (reader k) (blocks k)) ∧
    (blocks 0)[1]? = some (([9], [-1]) : Block) ∧
    ∃ n out, (((State.start reader closingCalls).run 4 reader ((List.range n).map closeFirst)).go 1).outs = [.pairs (.err .io), out] ∧
      out ≠ .closed (.ok ()) := by
  obtain ⟨r1, r2, hE⟩ := stack_example
  cases hE with
  | cons f1 hE =>
  refine ⟨fun _ => r1, fun _ => acked oldLog, fun _ => f1, by decide, ?_⟩
  have hread : getPairsIO true r1 1 = .err .io := getPairsIO_true _ _ ([9], [-1]) ((pairs_written f1 1).trans (by decide))
  generalize hreader : (fun _ : Nat => r1) = reader
  obtain ⟨n, hn⟩ := C81_progress 4 reader closingCalls closeFirst 1 (fun n => ⟨n + 3, by omega, by
    show (if n + 3 < 3 then 0 else 1) = 1
    rw [if_neg (by omega)]⟩)
  obtain ⟨hs1, hs2⟩ := closeFirst_start reader
  have h3 : 3 ≤ n := by
    refine Nat.le_of_not_lt fun hlt => ?_
    match n, hlt, hn with
    | 0, _, hn => cases hn
    | 1, _, hn => cases hn
    | 2, _, hn => cases hn
  refine ⟨n, ?_⟩
  have key := fun out => C81_afterClose 4 reader closingCalls ((List.range 3).map closeFirst) ((List.range (n - 3)).map fun m => closeFirst (3 + m))
    1 0 0 0 0 (.ok ()) 1 rfl (by rw [hs1]; rfl) (by rw [hs2]; exact Nat.le_refl 0) (by rw [hs2]) rfl out
  have once := fun h3 h4 => C81_closeOnce 4 reader closingCalls ((List.range n).map closeFirst) 0 0 1 1 0 rfl rfl h3 h4
  have keep : (((State.start reader closingCalls).run 4 reader ((List.range n).map closeFirst)).go 0).outs[0]? = some (.closed (.ok ())) := by
    rw [closeFirst_split h3, run_append]
    exact run_outs _ 0 0 _ (by rw [hs1]; rfl)
  rw [← closeFirst_split h3] at key
  generalize (((State.start reader closingCalls).run 4 reader ((List.range n).map closeFirst)).go 1).outs = outs at *
  match outs, hn with
  | [o1, o2], _ =>
    refine ⟨o2, ?_, fun ho => ?_⟩
    · rw [key o1 rfl, ← hreader]
      show [Out.pairs (getPairsIO true r1 1), o2] = _
      rw [hread]
    · have := (once keep (by rw [ho]; rfl)).1
      cases this

end VibeCol.Goroutines
