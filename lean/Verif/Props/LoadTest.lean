import Verif.Spec.LoadTest
import Verif.Props.Simple
import Verif.Props.SimpleProgress
import Verif.Props.SimpleLayout
import Verif.Props.Robust
import Verif.Props.Multi
namespace VibeCol.LoadTest
variable {B : Type} [Bitmap B]

/-! ### The generator -/

theorem genBatch_length {g : Rng} {mv : Int64} {mi : UInt64} {n : Nat} {prev : Option UInt64} {k : Nat} {ids : List UInt64}
    {vals : List Int64} {k' : Nat} (h : genBatch g mv mi n prev k = .ok ((ids, vals), k')) :
    ids.length = n ∧ vals.length = n := by
  induction n generalizing prev k ids vals k' with
  | zero => simp only [genBatch, Res.ok.injEq, Prod.mk.injEq] at h; obtain ⟨⟨rfl, rfl⟩, _⟩ := h; simp
  | succ n ih =>
    simp only [genBatch] at h
    obtain ⟨⟨id, k1⟩, _, h⟩ := Res.bind_ok h
    obtain ⟨⟨v, k2⟩, _, h⟩ := Res.bind_ok h
    obtain ⟨⟨⟨is, vs⟩, k3⟩, h3, h⟩ := Res.bind_ok h
    simp only [Res.ok.injEq, Prod.mk.injEq] at h
    obtain ⟨⟨rfl, rfl⟩, _⟩ := h
    obtain ⟨h1, h2⟩ := ih h3
    simp [h1, h2]

theorem Batches.split {g : Rng} {mv : Int64} {mi : UInt64} {n k : Nat} {bs : List (List UInt64 × List Int64)} {n' k' : Nat}
    (h : Batches g mv mi n k bs n' k') :
    n = (pairs bs).flatten.length + n' ∧ ∀ b ∈ bs, b.1.length = b.2.length ∧ b.1.length ≤ 10000 := by
  induction h with
  | nil => simp [pairs]
  | cons hn h t ih =>
    obtain ⟨h1, h2⟩ := genBatch_length h
    refine ⟨?_, ?_⟩
    · have := ih.1
      simp only [pairs, List.map_cons, List.flatten_cons, List.length_append, List.length_zip, h1, h2] at this ⊢
      omega
    · intro b hb
      rcases List.mem_cons.1 hb with rfl | hb
      · simp only; omega
      · exact ih.2 b hb

theorem toInt_toInt64 {u : UInt64} (h : u.toNat < 2 ^ 63) : u.toInt64.toInt = u.toNat := by
  have h1 : u.toInt64.toInt = (u.toNat : Int).bmod (2 ^ 64) := by
    show (u.toBitVec).toInt = _
    rw [BitVec.toInt_eq_toNat_bmod]
    rfl
  rw [h1, Int.bmod_eq_of_le] <;> omega

theorem toNat_toUInt64 {x : Int64} (h : 0 ≤ x.toInt) : (x.toUInt64.toNat : Int) = x.toInt := by
  have h1 := Int64.toNat_toUInt64_of_le (x := x) (Int64.le_iff_toInt_le.2 h)
  have h2 : x.toNatClampNeg = x.toInt.toNat := rfl
  omega

theorem div_toInt {x : Int64} (h : 0 ≤ x.toInt) (d : Int64) : (x / d).toInt = x.toInt.tdiv d.toInt := by
  apply Int64.toInt_div_of_ne_left
  rintro rfl
  revert h
  decide

theorem int63n_ok {g : Rng} {n : Int64} (h : 0 < n.toInt) (k : Nat) : int63n g n k = .ok (g.below k n, k + 1) := by
  unfold int63n
  rw [if_neg]
  rw [Int64.le_iff_toInt_le, Int64.toInt_zero]
  omega

theorem int63n_panic {g : Rng} {n : Int64} (h : n.toInt ≤ 0) (k : Nat) : int63n g n k = .panic := by
  unfold int63n
  rw [if_pos]
  rw [Int64.le_iff_toInt_le, Int64.toInt_zero]
  exact h

/-- With usable flags the generator never panics. -/
theorem genBatch_total (g : Rng) {mv : Int64} {mi : UInt64} (hv : 10 ≤ mv.toInt) (hi : 0 < mi.toInt64.toInt) (n : Nat)
    (prev : Option UInt64) (k : Nat) : ∃ out, genBatch g mv mi n prev k = .ok out := by
  induction n generalizing prev k with
  | zero => exact ⟨_, rfl⟩
  | succ n ih =>
    have h1 : ∃ out, genID g mi prev k = .ok out := by
      unfold genID
      cases prev with
      | none => simp only; rw [int63n_ok hi]; exact ⟨_, rfl⟩
      | some p =>
        simp only
        split
        · rw [int63n_ok (by decide)]; exact ⟨_, rfl⟩
        · rw [int63n_ok hi]; exact ⟨_, rfl⟩
    obtain ⟨⟨id, k1⟩, h1⟩ := h1
    have hd : (mv / 10).toInt = mv.toInt / 10 := by
      rw [div_toInt (by omega)]
      exact Int.tdiv_eq_ediv_of_nonneg (by omega)
    have h2 : ∃ out, genValue g mv id k1 = .ok out := by
      unfold genValue
      split
      · rw [if_neg, int63n_ok (by omega)]
        · exact ⟨_, rfl⟩
        · intro h0
          have := toNat_toUInt64 (x := mv) (by omega)
          rw [h0] at this
          simp only [UInt64.toNat_zero] at this
          omega
      · rw [int63n_ok (by omega)]; exact ⟨_, rfl⟩
    obtain ⟨⟨v, k2⟩, h2⟩ := h2
    obtain ⟨⟨⟨is, vs⟩, k3⟩, h3⟩ := ih (some id) k2
    refine ⟨((id :: is, v :: vs), k3), ?_⟩
    simp only [genBatch, h1, h2, h3, Res.ok_bind]

/-- Without, it panics at once. -/
theorem genBatch_panic (g : Rng) {mv : Int64} {mi : UInt64} (h : mv.toInt ≤ 0 ∨ mi.toInt64.toInt ≤ 0) (n : Nat) (k : Nat)
    (out) : genBatch g mv mi (n + 1) none k ≠ .ok out := by
  intro hb
  simp only [genBatch] at hb
  obtain ⟨⟨id, k1⟩, h1, hb⟩ := Res.bind_ok hb
  obtain ⟨⟨v, k2⟩, h2, hb⟩ := Res.bind_ok hb
  rcases h with h | h
  · simp only [genValue] at h2
    split at h2
    · split at h2
      · cases h2
      · have hd : (mv / 10).toInt ≤ 0 := by
          rw [Int64.toInt_div]
          have h10 : (10 : Int64).toInt = 10 := rfl
          rw [h10]
          have hm := Int64.minValue_le_toInt mv
          have : Int64.minValue.toInt = -9223372036854775808 := rfl
          have hlo : -9223372036854775808 ≤ mv.toInt := by omega
          have ht : mv.toInt.tdiv 10 = -((-mv.toInt) / 10) := by
            rw [← Int.tdiv_eq_ediv_of_nonneg (show 0 ≤ -mv.toInt by omega), Int.neg_tdiv, Int.neg_neg]
          rw [ht, Int.bmod_eq_of_le] <;> omega
        rw [int63n_panic hd] at h2
        cases h2
    · rw [int63n_panic h] at h2
      cases h2
  · simp only [genID, int63n_panic h] at h1
    cases h1

theorem genID_range {g : Rng} (hg : g.Lawful) {mi : UInt64} (hmi : mi.toNat < 2 ^ 63) {prev : Option UInt64} {k j : Nat}
    (hprev : ∀ p, prev = some p → p.toNat + 10 < mi.toNat + 10 * j) (hj : mi.toNat + 10 * j < 2 ^ 64)
    {id : UInt64} {k' : Nat} (h : genID g mi prev k = .ok (id, k')) : id.toNat < mi.toNat + 10 * j := by
  have jump : ∀ k, (do let (x, k) ← int63n g mi.toInt64 k; Res.ok (x.toUInt64, k)) = .ok (id, k') → id.toNat < mi.toNat := by
    intro k h
    obtain ⟨⟨x, k1⟩, h1, h⟩ := Res.bind_ok h
    simp only [Res.ok.injEq, Prod.mk.injEq] at h
    obtain ⟨rfl, rfl⟩ := h
    unfold int63n at h1
    split at h1
    · cases h1
    · rename_i hpos
      simp only [Res.ok.injEq, Prod.mk.injEq] at h1
      obtain ⟨rfl, rfl⟩ := h1
      rw [Int64.le_iff_toInt_le, Int64.toInt_zero] at hpos
      obtain ⟨h1, h2⟩ := hg k mi.toInt64 (Int64.lt_iff_toInt_lt.2 (by rw [Int64.toInt_zero]; omega))
      rw [Int64.le_iff_toInt_le, Int64.toInt_zero] at h1
      rw [Int64.lt_iff_toInt_lt, toInt_toInt64 hmi] at h2
      have := toNat_toUInt64 h1
      omega
  unfold genID at h
  cases prev with
  | none => have := jump _ h; omega
  | some p =>
    simp only at h
    split at h
    · rw [int63n_ok (by decide)] at h
      simp only [Res.ok_bind, Res.ok.injEq, Prod.mk.injEq] at h
      obtain ⟨rfl, _⟩ := h
      obtain ⟨h1, h2⟩ := hg (k + 1) 10 (by decide)
      have h10 : (10 : Int64).toInt = 10 := rfl
      rw [Int64.le_iff_toInt_le, Int64.toInt_zero] at h1
      rw [Int64.lt_iff_toInt_lt, h10] at h2
      have h3 : (g.below (k + 1) 10 + 1).toInt = (g.below (k + 1) 10).toInt + 1 := by
        rw [Int64.toInt_add, Int64.toInt_one, Int.bmod_eq_of_le] <;> omega
      have h4 := toNat_toUInt64 (x := g.below (k + 1) 10 + 1) (by omega)
      have h5 := hprev p rfl
      rw [UInt64.toNat_add, Nat.mod_eq_of_lt] <;> omega
    · have := jump _ h; omega

theorem genValue_range {g : Rng} (hg : g.Lawful) {mv : Int64} (h0 : 0 < mv.toInt) (hmv : mv.toInt ≤ 2 ^ 62) {id : UInt64}
    {k : Nat} {v : Int64} {k' : Nat} (h : genValue g mv id k = .ok (v, k')) :
    -(mv.toInt / 20) ≤ v.toInt ∧ v.toInt < mv.toInt + mv.toInt / 10 - mv.toInt / 20 := by
  have hd : ∀ d : Int64, 0 < d.toInt → (mv / d).toInt = mv.toInt / d.toInt := by
    intro d _
    rw [div_toInt (by omega)]
    exact Int.tdiv_eq_ediv_of_nonneg (by omega)
  have d10 : (mv / 10).toInt = mv.toInt / 10 := hd 10 (by decide)
  have d20 : (mv / 20).toInt = mv.toInt / 20 := hd 20 (by decide)
  unfold genValue at h
  split at h
  · split at h
    · cases h
    · obtain ⟨⟨x, k1⟩, h1, h⟩ := Res.bind_ok h
      simp only [Res.ok.injEq, Prod.mk.injEq] at h
      obtain ⟨rfl, _⟩ := h
      unfold int63n at h1
      split at h1
      · cases h1
      · rename_i hpos
        simp only [Res.ok.injEq, Prod.mk.injEq] at h1
        obtain ⟨rfl, _⟩ := h1
        rw [Int64.le_iff_toInt_le, Int64.toInt_zero] at hpos
        obtain ⟨h1, h2⟩ := hg (k + 1) (mv / 10) (Int64.lt_iff_toInt_lt.2 (by rw [Int64.toInt_zero]; omega))
        rw [Int64.le_iff_toInt_le, Int64.toInt_zero] at h1
        rw [Int64.lt_iff_toInt_lt, d10] at h2
        have hu := toNat_toUInt64 (x := mv) (by omega)
        have hm : (id % mv.toUInt64).toNat < mv.toUInt64.toNat := by
          rw [UInt64.toNat_mod]
          exact Nat.mod_lt _ (by omega)
        have hi := toInt_toInt64 (u := id % mv.toUInt64) (by omega)
        have hs : (g.below (k + 1) (mv / 10) - mv / 20).toInt = (g.below (k + 1) (mv / 10)).toInt - mv.toInt / 20 := by
          rw [Int64.toInt_sub, d20, Int.bmod_eq_of_le] <;> omega
        have ha : ((id % mv.toUInt64).toInt64 + (g.below (k + 1) (mv / 10) - mv / 20)).toInt =
            (id % mv.toUInt64).toNat + ((g.below (k + 1) (mv / 10)).toInt - mv.toInt / 20) := by
          rw [Int64.toInt_add, hs, hi, Int.bmod_eq_of_le] <;> omega
        omega
  · unfold int63n at h
    split at h
    · cases h
    · simp only [Res.ok.injEq, Prod.mk.injEq] at h
      obtain ⟨rfl, _⟩ := h
      obtain ⟨h1, h2⟩ := hg (k + 1) mv (Int64.lt_iff_toInt_lt.2 (by rw [Int64.toInt_zero]; omega))
      rw [Int64.le_iff_toInt_le, Int64.toInt_zero] at h1
      rw [Int64.lt_iff_toInt_lt] at h2
      omega

theorem genBatch_range {g : Rng} (hg : g.Lawful) {mv : Int64} {mi : UInt64} (h0 : 0 < mv.toInt) (hmv : mv.toInt ≤ 2 ^ 62)
    (hmi : mi.toNat < 2 ^ 63) {n : Nat} {prev : Option UInt64} {k j : Nat}
    (hprev : ∀ p, prev = some p → p.toNat + 10 < mi.toNat + 10 * j) (hj : mi.toNat + 10 * (j + n) < 2 ^ 64)
    {ids : List UInt64} {vals : List Int64} {k' : Nat} (h : genBatch g mv mi n prev k = .ok ((ids, vals), k')) (t : Nat)
    (ht : t < (ids.zip vals).length) : InRange mv.toInt mi.toNat (j + t) (ids.zip vals)[t] := by
  induction n generalizing prev k j ids vals t k' with
  | zero =>
    simp only [genBatch, Res.ok.injEq, Prod.mk.injEq] at h
    obtain ⟨⟨rfl, rfl⟩, _⟩ := h
    simp at ht
  | succ n ih =>
    simp only [genBatch] at h
    obtain ⟨⟨id, k1⟩, h1, h⟩ := Res.bind_ok h
    obtain ⟨⟨v, k2⟩, h2, h⟩ := Res.bind_ok h
    obtain ⟨⟨⟨is, vs⟩, k3⟩, h3, h⟩ := Res.bind_ok h
    simp only [Res.ok.injEq, Prod.mk.injEq] at h
    obtain ⟨⟨rfl, rfl⟩, _⟩ := h
    have r1 := genID_range hg hmi hprev (by omega) h1
    have r2 := genValue_range hg h0 hmv h2
    cases t with
    | zero => exact ⟨by simp only [List.zip_cons_cons, List.getElem_cons_zero]; omega, r2.1, r2.2⟩
    | succ t =>
      have := ih (j := j + 1) (prev := some id) (by intro p hp; cases hp; omega) (by omega) h3 t (by simpa using ht)
      rw [show j + 1 + t = j + (t + 1) from by omega] at this
      exact this

/-! ### The program as a history of `SimpleWriter` calls -/

theorem close_closed (env : Env) (sw : SimpleWriter B) (h : (sw.close env).1 = .ok ()) : (sw.close env).2.closed = true := by
  refine closed_of_log env [.close] sw ?_
  rw [runSW_cons]
  simp [SWCall.run, h]

/-- A run that ends normally. -/
theorem importLoop_done (env : Env) (g : Rng) (mv : Int64) (mi : UInt64) (n wr k : Nat) (sw : SimpleWriter B) {v i : Nat}
    {sw' : SimpleWriter B} (h : importLoop env g mv mi n wr k sw = (.done v i, sw')) :
    ∃ batches k', Batches g mv mi n k batches 0 k' ∧ v = wr + n ∧ i = sw'.totalItems ∧
      runSW env (writes batches ++ [.close]) sw = (succeeded (writes batches ++ [.close]), sw') := by
  induction n using Nat.strongRecOn generalizing wr k sw with
  | ind n ih =>
    rw [importLoop] at h
    by_cases hn : n = 0
    · rw [dif_pos hn] at h
      subst hn
      refine ⟨[], k, .nil, ?_⟩
      have hc := close_closed env sw
      have hr : runSW env (writes [] ++ [.close]) sw = ([(SWCall.close, (sw.close env).1)], (sw.close env).2) := rfl
      rw [hr]
      generalize hcl : sw.close env = res at h hc ⊢
      obtain ⟨r, sw1⟩ := res
      cases r with
      | error e => cases h
      | ok u =>
        have h2 := (closed_call env .close sw1 (hc rfl)).1
        simp only [SWCall.run] at h2
        simp only [h2, Prod.mk.injEq, Exit.done.injEq] at h
        obtain ⟨⟨rfl, rfl⟩, rfl⟩ := h
        exact ⟨rfl, rfl, rfl⟩
    · rw [dif_neg hn] at h
      simp only at h
      generalize hg : genBatch g mv mi (min 10000 n) none k = res at h
      cases res with
      | panic => cases h
      | err e => cases h
      | ok res =>
        obtain ⟨⟨ids, vals⟩, k1⟩ := res
        simp only at h
        generalize hw : sw.write env ids vals = res at h
        obtain ⟨r, sw1⟩ := res
        cases r with
        | error e => cases h
        | ok u =>
          obtain ⟨bs, k', h1, h2, h3, h4⟩ := ih (n - min 10000 n) (by omega) _ _ _ h
          refine ⟨(ids, vals) :: bs, k', .cons (by omega) hg h1, by omega, h3, ?_⟩
          have hr : SWCall.run env (.write ids vals) sw = (.ok (), sw1) := hw
          simp only [writes, succeeded, List.map_cons, List.cons_append] at h4 ⊢
          rw [runSW_cons, hr, h4]

/-- A run that panics. -/
theorem importLoop_panicked (env : Env) (g : Rng) (mv : Int64) (mi : UInt64) (n wr k : Nat) (sw : SimpleWriter B)
    {sw' : SimpleWriter B} (h : importLoop env g mv mi n wr k sw = (.panicked, sw')) :
    ∃ batches n' k', Batches g mv mi n k batches n' k' ∧ 0 < n' ∧
      (∀ out, genBatch g mv mi (min 10000 n') none k' ≠ .ok out) ∧
      runSW env (writes batches) sw = (succeeded (writes batches), (runSW env (writes batches) sw).2) ∧
      sw' = (runSW env (writes batches ++ [.close]) sw).2 := by
  induction n using Nat.strongRecOn generalizing wr k sw with
  | ind n ih =>
    rw [importLoop] at h
    by_cases hn : n = 0
    · rw [dif_pos hn] at h
      generalize sw.close env = res at h
      obtain ⟨r, sw1⟩ := res
      cases r <;> cases h
    · rw [dif_neg hn] at h
      simp only at h
      generalize hg : genBatch g mv mi (min 10000 n) none k = res at h
      cases res with
      | panic =>
        cases h
        exact ⟨[], n, k, .nil, by omega, by rw [hg]; simp, rfl, rfl⟩
      | err e =>
        cases h
        exact ⟨[], n, k, .nil, by omega, by rw [hg]; simp, rfl, rfl⟩
      | ok res =>
        obtain ⟨⟨ids, vals⟩, k1⟩ := res
        simp only at h
        generalize hw : sw.write env ids vals = res at h
        obtain ⟨r, sw1⟩ := res
        cases r with
        | error e => cases h
        | ok u =>
          obtain ⟨bs, n', k', h1, h2, h3, h4, h5⟩ := ih (n - min 10000 n) (by omega) _ _ _ h
          refine ⟨(ids, vals) :: bs, n', k', .cons (by omega) hg h1, h2, h3, ?_⟩
          have hr : SWCall.run env (.write ids vals) sw = (.ok (), sw1) := hw
          simp only [writes, succeeded, List.map_cons, List.cons_append] at h4 h5 ⊢
          rw [runSW_cons, runSW_cons, hr]
          exact ⟨by rw [h4], h5⟩

/-- Which way a run ends if no call fails. -/
theorem importLoop_noFault [LawfulBitmap B] {env : Env} (hs : LawfulSort env.sort) (hn : env.NoFault) (g : Rng) (mv : Int64) (mi : UInt64)
    {opts : List WriterOption} (henc : SymEnc (chosenEncoding opts)) (n wr k : Nat) {sw : SimpleWriter B} {S : List Pair}
    {blks : List Blk} (h : SWOpen opts sw S blks) :
    ∀ e, (importLoop env g mv mi n wr k sw).1 ≠ .failed e := by
  induction n using Nat.strongRecOn generalizing wr k sw S blks with
  | ind n ih =>
    intro e
    rw [importLoop]
    by_cases h0 : n = 0
    · rw [dif_pos h0]
      have := (h.noFault hs hn henc .close trivial).1
      simp only [SWCall.run, SWCall.expected] at this
      generalize sw.close env = res at this ⊢
      obtain ⟨r, sw1⟩ := res
      simp only at this
      rw [this]
      simp
    · rw [dif_neg h0]
      simp only
      generalize hg : genBatch g mv mi (min 10000 n) none k = res
      cases res with
      | panic => simp
      | err e => simp
      | ok res =>
        obtain ⟨⟨ids, vals⟩, k1⟩ := res
        simp only
        obtain ⟨hl1, hl2⟩ := genBatch_length hg
        have hb : SWCall.Bounded (.write ids vals) := by simp only [SWCall.Bounded]; omega
        have hw := (h.noFault hs hn henc (.write ids vals) hb).1
        have hno : (SWCall.run env (.write ids vals) sw).1 ≠ .error .io := by
          rw [hw]
          simp only [SWCall.expected]
          split <;> simp
        have hc := h.call hs henc (.write ids vals) hb hno
        simp only [SWCall.run, SWCall.expected] at hw hc
        generalize sw.write env ids vals = res at hw hc ⊢
        obtain ⟨r, sw1⟩ := res
        simp only at hw hc ⊢
        rw [if_pos (by omega)] at hw
        rw [hw]
        obtain ⟨_, _, _, hc | hc⟩ := hc
        · exact ih _ (by omega) _ _ hc e
        · cases hc.1
/-! ### What the log says -/

theorem accepted_succeeded (batches : List (List UInt64 × List Int64)) (c : List SWCall) (hc : c = [] ∨ c = [.close]) :
    accepted (succeeded (writes batches ++ c)) = pairs batches := by
  induction batches with
  | nil => rcases hc with rfl | rfl <;> rfl
  | cons b bs ih =>
    simp only [accepted, succeeded, writes, pairs, List.map_cons, List.cons_append, List.flatMap_cons, acceptedBy] at ih ⊢
    rw [ih]
    rfl

theorem noIOError_succeeded (cs : List SWCall) : SWNoIOError (succeeded cs) := by
  intro ev hev
  simp only [succeeded, List.mem_map] at hev
  obtain ⟨_, _, rfl⟩ := hev
  simp

theorem Batches.bounded {g : Rng} {mv : Int64} {mi : UInt64} {n k : Nat} {bs : List (List UInt64 × List Int64)} {n' k' : Nat}
    (h : Batches g mv mi n k bs n' k') (c : SWCall) (hc : c ∈ writes bs ++ [.close]) : c.Bounded := by
  rcases List.mem_append.1 hc with hc | hc
  · simp only [writes, List.mem_map] at hc
    obtain ⟨b, hb, rfl⟩ := hc
    have := (h.split.2 b hb).2
    simp only [SWCall.Bounded]; omega
  · simp only [List.mem_singleton] at hc; subst hc; trivial

theorem options_enc (bs : Int64) : SymEnc (chosenEncoding (options bs)) := by
  have : chosenEncoding (options bs) = encVarIntBoth := rfl
  rw [this]
  exact .inr (.inr (.inr rfl))

theorem runImport_eq {env : Env} {g : Rng} {num bs mv : Int64} {mi : UInt64} {e : Exit} {sw : SimpleWriter B}
    (h : runImport env g num bs mv mi = (e, some sw)) :
    ∃ sw0 : SimpleWriter B, newSimpleWriter (options bs) env = .ok sw0 ∧
      importLoop env g mv mi num.toInt.toNat 0 0 sw0 = (e, sw) := by
  unfold runImport at h
  rw [show ([.withBlockSize bs.toUInt64.toUInt32, .withEncoding encVarIntBoth] : List WriterOption) = options bs from rfl] at h
  generalize (newSimpleWriter (options bs) env : Except Err (SimpleWriter B)) = res at h ⊢
  cases res with
  | error e => cases h
  | ok sw0 =>
    simp only at h
    refine ⟨sw0, rfl, ?_⟩
    generalize importLoop env g mv mi num.toInt.toNat 0 0 sw0 = res at h ⊢
    obtain ⟨e', sw'⟩ := res
    simp only [Prod.mk.injEq, Option.some.injEq] at h
    obtain ⟨rfl, rfl⟩ := h
    rfl

variable [LawfulBitmap B]

/-! ### C54 -/

/-- **C54.** Whatever the seed, flags, disk errors and clock: if `loadtest import -n N` reports success, then it reports N values
and N items, and the file opens and holds exactly the generated pairs, batch by batch, each batch of up to
10000 pairs in ascending ID order; N is not negative or nothing was generated. -/
theorem C54_import {env : Env} (hs : LawfulSort env.sort) {g : Rng} {num bs mv : Int64} {mi : UInt64} {v i : Nat}
    {sw : SimpleWriter B} (h : runImport env g num bs mv mi = (.done v i, some sw))
    (hsize : sw.writer.file.bytes.length ≤ maxFileSize) :
    v = num.toInt.toNat ∧ i = num.toInt.toNat ∧
    ∃ batches k, Batches g mv mi num.toInt.toNat 0 batches 0 k ∧ (pairs batches).flatten.length = num.toInt.toNat ∧
      ∃ (r : Reader B) (stored : List (List Pair)), newReader sw.writer.file.bytes = .ok r ∧
        Each SortedBatch (pairs batches) stored ∧ AllPairs r stored.flatten := by
  obtain ⟨sw0, h0, h1⟩ := runImport_eq h
  obtain ⟨batches, k, hb, hv, hi, hrun⟩ := importLoop_done env g mv mi _ _ _ _ h1
  have H : SWHistory B env (options bs) (writes batches ++ [.close]) (succeeded (writes batches ++ [.close])) sw :=
    ⟨sw0, h0, hrun⟩
  have hclose : (SWCall.close, Except.ok ()) ∈ succeeded (writes batches ++ [.close]) := by simp [succeeded]
  have hacc := accepted_succeeded batches [.close] (.inr rfl)
  have hacct := (C21_accounting hs H (options_enc bs) hb.bounded (noIOError_succeeded _)).2.2 hclose
  obtain ⟨r, stored, hr, hst, hp⟩ := C20_stream hs H (options_enc bs) hb.bounded (noIOError_succeeded _) hclose hsize
  have hn := hb.split.1
  rw [hacc] at hacct hst
  exact ⟨by omega, by omega, batches, k, hb, by omega, r, stored, hr, hst, hp⟩

/-- **C54.** When no disk operation fails the program succeeds or panics; if it panics, the file holds exactly
the batches completed before. -/
theorem C54_panicked {env : Env} (hs : LawfulSort env.sort) (hn : env.NoFault) {g : Rng} {num bs mv : Int64} {mi : UInt64} :
    ∃ (e : Exit) (sw : SimpleWriter B), runImport env g num bs mv mi = (e, some sw) ∧
      (e = .done num.toInt.toNat num.toInt.toNat ∨
       e = .panicked ∧ ∃ batches n k, Batches g mv mi num.toInt.toNat 0 batches n k ∧ 0 < n ∧
        (∀ out, genBatch g mv mi (min 10000 n) none k ≠ .ok out) ∧
        (sw.writer.file.bytes.length ≤ maxFileSize → ∃ (r : Reader B) (stored : List (List Pair)),
          newReader sw.writer.file.bytes = .ok r ∧ Each SortedBatch (pairs batches) stored ∧ AllPairs r stored.flatten)) := by
  obtain ⟨w0, hw0⟩ := newWriter_ok (B := B) env hn (options bs)
  obtain ⟨sw0, hnew⟩ : ∃ sw0 : SimpleWriter B, newSimpleWriter (options bs) env = .ok sw0 := by
    unfold newSimpleWriter
    rw [hw0]
    exact ⟨_, rfl⟩
  have ho := newSimpleWriter_open hnew
  have hno := importLoop_noFault hs hn g mv mi (options_enc bs) num.toInt.toNat 0 0 ho
  rcases hl : importLoop env g mv mi num.toInt.toNat 0 0 sw0 with ⟨e, sw⟩
  rw [hl] at hno
  have hrun : runImport env g num bs mv mi = (e, some sw) := by
    unfold runImport
    rw [show ([.withBlockSize bs.toUInt64.toUInt32, .withEncoding encVarIntBoth] : List WriterOption) = options bs from rfl]
    rw [hnew]
    simp only [hl]
  refine ⟨e, sw, hrun, ?_⟩
  cases e with
  | failed e => exact absurd rfl (hno e)
  | done v i =>
    left
    obtain ⟨batches, k, hb, hv, hi, hr⟩ := importLoop_done env g mv mi _ _ _ _ hl
    have H : SWHistory B env (options bs) (writes batches ++ [.close]) (succeeded (writes batches ++ [.close])) sw :=
      ⟨sw0, hnew, hr⟩
    have hclose : (SWCall.close, Except.ok ()) ∈ succeeded (writes batches ++ [.close]) := by simp [succeeded]
    have hacct := (C21_accounting hs H (options_enc bs) hb.bounded (noIOError_succeeded _)).2.2 hclose
    rw [accepted_succeeded batches [.close] (.inr rfl)] at hacct
    have := hb.split.1
    rw [hv, hi, hacct.1, Nat.zero_add]
    congr 1
    omega
  | panicked =>
    right
    obtain ⟨batches, n', k', hb, hpos, hbad, hr, hsw⟩ := importLoop_panicked env g mv mi _ _ _ _ hl
    refine ⟨rfl, batches, n', k', hb, hpos, hbad, fun hsize => ?_⟩
    have hlog : (runSW env (writes batches ++ [.close]) sw0).1 = expectedSW (writes batches ++ [.close]) false :=
      ho.run_noFault hs hn (options_enc bs) _ hb.bounded
    have hexp : ∀ bs' : List (List UInt64 × List Int64), (∀ b ∈ bs', b.1.length = b.2.length) →
        expectedSW (writes bs' ++ [.close]) false = succeeded (writes bs' ++ [.close]) := by
      intro bs' hbs
      induction bs' with
      | nil => rfl
      | cons b bs' ih =>
        simp only [writes, succeeded, List.map_cons, List.cons_append, expectedSW, SWCall.expected, SWCall.closes] at ih ⊢
        rw [if_pos (hbs b (by simp)), ih fun b' h' => hbs b' (by simp [h'])]
    rw [hexp batches fun b h' => (hb.split.2 b h').1] at hlog
    have H : SWHistory B env (options bs) (writes batches ++ [.close]) (succeeded (writes batches ++ [.close])) sw :=
      ⟨sw0, hnew, by rw [← hlog, hsw]⟩
    have hclose : (SWCall.close, Except.ok ()) ∈ succeeded (writes batches ++ [.close]) := by simp [succeeded]
    obtain ⟨r, stored, hr, hst, hp⟩ := C20_stream hs H (options_enc bs) hb.bounded (noIOError_succeeded _) hclose hsize
    rw [accepted_succeeded batches [.close] (.inr rfl)] at hst
    exact ⟨r, stored, hr, hst, hp⟩

/-- **C54.** With `-max-value` at least 10, `-max-id` between 1 and 2^63 - 1 and no disk errors, the import succeeds,
for every seed, block size and number of values. -/
theorem C54_succeeds {env : Env} (hs : LawfulSort env.sort) (hn : env.NoFault) (g : Rng) (num bs : Int64) {mv : Int64} {mi : UInt64}
    (hv : 10 ≤ mv.toInt) (hi : 0 < mi.toNat ∧ mi.toNat < 2 ^ 63) :
    ∃ sw : SimpleWriter B, runImport env g num bs mv mi = (.done num.toInt.toNat num.toInt.toNat, some sw) := by
  obtain ⟨e, sw, h1, h2⟩ := C54_panicked (B := B) hs hn (g := g) (num := num) (bs := bs) (mv := mv) (mi := mi)
  rcases h2 with rfl | ⟨_, _, _, _, _, _, hbad, _⟩
  · exact ⟨sw, h1⟩
  · obtain ⟨out, ho⟩ := genBatch_total g hv (by rw [toInt_toInt64 hi.2]; omega) _ _ _
    exact absurd ho (hbad out)

/-- **C54.** With a `-max-value` of zero or less, or a `-max-id` that is zero or at least 2^63, asking for at least one value
panics; the file left behind opens and is empty. -/
theorem C54_badflags {env : Env} (hs : LawfulSort env.sort) (hn : env.NoFault) (g : Rng) {num bs mv : Int64} {mi : UInt64}
    (hnum : 0 < num.toInt) (hbad : mv.toInt ≤ 0 ∨ mi.toNat = 0 ∨ 2 ^ 63 ≤ mi.toNat) :
    ∃ sw : SimpleWriter B, runImport env g num bs mv mi = (.panicked, some sw) ∧
      (sw.writer.file.bytes.length ≤ maxFileSize → ∃ r : Reader B, newReader sw.writer.file.bytes = .ok r ∧ AllPairs r []) := by
  have hp : ∀ k out, genBatch g mv mi (min 10000 num.toInt.toNat) none k ≠ .ok out := by
    intro k out
    have : min 10000 num.toInt.toNat = (min 10000 num.toInt.toNat - 1) + 1 := by omega
    rw [this]
    apply genBatch_panic
    rcases hbad with h | h | h
    · exact .inl h
    · refine .inr ?_
      rw [toInt_toInt64 (by omega)]
      omega
    · refine .inr ?_
      have h1 : mi.toInt64.toInt = (mi.toNat : Int).bmod (2 ^ 64) := by
        show (mi.toBitVec).toInt = _
        rw [BitVec.toInt_eq_toNat_bmod]
        rfl
      rw [h1, Int.bmod_def, if_neg]
      · have := mi.toNat_lt
        omega
      · have := mi.toNat_lt
        omega
  have hnil : ∀ {bs' n k}, Batches g mv mi num.toInt.toNat 0 bs' n k → bs' = [] ∧ n = num.toInt.toNat := by
    intro bs' n k hb
    cases hb with
    | nil => exact ⟨rfl, rfl⟩
    | cons _ h _ => exact absurd h (hp _ _)
  obtain ⟨e, sw, h1, h2⟩ := C54_panicked (B := B) hs hn (g := g) (num := num) (bs := bs) (mv := mv) (mi := mi)
  rcases h2 with rfl | ⟨rfl, bs', n, k, hb, hpos, _, hfile⟩
  · obtain ⟨sw0, _, hl⟩ := runImport_eq h1
    obtain ⟨bs', k, hb, _⟩ := importLoop_done env g mv mi _ _ _ _ hl
    have := (hnil hb).2
    omega
  · refine ⟨sw, h1, fun hsize => ?_⟩
    obtain ⟨r, stored, hr, hst, hall⟩ := hfile hsize
    rw [(hnil hb).1] at hst
    cases hst
    exact ⟨r, hr, hall⟩

/-- **C54.** For every seed, every generated pair is within these bounds. -/
theorem C54_range {g : Rng} (hg : g.Lawful) {mv : Int64} {mi : UInt64} (hmv : mv.toInt ≤ 2 ^ 62) {n k n' k' : Nat}
    {batches : List (List UInt64 × List Int64)} (h : Batches g mv mi n k batches n' k') (b) (hb : b ∈ pairs batches) (j : Nat)
    (hj : j < b.length) : InRange mv.toInt mi.toNat j b[j] := by
  induction h with
  | nil => simp [pairs] at hb
  | @cons n k ids vals k1 rest n' k' hn h t ih =>
    simp only [pairs, List.map_cons, List.mem_cons] at hb
    rcases hb with rfl | hb
    · have hpos : 0 < mv.toInt ∧ 0 < mi.toInt64.toInt := by
        rw [show min 10000 n = (min 10000 n - 1) + 1 from by omega] at h
        refine ⟨Int.lt_of_not_ge fun hc => ?_, Int.lt_of_not_ge fun hc => ?_⟩
        · exact absurd h (genBatch_panic g (.inl hc) _ _ _)
        · exact absurd h (genBatch_panic g (.inr hc) _ _ _)
      have hmi : mi.toNat < 2 ^ 63 := by
        refine Nat.lt_of_not_ge fun hc => ?_
        have h1 : mi.toInt64.toInt = (mi.toNat : Int).bmod (2 ^ 64) := by
          show (mi.toBitVec).toInt = _
          rw [BitVec.toInt_eq_toNat_bmod]
          rfl
        have := mi.toNat_lt
        rw [h1, Int.bmod_def, if_neg (by omega)] at hpos
        omega
      have := genBatch_range hg hpos.1 hmv hmi (j := 0) (by simp) (by omega) h j hj
      rwa [Nat.zero_add] at this
    · exact ih hb

/-- A generator for `C54_refuted`. -/
def unlucky : Rng where
  coin := fun _ => true
  below := fun k n => if k ≤ 4 then n - 1 else 0

theorem unlucky_lawful : unlucky.Lawful := by
  intro k n hn
  rw [Int64.lt_iff_toInt_lt, Int64.toInt_zero] at hn
  simp only [unlucky, Int64.le_iff_toInt_le, Int64.lt_iff_toInt_lt, Int64.toInt_zero]
  split
  · have h1 : (n - 1).toInt = n.toInt - 1 := by
      have := Int64.toInt_lt n
      rw [Int64.toInt_sub, Int64.toInt_one, Int.bmod_eq_of_le] <;> omega
    omega
  · rw [Int64.toInt_zero]; omega

theorem unlucky_batch : genBatch unlucky 1000000 20000000 2 none 0 =
    .ok (([19999999, 20000009], [1049998, -49991]), 7) := by
  decide +kernel

/-- **C54 is refuted for the flags' names**: with the default `-max-value 1000000` and `-max-id 20000000`,
a run can write an ID and a value above these maxima, and a negative value. -/
theorem C54_refuted : ∃ (g : Rng) (sw : SimpleWriter IdSet) (r : Reader IdSet) (ps : List Pair), g.Lawful ∧
    runImport quietEnv g 2 4096 1000000 20000000 = (.done 2 2, some sw) ∧ newReader sw.writer.file.bytes = .ok r ∧ AllPairs r ps ∧
    (∃ p ∈ ps, 20000000 < p.1) ∧ (∃ p ∈ ps, 1000000 < p.2) ∧ ∃ p ∈ ps, p.2 < 0 := by
  obtain ⟨sw, h⟩ := C54_succeeds (B := IdSet) sortByInsertion_lawful quietEnv_noFault unlucky 2 4096
    (mv := 1000000) (mi := 20000000) (by decide) (by decide)
  have h2 : (2 : Int64).toInt.toNat = 2 := by decide
  rw [h2] at h
  obtain ⟨sw0, h0, h1⟩ := runImport_eq h
  obtain ⟨batches, k, hb, hv, hi, hrun⟩ := importLoop_done _ _ _ _ _ _ _ _ h1
  rw [h2] at hb
  have hbs : batches = [([19999999, 20000009], [1049998, -49991])] := by
    cases hb with
    | cons _ hg t =>
      rw [show min 10000 2 = 2 from rfl, unlucky_batch] at hg
      simp only [Res.ok.injEq, Prod.mk.injEq] at hg
      obtain ⟨⟨rfl, rfl⟩, _⟩ := hg
      cases t with
      | nil => rfl
      | cons hn _ _ => simp at hn
  have H : SWHistory IdSet quietEnv (options 4096) (writes batches ++ [.close]) (succeeded (writes batches ++ [.close])) sw :=
    ⟨sw0, h0, hrun⟩
  have hclose : (SWCall.close, Except.ok ()) ∈ succeeded (writes batches ++ [.close]) := by simp [succeeded]
  have hacc := accepted_succeeded batches [.close] (.inr rfl)
  have hlen : (accepted (succeeded (writes batches ++ [.close]))).flatten.length = 2 := by
    rw [hacc, hbs]; rfl
  obtain ⟨r, stored, hr, hst, hp, _⟩ := C20_sized sortByInsertion_lawful H (options_enc 4096) hb.bounded (noIOError_succeeded _) hclose
    (by omega) (by
      intro L hL
      have := idSet_buffer 2 L (by omega)
      omega)
  have hperm := hst.perm
  rw [hacc, hbs] at hperm
  have m1 : ((19999999, 1049998) : Pair) ∈ stored.flatten := hperm.mem_iff.2 (by decide)
  have m2 : ((20000009, -49991) : Pair) ∈ stored.flatten := hperm.mem_iff.2 (by decide)
  exact ⟨unlucky, sw, r, _, unlucky_lawful, h, hr, hp, ⟨_, m2, by decide⟩, ⟨_, m1, by decide⟩, ⟨_, m2, by decide⟩⟩

/-! ### C55 -/

omit [LawfulBitmap B] in
theorem scan_eq {r : Reader B} {blocks : List Block} (H : Reads r blocks) (fuel i : Nat) (hi : i + fuel = blocks.length) (total : Int64) :
    scan r fuel (UInt64.ofNat i) total = .ok (total + Int64.ofNat ((blocks.drop i).flatMap fun b => b.1.zip b.2).length) := by
  induction fuel generalizing i total with
  | zero =>
    rw [List.drop_eq_nil_of_le (by omega)]
    simp [scan]
  | succ fuel ih =>
    have hlt : i < blocks.length := by omega
    have hl := (H.ok blocks[i] (List.getElem_mem hlt)).2.1
    simp only [scan, H.read i hlt, Res.ok_bind]
    rw [show UInt64.ofNat i + 1 = UInt64.ofNat (i + 1) from by simp, ih (i + 1) (by omega), List.drop_eq_getElem_cons hlt,
      List.flatMap_cons, List.length_append, List.length_zip, hl, Nat.min_self, Int64.ofNat_add]
    simp only [Res.ok.injEq]
    rw [Int64.add_assoc]

theorem intSum_bound (vs : List Int64) (c : Int) (h : ∀ v ∈ vs, -c ≤ v.toInt ∧ v.toInt ≤ c) :
    -(c * vs.length) ≤ intSum vs ∧ intSum vs ≤ c * vs.length := by
  induction vs with
  | nil => simp [intSum]
  | cons v vs ih =>
    have h1 := h v (by simp)
    have h2 := ih fun w hw => h w (by simp [hw])
    simp only [intSum, List.map_cons, List.sum_cons, List.length_cons] at h2 ⊢
    rw [Int.natCast_add, Int.mul_add]
    simp only [Int.natCast_one, Int.mul_one]
    omega

/-- Blocks of values of moderate size have representable statistics. -/
theorem representable {blocks : List Block} (hb : ∀ b ∈ blocks, b.1.length = b.2.length ∧ b.1.length ≤ 2 ^ 27)
    (hv : ∀ v ∈ valuesOf blocks, -(2 ^ 36 - 1) ≤ v.toInt ∧ v.toInt ≤ 2 ^ 36 - 1) : StatsRepresentable blocks := by
  intro b hbm
  have hl := hb b hbm
  have hv' : ∀ v ∈ b.2, -(2 ^ 36 - 1) ≤ v.toInt ∧ v.toInt ≤ 2 ^ 36 - 1 := by
    intro v hvm
    apply hv
    simp only [valuesOf, pairsOf, List.mem_map, List.mem_flatMap]
    obtain ⟨i, hi, rfl⟩ := List.mem_iff_getElem.1 hvm
    refine ⟨(b.1[i]'(by omega), b.2[i]), ⟨b, hbm, ?_⟩, rfl⟩
    rw [List.mem_iff_getElem]
    exact ⟨i, by simp; omega, by simp⟩
  have hmin : minInt64Value.toInt = -9223372036854775808 := rfl
  refine ⟨fun hc => ?_, fun hc => ?_⟩
  · have := hv' _ hc
    rw [hmin] at this
    omega
  · have h1 := intSum_bound b.2 _ hv'
    have h2 : ((2 : Int) ^ 36 - 1) * b.2.length ≤ (2 ^ 36 - 1) * 2 ^ 27 := by omega
    have h3 := congrArg Int64.toInt hc
    rw [hmin, Int64.toInt_ofInt, show Int64.size = 2 ^ 64 from rfl, Int.bmod_eq_of_le] at h3 <;> omega

/-- The file of a successful import delivers the generated pairs, in some order. -/
theorem import_reads {env : Env} (hs : LawfulSort env.sort) {g : Rng} (hg : g.Lawful) {num bs mv : Int64} {mi : UInt64} {v i : Nat}
    {sw : SimpleWriter B} (h : runImport env g num bs mv mi = (.done v i, some sw))
    (hsize : sw.writer.file.bytes.length ≤ maxFileSize) :
    ∃ batches k blocks, ∃ r : Reader B, Batches g mv mi num.toInt.toNat 0 batches 0 k ∧ newReader sw.writer.file.bytes = .ok r ∧
      Reads r blocks ∧ (pairsOf blocks).Perm (pairs batches).flatten ∧ r.version = 1 ∧ r.encodingType = encVarIntBoth ∧
      (mv.toInt ≤ 2 ^ 35 → StatsRepresentable blocks) := by
  obtain ⟨sw0, h0, h1⟩ := runImport_eq h
  obtain ⟨batches, k, hb, hv, hi, hrun⟩ := importLoop_done env g mv mi _ _ _ _ h1
  have H : SWHistory B env (options bs) (writes batches ++ [.close]) (succeeded (writes batches ++ [.close])) sw :=
    ⟨sw0, h0, hrun⟩
  have hclose : (SWCall.close, Except.ok ()) ∈ succeeded (writes batches ++ [.close]) := by simp [succeeded]
  have hacc := accepted_succeeded batches [.close] (.inr rfl)
  obtain ⟨stored, blks, hst, hc⟩ := H.result hs (options_enc bs) hb.bounded (noIOError_succeeded _)
  have hcl : sw.closed = true := by
    have := closed_of_log env (writes batches ++ [.close]) sw0 (by rw [hrun]; exact hclose)
    rwa [hrun] at this
  rcases hc with hc | hc
  · rw [hc.isOpen] at hcl; cases hcl
  obtain ⟨hd, bo, fs, hok⟩ := hc.file (by unfold maxFileSize maxBlocks at hsize; omega)
  have hfew := hok.few hsize
  have hR : Reads (okReader (B := B) sw.writer.file.bytes hd (chosenEncoding (options bs)) blks) (blks.map Blk.pairs) :=
    hok.reads (B := B) (options_enc bs) hfew
  have hnew := hok.newReader (B := B) (by unfold maxBlocks at hfew; omega)
  generalize hr : (okReader sw.writer.file.bytes hd (chosenEncoding (options bs)) blks : Reader B) = r at hR hnew
  have hver : r.version = 1 := by rw [← hr]; exact hok.ver
  have henc : r.encodingType = encVarIntBoth := by rw [← hr]; exact hok.enc
  have hperm : (pairsOf (blks.map Blk.pairs)).Perm (pairs batches).flatten := by
    have hp := hst.perm
    rw [hacc, hc.stream] at hp
    have : pairsOf (blks.map Blk.pairs) = blkPairs blks := by
      simp only [pairsOf, blkPairs, List.flatMap_map, Blk.pairs]
    rw [this]
    exact hp
  refine ⟨batches, k, blks.map Blk.pairs, r, hb, hnew, hR, hperm, hver, henc, fun hmv => ?_⟩
  refine representable (fun b hb => (hR.ok b hb).2) fun v hvm => ?_
  rw [show valuesOf (blks.map Blk.pairs) = (pairsOf (blks.map Blk.pairs)).map Prod.snd from rfl, List.mem_map] at hvm
  obtain ⟨p, hp, rfl⟩ := hvm
  rw [hperm.mem_iff] at hp
  obtain ⟨b, hbm, hpb⟩ := List.mem_flatten.1 hp
  obtain ⟨j, hj, rfl⟩ := List.mem_iff_getElem.1 hpb
  have := C54_range hg (by omega) hb b hbm j hj
  have h1 := this.lo
  have h2 := this.hi
  omega

/-- **C55.** `loadtest aggregate` on the file of a successful `loadtest import -n N`, whatever the
seed, flags and schedule: it reports version 1, the encoding, Count N, the exact minimum, maximum,
sum and average of the generated values, and N values found by the full scan. Only with
`-skip-cache=false` must `-max-value` be at most 2^35 (a block sum that wraps to -2^63 would be misreported, see C10). -/
theorem C55_aggregate {env : Env} (hs : LawfulSort env.sort) {g : Rng} (hg : g.Lawful) {num bs mv : Int64} {mi : UInt64} {v i : Nat}
    {sw : SimpleWriter B} (h : runImport env g num bs mv mi = (.done v i, some sw))
    (hsize : sw.writer.file.bytes.length ≤ maxFileSize) (sched : Sched) (hf : sched.Fair) (skipCache : Bool) (parallel : Int)
    (hmv : skipCache = true ∨ mv.toInt ≤ 2 ^ 35) :
    ∃ batches k rep, Batches g mv mi num.toInt.toNat 0 batches 0 k ∧
      runAggregate (B := B) sched sw.writer.file.bytes skipCache parallel = .ok rep ∧
      rep.version = 1 ∧ rep.encoding = encVarIntBoth ∧ rep.result.count = num.toInt.toNat ∧
      IsAggregate rep.result ((pairs batches).flatten.map Prod.snd) ∧
      rep.scanned.toInt = num.toInt.toNat ∧
      rep.workers = (if parallel = 0 then none else some (if parallel < 0 then (sched.gomaxprocs : Int) else parallel)) := by
  obtain ⟨batches, k, blocks, r, hb, hnew, hR, hpp, hver, henc, hrep⟩ := import_reads hs hg h hsize
  have hn := hb.split.1
  have hperm : (valuesOf blocks).Perm ((pairs batches).flatten.map Prod.snd) := hpp.map _
  have hcnt : r.blockCount.toNat = blocks.length := hR.toIndexed.count_toNat
  have hagg : aggregateWithOptions sched r { skipPreCalculated := skipCache, parallel := parallel } =
      .ok (accOf (valuesOf blocks)).result := by
    rw [hR.toIndexed.parallel_eq sched hf]
    cases hsk : skipCache with
    | true => exact hR.skip _ rfl rfl (.inl rfl)
    | false =>
      refine hR.toIndexed.footer _ rfl rfl rfl (hrep ?_)
      rcases hmv with h | h
      · rw [hsk] at h; cases h
      · exact h
  have hscan : scan r r.blockCount.toNat 0 0 = .ok (Int64.ofNat (pairs batches).flatten.length) := by
    have := scan_eq hR r.blockCount.toNat 0 (by omega) 0
    rw [show UInt64.ofNat 0 = 0 from rfl] at this
    rw [this, List.drop_zero, Int64.zero_add]
    rw [show (blocks.flatMap fun b => b.1.zip b.2) = pairsOf blocks from rfl, hpp.length_eq]
  have hbound := Int64.toInt_lt num
  have hA := (accOf_isAggregate (valuesOf blocks)).perm hperm
  refine ⟨batches, k, ?_⟩
  unfold runAggregate
  rw [hnew]
  simp only [Res.ok_bind, hagg, hscan]
  refine ⟨_, hb, rfl, hver, henc, ?_, hA, ?_, ?_⟩
  · rw [hA.count, List.length_map]; omega
  · simp only
    rw [Int64.toInt_ofNat_of_lt (by omega)]
    omega
  · simp only [ne_eq, ite_not]

/-- Non-vacuity: a run that ends normally, the full file. -/
example : ∃ sw : SimpleWriter IdSet, runImport quietEnv unlucky 25000 16384 1000000 20000000 = (.done 25000 25000, some sw) :=
  C54_succeeds sortByInsertion_lawful quietEnv_noFault unlucky 25000 16384 (mv := 1000000) (mi := 20000000) (by decide) (by decide)

end VibeCol.LoadTest
