import Verif.Spec.SharedSlices
import Verif.Lemmas.Simple
import Verif.Props.SimpleProgress
/-! # C59: slices passed to a SimpleWriter -/
namespace VibeCol.Shared

section
variable {α : Type}

/-- Overwrite from position `k`. -/
def setAll (xs : List α) (k : Nat) : List α → List α
  | [] => xs
  | v :: vs => setAll (xs.set k v) (k + 1) vs

theorem setAll_eq (vs : List α) (xs : List α) (k : Nat) (h : k + vs.length ≤ xs.length) :
    setAll xs k vs = xs.take k ++ vs ++ xs.drop (k + vs.length) := by
  induction vs generalizing xs k with
  | nil => simp [setAll]
  | cons v vs ih =>
    simp only [List.length_cons] at h
    rw [setAll, ih _ _ (by rw [List.length_set]; omega), List.take_set, List.drop_set,
      List.take_add_one, List.getElem?_eq_getElem (by omega), if_pos (by omega)]
    have hl : (xs.take k).length = k := by rw [List.length_take]; omega
    simp only [Option.toList]
    rw [List.set_append_right _ _ (by omega), hl]
    simp [Nat.add_assoc, Nat.add_comm 1]

theorem put_length (m : Mem α) (a i : Nat) (v : α) : (put m a i v).length = m.length := by
  simp [put]

theorem put_other (m : Mem α) {a b : Nat} (i : Nat) (v : α) (h : b ≠ a) : (put m a i v).getD b [] = m.getD b [] := by
  simp only [put, List.getD_eq_getElem?_getD, List.getElem?_modify]
  simp [show ¬ a = b from fun hc => h hc.symm]

theorem put_at (m : Mem α) {a : Nat} (i : Nat) (v : α) : (put m a i v).getD a [] = (m.getD a []).set i v := by
  simp only [put, List.getD_eq_getElem?_getD, List.getElem?_modify, if_true]
  cases m[a]? <;> simp

theorem fill_length (s : Slice) (vs : List α) (m : Mem α) (i : Nat) : (s.fill m i vs).length = m.length := by
  induction vs generalizing m i with
  | nil => rfl
  | cons v vs ih => rw [Slice.fill, ih, put_length]

theorem fill_other (s : Slice) (vs : List α) (m : Mem α) (i : Nat) {b : Nat} (h : b ≠ s.arr) :
    (s.fill m i vs).getD b [] = m.getD b [] := by
  induction vs generalizing m i with
  | nil => rfl
  | cons v vs ih => rw [Slice.fill, ih, put_other _ _ _ h]

theorem fill_at (s : Slice) (vs : List α) (m : Mem α) (i : Nat) :
    (s.fill m i vs).getD s.arr [] = setAll (m.getD s.arr []) (s.off + i) vs := by
  induction vs generalizing m i with
  | nil => rfl
  | cons v vs ih => rw [Slice.fill, ih, put_at, setAll, Nat.add_assoc]

/-- `s` holds `xs`, in an array that is not the program's. -/
structure Own (m : Mem α) (mine : List Nat) (s : Slice) (xs : List α) : Prop where
  len : s.len = xs.length
  read : s.read m = xs
  cap : s.len ≤ s.cap
  place : 0 < s.cap → s.arr < m.length ∧ s.arr ∉ mine ∧ s.off + s.cap ≤ (m.getD s.arr []).length

/-- The program's arrays hold `arrays`. -/
structure Mine (m : Mem α) (mine : List Nat) (arrays : List (List α)) : Prop where
  eq : mine.map (fun a => m.getD a []) = arrays
  lt : ∀ a ∈ mine, a < m.length
  nodup : mine.Nodup

theorem Mine.same {m m' : Mem α} {mine : List Nat} {arrays : List (List α)} (h : Mine m mine arrays) (hl : m.length ≤ m'.length)
    (hs : ∀ a ∈ mine, m'.getD a [] = m.getD a []) : Mine m' mine arrays :=
  ⟨by rw [← h.eq]; exact List.map_congr_left hs, fun a ha => Nat.lt_of_lt_of_le (h.lt a ha) hl, h.nodup⟩

theorem Own.same {m m' : Mem α} {mine mine' : List Nat} {s : Slice} {xs : List α} (h : Own m mine s xs) (hl : m.length ≤ m'.length)
    (hs : 0 < s.cap → m'.getD s.arr [] = m.getD s.arr []) (hm : s.arr < m.length → s.arr ∉ mine → s.arr ∉ mine') : Own m' mine' s xs := by
  refine ⟨h.len, ?_, h.cap, fun hc => ?_⟩
  · rcases Nat.eq_zero_or_pos s.cap with h0 | h0
    · have := h.cap
      have := h.len
      have : xs = [] := List.eq_nil_of_length_eq_zero (by omega)
      subst this
      unfold Slice.read
      rw [h.len]
      rfl
    · rw [← h.read]
      unfold Slice.read
      rw [hs h0]
  · obtain ⟨h1, h2, h3⟩ := h.place hc
    exact ⟨by omega, hm h1 h2, by rw [hs hc]; exact h3⟩

theorem getD_snoc (m : Mem α) (x : List α) {a : Nat} (h : a < m.length) : (m ++ [x]).getD a [] = m.getD a [] := by
  simp only [List.getD_eq_getElem?_getD]
  rw [List.getElem?_append_left h]

theorem getD_last (m : Mem α) (x : List α) : (m ++ [x]).getD m.length [] = x := by
  simp [List.getD_eq_getElem?_getD]

theorem Mine.snoc {m : Mem α} {mine : List Nat} {arrays : List (List α)} (h : Mine m mine arrays) (x : List α) : Mine (m ++ [x]) mine arrays :=
  h.same (by simp) fun a ha => getD_snoc m x (h.lt a ha)

theorem Own.snoc {m : Mem α} {mine : List Nat} {s : Slice} {xs : List α} (h : Own m mine s xs) (x : List α) : Own (m ++ [x]) mine s xs :=
  h.same (by simp) (fun hc => getD_snoc m x (h.place hc).1) fun _ h => h

/-- A new array is nobody's. -/
theorem Own.fresh {m : Mem α} {mine : List Nat} {arrays : List (List α)} (h : Mine m mine arrays) (x : List α) {n : Nat} (hn : n ≤ x.length) :
    Own (m ++ [x]) mine ⟨m.length, 0, n, x.length⟩ (x.take n) := by
  refine ⟨by simp; omega, ?_, hn, fun _ => ⟨by simp, fun hc => Nat.lt_irrefl _ (h.lt _ hc), ?_⟩⟩
  · unfold Slice.read
    dsimp only
    rw [getD_last]
    rfl
  · dsimp only
    rw [getD_last]
    omega

theorem fill_own {m : Mem α} {mine : List Nat} {s : Slice} {xs : List α} (h : Own m mine s xs) {i : Nat} {vs : List α} {t : Slice}
    (ht : t.arr = s.arr ∧ t.off = s.off ∧ t.cap = s.cap ∧ t.len = i + vs.length) (hi : i ≤ s.len) (hc : i + vs.length ≤ s.cap) :
    Own (t.fill m i vs) mine t (xs.take i ++ vs) := by
  obtain ⟨h1, h2, h3, h4⟩ := ht
  have hlen := h.len
  rcases Nat.eq_zero_or_pos s.cap with h0 | h0
  · have : vs = [] := List.eq_nil_of_length_eq_zero (by omega)
    subst this
    have : i = 0 := by omega
    subst this
    refine ⟨by simp [h4], ?_, by rw [h4]; simp, fun hc => absurd hc (by omega)⟩
    unfold Slice.read
    rw [h4]
    simp
  · obtain ⟨p1, p2, p3⟩ := h.place h0
    have hat : (t.fill m i vs).getD t.arr [] = _ := fill_at t vs m i
    rw [h1, h2, setAll_eq _ _ _ (by omega)] at hat
    refine ⟨by rw [h4, List.length_append, List.length_take]; omega, ?_, by omega, fun _ => ⟨by rw [fill_length, h1]; exact p1, by rw [h1]; exact p2, ?_⟩⟩
    · unfold Slice.read
      rw [h1, hat, h2, h4]
      have hx : xs.take i = ((m.getD s.arr []).drop s.off).take i := by
        rw [← h.read]
        unfold Slice.read
        rw [List.take_take]
        congr 1
        omega
      rw [hx, List.append_assoc, List.drop_append, List.drop_take]
      have hl : ((m.getD s.arr []).take (s.off + i)).length = s.off + i := by rw [List.length_take]; omega
      rw [hl, show s.off - (s.off + i) = 0 by omega, show s.off + i - s.off = i by omega, List.drop_zero, ← List.append_assoc]
      refine List.take_left' ?_
      rw [List.length_append, List.length_take, List.length_drop]
      omega
    · rw [h1, hat, h2, h3]
      simp only [List.length_append, List.length_take, List.length_drop]
      omega

theorem fill_mine {m : Mem α} {mine : List Nat} {arrays : List (List α)} (h : Mine m mine arrays) {s : Slice} {xs : List α} (ho : Own m mine s xs)
    {i : Nat} {vs : List α} {t : Slice} (ht : t.arr = s.arr) (_hi : i ≤ s.len) (hc : i + vs.length ≤ s.cap) : Mine (t.fill m i vs) mine arrays := by
  refine h.same (by rw [fill_length]; exact Nat.le_refl _) fun a ha => ?_
  rcases Nat.eq_zero_or_pos s.cap with h0 | h0
  · have : vs = [] := List.eq_nil_of_length_eq_zero (by omega)
    subst this
    rfl
  · refine fill_other _ _ _ _ fun hx => (ho.place h0).2.1 ?_
    rw [← ht, ← hx]
    exact ha

theorem append_own (grow : Nat → Nat → Nat) (zero : α) {m : Mem α} {mine : List Nat} {arrays : List (List α)} {s t : Slice} {xs ys : List α}
    (hm : Mine m mine arrays) (hs : Own m mine s xs) (ht : t.len = ys.length) (htr : t.read m = ys) :
    Mine (append grow zero s t m).2 mine arrays ∧ Own (append grow zero s t m).2 mine (append grow zero s t m).1 (xs ++ ys) := by
  unfold append
  dsimp only
  rw [htr]
  split
  · rename_i hle
    have hc : s.len + ys.length ≤ s.cap := by omega
    refine ⟨fill_mine hm hs rfl (Nat.le_refl _) hc, ?_⟩
    have := fill_own hs (i := s.len) (vs := ys) (t := { s with len := s.len + t.len }) ⟨rfl, rfl, rfl, by rw [ht]⟩ (Nat.le_refl _) hc
    rwa [hs.len, List.take_length, ← hs.len] at this
  · rename_i hgt
    refine ⟨hm.snoc _, ?_⟩
    rw [hs.read]
    have hl : (xs ++ ys).length = s.len + t.len := by rw [List.length_append, hs.len, ht]
    have hle : s.len + t.len ≤ max (s.len + t.len) (grow s.cap (s.len + t.len)) := Nat.le_max_left _ _
    have := Own.fresh hm (xs ++ ys ++ List.replicate (max (s.len + t.len) (grow s.cap (s.len + t.len)) - (xs ++ ys).length) zero)
      (n := s.len + t.len) (by rw [List.length_append, List.length_replicate, hl]; omega)
    rw [List.take_left' (by rw [hl])] at this
    refine ⟨by rw [hl], this.read, hle, fun _ => ?_⟩
    have hp := this.place (by dsimp only; rw [List.length_append, List.length_replicate]; omega)
    dsimp only at hp ⊢
    refine ⟨hp.1, hp.2.1, ?_⟩
    rw [getD_last, List.length_append, List.length_replicate]
    omega

theorem Own.from {m : Mem α} {mine : List Nat} {s : Slice} {xs : List α} (h : Own m mine s xs) {n : Nat} (hn : n ≤ xs.length) :
    Own m mine (s.from n) (xs.drop n) := by
  have := h.len
  have := h.cap
  refine ⟨by simp [Slice.from, h.len], ?_, by simp only [Slice.from]; omega, fun hc => ?_⟩
  · have hr := h.read
    unfold Slice.read at hr ⊢
    dsimp only [Slice.from]
    rw [← hr, List.drop_take, List.drop_drop]
  · simp only [Slice.from] at hc ⊢
    obtain ⟨p1, p2, p3⟩ := h.place (by omega)
    exact ⟨p1, p2, by omega⟩

theorem Own.nil (m : Mem α) (mine : List Nat) : Own m mine nilSlice [] := ⟨rfl, by simp [Slice.read, nilSlice], Nat.le_refl _, fun h => by cases h⟩

/-- `make` and `copy`. -/
theorem makeCopy (zero : α) {m : Mem α} {mine : List Nat} {arrays : List (List α)} (hm : Mine m mine arrays) {s : Slice} {xs : List α}
    (hs : s.len = xs.length) (hr : s.read m = xs) (harr : s.arr < m.length) :
    Mine (copy (make zero s.len m).1 s (make zero s.len m).2) mine arrays ∧
    Own (copy (make zero s.len m).1 s (make zero s.len m).2) mine (make zero s.len m).1 xs ∧
    m.length ≤ (copy (make zero s.len m).1 s (make zero s.len m).2).length ∧
    ∀ a, a < m.length → (copy (make zero s.len m).1 s (make zero s.len m).2).getD a [] = m.getD a [] := by
  have ho := Own.fresh hm (List.replicate s.len zero) (n := s.len) (by simp)
  rw [List.length_replicate] at ho
  have hr2 : s.read (m ++ [List.replicate s.len zero]) = xs := by
    unfold Slice.read at hr ⊢
    rwa [getD_snoc _ _ harr]
  unfold make copy
  dsimp only
  rw [hr2, hs, List.take_length, ← hs]
  have h0 := fill_own ho (i := 0) (vs := xs) (t := ⟨m.length, 0, s.len, s.len⟩) ⟨rfl, rfl, rfl, by dsimp only; omega⟩ (by omega) (by dsimp only; omega)
  refine ⟨fill_mine (hm.snoc _) ho rfl (by omega) (by dsimp only; omega), h0, by rw [fill_length]; simp, fun a ha => ?_⟩
  rw [fill_other _ _ _ _ (by dsimp only; omega), getD_snoc _ _ ha]

end

section
variable {B : Type} [Bitmap B]

/-- The process and the specification agree. -/
structure Rel (p : Process B) (q : Separate B) : Prop where
  ids : Mine p.world.ids p.myIDs q.ids
  vals : Mine p.world.vals p.myValues q.vals
  pendingIDs : Own p.world.ids p.myIDs p.world.pendingIDs q.sw.pendingIDs
  pendingValues : Own p.world.vals p.myValues p.world.pendingValues q.sw.pendingValues
  writer : p.world.writer = q.sw.writer
  target : p.world.targetBlockSize = q.sw.targetBlockSize
  closed : p.world.closed = q.sw.closed
  total : p.world.totalItems = q.sw.totalItems
  same : q.sw.pendingIDs.length = q.sw.pendingValues.length

theorem flush_eq (env : Env) (force : Bool) (w : World B) : flushIfNeeded env force w =
    if w.pendingIDs.len = 0 then (.ok (), w)
    else if force = true ∨ w.pendingIDs.len ≥ 1000 then
      match writeBlock (w.pendingIDs.read w.ids) (w.pendingValues.read w.vals) env w.writer with
      | (.error (.blockFull n), w') =>
        flushIfNeeded env force { w with
          writer := w'
          totalItems := w.totalItems + n
          pendingIDs := w.pendingIDs.from n
          pendingValues := w.pendingValues.from n }
      | (.error e, w') => (.error e, { w with writer := w' })
      | (.ok _, w') => (.ok (), { w with
          writer := w'
          totalItems := w.totalItems + w.pendingIDs.len
          pendingIDs := nilSlice
          pendingValues := nilSlice })
    else (.ok (), w) := by
  rw [flushIfNeeded]
  by_cases h0 : w.pendingIDs.len = 0
  · rw [if_pos h0, if_pos h0]
  · rw [if_neg h0, if_neg h0]
    have hc : ((if (!force) = true then decide (w.pendingIDs.len ≥ 1000) else force) = true) ↔
        (force = true ∨ w.pendingIDs.len ≥ 1000) := by
      cases force <;> simp
    by_cases h1 : force = true ∨ w.pendingIDs.len ≥ 1000
    · rw [if_pos h1]
      simp only [if_pos (hc.2 h1)]
      split <;> simp_all
    · rw [if_neg h1]
      simp only [if_neg (fun h => h1 (hc.1 h))]

theorem flush_rel (env : Env) (force : Bool) (n : Nat) : ∀ (p : Process B) (q : Separate B), p.world.pendingIDs.len = n → Rel p q →
    (flushIfNeeded env force p.world).1 = (VibeCol.flushIfNeeded env force q.sw).1 ∧
    Rel { p with world := (flushIfNeeded env force p.world).2 } { q with sw := (VibeCol.flushIfNeeded env force q.sw).2 } := by
  induction n using Nat.strongRecOn with
  | ind n ih =>
    intro p q hn h
    have hl := h.pendingIDs.len
    rw [flush_eq, VibeCol.flushIfNeeded_eq, hl, h.pendingIDs.read, h.pendingValues.read, h.writer]
    by_cases h0 : q.sw.pendingIDs.length = 0
    · rw [if_pos h0, if_pos h0]
      exact ⟨rfl, h⟩
    rw [if_neg h0, if_neg h0]
    by_cases h1 : force = true ∨ q.sw.pendingIDs.length ≥ 1000
    · rw [if_pos h1, if_pos h1]
      rcases hr : writeBlock q.sw.pendingIDs q.sw.pendingValues env q.sw.writer with ⟨r, w'⟩
      have hsm := h.same
      have hother : ∀ e, Rel { p with world := ((.error e, { p.world with writer := w' }) : Except Err Unit × World B).2 } { q with sw := ((.error e, { q.sw with writer := w' }) : Except Err Unit × SimpleWriter B).2 } :=
        fun e => ⟨h.ids, h.vals, h.pendingIDs, h.pendingValues, rfl, h.target, h.closed, h.total, h.same⟩
      cases r with
      | ok u => exact ⟨rfl, h.ids, h.vals, Own.nil _ _, Own.nil _ _, rfl, h.target, h.closed, by dsimp only; rw [h.total], rfl⟩
      | error e =>
        cases e with
        | blockFull k =>
          have hb := writeBlock_blockFull_bounds _ _ _ _ _ _ hr
          refine ih (n - k) (by omega) { p with world := { p.world with
            writer := w'
            totalItems := p.world.totalItems + k
            pendingIDs := p.world.pendingIDs.from k
            pendingValues := p.world.pendingValues.from k } } { q with sw := { q.sw with
              writer := w'
              totalItems := q.sw.totalItems + k
              pendingIDs := q.sw.pendingIDs.drop k
              pendingValues := q.sw.pendingValues.drop k } } (by simp only [Slice.from]; omega) ?_
          exact ⟨h.ids, h.vals, h.pendingIDs.from (by omega), h.pendingValues.from (by omega), rfl, h.target, h.closed,
            by dsimp only; rw [h.total], by simp [hsm]⟩
        | _ => exact ⟨rfl, hother _⟩
    · rw [if_neg h1, if_neg h1]
      exact ⟨rfl, h⟩

theorem write_rel (grow : Nat → Nat → Nat) (env : Env) (hsort : LawfulSort env.sort) {p : Process B} {q : Separate B} (h : Rel p q)
    {s t : Slice} {xs : List UInt64} {ys : List Int64} (hs : s.len = xs.length) (hsr : s.read p.world.ids = xs) (hsa : s.arr < p.world.ids.length)
    (ht : t.len = ys.length) (htr : t.read p.world.vals = ys) (hta : t.arr < p.world.vals.length) :
    (write grow env s t p.world).1 = (q.sw.write env xs ys).1 ∧
    Rel { p with world := (write grow env s t p.world).2 } { q with sw := (q.sw.write env xs ys).2 } := by
  unfold write SimpleWriter.write
  rw [h.closed, hs, ht]
  split
  · exact ⟨rfl, h⟩
  split
  · exact ⟨rfl, h⟩
  split
  · exact ⟨rfl, h⟩
  rename_i hlen _
  have hlen : xs.length = ys.length := by omega
  obtain ⟨m1, o1, l1, k1⟩ := makeCopy (0 : UInt64) h.ids hs hsr hsa
  obtain ⟨m2, o2, l2, k2⟩ := makeCopy (0 : Int64) h.vals ht htr hta
  have a1 : (make (0 : UInt64) s.len p.world.ids).1.arr = p.world.ids.length := rfl
  have a2 : (make (0 : Int64) t.len p.world.vals).1.arr = p.world.vals.length := rfl
  have b1 : (make (0 : UInt64) s.len p.world.ids).1.len = s.len := rfl
  have b2 : (make (0 : Int64) t.len p.world.vals).1.len = t.len := rfl
  have c1 : (make (0 : UInt64) s.len p.world.ids).1.cap = s.len := rfl
  have c2 : (make (0 : Int64) t.len p.world.vals).1.cap = t.len := rfl
  rw [← hs, ← ht]
  generalize make (0 : UInt64) s.len p.world.ids = N at *
  generalize make (0 : Int64) t.len p.world.vals = M at *
  obtain ⟨nI, mI⟩ := N
  obtain ⟨nV, mV⟩ := M
  dsimp only at *
  have p1 : Own (copy nI s mI) p.myIDs p.world.pendingIDs q.sw.pendingIDs :=
    h.pendingIDs.same l1 (fun hc => k1 _ (h.pendingIDs.place hc).1) fun _ h => h
  have p2 : Own (copy nV t mV) p.myValues p.world.pendingValues q.sw.pendingValues :=
    h.pendingValues.same l2 (fun hc => k2 _ (h.pendingValues.place hc).1) fun _ h => h
  have d1 : 0 < p.world.pendingIDs.cap → p.world.pendingIDs.arr ≠ nI.arr := fun hc => by
    have := (h.pendingIDs.place hc).1
    omega
  have d2 : 0 < p.world.pendingValues.cap → p.world.pendingValues.arr ≠ nV.arr := fun hc => by
    have := (h.pendingValues.place hc).1
    omega
  generalize copy nI s mI = mI' at *
  generalize copy nV t mV = mV' at *
  -- after the sorting step
  have key : ∀ (w : World B) (xs' : List UInt64) (ys' : List Int64), w.writer = q.sw.writer → w.targetBlockSize = q.sw.targetBlockSize →
      w.closed = q.sw.closed → w.totalItems = q.sw.totalItems → w.pendingIDs = p.world.pendingIDs → w.pendingValues = p.world.pendingValues →
      Mine w.ids p.myIDs q.ids → Mine w.vals p.myValues q.vals →
      Own w.ids p.myIDs nI xs' → Own w.vals p.myValues nV ys' → Own w.ids p.myIDs p.world.pendingIDs q.sw.pendingIDs →
      Own w.vals p.myValues p.world.pendingValues q.sw.pendingValues → xs'.length = ys'.length →
      (flushIfNeeded env false { w with
          ids := (append grow 0 w.pendingIDs nI w.ids).2, vals := (append grow 0 w.pendingValues nV w.vals).2,
          pendingIDs := (append grow 0 w.pendingIDs nI w.ids).1, pendingValues := (append grow 0 w.pendingValues nV w.vals).1 }).1 =
        (VibeCol.flushIfNeeded env false { q.sw with pendingIDs := q.sw.pendingIDs ++ xs', pendingValues := q.sw.pendingValues ++ ys' }).1 ∧
      Rel { p with world := (flushIfNeeded env false { w with
          ids := (append grow 0 w.pendingIDs nI w.ids).2, vals := (append grow 0 w.pendingValues nV w.vals).2,
          pendingIDs := (append grow 0 w.pendingIDs nI w.ids).1, pendingValues := (append grow 0 w.pendingValues nV w.vals).1 }).2 }
        { q with sw := (VibeCol.flushIfNeeded env false { q.sw with
          pendingIDs := q.sw.pendingIDs ++ xs', pendingValues := q.sw.pendingValues ++ ys' }).2 } := by
    intro w xs' ys' e1 e2 e3 e4 e5 e6 f1 f2 g1 g2 g3 g4 hll
    rw [← e5] at g3
    rw [← e6] at g4
    obtain ⟨u1, u2⟩ := append_own grow 0 f1 g3 g1.len g1.read
    obtain ⟨v1, v2⟩ := append_own grow 0 f2 g4 g2.len g2.read
    have hsm := h.same
    exact flush_rel env false _ { p with world := { w with
          ids := (append grow 0 w.pendingIDs nI w.ids).2, vals := (append grow 0 w.pendingValues nV w.vals).2,
          pendingIDs := (append grow 0 w.pendingIDs nI w.ids).1, pendingValues := (append grow 0 w.pendingValues nV w.vals).1 } }
      { q with sw := { q.sw with pendingIDs := q.sw.pendingIDs ++ xs', pendingValues := q.sw.pendingValues ++ ys' } } rfl
      ⟨u1, v1, u2, v2, e1, e2, e3, e4, by simp [hll, hsm]⟩
  rw [o1.read]
  cases isSorted xs with
  | false =>
    obtain ⟨hperm, _⟩ := hsort (xs.zip ys)
    have hpl : (env.sort (xs.zip ys)).length = xs.length := by rw [hperm.length_eq, List.length_zip]; omega
    have hx := fill_own o1 (i := 0) (vs := (env.sort (xs.zip ys)).map Prod.fst) (t := nI)
      ⟨rfl, rfl, rfl, by rw [List.length_map]; omega⟩ (by omega) (by rw [List.length_map]; omega)
    have hy := fill_own o2 (i := 0) (vs := (env.sort (xs.zip ys)).map Prod.snd) (t := nV)
      ⟨rfl, rfl, rfl, by rw [List.length_map]; omega⟩ (by omega) (by rw [List.length_map]; omega)
    have hmx := fill_mine m1 o1 (i := 0) (vs := (env.sort (xs.zip ys)).map Prod.fst) (t := nI) rfl (by omega) (by rw [List.length_map]; omega)
    have hmy := fill_mine m2 o2 (i := 0) (vs := (env.sort (xs.zip ys)).map Prod.snd) (t := nV) rfl (by omega) (by rw [List.length_map]; omega)
    rw [List.take_zero, List.nil_append] at hx hy
    have hpx : Own (nI.fill mI' 0 ((env.sort (xs.zip ys)).map Prod.fst)) p.myIDs p.world.pendingIDs q.sw.pendingIDs :=
      p1.same (by rw [fill_length]; exact Nat.le_refl _) (fun hc => fill_other _ _ _ _ (d1 hc)) fun _ h => h
    have hpy : Own (nV.fill mV' 0 ((env.sort (xs.zip ys)).map Prod.snd)) p.myValues p.world.pendingValues q.sw.pendingValues :=
      p2.same (by rw [fill_length]; exact Nat.le_refl _) (fun hc => fill_other _ _ _ _ (d2 hc)) fun _ h => h
    have := key (sortByID env nI nV { p.world with ids := mI', vals := mV', closed := q.sw.closed }) (VibeCol.sortByID env xs ys).1 (VibeCol.sortByID env xs ys).2
      h.writer h.target rfl h.total rfl rfl
      (by simpa only [sortByID, o1.read, o2.read] using hmx) (by simpa only [sortByID, o1.read, o2.read] using hmy)
      (by simpa only [sortByID, o1.read, o2.read, VibeCol.sortByID] using hx) (by simpa only [sortByID, o1.read, o2.read, VibeCol.sortByID] using hy)
      (by simpa only [sortByID, o1.read, o2.read] using hpx) (by simpa only [sortByID, o1.read, o2.read] using hpy)
      (by simp [VibeCol.sortByID])
    simp only [Bool.not_false, if_true]
    exact this
  | true => exact key { p.world with ids := mI', vals := mV', closed := q.sw.closed } xs ys h.writer h.target rfl h.total rfl rfl m1 m2 o1 o2 p1 p2 hlen

theorem close_rel (env : Env) {p : Process B} {q : Separate B} (h : Rel p q) :
    (close env p.world).1 = (q.sw.close env).1 ∧ Rel { p with world := (close env p.world).2 } { q with sw := (q.sw.close env).2 } := by
  unfold close SimpleWriter.close
  rw [h.closed]
  split
  · exact ⟨rfl, h⟩
  obtain ⟨h1, h2⟩ := flush_rel env true _ p q rfl h
  generalize flushIfNeeded env true p.world = X at *
  generalize VibeCol.flushIfNeeded env true q.sw = Y at *
  obtain ⟨r, w⟩ := X
  obtain ⟨r', w'⟩ := Y
  dsimp only at h1 h2
  subst h1
  cases r with
  | error e => exact ⟨rfl, h2⟩
  | ok u =>
    have hw : w.writer = w'.writer := h2.writer
    dsimp only
    rw [hw]
    rcases finalizeAndClose env w'.writer with ⟨r, f⟩
    cases r with
    | error e => exact ⟨rfl, h2.ids, h2.vals, h2.pendingIDs, h2.pendingValues, rfl, h2.target, h2.closed, h2.total, h2.same⟩
    | ok u => exact ⟨rfl, h2.ids, h2.vals, h2.pendingIDs, h2.pendingValues, rfl, h2.target, rfl, h2.total, h2.same⟩

/-! ### The program's own steps -/

theorem Mine.get {α : Type} {m : Mem α} {mine : List Nat} {arrays : List (List α)} (h : Mine m mine arrays) (k : Nat) :
    arrays[k]? = mine[k]?.map fun a => m.getD a [] := by
  rw [← h.eq, List.getElem?_map]

theorem peek_eq {α : Type} {m : Mem α} {mine : List Nat} {arrays : List (List α)} (h : Mine m mine arrays) (k i : Nat) :
    peek m mine k i = arrays[k]?.bind fun xs => xs[i]? := by
  unfold peek
  rw [h.get]
  cases mine[k]? <;> rfl

theorem poke_mine {α : Type} {m : Mem α} {mine : List Nat} {arrays : List (List α)} (h : Mine m mine arrays) (k i : Nat) (v : α) :
    Mine (poke m mine k i v) mine (arrays.modify k fun xs => xs.set i v) := by
  unfold poke
  have hg := h.get k
  cases hk : mine[k]? with
  | none =>
    rw [hk] at hg
    have : arrays.length ≤ k := List.getElem?_eq_none_iff.1 hg
    rw [List.modify_eq_self this]
    exact h
  | some a =>
    refine ⟨?_, fun b hb => by dsimp only; rw [put_length]; exact h.lt b hb, h.nodup⟩
    refine List.ext_getElem? fun j => ?_
    rw [List.getElem?_map, List.getElem?_modify, h.get j]
    cases hj : mine[j]? with
    | none => simp
    | some b =>
      dsimp only
      by_cases hkj : k = j
      · subst hkj
        rw [hk] at hj
        cases hj
        simp only [Option.map_some, if_true, put_at]
        rfl
      · have hne : b ≠ a := by
          rintro rfl
          obtain ⟨h1, e1⟩ := List.getElem?_eq_some_iff.1 hk
          obtain ⟨h2, e2⟩ := List.getElem?_eq_some_iff.1 hj
          have hp := List.pairwise_iff_getElem.1 h.nodup
          rcases Nat.lt_or_gt_of_ne hkj with hlt | hlt
          · exact hp k j h1 h2 hlt (e1.trans e2.symm)
          · exact hp j k h2 h1 hlt (e2.trans e1.symm)
        simp only [Option.map_some, put_other _ _ _ hne, if_neg hkj]
        rfl

theorem poke_own {α : Type} {m : Mem α} {mine : List Nat} {s : Slice} {xs : List α} (h : Own m mine s xs) (k i : Nat) (v : α) :
    Own (poke m mine k i v) mine s xs := by
  unfold poke
  cases hk : mine[k]? with
  | none => exact h
  | some a =>
    refine h.same (by dsimp only; rw [put_length]; exact Nat.le_refl _) (fun hc => put_other _ _ _ ?_) fun _ h => h
    rintro rfl
    exact (h.place hc).2.1 (List.mem_of_getElem? hk)

theorem slice_eq {α : Type} {m : Mem α} {mine : List Nat} {arrays : List (List α)} (h : Mine m mine arrays) (x : Part) :
    (x.slice m mine = none ∧ x.contents arrays = none) ∨
    ∃ s xs, x.slice m mine = some s ∧ x.contents arrays = some xs ∧ s.len = xs.length ∧ s.read m = xs ∧ s.arr < m.length := by
  unfold Part.slice Part.contents
  rw [h.get]
  cases hk : mine[x.arr]? with
  | none => exact .inl ⟨rfl, rfl⟩
  | some a =>
    dsimp only [Option.map_some]
    split
    · rename_i hle
      exact .inr ⟨_, _, rfl, rfl, by rw [List.length_take, List.length_drop]; dsimp only; omega, rfl, h.lt _ (List.mem_of_getElem? hk)⟩
    · exact .inl ⟨rfl, rfl⟩

theorem Mine.add {α : Type} {m : Mem α} {mine : List Nat} {arrays : List (List α)} (h : Mine m mine arrays) (x : List α) :
    Mine (m ++ [x]) (mine ++ [m.length]) (arrays ++ [x]) := by
  have hs := h.snoc x
  refine ⟨by rw [List.map_append, hs.eq, List.map_singleton, getD_last], fun a ha => ?_, ?_⟩
  · rcases List.mem_append.1 ha with ha | ha
    · exact hs.lt a ha
    · rw [List.mem_singleton] at ha
      subst ha
      simp
  · rw [List.nodup_append]
    refine ⟨h.nodup, by simp, fun a ha b hb => ?_⟩
    rw [List.mem_singleton] at hb
    have := h.lt a ha
    omega

theorem Own.add {α : Type} {m : Mem α} {mine : List Nat} {s : Slice} {xs : List α} (h : Own m mine s xs) (x : List α) :
    Own (m ++ [x]) (mine ++ [m.length]) s xs := by
  refine h.same (by simp) (fun hc => getD_snoc m x (h.place hc).1) fun hl hn hm => ?_
  rcases List.mem_append.1 hm with hm | hm
  · exact hn hm
  · rw [List.mem_singleton] at hm
    omega

theorem step_rel (grow : Nat → Nat → Nat) (env : Env) (hsort : LawfulSort env.sort) (a : Act) {p : Process B} {q : Separate B} (h : Rel p q) :
    (a.run grow env p).1 = (a.spec env q).1 ∧ Rel (a.run grow env p).2 (a.spec env q).2 := by
  cases a with
  | makeIDs xs => exact ⟨rfl, h.ids.add xs, h.vals, h.pendingIDs.add xs, h.pendingValues, h.writer, h.target, h.closed, h.total, h.same⟩
  | makeValues xs => exact ⟨rfl, h.ids, h.vals.add xs, h.pendingIDs, h.pendingValues.add xs, h.writer, h.target, h.closed, h.total, h.same⟩
  | storeID k i v =>
    exact ⟨rfl, poke_mine h.ids k i v, h.vals, poke_own h.pendingIDs k i v, h.pendingValues, h.writer, h.target, h.closed, h.total, h.same⟩
  | storeValue k i v =>
    exact ⟨rfl, h.ids, poke_mine h.vals k i v, h.pendingIDs, poke_own h.pendingValues k i v, h.writer, h.target, h.closed, h.total, h.same⟩
  | loadID k i => exact ⟨congrArg Seen.id (peek_eq h.ids k i), h⟩
  | loadValue k i => exact ⟨congrArg Seen.value (peek_eq h.vals k i), h⟩
  | write x y =>
    simp only [Act.run, Act.spec]
    rcases slice_eq h.ids x with ⟨h1, h2⟩ | ⟨s, xs, h1, h2, h3, h4, h5⟩
    · rw [h1, h2]
      exact ⟨rfl, h⟩
    rcases slice_eq h.vals y with ⟨g1, g2⟩ | ⟨t, ys, g1, g2, g3, g4, g5⟩
    · rw [h1, h2, g1, g2]
      exact ⟨rfl, h⟩
    rw [h1, h2, g1, g2]
    obtain ⟨e, r⟩ := write_rel grow env hsort h h3 h4 h5 g3 g4 g5
    exact ⟨congrArg Seen.result e, r⟩
  | setTarget size =>
    simp only [Act.run, Act.spec, setTargetBlockSize, VibeCol.setTargetBlockSize]
    rw [h.closed]
    cases q.sw.closed with
    | true => exact ⟨rfl, h⟩
    | false =>
      refine ⟨rfl, h.ids, h.vals, h.pendingIDs, h.pendingValues, ?_, rfl, rfl, h.total, h.same⟩
      simp only [Bool.false_eq_true, if_false]
      rw [h.writer]
  | close =>
    obtain ⟨e, r⟩ := close_rel env h
    exact ⟨congrArg Seen.result e, r⟩

theorem run_rel (grow : Nat → Nat → Nat) (env : Env) (hsort : LawfulSort env.sort) (as : List Act) {p : Process B} {q : Separate B} (h : Rel p q) :
    (run grow env as p).1 = (specRun env as q).1 ∧ Rel (run grow env as p).2 (specRun env as q).2 := by
  induction as generalizing p q with
  | nil => exact ⟨rfl, h⟩
  | cons a as ih =>
    obtain ⟨h1, h2⟩ := step_rel grow env hsort a h
    obtain ⟨h3, h4⟩ := ih h2
    exact ⟨by simp only [run, specRun]; rw [h1, h3], h4⟩

/-- **C59.** Whatever a program does with its slices (shared between calls, overlapping, changed after the call), whatever
capacities the runtime chooses for appended slices and whatever file operations fail, it sees the same as if every call
had been given a private copy of the contents at the time of the call: the same results, the same contents of its own
arrays, the same file. -/
theorem C59_separate (grow : Nat → Nat → Nat) (env : Env) (hsort : LawfulSort env.sort) (opts : List WriterOption)
    (ids : List (List UInt64)) (vals : List (List Int64)) (acts : List Act) :
    (∀ w : World B, newSimpleWriter opts env ids vals = .ok w → ∃ sw : SimpleWriter B, VibeCol.newSimpleWriter opts env = .ok sw ∧
      (run grow env acts ⟨w, List.range ids.length, List.range vals.length⟩).1 = (specRun env acts ⟨ids, vals, sw⟩).1 ∧
      (run grow env acts ⟨w, List.range ids.length, List.range vals.length⟩).2.world.writer =
        (specRun env acts ⟨ids, vals, sw⟩).2.sw.writer) ∧
    ∀ e, (newSimpleWriter opts env ids vals : Except Err (World B)) = .error e ↔
      (VibeCol.newSimpleWriter opts env : Except Err (SimpleWriter B)) = .error e := by
  have hmine : ∀ {α : Type} (m : List (List α)), Mine (m ++ [[]]) (List.range m.length) m := by
    intro α m
    refine ⟨?_, fun a ha => ?_, List.nodup_range⟩
    · refine List.ext_getElem? fun j => ?_
      rw [List.getElem?_map]
      by_cases hj : j < m.length
      · rw [List.getElem?_range hj, Option.map_some, getD_snoc _ _ hj, List.getD_eq_getElem?_getD, List.getElem?_eq_getElem hj]
        rfl
      · rw [List.getElem?_eq_none (by simp; omega), List.getElem?_eq_none (by omega)]
        rfl
    · rw [List.mem_range] at ha
      simp
      omega
  have hown : ∀ {α : Type} (m : List (List α)), Own (m ++ [[]]) (List.range m.length) ⟨m.length, 0, 0, 0⟩ [] :=
    fun m => ⟨rfl, by simp [Slice.read], Nat.le_refl _, fun h => by cases h⟩
  unfold newSimpleWriter VibeCol.newSimpleWriter
  rcases newWriter (B := B) opts env with ⟨r, w0⟩
  cases r with
  | error e => exact ⟨fun w h => (by cases h), fun e' => ⟨fun h => (by cases h; rfl), fun h => (by cases h; rfl)⟩⟩
  | ok u =>
    refine ⟨fun w h => ⟨_, rfl, ?_⟩, fun e => ⟨fun h => (by cases h), fun h => (by cases h)⟩⟩
    cases h
    have hr := run_rel grow env hsort acts (p := (⟨_, List.range ids.length, List.range vals.length⟩ : Process B))
      (q := ⟨ids, vals, { writer := w0, pendingIDs := [], pendingValues := [], targetBlockSize := 128 * 1024, closed := false, totalItems := 0 }⟩)
      (⟨hmine ids, hmine vals, hown ids, hown vals, rfl, rfl, rfl, rfl, rfl⟩ : Rel ⟨{ ids := ids ++ [[]], vals := vals ++ [[]], writer := w0, pendingIDs := ⟨ids.length, 0, 0, 0⟩, pendingValues := ⟨vals.length, 0, 0, 0⟩, targetBlockSize := 128 * 1024, closed := false, totalItems := 0 }, List.range ids.length, List.range vals.length⟩ _)
    exact ⟨hr.1, hr.2.writer⟩

theorem specRun_sw (env : Env) (acts : List Act) (q : Separate B) :
    (specRun env acts q).2.sw = (runSW env (made acts q.ids q.vals) q.sw).2 := by
  induction acts generalizing q with
  | nil => rfl
  | cons a as ih =>
    show (specRun env as (a.spec env q).2).2.sw = _
    rw [ih]
    cases a with
    | write x y =>
      simp only [Act.spec, made]
      cases hx : x.contents q.ids with
      | none => rfl
      | some xs =>
        cases hy : y.contents q.vals with
        | none => rfl
        | some ys => rfl
    | setTarget size => rfl
    | close => rfl
    | _ => rfl

/-- **C59.** The file is the one a history of `SimpleWriter` calls produces, each given the contents of its slices at the
time of the call; so C20 to C23 and C53 apply. -/
theorem C59_history (grow : Nat → Nat → Nat) (env : Env) (hsort : LawfulSort env.sort) (opts : List WriterOption)
    (ids : List (List UInt64)) (vals : List (List Int64)) (acts : List Act) (w : World B) (h : newSimpleWriter opts env ids vals = .ok w) :
    ∃ log sw, SWHistory B env opts (made acts ids vals) log sw ∧
      (run grow env acts ⟨w, List.range ids.length, List.range vals.length⟩).2.world.writer = sw.writer := by
  obtain ⟨sw, h1, _, h3⟩ := (C59_separate grow env hsort opts ids vals acts).1 w h
  refine ⟨_, _, ⟨sw, h1, rfl⟩, ?_⟩
  rw [h3, specRun_sw]

/-- Non-vacuity: a program writes unsorted slices, reads its array, changes it, closes and reads again. -/
example : ∃ (w : World IdSet) (r r' : Except Err Unit), newSimpleWriter [] quietEnv [[5, 3, 4]] [[50, 30]] = .ok w ∧
    (run (fun c _ => 2 * c) quietEnv [.write ⟨0, 0, 2⟩ ⟨0, 0, 2⟩, .loadID 0 0, .storeID 0 0 9, .close, .loadID 0 0, .loadID 0 1, .loadValue 0 1]
      ⟨w, [0], [0]⟩).1 = [.result r, .id (some 5), .nothing, .result r', .id (some 9), .id (some 3), .value (some 30)] ∧
    made [.write ⟨0, 0, 2⟩ ⟨0, 0, 2⟩, .loadID 0 0, .storeID 0 0 9, .write ⟨0, 0, 2⟩ ⟨0, 0, 2⟩] [[5, 3, 4]] [[50, 30]] =
      [.write [5, 3] [50, 30], .write [9, 3] [50, 30]] := by
  obtain ⟨w0, h0⟩ := newWriter_ok (B := IdSet) quietEnv quietEnv_noFault []
  obtain ⟨w, hw⟩ : ∃ w, newSimpleWriter (B := IdSet) [] quietEnv [[5, 3, 4]] [[50, 30]] = .ok w := by
    unfold newSimpleWriter
    rw [h0]
    exact ⟨_, rfl⟩
  obtain ⟨sw, _, h2, _⟩ := (C59_separate (fun c _ => 2 * c) quietEnv sortByInsertion_lawful [] [[5, 3, 4]] [[50, 30]]
    [.write ⟨0, 0, 2⟩ ⟨0, 0, 2⟩, .loadID 0 0, .storeID 0 0 9, .close, .loadID 0 0, .loadID 0 1, .loadValue 0 1]).1 w hw
  exact ⟨w, (sw.write quietEnv [5, 3] [50, 30]).1, ((sw.write quietEnv [5, 3] [50, 30]).2.close quietEnv).1, hw, h2, rfl⟩

end
end VibeCol.Shared
