/-
Sequential, filtered and parallel aggregation as joins of per-block contributions.
-/
import Verif.Lemmas.Acc
import Verif.Lemmas.Ints
namespace VibeCol
variable {B : Type} [Bitmap B]

/-- Join the contributions of the blocks `is`; `none` is a panic. -/
def joinOf (g : UInt64 → Option Acc) : List UInt64 → Res (List Acc)
  | [] => .ok []
  | i :: is =>
    match g i with
    | some a => (joinOf g is).bind fun as => .ok (a :: as)
    | none => .panic

theorem joinOf_append (g : UInt64 → Option Acc) (is js : List UInt64) :
    joinOf g (is ++ js) = (joinOf g is).bind fun as => (joinOf g js).bind fun bs => .ok (as ++ bs) := by
  induction is with
  | nil => simp only [joinOf, List.nil_append, Res.bind]; cases joinOf g js <;> rfl
  | cons i is ih =>
    rw [List.cons_append, joinOf, joinOf, ih]
    cases g i with
    | none => rfl
    | some a => cases joinOf g is <;> cases joinOf g js <;> rfl

theorem joinOf_not_err (g : UInt64 → Option Acc) (is : List UInt64) (e : Err) : joinOf g is ≠ .err e := by
  induction is with
  | nil => intro h; cases h
  | cons i is ih =>
    rw [joinOf]
    cases g i with
    | none => intro h; cases h
    | some a =>
      cases hh : joinOf g is with
      | ok as => intro h; cases h
      | err e' => exact fun h => by cases h; exact ih hh
      | panic => intro h; cases h

theorem joinOf_good (g : UInt64 → Option Acc) (hg : ∀ i a, g i = some a → a.Good) (is : List UInt64)
    (as : List Acc) (h : joinOf g is = .ok as) : ∀ a ∈ as, a.Good := by
  induction is generalizing as with
  | nil => cases h; simp
  | cons i is ih =>
    rw [joinOf] at h
    cases hi : g i with
    | none => rw [hi] at h; cases h
    | some a =>
      rw [hi] at h
      cases hh : joinOf g is with
      | ok bs =>
        rw [hh] at h
        cases h
        intro x hx
        rcases List.mem_cons.1 hx with rfl | hx
        · exact hg i _ hi
        · exact ih bs hh x hx
      | err e => rw [hh] at h; cases h
      | panic => rw [hh] at h; cases h

theorem joinOf_some (g : UInt64 → Option Acc) (f : UInt64 → Acc) (is : List UInt64)
    (h : ∀ i ∈ is, g i = some (f i)) : joinOf g is = .ok (is.map f) := by
  induction is with
  | nil => rfl
  | cons i is ih =>
    rw [joinOf, h i (by simp), ih fun j hj => h j (by simp [hj])]; rfl

/-- What a block contributes when it is read: nothing on an error. -/
def readAcc (read : UInt64 → Res (List UInt64 × List Int64)) (i : UInt64) : Option Acc :=
  match read i with
  | .ok (_, vs) => some (accOf vs)
  | .err _ => some Acc.init
  | .panic => none

theorem readAcc_good (read : UInt64 → Res (List UInt64 × List Int64)) (i : UInt64) (a : Acc)
    (h : readAcc read i = some a) : a.Good := by
  unfold readAcc at h
  split at h
  · cases h; exact accOf_good _
  · cases h; exact fun _ => rfl
  · cases h

theorem sumBlocks_join (read : UInt64 → Res (List UInt64 × List Int64)) (is : List UInt64) (a : Acc) :
    sumBlocks read is a = (joinOf (readAcc read) is).bind fun as => .ok (a.join (joinAll as)) := by
  induction is generalizing a with
  | nil => simp [sumBlocks, joinOf, Res.bind, joinAll, Acc.join_init]
  | cons i is ih =>
    rw [sumBlocks, joinOf, readAcc]
    cases read i with
    | ok p =>
      obtain ⟨ids, vs⟩ := p
      simp only [ih, addValues_join]
      cases joinOf (readAcc read) is with
      | ok as => simp only [Res.bind, joinAll_cons, Acc.join_assoc]
      | err e => rfl
      | panic => rfl
    | err e =>
      simp only [ih]
      cases joinOf (readAcc read) is with
      | ok as => simp only [Res.bind, joinAll_cons, Acc.init_join]
      | err e => rfl
      | panic => rfl
    | panic => rfl

/-- What an index entry contributes; an index out of range is a panic. -/
def indexAcc (r : Reader B) (i : UInt64) : Option Acc := (r.blockIndex[i.toNat]?).map entryAcc

omit [Bitmap B] in
theorem sumEntries_join (r : Reader B) (is : List UInt64) (a : Acc) :
    sumEntries r is a = (joinOf (indexAcc r) is).bind fun as => .ok (a.join (joinAll as)) := by
  induction is generalizing a with
  | nil => simp [sumEntries, joinOf, Res.bind, joinAll, Acc.join_init]
  | cons i is ih =>
    rw [sumEntries, joinOf, indexAcc]
    cases r.blockIndex[i.toNat]? with
    | some x =>
      simp only [ih, addEntry_join, Option.map_some]
      cases joinOf (indexAcc r) is with
      | ok as => simp only [Res.bind, joinAll_cons, Acc.join_assoc]
      | err e => rfl
      | panic => rfl
    | none => rfl

/-! ### Worker slices -/

theorem workerSlice_eq (l : List UInt64) (n w : Nat) :
    workerSlice l n w = (l.drop (w * ((l.length + n - 1) / n))).take ((l.length + n - 1) / n) := by
  unfold workerSlice
  generalize (l.length + n - 1) / n = k
  simp only
  rw [Nat.add_mul, Nat.one_mul]
  split
  · rename_i h
    by_cases hl : l.length ≤ w * k
    · rw [List.drop_eq_nil_of_le hl]; simp
    · have : k = 0 := by omega
      subst this; simp
  · rename_i h
    apply List.ext_getElem
    · simp only [List.length_take, List.length_drop]; omega
    · intro i h1 h2
      simp

theorem slices_take (l : List UInt64) (k m : Nat) :
    ((List.range m).map fun w => (l.drop (w * k)).take k).flatten = l.take (m * k) := by
  induction m with
  | zero => simp
  | succ m ih =>
    rw [List.range_succ, List.map_append, List.flatten_append, ih]
    simp only [List.map_cons, List.map_nil, List.flatten_cons, List.flatten_nil, List.append_nil]
    rw [Nat.add_mul, Nat.one_mul, List.take_add]

/-- Together the workers' slices are the whole list. -/
theorem slices_flatten (l : List UInt64) (n : Nat) (hn : 0 < n) :
    ((List.range n).map fun w => workerSlice l n w).flatten = l := by
  have h := slices_take l ((l.length + n - 1) / n) n
  rw [List.take_of_length_le] at h
  · rw [← h]
    congr 1
    · apply List.map_congr_left
      intro w _
      rw [h, workerSlice_eq]
  · have h1 := Nat.div_add_mod (l.length + n - 1) n
    have h2 := Nat.mod_lt (l.length + n - 1) hn
    omega

/-- The worker results for the workers `ws`. -/
theorem workerResults_join (work : List UInt64 → Acc → Res Acc) (g : UInt64 → Option Acc)
    (hwork : ∀ is a, work is a = (joinOf g is).bind fun as => .ok (a.join (joinAll as)))
    (hg : ∀ i a, g i = some a → a.Good) (l : List UInt64) (n : Nat) (ws : List Nat) :
    workerResults work l n ws = .panic ∧ joinOf g (ws.map fun w => workerSlice l n w).flatten = .panic ∨
    ∃ bs as, workerResults work l n ws = .ok (bs.map Acc.result) ∧ (∀ b ∈ bs, b.Good) ∧
      joinOf g (ws.map fun w => workerSlice l n w).flatten = .ok as ∧ joinAll bs = joinAll as ∧
      (bs = [] → (ws.map fun w => workerSlice l n w).flatten = []) := by
  induction ws with
  | nil => exact .inr ⟨[], [], rfl, by simp, rfl, rfl, fun _ => rfl⟩
  | cons w ws ih =>
    rw [workerResults, List.map_cons, List.flatten_cons, joinOf_append]
    cases hs : workerSlice l n w with
    | nil =>
      rcases ih with ⟨h1, h2⟩ | ⟨bs, as, h1, h2, h3, h4, h5⟩
      · left; simp only [h1, h2, joinOf, Res.bind]; trivial
      · right
        refine ⟨bs, as, h1, h2, ?_, h4, ?_⟩
        · rw [h3]; rfl
        · simpa using h5
    | cons i is =>
      simp only [hwork]
      cases hj : joinOf g (i :: is) with
      | err e => exact absurd hj (joinOf_not_err _ _ _)
      | panic => left; exact ⟨rfl, rfl⟩
      | ok as0 =>
        rcases ih with ⟨h1, h2⟩ | ⟨bs, as, h1, h2, h3, h4, h5⟩
        · left; rw [h1, h2]; exact ⟨rfl, rfl⟩
        · right
          refine ⟨joinAll as0 :: bs, as0 ++ as, ?_, ?_, ?_, ?_, ?_⟩
          · rw [h1]
            show Res.ok ((Acc.init.join (joinAll as0)).result :: bs.map Acc.result) = _
            rw [Acc.init_join]; rfl
          · intro b hb
            rcases List.mem_cons.1 hb with rfl | hb
            · exact joinAll_good (joinOf_good g hg _ _ hj)
            · exact h2 b hb
          · rw [h3]; rfl
          · rw [joinAll_cons, joinAll_append, h4]
          · intro h; cases h

/-- Both parallel aggregations give the join over all block indices, or panic if some block
does. -/
theorem aggregateParallelWith_join (sched : Sched) (hs : sched.Fair) (work : List UInt64 → Acc → Res Acc)
    (g : UInt64 → Option Acc)
    (hwork : ∀ is a, work is a = (joinOf g is).bind fun as => .ok (a.join (joinAll as)))
    (hg : ∀ i a, g i = some a → a.Good) (l : List UInt64) (hl : l ≠ []) (n : Nat) (hn : 0 < n) :
    aggregateParallelWith sched work l n = (joinOf g l).bind fun as => .ok (joinAll as).result := by
  have h := workerResults_join work g hwork hg l n (List.range n)
  rw [slices_flatten l n hn] at h
  unfold aggregateParallelWith
  rcases h with ⟨h1, h2⟩ | ⟨bs, as, h1, h2, h3, h4, h5⟩
  · rw [h1, h2]; rfl
  · rw [h1, h3]
    have hne : bs ≠ [] := fun h => hl (h5 h)
    show Res.ok (mergeResults (sched.order (bs.map Acc.result))) = Res.ok (joinAll as).result
    rw [mergeResults_perm bs hne h2 _ (hs _), h4]

end VibeCol
