/-
Lemmas for goroutines that share readers: a program is sound if it returns what it should whatever the other goroutines do to
the cache and the file meanwhile (rely and guarantee).
-/
import Verif.Model.Goroutines
import Verif.Props.Concurrent
import Verif.Props.ReadFaults
namespace VibeCol.Goroutines
set_option linter.unusedSectionVars false
set_option linter.unusedSimpArgs false
variable {B : Type} [Bitmap B]

section
variable (reader : Nat → Reader B) (faulty : Nat → Bool)

/-- The bitmap of reader `k`'s file. -/
def Good (k : Nat) (b : B) : Prop := (getGlobalIDBitmap (reader k)).1 = .ok b

/-- `p` returns something with `post`, and stores only bitmaps of the files and closes only files that may be faulty, whatever
the other goroutines do, provided that they do the same. `S` are the readers whose cache is known to be filled. -/
def Sound {α : Type} (post : α → Prop) : Prog B α → (Nat → Prop) → Prop
  | .ret a, _ => post a
  | .readAt k o n next, S => ∀ f : Bool, (f = true → faulty k = true) → Sound post (next (readBytesAtIO f (reader k).bytes o n)) S
  | .loadIDs k next, S =>
    (∀ b, Good reader k b → Sound post (next (some b)) (fun j => S j ∨ j = k)) ∧ (¬ S k → Sound post (next none) S)
  | .storeIDs k v next, S => (∃ b, v = some b ∧ Good reader k b) ∧ Sound post next S
  | .loadFlag _ next, S => ∀ c, Sound post (next c) S
  | .storeFlag _ _ next, S => Sound post next S
  | .closeFile k next, S => faulty k = true ∧ ∀ e, Sound post (next e) S
  | .choose next, S => ∀ n, Sound post (next n) S
end

variable {reader : Nat → Reader B} {faulty : Nat → Bool}

theorem Sound.mono {α : Type} {post : α → Prop} : {p : Prog B α} → {S T : Nat → Prop} → (∀ j, S j → T j) →
    Sound reader faulty post p S → Sound reader faulty post p T
  | .ret _, _, _, _, h => h
  | .readAt _ _ _ _, _, _, hst, h => fun f hf => Sound.mono hst (h f hf)
  | .loadIDs _ _, _, _, hst, h =>
    ⟨fun b hb => Sound.mono (fun j hj => hj.imp (hst j) id) (h.1 b hb), fun hn => Sound.mono hst (h.2 fun hs => hn (hst _ hs))⟩
  | .storeIDs _ _ _, _, _, hst, h => ⟨h.1, Sound.mono hst h.2⟩
  | .loadFlag _ _, _, _, hst, h => fun c => Sound.mono hst (h c)
  | .storeFlag _ _ next, _, _, hst, h => Sound.mono (p := next) hst h
  | .closeFile _ _, _, _, hst, h => ⟨h.1, fun e => Sound.mono hst (h.2 e)⟩
  | .choose _, _, _, hst, h => fun n => Sound.mono hst (h n)

/-- One program after another. -/
theorem Sound.andThen {α β : Type} {post : α → Prop} {post' : β → Prop} {f : α → Prog B β}
    (hf : ∀ a S, post a → Sound reader faulty post' (f a) S) : {p : Prog B α} → {S : Nat → Prop} →
    Sound reader faulty post p S → Sound reader faulty post' (p.andThen f) S
  | .ret _, _, h => hf _ _ h
  | .readAt _ _ _ _, _, h => fun g hg => Sound.andThen hf (h g hg)
  | .loadIDs _ _, _, h => ⟨fun b hb => Sound.andThen hf (h.1 b hb), fun hn => Sound.andThen hf (h.2 hn)⟩
  | .storeIDs _ _ _, _, h => ⟨h.1, Sound.andThen hf h.2⟩
  | .loadFlag _ _, _, h => fun c => Sound.andThen hf (h c)
  | .storeFlag _ _ next, _, h => Sound.andThen (p := next) hf h
  | .closeFile _ _, _, h => ⟨h.1, fun e => Sound.andThen hf (h.2 e)⟩
  | .choose _, _, h => fun n => Sound.andThen hf (h n)

theorem Sound.weaken {α : Type} {post post' : α → Prop} (hp : ∀ a, post a → post' a) : {p : Prog B α} → {S : Nat → Prop} →
    Sound reader faulty post p S → Sound reader faulty post' p S
  | .ret _, _, h => hp _ h
  | .readAt _ _ _ _, _, h => fun g hg => Sound.weaken hp (h g hg)
  | .loadIDs _ _, _, h => ⟨fun b hb => Sound.weaken hp (h.1 b hb), fun hn => Sound.weaken hp (h.2 hn)⟩
  | .storeIDs _ _ _, _, h => ⟨h.1, Sound.weaken hp h.2⟩
  | .loadFlag _ _, _, h => fun c => Sound.weaken hp (h c)
  | .storeFlag _ _ next, _, h => Sound.weaken (p := next) hp h
  | .closeFile _ _, _, h => ⟨h.1, fun e => Sound.weaken hp (h.2 e)⟩
  | .choose _, _, h => fun n => Sound.weaken hp (h n)

/-- One program after another, the second only if the first succeeds. -/
theorem Sound.onOk {α β : Type} {post : Res α → Prop} {post' : Res β → Prop} {f : α → Prog B (Res β)} {p : Prog B (Res α)}
    {S : Nat → Prop} (h : Sound reader faulty post p S) (hf : ∀ a S, post (.ok a) → Sound reader faulty post' (f a) S)
    (he : ∀ e, post (.err e) → post' (.err e)) (hp : post .panic → post' .panic) :
    Sound reader faulty post' (p.onOk f) S := by
  refine Sound.andThen (fun a S ha => ?_) h
  cases a with
  | ok a => exact hf a S ha
  | err e => exact he e ha
  | panic => exact hp ha

/-! ### Reading -/

theorem readBytesAtG_sound (k : Nat) (o n : Int64) (S : Nat → Prop) :
    Sound reader faulty (fun x => ∃ f : Bool, (f = true → faulty k = true) ∧ x = readBytesAtIO f (reader k).bytes o n)
      (readBytesAtG k o n) S := by
  unfold readBytesAtG
  split
  · rename_i h
    exact ⟨false, nofun, by unfold readBytesAtIO; rw [if_pos h]⟩
  · exact fun f hf => ⟨f, hf, rfl⟩

theorem readBlockG_sound (k : Nat) (i : Int64) (S : Nat → Prop) :
    Sound reader faulty (fun x => ∃ f : Bool, (f = true → faulty k = true) ∧ x = readBlockIO f (reader k) i)
      (readBlockG k (reader k) i) S := by
  unfold readBlockG readBlockIO
  split
  · exact ⟨false, nofun, rfl⟩
  · cases hb : (reader k).blockIndex[i.toInt.toNat]? with
    | none => exact ⟨false, nofun, rfl⟩
    | some entry =>
      refine Sound.onOk (readBytesAtG_sound k _ _ S) ?_ ?_ ?_
      · rintro a S ⟨f, hf, ha⟩
        refine ⟨f, hf, ?_⟩
        simp only
        rw [← ha]
        rfl
      · rintro e ⟨f, hf, ha⟩
        refine ⟨f, hf, ?_⟩
        simp only
        rw [← ha]
        rfl
      · rintro ⟨f, hf, ha⟩
        refine ⟨f, hf, ?_⟩
        simp only
        rw [← ha]
        rfl

theorem getPairsG_sound (k : Nat) (i : UInt64) (S : Nat → Prop) :
    Sound reader faulty (fun x => ∃ f : Bool, (f = true → faulty k = true) ∧ x = getPairsIO f (reader k) i)
      (getPairsG k (reader k) i) S := readBlockG_sound k _ S

theorem readBlockFilteredG_sound (k : Nat) (i : Int64) (allow deny : Option B) (S : Nat → Prop) :
    Sound reader faulty (fun x => ∃ f : Bool, (f = true → faulty k = true) ∧ x = readBlockFilteredIO f (reader k) i allow deny)
      (readBlockFilteredG k (reader k) i allow deny) S := by
  unfold readBlockFilteredG readBlockFilteredIO
  refine Sound.onOk (readBlockG_sound k i S) ?_ ?_ ?_
  · rintro ⟨ids, vals⟩ S ⟨f, hf, ha⟩
    dsimp only
    split
    · rename_i h
      exact ⟨f, hf, by rw [← ha, Res.ok_bind]⟩
    · rename_i h
      exact ⟨f, hf, by rw [← ha, Res.ok_bind]⟩
  · rintro e ⟨f, hf, ha⟩
    exact ⟨f, hf, by rw [← ha]; rfl⟩
  · rintro ⟨f, hf, ha⟩
    exact ⟨f, hf, by rw [← ha]; rfl⟩

/-! ### The bitmap -/

theorem rememberG_sound (k : Nat) (b : B) (hb : Good reader k b) (S : Nat → Prop) :
    Sound reader faulty (fun x => x = .ok (some b)) (rememberG k b) S := by
  intro c
  cases c
  · exact rfl
  · exact ⟨⟨b, rfl, hb⟩, rfl⟩

theorem loadBitmapG_sound (k : Nat) (hfresh : (reader k).globalIDs = none ∧ (reader k).cacheGlobalIDs = false) (S : Nat → Prop) :
    Sound reader faulty (fun x => ∃ fail : Nat → Bool, (∀ n, fail n = true → faulty k = true) ∧
      x = freshBitmap (getGlobalIDBitmapIO fail (reader k)).1) (loadBitmapG k (reader k)) S := by
  unfold loadBitmapG getGlobalIDBitmapIO
  rw [hfresh.1, hfresh.2]
  dsimp only
  by_cases hz : (reader k).header.bitmapOffset = 0 ∨ (reader k).header.bitmapSize = 0
  · rw [if_pos hz]
    refine Sound.weaken ?_ (rememberG_sound k Bitmap.empty ?_ S)
    · rintro _ rfl
      exact ⟨fun _ => false, nofun, by rw [if_pos hz]; rfl⟩
    · unfold Good getGlobalIDBitmap
      rw [hfresh.1, hfresh.2]
      simp [hz]
  · rw [if_neg hz]
    refine Sound.onOk (readBytesAtG_sound k _ _ S) ?_ ?_ ?_
    · rintro sizeBuf S ⟨f, hf, h1⟩
      refine Sound.onOk (readBytesAtG_sound k _ _ S) ?_ ?_ ?_
      · rintro buf S ⟨g, hg, h2⟩
        refine Sound.weaken ?_ (rememberG_sound k (Bitmap.fromBuffer buf) ?_ S)
        · rintro _ rfl
          refine ⟨fun n => if n = 0 then f else g, ?_, ?_⟩
          · intro n
            dsimp only
            split
            · exact hf
            · exact hg
          · rw [if_neg hz]
            simp only [if_true, if_false, Nat.one_ne_zero]
            rw [← h1]
            simp only
            rw [← h2]
            rfl
        · have e1 : readBytesAt (reader k).bytes (reader k).header.bitmapOffset.toInt64 4 = .ok sizeBuf := by
            rcases readBytesAtIO_or f (reader k).bytes (reader k).header.bitmapOffset.toInt64 4 with h | ⟨_, h⟩
            · rw [← h, ← h1]
            · rw [h] at h1; cases h1
          have e2 : readBytesAt (reader k).bytes ((reader k).header.bitmapOffset.toInt64 + 4)
              (Int64.ofNat (rd32 sizeBuf 0).toNat) = .ok buf := by
            rcases readBytesAtIO_or g (reader k).bytes ((reader k).header.bitmapOffset.toInt64 + 4)
              (Int64.ofNat (rd32 sizeBuf 0).toNat) with h | ⟨_, h⟩
            · rw [← h, ← h2]
            · rw [h] at h2; cases h2
          unfold Good getGlobalIDBitmap
          rw [hfresh.1, hfresh.2]
          simp [hz, e1, e2]
      · rintro e ⟨g, hg, h2⟩
        refine ⟨fun n => if n = 0 then f else g, ?_, ?_⟩
        · intro n
          dsimp only
          split
          · exact hf
          · exact hg
        · rw [if_neg hz]
          simp only [if_true, if_false, Nat.one_ne_zero]
          rw [← h1]
          simp only
          rw [← h2]
          rfl
      · rintro ⟨g, hg, h2⟩
        refine ⟨fun n => if n = 0 then f else g, ?_, ?_⟩
        · intro n
          dsimp only
          split
          · exact hf
          · exact hg
        · rw [if_neg hz]
          simp only [if_true, if_false, Nat.one_ne_zero]
          rw [← h1]
          simp only
          rw [← h2]
          rfl
    · rintro e ⟨f, hf, h1⟩
      refine ⟨fun _ => f, fun _ => hf, ?_⟩
      rw [if_neg hz]
      dsimp only
      rw [← h1]
      rfl
    · rintro ⟨f, hf, h1⟩
      refine ⟨fun _ => f, fun _ => hf, ?_⟩
      rw [if_neg hz]
      dsimp only
      rw [← h1]
      rfl

theorem getGlobalIDBitmapIO_none (r : Reader B) : (getGlobalIDBitmapIO (fun _ => false) r).1 = (getGlobalIDBitmap r).1 := by
  unfold getGlobalIDBitmapIO getGlobalIDBitmap
  simp only [readBytesAtIO_false]
  rfl

theorem getGlobalIDBitmapG_sound (k : Nat) (hfresh : (reader k).globalIDs = none ∧ (reader k).cacheGlobalIDs = false)
    (S : Nat → Prop) :
    Sound reader faulty (fun x => ∃ fail : Nat → Bool, (∀ n, fail n = true → faulty k = true) ∧
      x = freshBitmap (getGlobalIDBitmapIO fail (reader k)).1) (getGlobalIDBitmapG k (reader k)) S := by
  refine ⟨fun b _ => ?_, fun _ => loadBitmapG_sound k hfresh S⟩
  intro c
  cases c
  · exact loadBitmapG_sound k hfresh _
  · refine ⟨fun b hb => ⟨fun _ => false, nofun, ?_⟩, fun h => absurd (.inr rfl) h⟩
    rw [getGlobalIDBitmapIO_none, hb]
    rfl


/-! ### Loops over blocks -/

/-- A loop that stops at a panic. -/
def loopW (add : UInt64 → Acc → Res Acc) : List UInt64 → Acc → Res Acc
  | [], a => .ok a
  | i :: is, a =>
    match add i a with
    | .ok a' => loopW add is a'
    | .err e => .err e
    | .panic => .panic

theorem loopW_congr {add add' : UInt64 → Acc → Res Acc} : {is : List UInt64} → (∀ i ∈ is, add i = add' i) → (a : Acc) →
    loopW add is a = loopW add' is a
  | [], _, _ => rfl
  | i :: is, h, a => by
    have ih := fun a => loopW_congr (is := is) (fun j hj => h j (List.mem_cons_of_mem _ hj)) a
    unfold loopW
    rw [h i List.mem_cons_self]
    cases add' i a with
    | ok a' => exact ih a'
    | err e => rfl
    | panic => rfl

/-- One block read with or without a failure. -/
def addRead (read : Bool → UInt64 → Res (List UInt64 × List Int64)) (f : Bool) (i : UInt64) (a : Acc) : Res Acc :=
  match read f i with
  | .ok (_, values) => .ok (a.addValues values)
  | .err _ => .ok a
  | .panic => .panic

theorem addRead_not_err (read : Bool → UInt64 → Res (List UInt64 × List Int64)) (f : Bool) (i : UInt64) (a : Acc) (e : Err) :
    addRead read f i a ≠ .err e := by
  unfold addRead
  split <;> simp

theorem sumBlocks_loop (read : Bool → UInt64 → Res (List UInt64 × List Int64)) (fail : UInt64 → Bool) (is : List UInt64) (a : Acc) :
    sumBlocks (fun i => read (fail i) i) is a = loopW (fun i => addRead read (fail i) i) is a := by
  induction is generalizing a with
  | nil => rfl
  | cons i is ih =>
    unfold sumBlocks loopW addRead
    cases read (fail i) i with
    | ok p => exact ih _
    | err e => exact ih _
    | panic => rfl

/-- One entry of the index. -/
def addIndex (r : Reader B) (i : UInt64) (a : Acc) : Res Acc :=
  match r.blockIndex[i.toNat]? with
  | some entry => .ok (a.addEntry entry)
  | none => .panic

theorem addIndex_not_err (r : Reader B) (i : UInt64) (a : Acc) (e : Err) : addIndex r i a ≠ .err e := by
  unfold addIndex
  split <;> simp

theorem sumEntries_loop (r : Reader B) (is : List UInt64) (a : Acc) : sumEntries r is a = loopW (addIndex r) is a := by
  induction is generalizing a with
  | nil => rfl
  | cons i is ih =>
    unfold sumEntries loopW addIndex
    cases r.blockIndex[i.toNat]? with
    | some p => exact ih _
    | none => rfl

/-- `add` does what `padd` does, with or without a failure. -/
def AddSound (reader : Nat → Reader B) (faulty : Nat → Bool) (k : Nat) (add : UInt64 → Acc → Prog B (Res Acc))
    (padd : Bool → UInt64 → Acc → Res Acc) : Prop :=
  (∀ i a S, Sound reader faulty (fun x => ∃ f : Bool, (f = true → faulty k = true) ∧ x = padd f i a) (add i a) S) ∧
  ∀ f i a e, padd f i a ≠ .err e

theorem addBlockG_sound {k : Nat} {readG : UInt64 → Prog B (Res (List UInt64 × List Int64))}
    {read : Bool → UInt64 → Res (List UInt64 × List Int64)}
    (h : ∀ i S, Sound reader faulty (fun x => ∃ f : Bool, (f = true → faulty k = true) ∧ x = read f i) (readG i) S) :
    AddSound reader faulty k (addBlockG readG) (addRead read) := by
  refine ⟨fun i a S => Sound.andThen (fun x S hx => ?_) (h i S), addRead_not_err read⟩
  obtain ⟨f, hf, hx⟩ := hx
  have : ∀ y, y = addRead read f i a → Sound reader faulty (fun x => ∃ f : Bool, (f = true → faulty k = true) ∧ x = addRead read f i a) (.ret y) S :=
    fun y hy => ⟨f, hf, hy⟩
  unfold addRead at this
  rw [← hx] at this
  cases x with
  | ok p => exact this _ rfl
  | err e => exact this _ rfl
  | panic => exact this _ rfl

theorem addEntryG_sound (k : Nat) (r : Reader B) : AddSound reader faulty k (addEntryG r) (fun _ => addIndex r) := by
  refine ⟨fun i a S => ?_, fun _ => addIndex_not_err r⟩
  unfold addEntryG
  cases hb : r.blockIndex[i.toNat]? with
  | some p => exact ⟨false, nofun, by simp only [addIndex, hb]⟩
  | none => exact ⟨false, nofun, by simp only [addIndex, hb]⟩

/-- One goroutine's loop. -/
theorem sumBlocksG_sound {k : Nat} {add : UInt64 → Acc → Prog B (Res Acc)} {padd : Bool → UInt64 → Acc → Res Acc}
    (h : AddSound reader faulty k add padd) : (is : List UInt64) → is.Nodup → (a : Acc) → (S : Nat → Prop) →
    Sound reader faulty (fun x => ∃ fail : UInt64 → Bool, (∀ i, fail i = true → faulty k = true) ∧
      x = loopW (fun i => padd (fail i) i) is a) (sumBlocksG add is a) S
  | [], _, _, _ => ⟨fun _ => false, nofun, rfl⟩
  | i :: is, hnd, a, S => by
    obtain ⟨hni, hnd⟩ := List.nodup_cons.1 hnd
    refine Sound.onOk (h.1 i a S) ?_ ?_ ?_
    · rintro a' S ⟨f, hf, ha⟩
      refine Sound.weaken ?_ (sumBlocksG_sound h is hnd a' S)
      rintro x ⟨fail, hfail, hx⟩
      refine ⟨fun j => if j = i then f else fail j, ?_, ?_⟩
      · intro j
        dsimp only
        split
        · exact hf
        · exact hfail j
      · rw [hx]
        conv => rhs; unfold loopW
        simp only [if_true]
        rw [← ha]
        dsimp only
        apply loopW_congr
        intro j hj
        rw [if_neg (by rintro rfl; exact hni hj)]
    · rintro e ⟨f, _, he⟩
      exact absurd he.symm (h.2 f i a e)
    · rintro ⟨f, hf, hp⟩
      refine ⟨fun _ => f, fun _ => hf, ?_⟩
      unfold loopW
      rw [← hp]

/-- What the workers that have not sent will send. -/
def finals (padd : Bool → UInt64 → Acc → Res Acc) (fail : UInt64 → Bool) (live : List (List UInt64 × Acc)) : List (Res Acc) :=
  live.map fun w => loopW (fun i => padd (fail i) i) w.1 w.2

/-- What comes out of the workers: everything sent, or a panic. -/
def Comes (sent : List AggregateResult) (fin : List (Res Acc)) : Res (List AggregateResult) → Prop
  | .ok l => ∃ rs : List Acc, fin = rs.map .ok ∧ l.Perm (sent ++ rs.map Acc.result)
  | .err _ => False
  | .panic => .panic ∈ fin

/-- All workers, in whatever order. -/
theorem workersG_sound {k : Nat} {add : UInt64 → Acc → Prog B (Res Acc)} {padd : Bool → UInt64 → Acc → Res Acc}
    (h : AddSound reader faulty k add padd) : (n : Nat) → (live : List (List UInt64 × Acc)) → (sent : List AggregateResult) →
    (live.map fun w => w.1.length + 1).sum ≤ n → (live.map Prod.fst).flatten.Nodup → (S : Nat → Prop) →
    Sound reader faulty (fun x => ∃ fail : UInt64 → Bool, (∀ i, fail i = true → faulty k = true) ∧
      Comes sent (finals padd fail live) x) (workersG add n live sent) S
  | 0, live, sent, hn, _, S => by
    have : live = [] := by
      cases live with
      | nil => rfl
      | cons w l => simp only [List.map_cons, List.sum_cons] at hn; omega
    subst this
    exact ⟨fun _ => false, nofun, [], rfl, by simp⟩
  | n + 1, live, sent, hn, hnd, S => by
    unfold workersG
    split
    · rename_i hl
      have : live = [] := List.length_eq_zero_iff.1 hl
      subst this
      exact ⟨fun _ => false, nofun, [], rfl, by simp⟩
    · rename_i hl
      intro c
      dsimp only
      have hlt : c % live.length < live.length := Nat.mod_lt _ (by omega)
      generalize c % live.length = w at hlt ⊢
      obtain ⟨l1, x, l2, rfl, rfl⟩ : ∃ l1 x l2, live = l1 ++ x :: l2 ∧ w = l1.length := by
        refine ⟨live.take w, live[w], live.drop (w + 1), ?_, ?_⟩
        · rw [List.getElem_cons_drop, List.take_append_drop]
        · rw [List.length_take]; omega
      rw [List.getElem?_append_right (Nat.le_refl _), Nat.sub_self, List.getElem?_cons_zero]
      obtain ⟨blocks, a⟩ := x
      cases blocks with
      | nil =>
        dsimp only
        have he : (l1 ++ ([], a) :: l2).eraseIdx l1.length = l1 ++ l2 := by
          rw [List.eraseIdx_append_of_length_le (Nat.le_refl _), Nat.sub_self, List.eraseIdx_cons_zero]
        rw [he]
        refine Sound.weaken ?_ (workersG_sound h n (l1 ++ l2) (sent ++ [a.result]) ?_ ?_ S)
        · rintro y ⟨fail, hfail, hy⟩
          refine ⟨fail, hfail, ?_⟩
          cases y with
          | err e => exact hy
          | panic =>
            unfold Comes finals at hy ⊢
            simp only [List.map_append, List.mem_append, List.map_cons, List.mem_cons] at hy ⊢
            rcases hy with hy | hy
            · exact .inl hy
            · exact .inr (.inr hy)
          | ok l =>
            obtain ⟨rs, h1, h2⟩ := hy
            unfold finals at h1
            rw [List.map_append] at h1
            obtain ⟨r1, r2, rfl, h3, h4⟩ := List.map_eq_append_iff.1 h1.symm
            refine ⟨r1 ++ a :: r2, ?_, ?_⟩
            · unfold finals
              rw [List.map_append, List.map_cons, List.map_append, List.map_cons, h3, h4]
              rfl
            · refine h2.trans ?_
              simp only [List.map_append, List.map_cons, List.append_assoc]
              refine List.Perm.append_left _ ?_
              simp only [List.singleton_append]
              exact List.perm_middle.symm
        · simp only [List.map_append, List.map_cons, List.sum_append, List.sum_cons] at hn ⊢
          omega
        · simpa using hnd
      | cons i is =>
        dsimp only
        have hs : ∀ a', (l1 ++ (i :: is, a) :: l2).set l1.length (is, a') = l1 ++ (is, a') :: l2 := by
          intro a'
          rw [List.set_append_right _ _ (Nat.le_refl _), Nat.sub_self, List.set_cons_zero]
        have hnd' := hnd
        simp only [List.map_append, List.map_cons, List.flatten_append, List.flatten_cons, List.cons_append] at hnd'
        have hperm := (List.perm_middle (a := i) (l₁ := (l1.map Prod.fst).flatten) (l₂ := is ++ (l2.map Prod.fst).flatten)).nodup_iff.1 hnd'
        obtain ⟨hni, hrest⟩ := List.nodup_cons.1 hperm
        refine Sound.onOk (h.1 i a S) ?_ ?_ ?_
        · rintro a' S ⟨f, hf, ha⟩
          rw [hs]
          refine Sound.weaken ?_ (workersG_sound h n (l1 ++ (is, a') :: l2) sent ?_ ?_ S)
          · rintro y ⟨fail, hfail, hy⟩
            refine ⟨fun j => if j = i then f else fail j, ?_, ?_⟩
            · intro j
              dsimp only
              split
              · exact hf
              · exact hfail j
            · have he : finals padd (fun j => if j = i then f else fail j) (l1 ++ (i :: is, a) :: l2) =
                  finals padd fail (l1 ++ (is, a') :: l2) := by
                have hc : ∀ (bs : List UInt64) (b : Acc), i ∉ bs →
                    loopW (fun j => padd (if j = i then f else fail j) j) bs b = loopW (fun j => padd (fail j) j) bs b := by
                  intro bs b hb
                  apply loopW_congr
                  intro j hj
                  rw [if_neg (by rintro rfl; exact hb hj)]
                unfold finals
                rw [List.map_append, List.map_cons, List.map_append, List.map_cons]
                congr 1
                · apply List.map_congr_left
                  intro w hw
                  apply hc
                  intro hi
                  exact hni (List.mem_append_left _ (List.mem_flatten.2 ⟨w.1, List.mem_map_of_mem hw, hi⟩))
                · congr 1
                  · dsimp only
                    conv => lhs; unfold loopW
                    simp only [if_true]
                    rw [← ha]
                    dsimp only
                    apply hc
                    intro hi
                    exact hni (List.mem_append_right _ (List.mem_append_left _ hi))
                  · apply List.map_congr_left
                    intro w hw
                    apply hc
                    intro hi
                    exact hni (List.mem_append_right _ (List.mem_append_right _ (List.mem_flatten.2 ⟨w.1, List.mem_map_of_mem hw, hi⟩)))
              rw [he]
              exact hy
          · simp only [List.map_append, List.map_cons, List.sum_append, List.sum_cons, List.length_cons] at hn ⊢
            omega
          · simpa using hrest
        · rintro e ⟨f, _, he⟩
          exact absurd he.symm (h.2 f i a e)
        · rintro ⟨f, hf, hp⟩
          refine ⟨fun _ => f, fun _ => hf, ?_⟩
          unfold Comes finals
          refine List.mem_map.2 ⟨(i :: is, a), by simp, ?_⟩
          unfold loopW
          rw [← hp]

theorem loopW_not_err {add : UInt64 → Acc → Res Acc} (h : ∀ i a e, add i a ≠ .err e) : (is : List UInt64) → (a : Acc) → (e : Err) →
    loopW add is a ≠ .err e
  | [], _, _ => by simp [loopW]
  | i :: is, a, e => by
    unfold loopW
    cases ha : add i a with
    | ok a' => exact loopW_not_err h is a' e
    | err e' => exact absurd ha (h i a e')
    | panic => simp

/-- The workers' results from what the started workers come to. -/
theorem workerResults_finals (add : UInt64 → Acc → Res Acc) (h : ∀ i a e, add i a ≠ .err e) (l : List UInt64) (n : Nat) :
    (ws : List Nat) → (live : List (List UInt64 × Acc)) →
    (live = ws.filterMap fun w => match workerSlice l n w with
      | [] => none
      | i :: is => some (i :: is, Acc.init)) →
    (∀ rs : List Acc, (live.map fun w => loopW add w.1 w.2) = rs.map .ok → workerResults (loopW add) l n ws = .ok (rs.map Acc.result)) ∧
    (.panic ∈ (live.map fun w => loopW add w.1 w.2) → workerResults (loopW add) l n ws = .panic)
  | [], live, hl => by
    subst hl
    refine ⟨fun rs hrs => ?_, by simp⟩
    have : rs = [] := by simpa using hrs.symm
    subst this
    rfl
  | w :: ws, live, hl => by
    subst hl
    unfold workerResults
    rw [List.filterMap_cons]
    have ih := workerResults_finals add h l n ws _ rfl
    cases hs : workerSlice l n w with
    | nil => exact ih
    | cons i is =>
      dsimp only
      refine ⟨fun rs hrs => ?_, fun hp => ?_⟩
      · rw [List.map_cons] at hrs
        cases rs with
        | nil => cases hrs
        | cons r rs =>
          rw [List.map_cons] at hrs
          obtain ⟨h1, h2⟩ := List.cons.inj hrs
          rw [h1, Res.ok_bind, ih.1 rs h2]
          rfl
      · rw [List.map_cons] at hp
        cases hw : loopW add (i :: is) Acc.init with
        | err e => exact absurd hw (loopW_not_err h _ _ _)
        | panic => rfl
        | ok a =>
          rw [Res.ok_bind]
          dsimp only at hp
          rw [hw] at hp
          rcases List.mem_cons.1 hp with hp | hp
          · cases hp
          · rw [ih.2 hp]
            rfl

/-- The order in which the results arrived, as the scheduler's choice. -/
theorem order_exists (g : Int) (rs l : List AggregateResult) (h : l.Perm rs) :
    ∃ sched : Sched, sched.Fair ∧ sched.gomaxprocs = g ∧ sched.order rs = l := by
  refine ⟨⟨g, fun x => if x = rs then l else x⟩, fun x => ?_, rfl, by simp⟩
  dsimp only
  split
  · rename_i hx
    subst hx
    exact h
  · exact .refl _

theorem started_blocks (l : List UInt64) (n : Nat) (hn : 0 < n) : ((startedWorkers l n).map Prod.fst).flatten = l := by
  have : ∀ ws : List Nat, ((ws.filterMap fun w => match workerSlice l n w with
      | [] => none
      | i :: is => some (i :: is, Acc.init)).map Prod.fst).flatten = (ws.map fun w => workerSlice l n w).flatten := by
    intro ws
    induction ws with
    | nil => rfl
    | cons w ws ih =>
      rw [List.filterMap_cons, List.map_cons, List.flatten_cons]
      cases hs : workerSlice l n w with
      | nil => exact ih
      | cons i is =>
        dsimp only
        rw [List.map_cons, List.flatten_cons, ih]
  unfold startedWorkers
  exact (this _).trans (slices_flatten l n hn)

/-- A parallel aggregation. -/
theorem aggregateParallelWithG_sound (g : Int) {k : Nat} {add : UInt64 → Acc → Prog B (Res Acc)} {padd : Bool → UInt64 → Acc → Res Acc}
    (h : AddSound reader faulty k add padd) (l : List UInt64) (hl : l.Nodup) (n : Nat) (hn : 0 < n) (S : Nat → Prop) :
    Sound reader faulty (fun x => ∃ (fail : UInt64 → Bool) (sched : Sched), (∀ i, fail i = true → faulty k = true) ∧
      sched.Fair ∧ sched.gomaxprocs = g ∧ x = aggregateParallelWith sched (loopW fun i => padd (fail i) i) l n)
      (aggregateParallelWithG add l n) S := by
  unfold aggregateParallelWithG
  dsimp only
  refine Sound.onOk (workersG_sound h _ (startedWorkers l n) [] (Nat.le_refl _) (by rw [started_blocks l n hn]; exact hl) S) ?_ ?_ ?_
  · rintro rs S ⟨fail, hfail, as, h1, h2⟩
    rw [List.nil_append] at h2
    obtain ⟨sched, hs1, hs2, hs3⟩ := order_exists g _ _ h2
    refine ⟨fail, sched, hfail, hs1, hs2, ?_⟩
    unfold aggregateParallelWith
    rw [(workerResults_finals _ (fun i => h.2 (fail i) i) l n (List.range n) (startedWorkers l n) rfl).1 as h1, Res.ok_bind, hs3]
  · rintro e ⟨_, _, he⟩
    exact he.elim
  · rintro ⟨fail, hfail, hp⟩
    obtain ⟨sched, hs1, hs2, _⟩ := order_exists g [] [] (.refl _)
    refine ⟨fail, sched, hfail, hs1, hs2, ?_⟩
    unfold aggregateParallelWith
    rw [(workerResults_finals _ (fun i => h.2 (fail i) i) l n (List.range n) (startedWorkers l n) rfl).2 hp]
    rfl

theorem range_nodup (n : Nat) (hn : n ≤ 2 ^ 64) : ((List.range n).map UInt64.ofNat).Nodup := by
  refine List.nodup_iff_pairwise_ne.2 (List.pairwise_map.2 (List.Pairwise.imp_of_mem ?_ List.nodup_range))
  intro a b ha hb hab he
  have ha := List.mem_range.1 ha
  have hb := List.mem_range.1 hb
  have := congrArg UInt64.toNat he
  rw [UInt64.toNat_ofNat_of_lt' (by show a < 2 ^ 64; omega), UInt64.toNat_ofNat_of_lt' (by show b < 2 ^ 64; omega)] at this
  exact hab this

theorem iterator_nodup (r : Reader B) (hl : r.blockIndex.length ≤ 2 ^ 64) (allow deny : Option B) (l : List UInt64)
    (h : filteredBlockIterator r allow deny = .ok l) : l.Nodup := by
  unfold filteredBlockIterator at h
  cases allow with
  | none =>
    unfold firstBlocks at h
    dsimp only at h
    split at h
    · cases h
    · injection h with h
      rw [← h]
      exact range_nodup _ (Nat.le_of_lt r.blockCount.toNat_lt)
  | some f =>
    injection h with h
    rw [← h]
    have hsub : ∀ (es : List FooterEntry) (m : Nat), ((es.zipIdx m).filterMap fun (entry, i) =>
        if entry.maxID < Bitmap.minimum f ∨ entry.minID > Bitmap.maximum f then none else some (UInt64.ofNat i)).Sublist
        ((List.range' m es.length).map UInt64.ofNat) := by
      intro es
      induction es with
      | nil => intro m; simp
      | cons e es ih =>
        intro m
        rw [List.zipIdx_cons, List.filterMap_cons, List.length_cons, List.range'_succ, List.map_cons]
        dsimp only
        split
        · rename_i hn
          exact (ih (m + 1)).cons _
        · rename_i b hb
          split at hb
          · cases hb
          · injection hb with hb
            subst hb
            exact (ih (m + 1)).cons_cons _
    refine List.Nodup.sublist (hsub r.blockIndex 0) ?_
    rw [← List.range_eq_range']
    exact range_nodup _ hl

theorem aggregateSequentialG_sound (k : Nat) (hl : (reader k).blockIndex.length ≤ 2 ^ 64) (o : AggregateOptions B) (S : Nat → Prop) :
    Sound reader faulty (fun x => ∃ fail : UInt64 → Bool, (∀ i, fail i = true → faulty k = true) ∧
      x = aggregateSequentialIO fail (reader k) o) (aggregateSequentialG k (reader k) o) S := by
  unfold aggregateSequentialG aggregateSequentialIO
  split
  · rename_i hf
    cases hit : filteredBlockIterator (reader k) o.filter o.denyFilter with
    | err e => exact ⟨fun _ => false, nofun, by simp only [hf, if_true]; rfl⟩
    | panic => exact ⟨fun _ => false, nofun, by simp only [hf, if_true]; rfl⟩
    | ok l =>
      show Sound _ _ _ (if l.length = 0 then _ else _) S
      split
      · rename_i h0
        exact ⟨fun _ => false, nofun, by simp only [hf, if_true, Res.ok_bind, h0]⟩
      · rename_i h0
        have hadd := addBlockG_sound (reader := reader) (faulty := faulty) (k := k) (read := fun f i => readBlockFilteredIO f (reader k) i.toInt64 o.filter o.denyFilter)
          (fun i S => readBlockFilteredG_sound k i.toInt64 o.filter o.denyFilter S)
        refine Sound.onOk (sumBlocksG_sound hadd l (iterator_nodup _ hl _ _ _ hit) Acc.init S) ?_ ?_ ?_
        · rintro a S ⟨fail, hfail, ha⟩
          refine ⟨fail, hfail, ?_⟩
          simp only [hf, if_true, Res.ok_bind, h0, if_false]
          rw [sumBlocks_loop (fun f i => readBlockFilteredIO f (reader k) i.toInt64 o.filter o.denyFilter), ← ha]
          rfl
        · rintro e ⟨fail, _, ha⟩
          exact absurd ha.symm (loopW_not_err (fun i => hadd.2 (fail i) i) _ _ _)
        · rintro ⟨fail, hfail, ha⟩
          refine ⟨fail, hfail, ?_⟩
          simp only [hf, if_true, Res.ok_bind, h0, if_false]
          rw [sumBlocks_loop (fun f i => readBlockFilteredIO f (reader k) i.toInt64 o.filter o.denyFilter), ← ha]
          rfl
  · rename_i hf
    split
    · rename_i hi
      exact ⟨fun _ => false, nofun, by simp only [hf, if_false, hi, and_self, if_true]⟩
    · rename_i hi
      have hadd := addBlockG_sound (reader := reader) (faulty := faulty) (k := k) (read := fun f i => getPairsIO f (reader k) i) (fun i S => getPairsG_sound k i S)
      refine Sound.onOk (sumBlocksG_sound hadd _ (range_nodup _ (Nat.le_of_lt (reader k).header.blockCount.toNat_lt)) Acc.init S) ?_ ?_ ?_
      · rintro a S ⟨fail, hfail, ha⟩
        refine ⟨fail, hfail, ?_⟩
        rw [sumBlocks_loop (fun f i => getPairsIO f (reader k) i), ← ha]
        rfl
      · rintro e ⟨fail, _, ha⟩
        exact absurd ha.symm (loopW_not_err (fun i => hadd.2 (fail i) i) _ _ _)
      · rintro ⟨fail, hfail, ha⟩
        refine ⟨fail, hfail, ?_⟩
        rw [sumBlocks_loop (fun f i => getPairsIO f (reader k) i), ← ha]
        rfl

theorem aggregateG_sound (g : Int) (k : Nat) (hl : (reader k).blockIndex.length ≤ 2 ^ 64) (o : AggregateOptions B) (S : Nat → Prop) :
    Sound reader faulty (fun x => ∃ (fail : UInt64 → Bool) (sched : Sched), (∀ i, fail i = true → faulty k = true) ∧
      sched.Fair ∧ sched.gomaxprocs = g ∧ x = aggregateWithOptionsIO fail sched (reader k) o)
      (aggregateWithOptionsG g k (reader k) o) S := by
  obtain ⟨sched0, hs1, hs2, _⟩ := order_exists g [] [] (.refl _)
  unfold aggregateWithOptionsG aggregateWithOptionsIO
  by_cases hp : o.parallel ≠ 0
  · simp only [if_pos hp]
    unfold aggregateParallelG aggregateParallelIO
    dsimp only
    have hseq : ∀ bad : Prop, bad → Sound reader faulty (fun x => ∃ (fail : UInt64 → Bool) (sched : Sched), (∀ i, fail i = true → faulty k = true) ∧
        sched.Fair ∧ sched.gomaxprocs = g ∧ x = aggregateSequentialIO fail (reader k) { o with parallel := 0 })
        (aggregateSequentialG k (reader k) { o with parallel := 0 }) S := fun _ _ =>
      Sound.weaken (fun x ⟨fail, hfail, hx⟩ => ⟨fail, sched0, hfail, hs1, hs2, hx⟩) (aggregateSequentialG_sound k hl _ S)
    generalize hbc : (reader k).header.blockCount.toInt64.toInt = bc
    by_cases hbad : (if (if o.parallel < 0 then g else o.parallel) > bc then bc else (if o.parallel < 0 then g else o.parallel)) ≤ 1 ∨ bc ≤ 1
    · rw [if_pos hbad]
      refine Sound.weaken ?_ (hseq _ hbad)
      rintro x ⟨fail, sched, hfail, h1, h2, hx⟩
      exact ⟨fail, sched, hfail, h1, h2, by rw [h2, if_pos hbad]; exact hx⟩
    · rw [if_neg hbad]
      generalize hnw : (if (if o.parallel < 0 then g else o.parallel) > bc then bc else (if o.parallel < 0 then g else o.parallel)) = nw at hbad ⊢
      have hnw0 : 0 < nw.toNat := by omega
      cases hbi : (if o.filter.isSome ∨ o.denyFilter.isSome then filteredBlockIterator (reader k) o.filter o.denyFilter
          else firstBlocks bc.toNat) with
      | err e =>
        exact ⟨fun _ => false, sched0, nofun, hs1, hs2, by rw [hs2, hnw, if_neg hbad]; rfl⟩
      | panic =>
        exact ⟨fun _ => false, sched0, nofun, hs1, hs2, by rw [hs2, hnw, if_neg hbad]; rfl⟩
      | ok l =>
        have hnd : l.Nodup := by
          split at hbi
          · exact iterator_nodup _ hl _ _ _ hbi
          · unfold firstBlocks at hbi
            split at hbi
            · cases hbi
            · injection hbi with hbi
              rw [← hbi]
              refine range_nodup _ ?_
              have := Int64.toInt_lt (reader k).header.blockCount.toInt64
              omega
        show Sound _ _ _ (if l.length = 0 then _ else _) S
        by_cases h0 : l.length = 0
        · rw [if_pos h0]
          exact ⟨fun _ => false, sched0, nofun, hs1, hs2, by rw [hs2, hnw, if_neg hbad, Res.ok_bind, if_pos h0]⟩
        · rw [if_neg h0]
          by_cases hfoot : (reader k).blockIndex.length > 0 ∧ o.skipPreCalculated = false ∧ o.filter.isNone ∧ o.denyFilter.isNone
          · rw [if_pos hfoot]
            refine Sound.weaken ?_ (aggregateParallelWithG_sound g (addEntryG_sound k (reader k)) l hnd nw.toNat hnw0 S)
            rintro x ⟨fail, sched, hfail, h1, h2, hx⟩
            refine ⟨fail, sched, hfail, h1, h2, ?_⟩
            rw [h2, hnw, if_neg hbad, Res.ok_bind, if_neg h0, if_pos hfoot, hx]
            congr 1
            funext is a
            exact (sumEntries_loop (reader k) is a).symm
          · rw [if_neg hfoot]
            have hadd := addBlockG_sound (reader := reader) (faulty := faulty) (k := k)
              (readG := fun i => if o.filter.isSome ∨ o.denyFilter.isSome then
                readBlockFilteredG k (reader k) i.toInt64 o.filter o.denyFilter else getPairsG k (reader k) i)
              (read := fun f i => if o.filter.isSome ∨ o.denyFilter.isSome then
                readBlockFilteredIO f (reader k) i.toInt64 o.filter o.denyFilter else getPairsIO f (reader k) i)
              (fun i S => by
                by_cases hf : o.filter.isSome ∨ o.denyFilter.isSome
                · simp only [if_pos hf]; exact readBlockFilteredG_sound k _ _ _ S
                · simp only [if_neg hf]; exact getPairsG_sound k _ S)
            refine Sound.weaken ?_ (aggregateParallelWithG_sound g hadd l hnd nw.toNat hnw0 S)
            rintro x ⟨fail, sched, hfail, h1, h2, hx⟩
            refine ⟨fail, sched, hfail, h1, h2, ?_⟩
            rw [h2, hnw, if_neg hbad, Res.ok_bind, if_neg h0, if_neg hfoot, hx]
            congr 1
            funext is a
            exact (sumBlocks_loop _ fail is a).symm
  · simp only [if_neg hp]
    exact Sound.weaken (fun x ⟨fail, hfail, hx⟩ => ⟨fail, sched0, hfail, hs1, hs2, hx⟩) (aggregateSequentialG_sound k hl o S)

/-- What fails in a call on reader `k`. -/
def FailsOk (faulty : Nat → Bool) (k : Nat) (f : ReadFails) : Prop :=
  (∀ i, f.blocks i = true → faulty k = true) ∧ ∀ n, f.bitmap n = true → faulty k = true

theorem multiLoopG_sound (g : Int) (hfresh : ∀ k, (reader k).globalIDs = none ∧ (reader k).cacheGlobalIDs = false)
    (hl : ∀ k, (reader k).blockIndex.length ≤ 2 ^ 64) (skip : Bool) (filter : Option B) :
    (ks : List Nat) → (deny : B) → (result : AggregateResult) → (S : Nat → Prop) →
    Sound reader faulty (fun x => ∃ fl : List ReadFails, fl.length = ks.length ∧ (∀ (n k : Nat) f, ks[n]? = some k → fl[n]? = some f → FailsOk faulty k f) ∧
      ∀ sched, x = (multiLoopIO sched skip filter (List.zipWith (fun k f => (f, (⟨reader k, true⟩ : OpenReader B))) ks fl) deny result).1)
      (multiLoopG g skip filter (ks.map fun k => (k, reader k)) deny result) S
  | [], _, _, _ => ⟨[], rfl, by simp, fun _ => rfl⟩
  | k :: ks, deny, result, S => by
    have hok : ∀ (fl : List ReadFails) (f : ReadFails), FailsOk faulty k f →
        (∀ (n k : Nat) f, ks[n]? = some k → fl[n]? = some f → FailsOk faulty k f) →
        ∀ (n k' : Nat) f', (k :: ks)[n]? = some k' → (f :: fl)[n]? = some f' → FailsOk faulty k' f' := by
      intro fl f h1 h2 n k' f' hk hf
      cases n with
      | zero =>
        rw [List.getElem?_cons_zero] at hk hf
        cases hk; cases hf
        exact h1
      | succ n =>
        rw [List.getElem?_cons_succ] at hk hf
        exact h2 n k' f' hk hf
    have hrep : ∀ (n k' : Nat) f, ks[n]? = some k' → (ks.map fun _ => (⟨fun _ => false, fun _ => false⟩ : ReadFails))[n]? = some f →
        FailsOk faulty k' f := by
      intro n k' f _ hf
      rw [List.getElem?_map] at hf
      cases h : ks[n]? with
      | none => rw [h] at hf; cases hf
      | some _ => rw [h] at hf; cases hf; exact ⟨nofun, nofun⟩
    rw [List.map_cons]
    unfold multiLoopG
    have hagg : ∀ sched : Sched, ∀ fail, aggregateWithOptionsIO fail sched (reader k)
        { skipPreCalculated := skip, filter := filter, denyFilter := some deny } =
        aggregateSequentialIO fail (reader k) { skipPreCalculated := skip, filter := filter, denyFilter := some deny } := by
      intro sched fail
      unfold aggregateWithOptionsIO
      simp
    have haggG : aggregateWithOptionsG g k (reader k) { skipPreCalculated := skip, filter := filter, denyFilter := some deny } =
        aggregateSequentialG k (reader k) { skipPreCalculated := skip, filter := filter, denyFilter := some deny } := by
      unfold aggregateWithOptionsG
      simp
    rw [haggG]
    refine Sound.onOk (aggregateSequentialG_sound k (hl k) _ S) ?_ ?_ ?_
    · rintro a S ⟨fail, hfail, ha⟩
      refine Sound.onOk (getGlobalIDBitmapG_sound k (hfresh k) S) ?_ ?_ ?_
      · rintro ob S ⟨bf, hbf, hb⟩
        cases hio : (getGlobalIDBitmapIO bf (reader k)).1 with
        | err e => rw [hio] at hb; cases hb
        | panic => rw [hio] at hb; cases hb
        | ok b =>
          rw [hio] at hb
          cases hb
          refine Sound.weaken ?_ (multiLoopG_sound g hfresh hl skip filter ks _ _ S)
          rintro x ⟨fl, h1, h2, h3⟩
          refine ⟨⟨fail, bf⟩ :: fl, by rw [List.length_cons, List.length_cons, h1], hok fl _ ⟨hfail, hbf⟩ h2, fun sched => ?_⟩
          rw [List.zipWith_cons_cons]
          unfold multiLoopIO
          show x = (match aggregateWithOptionsIO fail sched (reader k)
            { skipPreCalculated := skip, filter := filter, denyFilter := some deny } with
            | .panic => _
            | .err e => _
            | .ok readerResult => _ : Res AggregateResult × List (OpenReader B)).1
          rw [hagg, ← ha]
          show x = (match getGlobalIDBitmapIO bf (reader k) with
            | (.panic, r) => _
            | (.err e, r) => _
            | (.ok globalIDs, r) => _ : Res AggregateResult × List (OpenReader B)).1
          rw [show getGlobalIDBitmapIO bf (reader k) = (.ok b, (getGlobalIDBitmapIO bf (reader k)).2) by rw [← hio]]
          exact h3 sched
      · rintro e ⟨bf, hbf, hb⟩
        cases hio : (getGlobalIDBitmapIO bf (reader k)).1 with
        | ok b => rw [hio] at hb; cases hb
        | panic => rw [hio] at hb; cases hb
        | err e' =>
          rw [hio] at hb
          cases hb
          refine ⟨⟨fail, bf⟩ :: ks.map fun _ => ⟨fun _ => false, fun _ => false⟩, by simp, hok _ _ ⟨hfail, hbf⟩ hrep, fun sched => ?_⟩
          rw [List.zipWith_cons_cons]
          unfold multiLoopIO
          show Res.err e = (match aggregateWithOptionsIO fail sched (reader k)
            { skipPreCalculated := skip, filter := filter, denyFilter := some deny } with
            | .panic => _
            | .err e => _
            | .ok readerResult => _ : Res AggregateResult × List (OpenReader B)).1
          rw [hagg, ← ha]
          show Res.err e = (match getGlobalIDBitmapIO bf (reader k) with
            | (.panic, r) => _
            | (.err e, r) => _
            | (.ok globalIDs, r) => _ : Res AggregateResult × List (OpenReader B)).1
          rw [show getGlobalIDBitmapIO bf (reader k) = (.err e, (getGlobalIDBitmapIO bf (reader k)).2) by rw [← hio]]
      · rintro ⟨bf, hbf, hb⟩
        cases hio : (getGlobalIDBitmapIO bf (reader k)).1 with
        | ok b => rw [hio] at hb; cases hb
        | err e => rw [hio] at hb; cases hb
        | panic =>
          refine ⟨⟨fail, bf⟩ :: ks.map fun _ => ⟨fun _ => false, fun _ => false⟩, by simp, hok _ _ ⟨hfail, hbf⟩ hrep, fun sched => ?_⟩
          rw [List.zipWith_cons_cons]
          unfold multiLoopIO
          show Res.panic = (match aggregateWithOptionsIO fail sched (reader k)
            { skipPreCalculated := skip, filter := filter, denyFilter := some deny } with
            | .panic => _
            | .err e => _
            | .ok readerResult => _ : Res AggregateResult × List (OpenReader B)).1
          rw [hagg, ← ha]
          show Res.panic = (match getGlobalIDBitmapIO bf (reader k) with
            | (.panic, r) => _
            | (.err e, r) => _
            | (.ok globalIDs, r) => _ : Res AggregateResult × List (OpenReader B)).1
          rw [show getGlobalIDBitmapIO bf (reader k) = (.panic, (getGlobalIDBitmapIO bf (reader k)).2) by rw [← hio]]
    · rintro e ⟨fail, hfail, ha⟩
      refine ⟨⟨fail, fun _ => false⟩ :: ks.map fun _ => ⟨fun _ => false, fun _ => false⟩, by simp, hok _ _ ⟨hfail, nofun⟩ hrep, fun sched => ?_⟩
      rw [List.zipWith_cons_cons]
      unfold multiLoopIO
      show Res.err e = (match aggregateWithOptionsIO fail sched (reader k)
        { skipPreCalculated := skip, filter := filter, denyFilter := some deny } with
        | .panic => _
        | .err e => _
        | .ok readerResult => _ : Res AggregateResult × List (OpenReader B)).1
      rw [hagg, ← ha]
    · rintro ⟨fail, hfail, ha⟩
      refine ⟨⟨fail, fun _ => false⟩ :: ks.map fun _ => ⟨fun _ => false, fun _ => false⟩, by simp, hok _ _ ⟨hfail, nofun⟩ hrep, fun sched => ?_⟩
      rw [List.zipWith_cons_cons]
      unfold multiLoopIO
      show Res.panic = (match aggregateWithOptionsIO fail sched (reader k)
        { skipPreCalculated := skip, filter := filter, denyFilter := some deny } with
        | .panic => _
        | .err e => _
        | .ok readerResult => _ : Res AggregateResult × List (OpenReader B)).1
      rw [hagg, ← ha]

theorem multiAggregateG_sound (g : Int) (hfresh : ∀ k, (reader k).globalIDs = none ∧ (reader k).cacheGlobalIDs = false)
    (hl : ∀ k, (reader k).blockIndex.length ≤ 2 ^ 64) (skip : Bool) (filter : Option B) (ks : List Nat) (S : Nat → Prop) :
    Sound reader faulty (fun x => ∃ fails : Nat → ReadFails, (∀ (n k : Nat), ks[n]? = some k → FailsOk faulty k (fails n)) ∧
      ∀ sched, x = (multiAggregateIO fails sched (ks.map fun k => (⟨reader k, true⟩ : OpenReader B)) skip filter).1)
      (multiAggregateG g (ks.map fun k => (k, reader k)) skip filter) S := by
  unfold multiAggregateG multiAggregateIO
  rw [List.length_map, List.length_map]
  by_cases h0 : ks.length = 0
  · rw [if_pos h0]
    refine ⟨fun _ => ⟨fun _ => false, fun _ => false⟩, fun _ _ _ => ⟨nofun, nofun⟩, fun sched => ?_⟩
    rw [if_pos h0]
  · rw [if_neg h0, ← List.map_reverse]
    refine Sound.weaken ?_ (multiLoopG_sound g hfresh hl skip filter ks.reverse Bitmap.empty .zero S)
    rintro x ⟨fl, h1, h2, h3⟩
    rw [List.length_reverse] at h1
    refine ⟨fun n => (fl.reverse[n]?).getD ⟨fun _ => false, fun _ => false⟩, fun n k hk => ?_, fun sched => ?_⟩
    · have hn : n < ks.length := (List.getElem?_eq_some_iff.1 hk).1
      have hf : fl.reverse[n]? = some (fl.reverse[n]'(by simp; omega)) := List.getElem?_eq_getElem _
      dsimp only
      rw [hf, Option.getD_some]
      refine h2 (ks.length - 1 - n) k _ ?_ (by
        rw [← h1, ← hf, List.getElem?_reverse (by omega)])
      rw [List.getElem?_reverse (by omega), ← hk]
      congr 1
      omega
    · rw [if_neg h0, h3 sched]
      dsimp only
      congr 2
      have e : ((ks.map fun k => (⟨reader k, true⟩ : OpenReader B)).zipIdx.map fun x =>
          ((fl.reverse[x.2]?).getD ⟨fun _ => false, fun _ => false⟩, x.1)) =
          List.zipWith (fun k f => (f, (⟨reader k, true⟩ : OpenReader B))) ks fl.reverse := by
        apply List.ext_getElem
        · simp [h1]
        · intro n a b
          simp at a
          simp only [List.getElem_map, List.getElem_zipIdx, List.getElem_zipWith, Nat.zero_add]
          rw [List.getElem?_eq_getElem (by simp; omega), Option.getD_some]
      rw [e]
      rw [List.reverse_zipWith (by rw [List.length_reverse, h1]), List.reverse_reverse]
end VibeCol.Goroutines
