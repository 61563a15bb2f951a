/-
C70: how much memory the reader asks for.
-/
import Verif.Model.Memory
import Verif.Props.Blocks
import Verif.Props.Robust
import Verif.Props.Power
import Verif.Props.Examples
import Verif.Props.RoundTrip
set_option linter.unusedSectionVars false
namespace VibeCol.Memory
variable {B : Type} [Bitmap B]

/-! ### The allocations do not change the results -/

theorem bind_res {α β : Type} (x : Alloc α) (f : α → Alloc β) : (x >>= f).res = x.res >>= fun a => (f a).res := by
  show (Alloc.bind x f).res = _
  unfold Alloc.bind
  cases x.res <;> rfl

theorem bind_req_ok {α β : Type} {x : Alloc α} {f : α → Alloc β} {a : α} (h : x.res = .ok a) : (x >>= f).req = x.req ++ (f a).req := by
  show (Alloc.bind x f).req = _
  unfold Alloc.bind
  rw [h]

theorem ite_res {α : Type} (c : Prop) [Decidable c] (x y : Alloc α) : (if c then x else y).res = if c then x.res else y.res := by
  split <;> rfl

@[simp] theorem lift_res {α : Type} (x : Res α) : (lift x).res = x := rfl
@[simp] theorem lift_req {α : Type} (x : Res α) : (lift x).req = [] := rfl
@[simp] theorem make_res (n : Nat) : (make n).res = .ok () := rfl
@[simp] theorem make_req (n : Nat) : (make n).req = [n] := rfl

theorem readBytesAtA_res (file : Bytes) (o n : Int64) : (readBytesAtA file o n).res = readBytesAt file o n := by
  unfold readBytesAtA
  rw [ite_res, bind_res]
  by_cases h : n < 0
  · rw [if_pos h]; unfold readBytesAt; rw [if_pos h]
  · rw [if_neg h]; rfl

theorem readHeaderA_res (file : Bytes) : (readHeaderA file).res = readHeader file := by
  unfold readHeaderA readHeader
  simp only [bind_res, ite_res, readBytesAtA_res, lift_res]

theorem readFooterA_res (file : Bytes) (hd : FileHeader) : (readFooterA file hd).res = readFooter file hd := by
  unfold readFooterA readFooter
  simp only [bind_res, ite_res, readBytesAtA_res, lift_res, make_res, Res.ok_bind]

theorem newReaderA_res (file : Bytes) : (newReaderA (B := B) file).res = newReader file := by
  unfold newReaderA newReader
  simp only [bind_res, readHeaderA_res, readFooterA_res, lift_res]

theorem decodeUVarIntsA_res (buf : Bytes) (n : Nat) : (decodeUVarIntsA buf n).res = decodeUVarInts buf n := by
  unfold decodeUVarIntsA
  simp only [bind_res, lift_res, make_res, Res.ok_bind]

theorem decodeBlockDataA_res (a b : Bytes) (n : Nat) (e : UInt32) : (decodeBlockDataA a b n e).res = decodeBlockData a b n e := by
  unfold decodeBlockDataA decodeBlockData
  simp only [bind_res, ite_res, decodeUVarIntsA_res, lift_res, make_res, Res.ok_bind]

theorem readBlockA_res (r : Reader B) (i : Int64) : (readBlockA r i).res = readBlock r i := by
  unfold readBlockA readBlock
  rw [ite_res]
  cases r.blockIndex[i.toInt.toNat]? with
  | none => rfl
  | some e => simp only [bind_res, ite_res, readBytesAtA_res, lift_res, decodeBlockDataA_res]

theorem getPairsA_res (r : Reader B) (i : UInt64) : (getPairsA r i).res = getPairs r i := readBlockA_res r _

theorem getGlobalIDBitmapA_res (r : Reader B) : (getGlobalIDBitmapA r).res = (getGlobalIDBitmap r).1 := by
  unfold getGlobalIDBitmapA getGlobalIDBitmap
  cases r.globalIDs <;> cases r.cacheGlobalIDs <;> dsimp only
  all_goals try rfl
  all_goals
    rw [ite_res]
    split
    · rfl
    · simp only [bind_res, readBytesAtA_res, lift_res]
      cases readBytesAt r.bytes r.header.bitmapOffset.toInt64 4 with
      | err e => rfl
      | panic => rfl
      | ok a =>
        simp only [Res.ok_bind]
        cases readBytesAt r.bytes (r.header.bitmapOffset.toInt64 + 4) (Int64.ofNat (rd32 a 0).toNat) <;> rfl

theorem readBlockFilteredA_res (r : Reader B) (i : Int64) (f d : Option B) :
    (readBlockFilteredA r i f d).res = readBlockFiltered r i f d := by
  unfold readBlockFilteredA readBlockFiltered
  simp only [bind_res, ite_res, readBlockA_res, lift_res, make_res, Res.ok_bind]

theorem firstBlocksA_res (n : Nat) : (firstBlocksA n).res = firstBlocks n := by
  unfold firstBlocksA
  rw [ite_res, bind_res]
  by_cases h : maxAlloc < 8 * n
  · rw [if_pos h]; unfold firstBlocks; rw [if_pos h]; rfl
  · rw [if_neg h]; rfl

theorem filteredBlockIteratorA_res (r : Reader B) (f d : Option B) :
    (filteredBlockIteratorA r f d).res = filteredBlockIterator r f d := by
  unfold filteredBlockIteratorA
  cases f with
  | none => exact firstBlocksA_res _
  | some f => rfl

theorem sumBlocksA_res (rd : UInt64 → Alloc (List UInt64 × List Int64)) (rd' : UInt64 → Res (List UInt64 × List Int64))
    (h : ∀ i, (rd i).res = rd' i) (is : List UInt64) (a : Acc) : (sumBlocksA rd is a).res = sumBlocks rd' is a := by
  induction is generalizing a with
  | nil => rfl
  | cons i is ih =>
    unfold sumBlocksA sumBlocks
    rw [h i]
    cases rd' i with
    | ok x => exact ih _
    | err e => exact ih _
    | panic => rfl

theorem aggregateSequentialA_res (r : Reader B) (opts : AggregateOptions B) :
    (aggregateSequentialA r opts).res = aggregateSequential r opts := by
  unfold aggregateSequentialA aggregateSequential aggregateWithFilter
  simp only [bind_res, ite_res, filteredBlockIteratorA_res, lift_res,
    sumBlocksA_res _ _ (fun i => readBlockFilteredA_res r i.toInt64 opts.filter opts.denyFilter),
    sumBlocksA_res _ _ (getPairsA_res r)]

/-- **C70.** The model that counts memory computes the same results as the model of the other properties. -/
theorem C70_results (file : Bytes) (r : Reader B) (i : UInt64) (opts : AggregateOptions B) :
    (newReaderA (B := B) file).res = newReader file ∧ (getPairsA r i).res = getPairs r i ∧
    (getGlobalIDBitmapA r).res = (getGlobalIDBitmap r).1 ∧
    (filteredBlockIteratorA r opts.filter opts.denyFilter).res = filteredBlockIterator r opts.filter opts.denyFilter ∧
    (aggregateSequentialA r opts).res = aggregateSequential r opts :=
  ⟨newReaderA_res file, getPairsA_res r i, getGlobalIDBitmapA_res r, filteredBlockIteratorA_res r _ _, aggregateSequentialA_res r opts⟩

/-! ### How much -/

theorem readBytesAtA_req {file : Bytes} {o n : Int64} (h : ¬ n < 0) : (readBytesAtA file o n).req = [n.toInt.toNat] := by
  unfold readBytesAtA
  rw [if_neg h, bind_req_ok (a := ()) rfl]
  rfl

theorem bind_ok {α β : Type} {x : Alloc α} {f : α → Alloc β} {b : β} (h : (x >>= f).res = .ok b) :
    ∃ a, x.res = .ok a ∧ (f a).res = .ok b ∧ (x >>= f).req = x.req ++ (f a).req := by
  rw [bind_res] at h
  obtain ⟨a, h1, h2⟩ := Res.bind_ok h
  exact ⟨a, h1, h2, bind_req_ok h1⟩

theorem not_neg (n : Nat) (h : n < 2 ^ 63) : ¬ Int64.ofNat n < 0 := int64_ofNat_not_neg n h

/-- All requests have the property. -/
def All {α : Type} (P : Nat → Prop) (x : Alloc α) : Prop := ∀ n ∈ x.req, P n

theorem All.lift {α : Type} {P : Nat → Prop} (x : Res α) : All P (Memory.lift x) := by
  intro n hn
  exact absurd hn (List.not_mem_nil)

theorem All.make {P : Nat → Prop} {n : Nat} (h : P n) : All P (Memory.make n) := by
  intro m hm
  rw [make_req, List.mem_singleton] at hm
  rw [hm]; exact h

theorem All.bind {α β : Type} {P : Nat → Prop} {x : Alloc α} {f : α → Alloc β} (h1 : All P x)
    (h2 : ∀ a, x.res = .ok a → All P (f a)) : All P (x >>= f) := by
  show All P (Alloc.bind x f)
  unfold Alloc.bind
  cases h : x.res with
  | ok a =>
    intro n hn
    rcases List.mem_append.1 hn with hn | hn
    · exact h1 n hn
    · exact h2 a h n hn
  | err e => exact h1
  | panic => exact h1

theorem All.ite {α : Type} {P : Nat → Prop} {c : Prop} [Decidable c] {x y : Alloc α} (h1 : c → All P x) (h2 : ¬ c → All P y) :
    All P (if c then x else y) := by
  split
  · exact h1 ‹_›
  · exact h2 ‹_›

theorem All.bytes {P : Nat → Prop} {file : Bytes} {o n : Int64} (h : ¬ n < 0 → P n.toInt.toNat) : All P (readBytesAtA file o n) := by
  intro m hm
  by_cases hn : n < 0
  · unfold readBytesAtA at hm
    rw [if_pos hn] at hm
    exact absurd hm (List.not_mem_nil)
  · rw [readBytesAtA_req hn, List.mem_singleton] at hm
    rw [hm]; exact h hn

theorem toNat_ofNat (n : Nat) (h : n < 2 ^ 63) : (Int64.ofNat n).toInt.toNat = n := by
  rw [int64_toInt_ofNat _ h]; rfl

theorem newReaderA_req {file : Bytes} {r : Reader B} (h : newReader file = .ok r) :
    (newReaderA (B := B) file).req = [64, 24, 4, 56 * r.blockIndex.length, 64 * r.blockIndex.length] := by
  rw [← newReaderA_res] at h
  unfold newReaderA at h ⊢
  obtain ⟨hd, h1, h, e1⟩ := bind_ok h
  rw [e1]; clear e1
  have e0 : (readHeaderA file).req = [64] := by
    unfold readHeaderA at h1 ⊢
    obtain ⟨b, h2, h3, e2⟩ := bind_ok h1
    rw [e2, readBytesAtA_req (by decide)]
    dsimp only
    split
    · rfl
    · split <;> rfl
  rw [e0]
  obtain ⟨⟨hd', fm, bi⟩, h2, h, e2⟩ := bind_ok h
  rw [e2]
  obtain rfl : _ = r := Res.ok.inj h
  show [64] ++ ((readFooterA file hd).req ++ []) = [64, 24, 4, 56 * bi.length, 64 * bi.length]
  rw [List.append_nil]
  suffices (readFooterA file hd).req = [24, 4, 56 * bi.length, 64 * bi.length] by rw [this]; rfl
  clear h e2
  unfold readFooterA at h2 ⊢
  dsimp only at h2 ⊢
  split at h2
  · cases h2
  rename_i hc
  rw [if_neg hc]
  obtain ⟨b1, _, h2, e3⟩ := bind_ok h2
  rw [e3, readBytesAtA_req (by decide)]
  split at h2
  · cases h2
  rename_i hc
  rw [if_neg hc]
  split at h2
  · cases h2
  rename_i hc
  rw [if_neg hc]
  obtain ⟨b2, _, h2, e4⟩ := bind_ok h2
  rw [e4, readBytesAtA_req (by decide)]

  obtain ⟨b3, _, h2, e5⟩ := bind_ok h2
  have hb := (rd32 b2 0).toNat_lt
  rw [e5, readBytesAtA_req (not_neg _ (by omega)), toNat_ofNat _ (by omega)]
  obtain ⟨_, _, h2, e6⟩ := bind_ok h2
  rw [e6]
  have e7 := congrArg (fun x => x.2.2.length) (Res.ok.inj h2)
  dsimp only at e7
  rw [List.length_map, List.length_range] at e7
  rw [← e7, Nat.mul_comm]
  rfl

/-- At most this many bytes in total. -/
def Le {α : Type} (x : Alloc α) (n : Nat) : Prop := x.total ≤ n

theorem Le.lift {α : Type} (x : Res α) (n : Nat) : Le (Memory.lift x) n := Nat.zero_le _

theorem Le.make {m n : Nat} (h : m ≤ n) : Le (Memory.make m) n := by
  show [m].sum ≤ n
  simpa using h

theorem Le.mono {α : Type} {x : Alloc α} {m n : Nat} (h : Le x m) (hh : m ≤ n) : Le x n := Nat.le_trans h hh

theorem Le.bind {α β : Type} {x : Alloc α} {f : α → Alloc β} {m n k : Nat} (h1 : Le x m)
    (h2 : ∀ a, x.res = .ok a → Le (f a) n) (hk : m + n ≤ k) : Le (x >>= f) k := by
  show Le (Alloc.bind x f) k
  unfold Alloc.bind
  unfold Le Alloc.total at *
  cases h : x.res with
  | ok a =>
    have := h2 a h
    dsimp only
    rw [List.sum_append]
    omega
  | err e => dsimp only; omega
  | panic => dsimp only; omega

theorem Le.ite {α : Type} {n : Nat} {c : Prop} [Decidable c] {x y : Alloc α} (h1 : c → Le x n) (h2 : ¬ c → Le y n) :
    Le (if c then x else y) n := by
  split
  · exact h1 ‹_›
  · exact h2 ‹_›

theorem Le.bytes {file : Bytes} {o n : Int64} {m : Nat} (h : ¬ n < 0 → n.toInt.toNat ≤ m) : Le (readBytesAtA file o n) m := by
  by_cases hn : n < 0
  · unfold readBytesAtA
    rw [if_pos hn]
    exact Nat.zero_le _
  · unfold Le Alloc.total
    rw [readBytesAtA_req hn]
    simpa using h hn

theorem decodeBlockDataA_le (a b : Bytes) (n : Nat) (e : UInt32) : Le (decodeBlockDataA a b n e) (16 * n) := by
  unfold decodeBlockDataA
  have hjp : ∀ (ids : List UInt64) (values : List Int64), Le
      (if e = encDeltaBoth ∨ e = encVarIntBoth then lift (Res.ok (deltaDecode ids, deltaDecodeInt64 values))
        else if e = encDeltaID ∨ e = encVarIntID then lift (Res.ok (deltaDecode ids, values))
        else if e = encDeltaValue ∨ e = encVarIntValue then lift (Res.ok (ids, deltaDecodeInt64 values))
        else lift (Res.ok (ids, values))) 0 := by
    intro ids values
    refine Le.ite (fun _ => Le.lift _ _) (fun _ => ?_)
    refine Le.ite (fun _ => Le.lift _ _) (fun _ => ?_)
    exact Le.ite (fun _ => Le.lift _ _) (fun _ => Le.lift _ _)
  dsimp only
  refine Le.ite (fun _ => ?_) (fun _ => ?_)
  · refine Le.bind (m := 8 * n) (n := 8 * n) ?_ (fun x _ => ?_) (by omega)
    · unfold decodeUVarIntsA
      exact Le.bind (m := 8 * n) (n := 0) (Le.make (Nat.le_refl _)) (fun _ _ => Le.lift _ _) (by omega)
    · refine Le.bind (m := 8 * n) (n := 0) (Le.make (Nat.le_refl _)) (fun _ _ => ?_) (by omega)
      exact Le.bind (m := 0) (n := 0) (Le.lift _ _) (fun x _ => hjp x.1 x.2) (by omega)
  · generalize hm : (if n > a.length / 8 then a.length / 8 else n) = m
    have hmn : m ≤ n := by rw [← hm]; split <;> omega
    refine Le.bind (m := 8 * n) (n := 8 * n) (Le.make (by omega)) (fun x _ => ?_) (by omega)
    refine Le.bind (m := 8 * n) (n := 0) (Le.make ?_) (fun _ _ => ?_) (by omega)
    · split <;> omega
    · exact Le.bind (m := 0) (n := 0) (Le.lift _ _) (fun x _ => hjp x.1 x.2) (by omega)

theorem readBlockA_le {r : Reader B} {i : Int64} {e : FooterEntry} (h : r.blockIndex[i.toInt.toNat]? = some e) :
    Le (readBlockA r i) (e.blockSize.toNat - 64 + 16 * e.count.toNat) := by
  unfold readBlockA
  refine Le.ite (fun _ => Le.lift _ _) (fun _ => ?_)
  rw [h]
  dsimp only
  have hb := e.blockSize.toNat_lt
  refine Le.bind (m := e.blockSize.toNat - 64) (n := 16 * e.count.toNat) (Le.bytes fun hn => ?_) (fun x _ => ?_) (Nat.le_refl _)
  · by_cases h64 : 64 ≤ e.blockSize.toNat
    · rw [show (64 : Int64) = Int64.ofNat 64 from rfl, int64_ofNat_sub _ _ h64 (by omega), toNat_ofNat _ (by omega)]
      exact Nat.le_refl _
    · exfalso
      refine hn ?_
      rw [Int64.lt_iff_toInt_lt, Int64.toInt_sub, int64_toInt_ofNat _ (by omega), show (64 : Int64).toInt = 64 from rfl,
        show (0 : Int64).toInt = 0 from rfl, Int.bmod_eq_of_le (by omega) (by omega)]
      omega
  · refine Le.bind (m := 0) (Le.lift _ _) (fun _ _ => ?_) (Nat.le_of_eq (Nat.zero_add _))
    refine Le.bind (m := 0) (Le.lift _ _) (fun _ _ => ?_) (Nat.le_of_eq (Nat.zero_add _))
    refine Le.bind (m := 0) (Le.lift _ _) (fun _ _ => ?_) (Nat.le_of_eq (Nat.zero_add _))
    refine Le.bind (m := 0) (Le.lift _ _) (fun _ _ => ?_) (Nat.le_of_eq (Nat.zero_add _))
    refine Le.ite (fun _ => Le.lift _ _) (fun _ => ?_)
    refine Le.ite (fun _ => Le.lift _ _) (fun _ => ?_)
    refine Le.ite (fun _ => Le.lift _ _) (fun _ => ?_)
    refine Le.bind (m := 0) (Le.lift _ _) (fun _ _ => ?_) (Nat.le_of_eq (Nat.zero_add _))
    refine Le.bind (m := 0) (Le.lift _ _) (fun _ _ => ?_) (Nat.le_of_eq (Nat.zero_add _))
    exact decodeBlockDataA_le _ _ _ _

theorem readBlock_counts {r : Reader B} {i : Int64} {x : List UInt64 × List Int64} {e : FooterEntry}
    (he : r.blockIndex[i.toInt.toNat]? = some e) (h : readBlock r i = .ok x) :
    x.1.length ≤ e.count.toNat ∧ x.2.length ≤ e.count.toNat := by
  unfold readBlock at h
  split at h
  · cases h
  rw [he] at h
  dsimp only at h
  obtain ⟨data, _, h⟩ := Res.bind_ok h
  obtain ⟨_, _, h⟩ := Res.bind_ok h
  obtain ⟨_, _, h⟩ := Res.bind_ok h
  obtain ⟨_, _, h⟩ := Res.bind_ok h
  obtain ⟨_, _, h⟩ := Res.bind_ok h
  split at h
  · cases h
  split at h
  · cases h
  split at h
  · cases h
  obtain ⟨ib, _, h⟩ := Res.bind_ok h
  obtain ⟨vb, _, h⟩ := Res.bind_ok h
  rcases decodeBlockData_cases ib vb e.count.toNat r.header.encodingType with ⟨_, err, h1⟩ | ⟨is, vs, h1, h2, h3, _⟩
  · rw [h] at h1; cases h1
  · rw [h] at h1; cases h1
    exact ⟨Nat.le_trans h2 h3, h3⟩

theorem readBlockFilteredA_le {r : Reader B} {i : Int64} {e : FooterEntry} (f d : Option B)
    (h : r.blockIndex[i.toInt.toNat]? = some e) :
    Le (readBlockFilteredA r i f d) (e.blockSize.toNat - 64 + 32 * e.count.toNat) := by
  unfold readBlockFilteredA
  refine Le.bind (m := e.blockSize.toNat - 64 + 16 * e.count.toNat) (n := 16 * e.count.toNat) (readBlockA_le h) (fun x hx => ?_) (by omega)
  rw [readBlockA_res] at hx
  obtain ⟨h1, h2⟩ := readBlock_counts h hx
  refine Le.ite (fun _ => Le.lift _ _) (fun _ => ?_)
  refine Le.bind (m := 8 * e.count.toNat) (n := 8 * e.count.toNat) (Le.make (by omega)) (fun _ _ => ?_) (by omega)
  exact Le.bind (m := 8 * e.count.toNat) (n := 0) (Le.make (by omega)) (fun _ _ => Le.lift _ _) (by omega)

theorem getGlobalIDBitmapA_le {r : Reader B} {n : Nat}
    (h : ∀ b, readBytesAt r.bytes r.header.bitmapOffset.toInt64 4 = .ok b → 4 + (rd32 b 0).toNat ≤ n) (h4 : 4 ≤ n) :
    Le (getGlobalIDBitmapA r) n := by
  unfold getGlobalIDBitmapA
  split
  · exact Le.lift _ _
  refine Le.ite (fun _ => Le.lift _ _) (fun _ => ?_)
  refine Le.bind (m := 4) (n := n - 4) (Le.bytes fun _ => by decide) (fun b hb => ?_) (by omega)
  rw [readBytesAtA_res] at hb
  have h1 := h b hb
  have h2 := (rd32 b 0).toNat_lt
  refine Le.bind (m := n - 4) (n := 0) (Le.bytes fun _ => ?_) (fun b hb => Le.lift _ _) (by omega)
  rw [toNat_ofNat _ (by omega)]
  omega

theorem sumBlocksA_le (rd : UInt64 → Alloc (List UInt64 × List Int64)) (is : List UInt64) (a : Acc) :
    Le (sumBlocksA rd is a) (is.map fun i => (rd i).total).sum := by
  induction is generalizing a with
  | nil => exact Nat.zero_le _
  | cons i is ih =>
    unfold sumBlocksA
    rw [List.map_cons, List.sum_cons]
    unfold Le at ih ⊢
    unfold Alloc.total at *
    cases (rd i).res with
    | ok x =>
      dsimp only
      rw [List.sum_append]
      have := ih (a.addValues x.2)
      omega
    | err e =>
      dsimp only
      rw [List.sum_append]
      have := ih a
      omega
    | panic => dsimp only; omega

/-! ### Sums over blocks -/

theorem sum_sublist {l m : List Nat} (h : l.Sublist m) : l.sum ≤ m.sum := by
  induction h with
  | slnil => exact Nat.le_refl _
  | cons a _ ih => rw [List.sum_cons]; omega
  | cons_cons a _ ih => rw [List.sum_cons, List.sum_cons]; omega

theorem filterMap_sublist {α β : Type} (f : α → Option β) (g : α → β) (h : ∀ x, f x = none ∨ f x = some (g x)) (l : List α) :
    (l.filterMap f).Sublist (l.map g) := by
  induction l with
  | nil => exact .slnil
  | cons x l ih =>
    rcases h x with hx | hx
    · rw [List.filterMap_cons_none hx, List.map_cons]
      exact ih.cons _
    · rw [List.filterMap_cons_some hx, List.map_cons]
      exact ih.cons_cons _

theorem iterator_sublist {r : Reader B} {f d : Option B} {is : List UInt64} (h : filteredBlockIterator r f d = .ok is)
    (hc : r.blockCount.toNat = r.blockIndex.length) : is.Sublist ((List.range r.blockIndex.length).map UInt64.ofNat) := by
  unfold filteredBlockIterator at h
  cases f with
  | none =>
    dsimp only at h
    unfold firstBlocks at h
    split at h
    · cases h
    · obtain rfl := Res.ok.inj h
      rw [hc]
      exact List.Sublist.refl _
  | some f =>
    obtain rfl := Res.ok.inj h
    have := filterMap_sublist (fun (x : FooterEntry × Nat) =>
      if x.1.maxID < Bitmap.minimum f ∨ x.1.minID > Bitmap.maximum f then none else some (UInt64.ofNat x.2))
      (fun x => UInt64.ofNat x.2) (fun x => by split <;> simp) r.blockIndex.zipIdx
    have e : (r.blockIndex.zipIdx.map fun x => UInt64.ofNat x.2) = (List.range r.blockIndex.length).map UInt64.ofNat := by
      rw [show (fun x : FooterEntry × Nat => UInt64.ofNat x.2) = UInt64.ofNat ∘ Prod.snd from rfl, ← List.map_map]
      refine congrArg _ ?_
      simp [List.range_eq_range']
    rw [e] at this
    exact this

theorem sum_range_le {n : Nat} {f : Nat → Nat} {l : List Nat} (hl : l.length = n) (h : ∀ i, (hi : i < l.length) → f i ≤ l[i]) :
    ((List.range n).map f).sum ≤ l.sum := by
  induction l generalizing n f with
  | nil => subst hl; exact Nat.le_refl _
  | cons x l ih =>
    subst hl
    rw [List.length_cons, List.range_succ_eq_map, List.map_cons, List.sum_cons, List.sum_cons, List.map_map]
    have h0 := h 0 (by simp)
    have := ih (f := f ∘ Nat.succ) rfl (fun i hi => h (i + 1) (by simp; omega))
    have h0' : f 0 ≤ x := h0
    omega

theorem Laid_sum {e : UInt32} {lo hi : Nat} {bs : List Blk} (h : Laid e lo bs hi) : lo + (bs.map (Blk.size e)).sum ≤ hi := by
  induction bs generalizing lo with
  | nil => exact h
  | cons b bs ih =>
    have := ih h.2
    have h1 := h.1
    unfold Blk.stop at this
    rw [List.map_cons, List.sum_cons]
    omega

/-! ### C70 -/

theorem readBlockA_none {r : Reader B} {i : Int64} (h : r.blockIndex[i.toInt.toNat]? = none) : Le (readBlockA r i) 0 := by
  unfold readBlockA
  refine Le.ite (fun _ => Le.lift _ _) (fun _ => ?_)
  rw [h]
  exact Le.lift _ _

section
variable {bytes : Bytes} {h : FileHeader} {e : UInt32} {blks : List Blk} {buf : Bytes} {bo fs : Nat}

theorem entry_facts (H : FileOK bytes h e blks buf bo fs) {b : Blk} (hb : b ∈ blks) :
    (b.entry e).blockSize.toNat = b.size e ∧ 2 * (b.entry e).count.toNat + 80 ≤ b.size e ∧ b.size e ≤ bytes.length ∧
    (b.ids.length = 1 → b.size e < 4196) := by
  have hok := H.ok b hb
  have h1 := Blk.size_lt e b hok
  have h2 := Blk.img_le_size e b
  have h3 := Blk.img_length e b hok
  have h4 := idSize_ge e b.ids
  have h5 := valSize_ge e b.vals
  have h6 := hok.len
  have h7 := (H.laid.mem b hb).2
  have h8 := H.bmFits
  have h9 := H.fsLe
  have h10 := idSize_le e b.ids
  have h11 := valSize_le e b.vals
  have h12 := Blk.calculatePadding_lt (b.off + (b.img e).length)
  have h13 := Blk.size_eq e b
  unfold Blk.stop at h7
  refine ⟨ofNat32_toNat _ h1, ?_, by omega, fun h => by omega⟩
  rw [H.entry_count b hb]
  omega

theorem mem_entry {bytes : Bytes} {h : FileHeader} {i : Nat} {x : FooterEntry}
    (hx : (okReader (B := B) bytes h e blks).blockIndex[i]? = some x) : ∃ b ∈ blks, x = b.entry e := by
  have := List.mem_of_getElem? hx
  obtain ⟨b, hb, rfl⟩ := List.mem_map.1 (this : x ∈ blks.map (Blk.entry e))
  exact ⟨b, hb, rfl⟩

/-- The total of all blocks, read with or without filters. -/
theorem blocks_total (H : FileOK bytes h e blks buf bo fs) (hn : blks.length < 2 ^ 32) {rd : UInt64 → Alloc (List UInt64 × List Int64)}
    {is : List UInt64} (hs : is.Sublist ((List.range blks.length).map UInt64.ofNat))
    (hrd : ∀ (i : UInt64) (x : FooterEntry), (okReader (B := B) bytes h e blks).blockIndex[i.toInt64.toInt.toNat]? = some x →
      Le (rd i) (x.blockSize.toNat - 64 + 32 * x.count.toNat)) : (is.map fun i => (rd i).total).sum ≤ 17 * bytes.length := by
  refine Nat.le_trans (sum_sublist (hs.map _)) ?_
  rw [List.map_map]
  refine Nat.le_trans (sum_range_le (l := blks.map fun b => 17 * b.size e) (by simp) fun i hi => ?_) ?_
  · rw [List.length_map] at hi
    rw [List.getElem_map]
    have hidx : (UInt64.ofNat i).toInt64.toInt.toNat = i := by
      rw [uint64_ofNat_toInt64, toNat_ofNat _ (by omega)]
    have := hrd (UInt64.ofNat i) (blks[i].entry e) (by
      rw [hidx]
      show (blks.map (Blk.entry e))[i]? = _
      rw [List.getElem?_map, List.getElem?_eq_getElem hi]
      rfl)
    obtain ⟨h1, h2, _, _⟩ := entry_facts H (List.getElem_mem hi)
    unfold Le at this
    show (rd (UInt64.ofNat i)).total ≤ _
    omega
  · have h1 := Laid_sum H.laid
    have h2 := H.bmFits
    have h3 := H.fsLe
    have h4 : ∀ l : List Blk, (l.map fun b => 17 * b.size e).sum = 17 * (l.map (Blk.size e)).sum := by
      intro l
      induction l with
      | nil => rfl
      | cons b l ih => rw [List.map_cons, List.sum_cons, List.map_cons, List.sum_cons, ih]; omega
    rw [h4]
    omega

end

/-- **C70.** On a finalized file: opening it asks for at most as much memory as the file is long; `GetPairs` for at most nine times the
block size (the target block size, or 4196 for a block with one pair), whatever the size of the file;
`GetGlobalIDBitmap` and `FilteredBlockIterator` for at most as much as the file is long, and a whole sequential aggregation, with any
options, for at most eighteen times as much in total. -/
theorem C70_finalized [LawfulBitmap B] {env : Env} {wopts : List WriterOption} {log : Log} {file : Bytes} (hfin : Finalized B env wopts log file)
    (hn : (acked log).length ≤ maxBlocks) {r : Reader B} (hr : newReader file = .ok r) :
    (newReaderA (B := B) file).total ≤ file.length ∧
    (∀ i, (getPairsA r i).total ≤ 9 * file.length ∧ (getPairsA r i).total ≤ 9 * max (chosenBlockSize wopts).toNat 4196) ∧
    (getGlobalIDBitmapA r).total ≤ file.length ∧
    (∀ filter deny, (filteredBlockIteratorA r filter deny).total ≤ file.length) ∧
    ∀ opts, (aggregateSequentialA r opts).total ≤ 18 * file.length := by
  have hreq := newReaderA_req hr
  obtain ⟨hd, blks, buf, bo, fs, H, rfl, hp, hfit⟩ := hfin.opened hn r hr
  have hl : blks.length = (acked log).length := by rw [← hp, List.length_map]
  unfold maxBlocks at hn
  have hL := H.length
  have hfs := H.fs_ge
  have hbm := H.bmFits
  have hbo := H.bo64
  have hsm := H.small
  have hsum := Laid_sum H.laid
  have hmany : 80 * blks.length ≤ (blks.map (Blk.size (chosenEncoding wopts))).sum := by
    generalize blks = l
    induction l with
    | nil => exact Nat.le_refl _
    | cons b l ih =>
      have := Blk.size_ge (chosenEncoding wopts) b
      rw [List.map_cons, List.sum_cons, List.length_cons]
      omega
  have hix : (okReader (B := B) file hd (chosenEncoding wopts) blks).blockIndex.length = blks.length := List.length_map _
  have hcnt : (okReader (B := B) file hd (chosenEncoding wopts) blks).blockCount.toNat = blks.length := by
    show hd.blockCount.toNat = _
    rw [H.count, UInt64.toNat_ofNat']
    omega
  have hiter : ∀ filter deny, Le (filteredBlockIteratorA (okReader (B := B) file hd (chosenEncoding wopts) blks) filter deny) file.length := by
    intro filter deny
    unfold filteredBlockIteratorA
    cases filter with
    | none =>
      dsimp only
      unfold firstBlocksA
      rw [hcnt]
      refine Le.ite (fun _ => Le.lift _ _) (fun _ => ?_)
      exact Le.bind (m := file.length) (n := 0) (Le.make (by omega)) (fun _ _ => Le.lift _ _) (Nat.le_refl _)
    | some f => exact Le.lift _ _
  refine ⟨?_, fun i => ?_, ?_, hiter, fun opts => ?_⟩
  · unfold Alloc.total
    rw [hreq, hix]
    simp only [List.sum_cons, List.sum_nil]
    omega
  · cases hx : (okReader (B := B) file hd (chosenEncoding wopts) blks).blockIndex[i.toInt64.toInt.toNat]? with
    | none =>
      have h0 : Le (getPairsA _ i) 0 := readBlockA_none hx
      unfold Le at h0
      omega
    | some x =>
      have h0 : Le (getPairsA _ i) _ := readBlockA_le hx
      unfold Le at h0
      obtain ⟨b, hb, rfl⟩ := mem_entry hx
      obtain ⟨h1, h2, h3, h4⟩ := entry_facts H hb
      refine ⟨by omega, ?_⟩
      rcases hfit b hb with h5 | h5
      · have := Nat.le_max_left (chosenBlockSize wopts).toNat 4196
        omega
      · have := Nat.le_max_right (chosenBlockSize wopts).toNat 4196
        have := h4 h5
        omega
  · refine getGlobalIDBitmapA_le (fun b hb => ?_) (by omega)
    have e1 : (okReader (B := B) file hd (chosenEncoding wopts) blks).header.bitmapOffset.toInt64 = Int64.ofNat bo := by
      show hd.bitmapOffset.toInt64 = _
      rw [H.bmOff, uint64_ofNat_toInt64]
    rw [e1] at hb
    have hb' : readBytesAt file (Int64.ofNat bo) (Int64.ofNat 4) = .ok b := hb
    rw [readBytesAt_ok _ _ _ (by omega) hsm] at hb'
    obtain rfl := Res.ok.inj hb'
    have e2 : rd32 (slice file bo 4) 0 = UInt32.ofNat buf.length := by
      apply rd32_of_slice
      have e3 := slice_of_slice H.bmBytes 0 4 (by omega)
      rw [Nat.add_zero] at e3
      rw [e3, slice_append_left _ _ _ _ (by rw [le32_length]; omega)]
      simp only [slice, List.drop_zero]
      rw [List.take_of_length_le (l := le32 _) (by rw [le32_length]; omega), List.take_of_length_le (by rw [le32_length]; omega)]
    rw [e2, UInt32.toNat_ofNat']
    have := Nat.mod_le buf.length (2 ^ 32)
    omega
  · unfold aggregateSequentialA
    refine Le.ite (fun _ => ?_) (fun _ => Le.ite (fun _ => Le.lift _ _) (fun _ => ?_))
    · refine Le.bind (m := file.length) (n := 17 * file.length) (hiter _ _) (fun is his => ?_) (by omega)
      rw [filteredBlockIteratorA_res] at his
      have hsub := iterator_sublist his (by rw [hcnt, hix])
      rw [hix] at hsub
      refine Le.ite (fun _ => Le.lift _ _) (fun _ => ?_)
      refine Le.bind (m := 17 * file.length) (n := 0) (Le.mono (sumBlocksA_le _ _ _) ?_) (fun _ _ => Le.lift _ _) (Nat.le_refl _)
      exact blocks_total (B := B) H (by omega) hsub fun i x hx => readBlockFilteredA_le _ _ hx
    · refine Le.bind (m := 17 * file.length) (n := 0) (Le.mono (sumBlocksA_le _ _ _) ?_) (fun _ _ => Le.lift _ _) (by omega)
      refine blocks_total (B := B) H (by omega) ?_ fun i x hx => Le.mono (readBlockA_le hx) (by omega)
      have : (okReader (B := B) file hd (chosenEncoding wopts) blks).header.blockCount.toNat = blks.length := hcnt
      rw [this]
      exact List.Sublist.refl _

/-! ### Any file -/

theorem All.mono {α : Type} {P Q : Nat → Prop} {x : Alloc α} (h : All P x) (hh : ∀ n, P n → Q n) : All Q x := fun n hn => hh n (h n hn)

theorem readHeaderA_all (file : Bytes) : All (· < 2 ^ 38) (readHeaderA file) := by
  unfold readHeaderA
  refine All.bind (All.bytes fun _ => by decide) (fun b _ => ?_)
  exact All.ite (fun _ => All.lift _) (fun _ => All.ite (fun _ => All.lift _) (fun _ => All.lift _))

theorem readFooterA_all (file : Bytes) (hd : FileHeader) : All (· < 2 ^ 38) (readFooterA file hd) := by
  unfold readFooterA
  dsimp only
  refine All.ite (fun _ => All.lift _) (fun _ => ?_)
  refine All.bind (All.bytes fun _ => by decide) (fun b _ => ?_)
  refine All.ite (fun _ => All.lift _) (fun _ => ?_)
  refine All.ite (fun _ => All.lift _) (fun _ => ?_)
  refine All.bind (All.bytes fun _ => by decide) (fun b _ => ?_)
  have hb := (rd32 b 0).toNat_lt
  refine All.bind (All.bytes fun _ => ?_) (fun _ _ => ?_)
  · rw [toNat_ofNat _ (by omega)]
    omega
  · exact All.bind (All.make (by omega)) (fun _ _ => All.lift _)

theorem mem_le_sum {l : List Nat} {k : Nat} (h : k ∈ l) : k ≤ l.sum := by
  induction l with
  | nil => exact absurd h List.not_mem_nil
  | cons x l ih =>
    rw [List.sum_cons]
    rcases List.mem_cons.1 h with rfl | h
    · omega
    · have := ih h
      omega

theorem Le.all {α : Type} {x : Alloc α} {n m : Nat} (h : Le x n) (hm : n < m) : All (· < m) x := by
  intro k hk
  have : k ≤ x.req.sum := mem_le_sum hk
  unfold Le Alloc.total at h
  show k < m
  omega

/-- **C70.** On any file whatsoever, every single request of `NewReader`, `GetPairs`, `GetGlobalIDBitmap` and of the filtered read of a
block is below 2³⁸ bytes, and that of `FilteredBlockIterator` is at most `maxAlloc`: `make` never panics for its size alone, except on
behalf of a header with more than 2⁴⁵ blocks. -/
theorem C70_anyFile (file : Bytes) (r : Reader B) (i : UInt64) (filter deny : Option B) :
    (∀ n ∈ (newReaderA (B := B) file).req, n < 2 ^ 38) ∧ (∀ n ∈ (getPairsA r i).req, n < 2 ^ 38) ∧
    (∀ n ∈ (getGlobalIDBitmapA r).req, n < 2 ^ 38) ∧ (∀ n ∈ (readBlockFilteredA r i.toInt64 filter deny).req, n < 2 ^ 38) ∧
    (∀ n ∈ (filteredBlockIteratorA r filter deny).req, n ≤ maxAlloc) := by
  refine ⟨?_, ?_, ?_, ?_, ?_⟩
  · show All (· < 2 ^ 38) (newReaderA (B := B) file)
    unfold newReaderA
    refine All.bind (readHeaderA_all file) (fun hd _ => ?_)
    exact All.bind (readFooterA_all file hd) (fun x _ => All.lift _)
  · show All (· < 2 ^ 38) (readBlockA r i.toInt64)
    cases hx : r.blockIndex[i.toInt64.toInt.toNat]? with
    | none => exact (readBlockA_none hx).all (by decide)
    | some x =>
      have h1 := x.blockSize.toNat_lt
      have h2 := x.count.toNat_lt
      exact (readBlockA_le hx).all (by omega)
  · refine (getGlobalIDBitmapA_le (n := 4 + 2 ^ 32) (fun b _ => ?_) (by omega)).all (by decide)
    have := (rd32 b 0).toNat_lt
    omega
  · show All (· < 2 ^ 38) (readBlockFilteredA r i.toInt64 filter deny)
    cases hx : r.blockIndex[i.toInt64.toInt.toNat]? with
    | none =>
      have h0 : (readBlockA r i.toInt64).req = [] ∧ ∀ x, (readBlockA r i.toInt64).res ≠ .ok x := by
        unfold readBlockA
        split
        · exact ⟨rfl, fun x h => by cases h⟩
        · rw [hx]; exact ⟨rfl, fun x h => by cases h⟩
      unfold readBlockFilteredA
      refine All.bind (fun n hn => ?_) (fun a ha => absurd ha (h0.2 a))
      rw [h0.1] at hn
      exact absurd hn List.not_mem_nil
    | some x =>
      have h1 := x.blockSize.toNat_lt
      have h2 := x.count.toNat_lt
      exact (readBlockFilteredA_le filter deny hx).all (by omega)
  · show All (· ≤ maxAlloc) (filteredBlockIteratorA r filter deny)
    unfold filteredBlockIteratorA
    cases filter with
    | some f => exact All.lift _
    | none =>
      dsimp only
      unfold firstBlocksA
      refine All.ite (fun _ => All.lift _) (fun h => ?_)
      exact All.bind (All.make (Nat.le_of_not_lt h)) (fun _ _ => All.lift _)

/-! ### A corrupt file -/

/-- A file of 92 bytes: a header, the number of index entries, no entries, the metadata. -/
def forgedFile (n : UInt32) : Bytes :=
  (newFileHeader 0 0 16384 encRaw).fields.flatten ++ [0, 0, 0, 0] ++ le32 n ++ metaBytes 4

theorem forgedFile_length (n : UInt32) : (forgedFile n).length = 92 := by
  unfold forgedFile metaBytes
  simp only [List.length_append, headerFields_length, le32_length, le64_length, List.length_cons, List.length_nil]

theorem readBytesAt_total (file : Bytes) (o n : Nat) (ho : o < 2 ^ 63) (hn : n < 2 ^ 63) :
    ∃ b, readBytesAt file (Int64.ofNat o) (Int64.ofNat n) = .ok b := by
  unfold readBytesAt
  rw [if_neg (int64_ofNat_not_neg _ hn), if_neg (int64_ofNat_not_neg _ ho)]
  exact ⟨_, rfl⟩

theorem forged_opens (n : UInt32) : ∃ r : Reader B, newReader (forgedFile n) = .ok r ∧ r.blockIndex.length = n.toNat := by
  have hl := forgedFile_length n
  have hh : VibeCol.readHeader (forgedFile n) = .ok (newFileHeader 0 0 16384 encRaw) := by
    refine readHeader_fields (by omega) (by omega) rfl rfl fun i hi => ?_
    unfold forgedFile
    rw [List.append_assoc, List.append_assoc, List.getElem?_append_left (by rw [headerFields_length]; exact hi)]
  have hm : slice (forgedFile n) 68 24 = metaBytes 4 := by
    unfold forgedFile
    rw [slice_append_right _ _ _ _ (by simp only [List.length_append, headerFields_length, le32_length, List.length_cons, List.length_nil]; omega)]
    simp only [List.length_append, headerFields_length, le32_length, List.length_cons, List.length_nil]
    exact List.take_of_length_le (by simp [metaBytes, le64_length])
  have hc : slice (forgedFile n) 64 4 = le32 n := by
    unfold forgedFile
    rw [slice_append_left _ _ _ _ (by simp only [List.length_append, headerFields_length, le32_length, List.length_cons, List.length_nil]; omega)]
    rw [slice_append_right _ _ _ _ (by simp only [List.length_append, headerFields_length, List.length_cons, List.length_nil]; omega)]
    simp only [List.length_append, headerFields_length, List.length_cons, List.length_nil]
    exact List.take_of_length_le (by simp [le32_length])
  have hb := n.toNat_lt
  obtain ⟨b, hbuf⟩ := readBytesAt_total (forgedFile n) 68 (n.toNat * 56) (by omega) (by omega)
  have hf : ∃ hd, VibeCol.readFooter (forgedFile n) (newFileHeader 0 0 16384 encRaw) =
      .ok (hd, ⟨4, 0, magicNumber⟩, (List.range n.toNat).map fun i => parseEntry b (UInt32.ofNat i)) := by
    unfold VibeCol.readFooter
    dsimp only
    rw [hl, if_neg (by decide)]
    rw [show Int64.ofNat 92 - 24 = Int64.ofNat 68 from rfl, show (24 : Int64) = Int64.ofNat 24 from rfl,
      readBytesAt_ok _ _ _ (by omega) (by omega), hm]
    simp only [Res.ok_bind]
    have e1 : rd64 (metaBytes 4) 0 = 4 := by decide +kernel
    have e2 : rd64 (metaBytes 4) 8 = 0 := by decide +kernel
    have e3 : rd64 (metaBytes 4) 16 = magicNumber := by decide +kernel
    rw [e1, e2, e3, if_neg (by simp), show Int64.ofNat 68 - (4 : UInt64).toInt64 = Int64.ofNat 64 from rfl, if_neg (by decide),
      show (4 : Int64) = Int64.ofNat 4 from rfl, readBytesAt_ok _ _ _ (by omega) (by omega), hc]
    simp only [Res.ok_bind]
    have e4 : rd32 (le32 n) 0 = n := rd32_of_slice _ _ _ (List.take_of_length_le (by simp [le32_length]))
    rw [e4, show Int64.ofNat 64 + Int64.ofNat 4 = Int64.ofNat 68 from rfl, hbuf]
    exact ⟨_, rfl⟩
  obtain ⟨hd, hf⟩ := hf
  refine ⟨⟨forgedFile n, hd, ⟨4, 0, magicNumber⟩, (List.range n.toNat).map fun i => parseEntry b (UInt32.ofNat i), none, false⟩, ?_, ?_⟩
  · unfold newReader
    rw [hh, Res.ok_bind, hf]
    rfl
  · show ((List.range n.toNat).map _).length = _
    rw [List.length_map, List.length_range]

/-- **C70 is refuted for files that were not written by this library**: the number of index entries is not checked against the length
of the file. For every number, a file of 92 bytes is accepted, and `NewReader` asks for 56 and 64 bytes for each of that many entries:
240 GB and 275 GB for the largest number. -/
theorem C70_refuted (n : UInt32) : (forgedFile n).length = 92 ∧ (∃ r : Reader B, newReader (forgedFile n) = .ok r) ∧
    (newReaderA (B := B) (forgedFile n)).req = [64, 24, 4, 56 * n.toNat, 64 * n.toNat] ∧
    92 + 120 * n.toNat = (newReaderA (B := B) (forgedFile n)).total := by
  obtain ⟨r, hr, hn⟩ := forged_opens (B := B) n
  have hq := newReaderA_req hr
  rw [hn] at hq
  refine ⟨forgedFile_length n, ⟨r, hr⟩, hq, ?_⟩
  unfold Alloc.total
  rw [hq]
  simp only [List.sum_cons, List.sum_nil]
  omega

/-- Non-vacuity of C70 on finalized files. -/
example : ∃ (file : Bytes) (r : Reader IdSet), Finalized IdSet quietEnv exampleOpts exampleLog file ∧ newReader file = .ok r ∧
    (acked exampleLog).length ≤ maxBlocks ∧ (newReaderA (B := IdSet) file).total ≤ file.length := by
  obtain ⟨file, hf⟩ := example_finalized
  obtain ⟨r, hr, _⟩ := C29_accessors hf (by decide)
  exact ⟨file, r, hf, hr, by decide, (C70_finalized hf (by decide) hr).1⟩

end VibeCol.Memory
