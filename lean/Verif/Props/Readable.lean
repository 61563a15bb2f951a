/-
C49: aggregates of files some of whose blocks cannot be read.
-/
import Verif.Props.Aggregation
import Verif.Props.Robust
import Verif.Props.Damage
namespace VibeCol
set_option linter.unusedSectionVars false
variable {B : Type} [Bitmap B]

/-- The blocks, among those with the given numbers, for which `GetPairs` returns pairs. -/
def readable (r : Reader B) (numbers : List Nat) : List Block :=
  numbers.filterMap fun i => match getPairs r (UInt64.ofNat i) with
    | .ok b => some b
    | _ => none

/-- The numbers of the blocks a filtered aggregation looks at: without an allow filter all; with one,
those whose ID range, as given in the block index, meets the range from the filter's least to
its greatest ID. -/
def considered (r : Reader B) : Option B → List Nat
  | none => List.range r.blockCount.toNat
  | some f => (List.range r.blockIndex.length).filter fun i =>
      match r.blockIndex[i]? with
      | some x => decide (Bitmap.minimum f ≤ x.maxID) && decide (x.minID ≤ Bitmap.maximum f)
      | none => false

theorem sumBlocks_readable (read : UInt64 → Res (List UInt64 × List Int64)) (is : List UInt64) (pre : List Int64)
    (h : ∀ i, read i ≠ .panic) :
    sumBlocks read is (accOf pre) = .ok (accOf (pre ++ is.flatMap fun i => match read i with
      | .ok b => b.2
      | _ => [])) := by
  induction is generalizing pre with
  | nil => simp [sumBlocks]
  | cons i is ih =>
    rw [sumBlocks, List.flatMap_cons]
    cases hr : read i with
    | ok b =>
      obtain ⟨ids, vs⟩ := b
      dsimp only
      rw [addValues_accOf, ih, List.append_assoc]
    | err e => dsimp only; rw [ih, List.nil_append]
    | panic => exact absurd hr (h i)

theorem flatMap_readable (r : Reader B) (g : Block → List Int64) (numbers : List Nat) :
    ((numbers.map UInt64.ofNat).flatMap fun i => match getPairs r i with
      | .ok b => g b
      | _ => []) = (readable r numbers).flatMap g := by
  unfold readable
  induction numbers with
  | nil => rfl
  | cons i is ih =>
    rw [List.map_cons, List.flatMap_cons, ih, List.filterMap_cons]
    cases getPairs r (UInt64.ofNat i) <;> simp

/-- **C49.** Let `r` be a reader of any file whatever. If reading blocks does not panic (see C31 for
when it does), the aggregate computed from the blocks, with any number of workers and any
schedule, is the exact aggregate of the values of exactly those blocks that `GetPairs` returns;
a block that cannot be read is left out without an error. (With workers the header must not claim more than 2^45
blocks, see `C15_refuted_count`.) -/
theorem C49_skip (r : Reader B) (hp : ∀ i, getPairs r i ≠ .panic) (sched : Sched) (hs : sched.Fair) (workers : Int)
    (hw : workers = 0 ∨ r.blockCount.toNat ≤ 2 ^ 45) :
    ∃ res, aggregateWithOptions sched r { skipPreCalculated := true, parallel := workers } = .ok res ∧
      IsAggregate res ((readable r (List.range r.blockCount.toNat)).flatMap Prod.snd) := by
  refine ⟨_, ?_, accOf_isAggregate _⟩
  have hseq : aggregateWithOptions sched r { skipPreCalculated := true, parallel := workers } =
      aggregateWithOptions sched r { skipPreCalculated := true, parallel := 0 } := by
    rcases hw with hw | hw
    · rw [hw]
    · exact C15_arbitrary r sched hs _ (.inr (.inr ⟨rfl, hw⟩))
  rw [hseq]
  unfold aggregateWithOptions
  rw [if_neg (by simp)]
  unfold aggregateSequential
  simp only [Option.isSome_none, Bool.false_eq_true, or_self, if_false, and_false, reduceCtorEq]
  rw [← accOf_nil, sumBlocks_readable _ _ _ hp, Res.ok_bind, List.nil_append, flatMap_readable]
  rfl

theorem filterPairs_values (allow deny : Option B) (ids : List UInt64) (vals : List Int64) (hl : ids.length ≤ vals.length) :
    ∃ is, filterPairs allow deny ids vals = .ok (is, selectedValues allow deny [(ids, vals)]) := by
  unfold selectedValues pairsOf
  simp only [List.flatMap_cons, List.flatMap_nil, List.append_nil]
  induction ids generalizing vals with
  | nil => exact ⟨[], by simp [filterPairs]⟩
  | cons id ids ih =>
    cases vals with
    | nil => simp at hl
    | cons v vs =>
      obtain ⟨is, hi⟩ := ih vs (by simpa using hl)
      rw [filterPairs, List.zip_cons_cons, List.filter_cons]
      have hpass : passes allow deny id = ((allow.all fun f => Bitmap.contains f id) && (deny.all fun d => !Bitmap.contains d id)) := by
        unfold passes
        cases allow <;> cases deny <;> simp
      rw [hpass]
      split
      · dsimp only; rw [hi]; exact ⟨_, rfl⟩
      · exact ⟨is, hi⟩

theorem selectedValues_flatMap (allow deny : Option B) (blocks : List Block) :
    selectedValues allow deny blocks = blocks.flatMap fun b => selectedValues allow deny [b] := by
  induction blocks with
  | nil => rfl
  | cons b bs ih =>
    rw [List.flatMap_cons, ← ih]
    unfold selectedValues pairsOf
    simp only [List.flatMap_cons, List.flatMap_nil, List.append_nil, List.filter_append, List.map_append]

theorem iterBlocks_considered (r : Reader B) (allow : Option B) :
    iterBlocks r allow = (considered r allow).map UInt64.ofNat := by
  cases allow with
  | none => rfl
  | some f =>
    unfold iterBlocks considered
    dsimp only
    generalize r.blockIndex = idx
    have key : ∀ (l : List FooterEntry) (k : Nat), (∀ i (hi : i < l.length), idx[k + i]? = some l[i]) →
        List.filterMap (fun (x : FooterEntry × Nat) =>
          if x.1.maxID < Bitmap.minimum f ∨ x.1.minID > Bitmap.maximum f then none else some (UInt64.ofNat x.2)) (l.zipIdx k) =
        ((List.range' k l.length).filter fun i => match idx[i]? with
          | some x => decide (Bitmap.minimum f ≤ x.maxID) && decide (x.minID ≤ Bitmap.maximum f)
          | none => false).map UInt64.ofNat := by
      intro l
      induction l with
      | nil => intro k _; rfl
      | cons x l ih =>
        intro k hk
        rw [List.zipIdx_cons, List.filterMap_cons, List.length_cons, List.range'_succ, List.filter_cons]
        have h0 := hk 0 (by simp)
        rw [Nat.add_zero, List.getElem_cons_zero] at h0
        rw [h0, ih (k + 1) (by
          intro i hi
          have := hk (i + 1) (by simpa using hi)
          rw [List.getElem_cons_succ] at this
          rw [← this]; congr 1; omega)]
        by_cases hc : x.maxID < Bitmap.minimum f ∨ x.minID > Bitmap.maximum f
        · rw [if_pos hc, if_neg]
          simp only [Bool.and_eq_true, decide_eq_true_eq]
          rintro ⟨h1, h2⟩
          rcases hc with hc | hc
          · exact UInt64.not_lt.2 h1 hc
          · exact UInt64.not_lt.2 h2 hc
        · rw [if_neg hc, if_pos]
          · rfl
          · simp only [not_or, UInt64.not_lt] at hc
            simp only [Bool.and_eq_true, decide_eq_true_eq]
            exact hc
    have := key idx 0 (by intro i hi; rw [Nat.zero_add, List.getElem?_eq_getElem hi])
    rw [List.range_eq_range', ← this]

/-- **C49, filtered.** The same with an allow filter, a deny filter or both: the result is the exact
aggregate of the values whose ID passes the filters in those of the considered blocks that
`GetPairs` returns. (With a deny filter only, the header must not claim more than 2^45 blocks, see
`C31_refuted_count`.) -/
theorem C49_filtered (r : Reader B) (hp : ∀ i, getPairs r i ≠ .panic) (sched : Sched) (hs : sched.Fair)
    (o : AggregateOptions B) (ho : o.filter.isSome ∨ (o.denyFilter.isSome ∧ r.blockCount.toNat ≤ 2 ^ 45)) :
    ∃ res, aggregateWithOptions sched r o = .ok res ∧
      IsAggregate res (selectedValues o.filter o.denyFilter (readable r (considered r o.filter))) := by
  have ho' : o.filter.isSome ∨ o.denyFilter.isSome := ho.imp id And.left
  rw [C15_arbitrary r sched hs _ (ho.elim .inl (fun h => .inr (.inl h.1)))]
  unfold aggregateWithOptions
  rw [if_neg (by simp)]
  unfold aggregateSequential
  dsimp only
  rw [if_pos ho']
  unfold aggregateWithFilter
  dsimp only
  rw [iterator_ok o.denyFilter (ho.imp id fun h => by have := h.2; unfold maxAlloc; omega), Res.ok_bind, iterBlocks_considered]
  by_cases h0 : ((considered r o.filter).map UInt64.ofNat).length = 0
  · rw [if_pos h0]
    refine ⟨_, rfl, ?_⟩
    rw [List.length_map] at h0
    rw [List.eq_nil_of_length_eq_zero h0]
    exact zero_isAggregate
  · rw [if_neg h0]
    have hnp : ∀ i : UInt64, readBlockFiltered r i.toInt64 o.filter o.denyFilter ≠ .panic := fun i hc =>
      hp i ((C38_filtered r i.toInt64 o.filter o.denyFilter).1.1 hc)
    rw [← accOf_nil, sumBlocks_readable _ _ _ hnp, Res.ok_bind, List.nil_append]
    refine ⟨_, rfl, ?_⟩
    have key : (List.flatMap (fun i => match readBlockFiltered r i.toInt64 o.filter o.denyFilter with
        | .ok b => b.2
        | _ => []) ((considered r o.filter).map UInt64.ofNat)) =
        selectedValues o.filter o.denyFilter (readable r (considered r o.filter)) := by
      rw [selectedValues_flatMap, ← flatMap_readable]
      congr 1
      funext i
      have hrd : getPairs r i = readBlock r i.toInt64 := rfl
      unfold readBlockFiltered
      rw [hrd]
      cases hg : readBlock r i.toInt64 with
      | err e => rfl
      | panic => rfl
      | ok b =>
        obtain ⟨ids, vals⟩ := b
        rw [Res.ok_bind]
        dsimp only
        rw [if_neg (by
          rintro ⟨h1, h2⟩
          rcases ho' with h | h
          · rw [Option.isNone_iff_eq_none] at h1; rw [h1] at h; cases h
          · rw [Option.isNone_iff_eq_none] at h2; rw [h2] at h; cases h)]
        obtain ⟨is, hi⟩ := filterPairs_values o.filter o.denyFilter ids vals (C38_aligned r i ids vals (by rw [hrd, hg])).1
        rw [hi]
    rw [key]
    exact accOf_isAggregate _

/-! ### Lost blocks -/

/-- A block whose layout consists of zeros is reported as an error. -/
theorem readBlock_zero (r : Reader B) (i : Int64) (h0 : ¬ i < 0) (x : FooterEntry) (hx : r.blockIndex[i.toInt.toNat]? = some x)
    (hs : 80 ≤ x.blockSize.toNat) (hstop : x.stop ≤ r.bytes.length) (hsm : r.bytes.length < 2 ^ 63)
    (hz : slice r.bytes (x.start + 64) 16 = List.replicate 16 0) : ∃ e, readBlock r i = .err e := by
  have hsz := x.blockSize.toNat_lt
  have hst : x.stop = x.start + x.blockSize.toNat := rfl
  unfold readBlock
  rw [if_neg h0, hx]
  dsimp only
  have e1 : x.blockOffset.toInt64 = Int64.ofNat x.start := by
    rw [← uint64_ofNat_toInt64]; unfold FooterEntry.start; rw [UInt64.ofNat_toNat]
  rw [e1, show (64 : Int64) = Int64.ofNat 64 from rfl, int64_ofNat_add, int64_ofNat_sub _ _ (by omega) (by omega),
    readBytesAt_ok _ _ _ (by omega) hsm]
  simp only [Res.ok_bind]
  have hdl : (slice r.bytes (x.start + 64) (x.blockSize.toNat - 64)).length = x.blockSize.toNat - 64 :=
    slice_length _ _ _ (by omega)
  rw [goSlice_ok _ _ _ (by omega) (by omega), goSlice_ok _ _ _ (by omega) (by omega),
    goSlice_ok _ _ _ (by omega) (by omega), goSlice_ok _ _ _ (by omega) (by omega)]
  simp only [Res.ok_bind]
  have r1 : rd32 (slice r.bytes (x.start + 64) (x.blockSize.toNat - 64)) 4 = 0 :=
    rd32_slice_of _ _ _ _ _ (by omega) (by
      have := slice_of_slice hz 4 4 (by simp)
      rw [this]; decide)
  rw [r1, if_pos rfl]
  exact ⟨_, rfl⟩

theorem readable_kept (r : Reader B) (lost : Nat → Bool) (l : List Block) (k : Nat)
    (h : ∀ i (hi : i < l.length), if lost (k + i) then ∃ e, getPairs r (UInt64.ofNat (k + i)) = .err e
      else getPairs r (UInt64.ofNat (k + i)) = .ok l[i]) :
    readable r (List.range' k l.length) = ((l.zipIdx k).filter fun x => !lost x.2).map Prod.fst := by
  induction l generalizing k with
  | nil => rfl
  | cons b l ih =>
    rw [List.length_cons, List.range'_succ, List.zipIdx_cons, List.filter_cons]
    have h0 := h 0 (by simp)
    rw [Nat.add_zero, List.getElem_cons_zero] at h0
    have hi := ih (k + 1) (by
      intro i hi
      have := h (i + 1) (by simpa using hi)
      rw [List.getElem_cons_succ, show k + (i + 1) = k + 1 + i by omega] at this
      exact this)
    unfold readable at hi ⊢
    rw [List.filterMap_cons]
    by_cases hc : lost k = true
    · rw [if_pos hc] at h0
      obtain ⟨e, he⟩ := h0
      rw [he]
      simp only [hc, Bool.not_true, Bool.false_eq_true, if_false]
      exact hi
    · rw [if_neg hc] at h0
      rw [h0]
      simp only [hc, Bool.not_false, if_true, List.map_cons]
      rw [hi]

section Lawful
variable [LawfulBitmap B]

/-- **C49, lost blocks.** Suppose that some blocks of a finalized file were overwritten with anything in whose
layout is zero (a lost page, say), and the rest of the file is intact. The file still opens;
reading a lost block is an error; all other blocks read back as written; the aggregate computed
from the blocks is that of the others, without an error. -/
theorem C49_lost {env : Env} {opts : List WriterOption} {log : Log} {file file' : Bytes}
    (h : Finalized B env opts log file) (henc : SymEnc (chosenEncoding opts)) (hn : (acked log).length ≤ maxBlocks)
    (r : Reader B) (hr : newReader file = .ok r) (lost : Nat → Bool) (hl : file'.length = file.length)
    (hkept : ∀ p, (∀ i x, lost i = true → r.blockIndex[i]? = some x → ¬ (x.start ≤ p ∧ p < x.stop)) → file'[p]? = file[p]?)
    (hzero : ∀ i x, lost i = true → r.blockIndex[i]? = some x → ∀ p, x.start + 64 ≤ p → p < x.start + 80 → file'[p]? = some 0) :
    ∃ r' : Reader B, newReader file' = .ok r' ∧
      (∀ i, i < (acked log).length → lost i = true → ∃ e, getPairs r' (UInt64.ofNat i) = .err e) ∧
      (∀ i (hi : i < (acked log).length), lost i = false → getPairs r' (UInt64.ofNat i) = .ok (acked log)[i]) ∧
      ∀ (sched : Sched) (_ : sched.Fair) (workers : Int), ∃ res,
        aggregateWithOptions sched r' { skipPreCalculated := true, parallel := workers } = .ok res ∧
        IsAggregate res ((((acked log).zipIdx.filter fun x => !lost x.2).map Prod.fst).flatMap Prod.snd) := by
  have hreads := h.reads henc hn r hr
  have hext := C08_extents h hn r hr
  have hn' := hn
  unfold maxBlocks at hn'
  have hdam : DamagedBlocks r file file' := by
    refine ⟨hl, fun p hp => hkept p fun i x _ hx => hp x (List.mem_of_getElem? hx)⟩
  obtain ⟨h1, -⟩ := damaged_reader h hn r hr hdam
  have hin : ∀ i, i < (acked log).length → (UInt64.ofNat i).toNat = i := by
    intro i hi; rw [UInt64.toNat_ofNat']; omega
  have hnn : ∀ i, i < (acked log).length → ¬ (UInt64.ofNat i).toInt64 < 0 := by
    intro i hi
    rw [uint64_ofNat_toInt64]; exact int64_ofNat_not_neg _ (by omega)
  have hA : ∀ i, i < (acked log).length → lost i = true →
      ∃ e, getPairs { r with bytes := file' } (UInt64.ofNat i) = .err e := by
    intro i hi hlo
    have hii : i < r.blockIndex.length := by rw [hreads.index]; exact hi
    have hx : r.blockIndex[i]? = some r.blockIndex[i] := List.getElem?_eq_getElem hii
    have hxx := hext.2.1 _ (List.getElem_mem hii)
    have hst : r.blockIndex[i].stop = r.blockIndex[i].start + r.blockIndex[i].blockSize.toNat := rfl
    have hsz := h.size
    refine readBlock_zero { r with bytes := file' } _ (hnn i hi) r.blockIndex[i] ?_ (by omega) ?_ ?_ ?_
    · show r.blockIndex[_]? = _
      rw [toInt64_index _ (hnn i hi), hin i hi]; exact hx
    · show _ ≤ file'.length
      omega
    · show file'.length < _
      omega
    · refine List.ext_getElem? fun j => ?_
      by_cases hj : j < 16
      · rw [slice_getElem? _ _ _ _ hj, hzero i _ hlo hx _ (by omega) (by omega), List.getElem?_replicate, if_pos hj]
      · rw [List.getElem?_eq_none (by unfold slice; rw [List.length_take]; omega), List.getElem?_eq_none (by simp; omega)]
  have hB : ∀ i (hi : i < (acked log).length), lost i = false →
      getPairs { r with bytes := file' } (UInt64.ofNat i) = .ok (acked log)[i] := by
    intro i hi hlo
    obtain ⟨r'', h2, h3⟩ := C48_isolated h hn r hr hdam (UInt64.ofNat i) (by
      intro x hx p hp1 hp2
      rw [hin i hi] at hx
      refine hkept p fun j y hj hy hp => ?_
      have hne : i ≠ j := by rintro rfl; rw [hlo] at hj; cases hj
      have hpw := List.pairwise_iff_getElem.1 hext.1
      obtain ⟨hxi, hxx⟩ := List.getElem?_eq_some_iff.1 hx
      obtain ⟨hyi, hyy⟩ := List.getElem?_eq_some_iff.1 hy
      rcases Nat.lt_or_gt_of_ne hne with hlt | hgt
      · have := hpw i j hxi hyi hlt
        rw [hxx, hyy] at this
        omega
      · have := hpw j i hyi hxi hgt
        rw [hxx, hyy] at this
        omega)
    rw [h1] at h2
    simp only [Res.ok.injEq] at h2
    rw [h2, h3]
    exact hreads.read i hi
  refine ⟨_, h1, hA, hB, ?_⟩
  intro sched hs workers
  have hwf : ∀ e ∈ r.blockIndex, 80 ≤ e.blockSize.toNat := by
    intro x hx
    have := hext.2.1 x hx
    have hst : x.stop = x.start + x.blockSize.toNat := rfl
    omega
  have hcount : ({ r with bytes := file' } : Reader B).blockCount.toNat = (acked log).length := by
    show r.header.blockCount.toNat = _
    rw [hreads.count, UInt64.toNat_ofNat']; omega
  obtain ⟨res, hres, hagg⟩ := C49_skip { r with bytes := file' } (C31_getPairs_wellformed { r with bytes := file' } hwf) sched hs workers
    (.inr (by have := hreads.lt64; rw [hcount]; omega))
  refine ⟨res, hres, ?_⟩
  rw [hcount, List.range_eq_range', readable_kept _ lost] at hagg
  · exact hagg
  · intro i hi
    rw [Nat.zero_add]
    by_cases hc : lost i = true
    · rw [if_pos hc]; exact hA i hi hc
    · rw [if_neg hc]; exact hB i hi (by simpa using hc)

end Lawful

/-- Non-vacuity of C49: the second of the three blocks of a file is lost. -/
example : ∃ file, ∃ r : Reader IdSet, Finalized IdSet quietEnv fullOpts fullLog file ∧ newReader file = .ok r ∧
    ∃ file' : Bytes, file'.length = file.length ∧
      (∀ p, (∀ i x, (i == 1) = true → r.blockIndex[i]? = some x → ¬ (x.start ≤ p ∧ p < x.stop)) → file'[p]? = file[p]?) ∧
      (∀ i x, (i == 1) = true → r.blockIndex[i]? = some x → ∀ p, x.start + 64 ≤ p → p < x.start + 80 → file'[p]? = some 0) := by
  obtain ⟨file, h⟩ := full_finalized
  have hn : (acked fullLog).length ≤ maxBlocks := by decide
  obtain ⟨r, h1, _⟩ := C29_accessors h hn
  have hidx := (h.reads (.inr (.inl rfl)) hn r h1).index
  have hlen : 1 < r.blockIndex.length := by rw [hidx]; decide
  have hext := C08_extents h hn r h1
  have hx := hext.2.1 _ (List.getElem_mem hlen)
  have hrl : (List.replicate 16 (0 : UInt8)).length = 16 := by decide
  have hroom : r.blockIndex[1].start + 64 + 16 ≤ file.length := by omega
  refine ⟨file, r, h, h1, (file.take (r.blockIndex[1].start + 64) ++ List.replicate 16 (0 : UInt8) ++ file.drop (r.blockIndex[1].start + 64 + (List.replicate 16 (0 : UInt8)).length) : Bytes), ?_, ?_, ?_⟩
  · simp only [List.length_append, List.length_take, List.length_drop, hrl]; omega
  · intro p hp
    have := hp 1 _ rfl (List.getElem?_eq_getElem hlen)
    exact patch_getElem? _ _ _ _ (by rw [hrl]; exact hroom) (by rw [hrl]; omega)
  · intro i x hi hxi p hp1 hp2
    have hi1 : i = 1 := by simpa using hi
    subst hi1
    rw [List.getElem?_eq_getElem hlen] at hxi
    cases hxi
    rw [List.getElem?_append_left (by simp only [List.length_append, List.length_take, hrl]; omega),
      List.getElem?_append_right (by rw [List.length_take]; omega), List.getElem?_replicate, if_pos (by rw [List.length_take]; omega)]

/-! ### C14 exactly -/

section
variable [LawfulBitmap B]

/-- **C14, exactly.** On a finalized file (any encoding), without an allow filter `FilteredBlockIterator` returns
all block numbers; with one, exactly those of the blocks that hold an ID not below the filter's
minimum and an ID not above its maximum. The deny filter has no influence. -/
theorem C14_exact {env : Env} {opts : List WriterOption} {log : Log} {file : Bytes}
    (h : Finalized B env opts log file) (hn : (acked log).length ≤ maxBlocks) (r : Reader B)
    (hr : newReader file = .ok r) (allow deny : Option B) :
    filteredBlockIterator r allow deny = .ok (((List.range (acked log).length).filter fun i =>
      match allow, (acked log)[i]? with
      | some f, some b => b.1.any (fun id => decide (Bitmap.minimum f ≤ id)) && b.1.any (fun id => decide (id ≤ Bitmap.maximum f))
      | none, _ => true
      | _, none => false).map UInt64.ofNat) := by
  have H := h.indexed hn r hr
  rw [H.iterator, iterBlocks_considered]
  congr 2
  cases allow with
  | none =>
    show List.range r.blockCount.toNat = _
    rw [show r.blockCount.toNat = (acked log).length from H.count_toNat]
    exact (List.filter_eq_self.2 (by simp)).symm
  | some f =>
    unfold considered
    rw [H.index]
    refine List.filter_congr fun i hi => ?_
    have hi : i < (acked log).length := List.mem_range.1 hi
    have hi' : i < r.blockIndex.length := by rw [H.index]; exact hi
    obtain ⟨_, _, _, ⟨hm1, hm2⟩, ⟨hM1, hM2⟩⟩ := C09_stats h hn r hr i hi'
    rw [List.getElem?_eq_getElem hi', List.getElem?_eq_getElem hi]
    dsimp only
    rw [Bool.eq_iff_iff]
    simp only [Bool.and_eq_true, decide_eq_true_eq, List.any_eq_true]
    constructor
    · rintro ⟨a, b⟩
      exact ⟨⟨_, hM1, a⟩, ⟨_, hm1, b⟩⟩
    · rintro ⟨⟨x, hx, a⟩, ⟨y, hy, b⟩⟩
      exact ⟨UInt64.le_trans a (hM2 x hx), UInt64.le_trans (hm2 y hy) b⟩

end

end VibeCol
