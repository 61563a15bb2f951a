/-
Readers of finalized files: what the aggregation functions see.
-/
import Verif.Lemmas.Par
import Verif.Lemmas.FileOK
namespace VibeCol
variable {B : Type} [Bitmap B]

/-- The index of the reader `r` describes these blocks. -/
structure Indexed (r : Reader B) (blocks : List Block) : Prop where
  few : blocks.length ≤ maxBlocks
  count : r.header.blockCount = UInt64.ofNat blocks.length
  index : r.blockIndex.length = blocks.length
  entry : ∀ i (h : i < blocks.length) (h' : i < r.blockIndex.length),
    ∃ o s, r.blockIndex[i] = entryOf (o, s, statsOf blocks[i].1 blocks[i].2)
  ok : ∀ b ∈ blocks, b.1 ≠ [] ∧ b.1.length = b.2.length ∧ b.1.length ≤ 2 ^ 27

/-- The reader `r` delivers exactly these blocks and has their index. -/
structure Reads (r : Reader B) (blocks : List Block) : Prop extends Indexed r blocks where
  read : ∀ i (h : i < blocks.length), getPairs r (UInt64.ofNat i) = .ok blocks[i]

/-- A finalized file in any encoding has the right index. -/
theorem FileOK.indexed {bytes : Bytes} {h : FileHeader} {e : UInt32} {blks : List Blk} {buf : Bytes}
    {bo fs : Nat} (H : FileOK bytes h e blks buf bo fs) (hcnt : blks.length ≤ maxBlocks) :
    Indexed (okReader (B := B) bytes h e blks) (blks.map fun b => (b.ids, b.vals)) := by
  unfold maxBlocks at hcnt
  refine ⟨by simpa [maxBlocks] using hcnt, by rw [List.length_map]; exact H.count, by simp [okReader], ?_, ?_⟩
  · intro i h1 h2
    simp only [okReader, List.getElem_map]
    exact ⟨_, _, rfl⟩
  · intro b hb
    obtain ⟨k, hk, rfl⟩ := List.mem_map.1 hb
    have := H.ok k hk
    refine ⟨?_, this.len, this.bound⟩
    intro hc
    have h1 := this.ne
    rw [show k.ids = [] from hc] at h1
    simp at h1

/-- A finalized file in a symmetric encoding delivers its blocks. -/
theorem FileOK.reads {bytes : Bytes} {h : FileHeader} {e : UInt32} {blks : List Blk} {buf : Bytes}
    {bo fs : Nat} (H : FileOK bytes h e blks buf bo fs) (he : SymEnc e) (hcnt : blks.length ≤ maxBlocks) :
    Reads (okReader (B := B) bytes h e blks) (blks.map fun b => (b.ids, b.vals)) := by
  refine ⟨H.indexed hcnt, ?_⟩
  unfold maxBlocks at hcnt
  intro i hi
  have hi' : i < blks.length := by simpa using hi
  unfold getPairs
  rw [uint64_ofNat_toInt64, H.readBlock i hi' (okReader bytes h e blks) rfl H.enc (by simp [okReader, hi']) (by omega),
    decodeBlockData_sections e he _ _ (H.ok _ (List.getElem_mem hi')).len]
  simp

namespace Indexed
variable {r : Reader B} {blocks : List Block}

omit [Bitmap B] in
theorem lt64 (H : Indexed r blocks) : blocks.length < 2 ^ 32 := by
  have := H.few; unfold maxBlocks at this; omega

omit [Bitmap B] in
theorem count_toNat (H : Indexed r blocks) : r.header.blockCount.toNat = blocks.length := by
  have := H.lt64
  rw [H.count, UInt64.toNat_ofNat']; omega

omit [Bitmap B] in
theorem alloc (H : Indexed r blocks) : 8 * r.blockCount.toNat ≤ maxAlloc := by
  have := H.lt64
  show 8 * r.header.blockCount.toNat ≤ maxAlloc
  rw [H.count_toNat]; unfold maxAlloc; omega

theorem iterator (H : Indexed r blocks) (allow deny : Option B) :
    filteredBlockIterator r allow deny = .ok (iterBlocks r allow) := iterator_ok deny (.inr H.alloc)

omit [Bitmap B] in
theorem entry_count (H : Indexed r blocks) : ∀ x ∈ r.blockIndex, x.count ≠ 0 := by
  intro x hx
  obtain ⟨i, hi, rfl⟩ := List.getElem_of_mem hx
  have hi' : i < blocks.length := by have := H.index; omega
  obtain ⟨o, s, he⟩ := H.entry i hi' hi
  rw [he]
  have hok := H.ok _ (List.getElem_mem hi')
  intro hc
  have := congrArg UInt32.toNat hc
  simp only [entryOf, newFooterEntry, statsOf, UInt32.toNat_ofNat', UInt32.toNat_zero] at this
  have h1 : 0 < blocks[i].1.length := List.length_pos_iff.2 hok.1
  have := hok.2.2
  omega

/-- Parallel and sequential agree on such a reader, whatever the options. -/
theorem parallel_eq (H : Indexed r blocks) (sched : Sched) (hs : sched.Fair) (opts : AggregateOptions B) :
    aggregateWithOptions sched r opts = aggregateSequential r { opts with parallel := 0 } := by
  unfold aggregateWithOptions
  split
  · by_cases h : opts.filter.isSome ∨ opts.denyFilter.isSome ∨ opts.skipPreCalculated = true
    · refine parallel_reading sched hs r opts ?_ (.inr (.inr H.alloc))
      rcases h with h | h | h
      · exact .inl h
      · exact .inr (.inl h)
      · exact .inr (.inr (.inl h))
    · have h1 : opts.filter = none := by
        cases hh : opts.filter with
        | none => rfl
        | some f => exact absurd (.inl (by rw [hh]; rfl)) h
      have h2 : opts.denyFilter = none := by
        cases hh : opts.denyFilter with
        | none => rfl
        | some f => exact absurd (.inr (.inl (by rw [hh]; rfl))) h
      have h3 : opts.skipPreCalculated = false := by
        cases hh : opts.skipPreCalculated with
        | false => rfl
        | true => exact absurd (.inr (.inr hh)) h
      exact parallel_footer sched hs r opts h1 h2 h3 H.alloc (by rw [H.count_toNat, H.index]) H.entry_count
  · rename_i h
    have : opts.parallel = 0 := by simpa using h
    rw [← this]

end Indexed

namespace Reads
variable {r : Reader B} {blocks : List Block}

/-- The index list of all blocks. -/
def all (n : Nat) : List UInt64 := (List.range n).map UInt64.ofNat

theorem flatMap_values (blocks : List Block) (h : ∀ b ∈ blocks, b.1.length = b.2.length) :
    valuesOf blocks = (blocks.map fun b => b.2).flatten := by
  unfold valuesOf pairsOf
  induction blocks with
  | nil => rfl
  | cons b bs ih =>
    rw [List.flatMap_cons, List.map_append, ih (fun c hc => h c (by simp [hc])), List.map_cons,
      List.flatten_cons, List.map_snd_zip (by rw [h b (by simp)]; exact Nat.le_refl _)]

theorem map_all_getD (blocks : List Block) (f : Block → Acc) (n : Nat) (hn : n = blocks.length)
    (h64 : n < 2 ^ 64) :
    ((List.range n).map UInt64.ofNat).map (fun i => f (blocks.getD i.toNat ([], []))) = blocks.map f := by
  apply List.ext_getElem
  · simp [hn]
  · intro i h1 h2
    have hi : i < blocks.length := by simpa using h2
    simp only [List.getElem_map, List.getElem_range, UInt64.toNat_ofNat']
    rw [Nat.mod_eq_of_lt (by omega)]
    congr 1
    rw [List.getD_eq_getElem?_getD, List.getElem?_eq_getElem hi]; rfl

/-- Reading all blocks gives the exact result. -/
theorem skip (H : Reads r blocks) (opts : AggregateOptions B) (hf : opts.filter = none)
    (hd : opts.denyFilter = none) (hskip : opts.skipPreCalculated = true ∨ blocks = []) :
    aggregateSequential r opts = .ok (accOf (valuesOf blocks)).result := by
  have hlt := H.lt64
  have hidx : ¬ (r.blockIndex.length > 0 ∧ opts.skipPreCalculated = false) := by
    rintro ⟨h1, h2⟩
    rcases hskip with h | h
    · rw [h2] at h; cases h
    · rw [H.index, h] at h1; simp at h1
  unfold aggregateSequential
  simp only [hf, hd, Option.isSome_none, Bool.false_eq_true, or_self, if_false, hidx]
  rw [sumBlocks_join, bind_result, H.count_toNat,
    joinOf_some _ (fun i => accOf (blocks.getD i.toNat ([], [])).2),
    map_all_getD blocks (fun b => accOf b.2) _ rfl (by omega)]
  · rw [flatMap_values blocks (fun b hb => (H.ok b hb).2.1), accOf_flatten, List.map_map]; rfl
  · intro i hi
    obtain ⟨k, hk, rfl⟩ := List.mem_map.1 hi
    have hk' : k < blocks.length := List.mem_range.1 hk
    unfold readAcc
    rw [H.read k hk']
    simp only [UInt64.toNat_ofNat']
    rw [Nat.mod_eq_of_lt (by omega), List.getD_eq_getElem?_getD, List.getElem?_eq_getElem hk']; rfl

/-- The contribution of an index entry is that of the block's values. -/
theorem entryAcc_eq (b : Block) (o : UInt64) (s : UInt32) (hb : b.1 ≠ [] ∧ b.1.length = b.2.length ∧
    b.1.length ≤ 2 ^ 27) (hrep : minInt64Value ∉ b.2 ∧ Int64.ofInt (intSum b.2) ≠ minInt64Value) :
    entryAcc (entryOf (o, s, statsOf b.1 b.2)) = accOf b.2 := by
  have hne : b.2 ≠ [] := by
    intro h; have := hb.2.1; rw [h] at this
    exact hb.1 (List.eq_nil_of_length_eq_zero this)
  obtain ⟨m1, m2, _⟩ := minMaxInt64_spec b.2 hne
  have hx : EntryStats (entryOf (o, s, statsOf b.1 b.2)) b.2 := by
    refine ⟨?_, ?_, ?_, ?_⟩
    · exact uint64ToInt64_int64ToUint64 _ (fun h => hrep.1 (h ▸ m1))
    · exact uint64ToInt64_int64ToUint64 _ (fun h => hrep.1 (h ▸ m2))
    · apply uint64ToInt64_int64ToUint64
      show calculateSumInt64 b.2 ≠ _
      rw [calculateSumInt64_spec]; exact hrep.2
    · show (UInt32.ofNat b.1.length).toNat = _
      rw [UInt32.toNat_ofNat', hb.2.1]; have := hb.2; omega
  have := addEntry_accOf [] b.2 _ hx hne
  rw [accOf_nil, addEntry_join, Acc.init_join] at this
  exact this

/-- Footer aggregation gives the exact result. -/
theorem _root_.VibeCol.Indexed.footer (H : Indexed r blocks) (opts : AggregateOptions B) (hf : opts.filter = none)
    (hd : opts.denyFilter = none) (hskip : opts.skipPreCalculated = false) (hrep : StatsRepresentable blocks) :
    aggregateSequential r opts = .ok (accOf (valuesOf blocks)).result := by
  by_cases hb : blocks = []
  · exact Reads.skip ⟨H, fun i h => by rw [hb] at h; simp at h⟩ opts hf hd (.inr hb)
  have hidx : r.blockIndex.length > 0 := by rw [H.index]; exact List.length_pos_iff.2 hb
  unfold aggregateSequential
  simp only [hf, hd, Option.isSome_none, Bool.false_eq_true, or_self, if_false, hidx, hskip, and_self, if_true]
  rw [footer_join, flatMap_values blocks (fun b hb => (H.ok b hb).2.1), accOf_flatten, List.map_map]
  have : r.blockIndex.map entryAcc = blocks.map (accOf ∘ fun b => b.2) := by
    apply List.ext_getElem
    · simp [H.index]
    · intro i h1 h2
      have hi : i < blocks.length := by simpa using h2
      obtain ⟨o, s, he⟩ := H.entry i hi (by simpa using h1)
      simp only [List.getElem_map, he]
      exact entryAcc_eq _ o s (H.ok _ (List.getElem_mem hi)) (hrep _ (List.getElem_mem hi))
  rw [this]

/-! ### Filters -/

/-- The filter condition of the specification. -/
def selects (allow deny : Option B) (id : UInt64) : Bool :=
  (allow.all fun f => Bitmap.contains f id) && (deny.all fun d => !Bitmap.contains d id)

theorem passes_eq (allow deny : Option B) (id : UInt64) : passes allow deny id = selects allow deny id := by
  unfold passes selects
  cases allow <;> cases deny <;> simp

/-- The selected values of one block. -/
def sel (allow deny : Option B) (b : Block) : List Int64 :=
  ((b.1.zip b.2).filter fun p => selects allow deny p.1).map Prod.snd

theorem selectedValues_eq (allow deny : Option B) (blocks : List Block) :
    selectedValues allow deny blocks = (blocks.map (sel allow deny)).flatten := by
  unfold selectedValues pairsOf
  induction blocks with
  | nil => rfl
  | cons b bs ih =>
    rw [List.flatMap_cons, List.filter_append, List.map_append, ih, List.map_cons, List.flatten_cons]; rfl

theorem filterPairs_ok (allow deny : Option B) (ids : List UInt64) (vals : List Int64)
    (h : ids.length ≤ vals.length) :
    ∃ is, filterPairs allow deny ids vals =
      .ok (is, ((ids.zip vals).filter fun p => selects allow deny p.1).map Prod.snd) := by
  induction ids generalizing vals with
  | nil => exact ⟨[], by simp [filterPairs]⟩
  | cons id ids ih =>
    cases vals with
    | nil => simp at h
    | cons v vs =>
      obtain ⟨is, his⟩ := ih vs (by simpa using h)
      rw [filterPairs, passes_eq, List.zip_cons_cons, List.filter_cons]
      simp only [List.tail_cons]
      by_cases hp : selects allow deny id = true
      · simp only [hp, if_true, his, Res.ok_bind, List.map_cons]; exact ⟨_, rfl⟩
      · simp only [hp, his]; exact ⟨_, rfl⟩

/-- A filtered read of a block. -/
theorem filtered (H : Reads r blocks) (allow deny : Option B) (i : Nat) (hi : i < blocks.length) :
    ∃ is, readBlockFiltered r (UInt64.ofNat i).toInt64 allow deny = .ok (is, sel allow deny blocks[i]) := by
  have hr := H.read i hi
  have hlen := (H.ok _ (List.getElem_mem hi)).2.1
  unfold getPairs at hr
  unfold readBlockFiltered
  rw [hr, Res.ok_bind]
  show ∃ is, (if _ ∧ _ then Res.ok (blocks[i].1, blocks[i].2) else
    filterPairs allow deny blocks[i].1 blocks[i].2) = _
  split
  · rename_i h
    refine ⟨blocks[i].1, ?_⟩
    have h1 : allow = none := by simpa using h.1
    have h2 : deny = none := by simpa using h.2
    subst h1 h2
    unfold sel selects
    rw [List.filter_eq_self.2 (by intro a _; rfl), List.map_snd_zip (by omega)]
  · exact filterPairs_ok allow deny _ _ (by omega)

theorem zipIdx_join (l : List FooterEntry) (k : Nat) (P : FooterEntry → Prop) [DecidablePred P]
    (h : UInt64 → Acc) (hP : ∀ p ∈ l.zipIdx k, P p.1 → h (UInt64.ofNat p.2) = Acc.init) :
    joinAll (((l.zipIdx k).filterMap fun p => if P p.1 then none else some (UInt64.ofNat p.2)).map h) =
      joinAll ((l.zipIdx k).map fun p => h (UInt64.ofNat p.2)) := by
  induction l generalizing k with
  | nil => rfl
  | cons x xs ih =>
    rw [List.zipIdx_cons] at hP ⊢
    rw [List.filterMap_cons, List.map_cons, joinAll_cons]
    have h1 := ih (k + 1) (fun p hp => hP p (List.mem_cons_of_mem _ hp))
    by_cases hx : P x
    · simp only [hx, if_true]
      rw [h1, hP (x, k) (by simp) hx, Acc.init_join]
    · simp only [hx, if_false, List.map_cons]
      rw [joinAll_cons, h1]

theorem zipIdx_map {β : Type} (l : List FooterEntry) (f : UInt64 → β) :
    (l.zipIdx.map fun p => f (UInt64.ofNat p.2)) = (List.range l.length).map fun i => f (UInt64.ofNat i) := by
  apply List.ext_getElem
  · simp
  · intro i h1 h2; simp

omit [Bitmap B] in
/-- The index entry bounds the IDs of its block. -/
theorem _root_.VibeCol.Indexed.entry_ids (H : Indexed r blocks) (i : Nat) (hi : i < blocks.length) (h' : i < r.blockIndex.length)
    (id : UInt64) (hid : id ∈ blocks[i].1) : r.blockIndex[i].minID ≤ id ∧ id ≤ r.blockIndex[i].maxID := by
  obtain ⟨o, s, he⟩ := H.entry i hi h'
  rw [he]
  exact (minMaxUint64_spec blocks[i].1 (H.ok _ (List.getElem_mem hi)).1).2.2 id hid

/-- A skipped block has no pair in the filter. -/
theorem _root_.VibeCol.Indexed.skipped_empty [LawfulBitmap B] (H : Indexed r blocks) (f : B) (deny : Option B) (i : Nat)
    (hi : i < blocks.length) (h' : i < r.blockIndex.length)
    (hs : r.blockIndex[i].maxID < Bitmap.minimum f ∨ r.blockIndex[i].minID > Bitmap.maximum f) :
    sel (some f) deny blocks[i] = [] := by
  unfold sel
  rw [List.map_eq_nil_iff, List.filter_eq_nil_iff]
  intro p hp hsel
  have hid : p.1 ∈ blocks[i].1 := (List.of_mem_zip hp).1
  obtain ⟨h1, h2⟩ := H.entry_ids i hi h' _ hid
  have hc : Bitmap.contains f p.1 = true := by
    unfold selects at hsel
    simp only [Option.all_some, Bool.and_eq_true] at hsel
    exact hsel.1
  have h3 := LawfulBitmap.minimum_le f _ hc
  have h4 := LawfulBitmap.le_maximum f _ hc
  simp only [UInt64.le_iff_toNat_le, UInt64.lt_iff_toNat_lt, gt_iff_lt] at *
  omega

omit [Bitmap B] in
theorem mem_zipIdx_lt (l : List FooterEntry) (p : FooterEntry × Nat) (hp : p ∈ l.zipIdx) :
    ∃ h : p.2 < l.length, l[p.2] = p.1 := by
  obtain ⟨x, k⟩ := p
  obtain ⟨h1, h2, h3⟩ := List.mem_zipIdx hp
  simp only [Nat.zero_add, Nat.sub_zero] at h2 h3
  exact ⟨h2, h3.symm⟩

/-- All indices the iterator returns are in range. -/
theorem _root_.VibeCol.Indexed.iter_range (H : Indexed r blocks) (allow : Option B) (j : UInt64)
    (hj : j ∈ iterBlocks r allow) : ∃ i, i < blocks.length ∧ j = UInt64.ofNat i := by
  unfold iterBlocks at hj
  cases allow with
  | none =>
    obtain ⟨i, hi, rfl⟩ := List.mem_map.1 hj
    have : i < r.header.blockCount.toNat := List.mem_range.1 hi
    rw [H.count_toNat] at this
    exact ⟨i, this, rfl⟩
  | some f =>
    obtain ⟨p, hp, hh⟩ := List.mem_filterMap.1 hj
    obtain ⟨h1, _⟩ := mem_zipIdx_lt _ p hp
    rw [H.index] at h1
    simp only at hh
    split at hh
    · cases hh
    · exact ⟨p.2, h1, (Option.some.inj hh).symm⟩

/-- The iterator's blocks hold all selected values. -/
theorem iter_join [LawfulBitmap B] (H : Reads r blocks) (allow deny : Option B) :
    joinAll ((iterBlocks r allow).map fun i =>
      accOf (sel allow deny (blocks.getD i.toNat ([], [])))) =
    accOf (selectedValues allow deny blocks) := by
  have hlt := H.lt64
  rw [selectedValues_eq, accOf_flatten, List.map_map]
  have hall := map_all_getD blocks (accOf ∘ sel allow deny) _ rfl (by omega)
  unfold iterBlocks
  cases allow with
  | none =>
    simp only [Reader.blockCount, H.count_toNat]
    rw [← hall]; rfl
  | some f =>
    simp only
    rw [zipIdx_join r.blockIndex 0
      (fun x => x.maxID < Bitmap.minimum f ∨ x.minID > Bitmap.maximum f), zipIdx_map r.blockIndex
      (fun i => accOf (sel (some f) deny (blocks.getD i.toNat ([], [])))), H.index, ← hall, List.map_map]
    · rfl
    · intro p hp hskip
      obtain ⟨h1, h2⟩ := mem_zipIdx_lt _ p hp
      have h3 : p.2 < blocks.length := by rw [← H.index]; exact h1
      rw [← h2] at hskip
      have := H.skipped_empty f deny p.2 h3 h1 hskip
      rw [UInt64.toNat_ofNat', Nat.mod_eq_of_lt (by omega), List.getD_eq_getElem?_getD,
        List.getElem?_eq_getElem h3]
      simp only [Option.getD_some, this]; rfl

/-- Filtered aggregation: the explicit zero if no block can match, else the exact result. -/
theorem withFilter [LawfulBitmap B] (H : Reads r blocks) (opts : AggregateOptions B)
    (h : opts.filter.isSome ∨ opts.denyFilter.isSome) :
    aggregateSequential r opts = .ok (if iterBlocks r opts.filter = [] then .zero
      else (accOf (selectedValues opts.filter opts.denyFilter blocks)).result) ∧
    (iterBlocks r opts.filter = [] →
      selectedValues opts.filter opts.denyFilter blocks = []) := by
  have hj := H.iter_join opts.filter opts.denyFilter
  constructor
  · unfold aggregateSequential aggregateWithFilter
    simp only [h, if_true, H.iterator, Res.ok_bind]
    by_cases hn : iterBlocks r opts.filter = []
    · rw [hn]; rfl
    · have hn' : ¬ (iterBlocks r opts.filter).length = 0 := by
        simpa using hn
      rw [if_neg hn', if_neg hn, sumBlocks_join, bind_result,
        joinOf_some _ (fun i => accOf (sel opts.filter opts.denyFilter (blocks.getD i.toNat ([], []))))]
      · rw [← hj]; rfl
      · intro j hjm
        obtain ⟨i, hi, rfl⟩ := H.iter_range _ j hjm
        obtain ⟨is, hr⟩ := H.filtered opts.filter opts.denyFilter i hi
        have hlt := H.lt64
        unfold readAcc
        simp only [hr, UInt64.toNat_ofNat']
        rw [Nat.mod_eq_of_lt (by omega), List.getD_eq_getElem?_getD, List.getElem?_eq_getElem hi]; rfl
  · intro hn
    rw [hn] at hj
    have h1 := congrArg Acc.count hj
    rw [(accOf_for _).count] at h1
    exact List.eq_nil_of_length_eq_zero h1.symm

end Reads
end VibeCol
