/-
C77: replacing files of a stack by others: merging, splitting, dropping, reordering.
-/
import Verif.Spec.Merge
import Verif.Props.Foreign
import Verif.Props.SimpleProgress
set_option linter.unusedSimpArgs false
namespace VibeCol.Merge
open VibeCol.Foreign
variable {B : Type} [Bitmap B]

/-- `r` is a reader opened on a file with the pairs `ps` (in some order): one finalized by a `Writer`, one closed by a `SimpleWriter`
without I/O errors, or one of another program laid out as documented. The serialized bitmap fits its 32-bit length field. -/
inductive OpenOn (r : Reader B) (ps : List Pair) : Prop where
  | writer {blocks : List Block} (h : FileWith B r blocks) (hp : (pairsOf blocks).Perm ps)
  | simple {env : Env} {opts : List WriterOption} {calls : List SWCall} {log : SWLog} {sw : SimpleWriter B}
      (h : SWHistory B env opts calls log sw) (hs : LawfulSort env.sort) (henc : SymEnc (chosenEncoding opts))
      (hb : ∀ c ∈ calls, c.Bounded) (hno : SWNoIOError log) (hclose : (SWCall.close, Except.ok ()) ∈ log)
      (hr : newReader sw.writer.file.bytes = .ok r) (hsize : sw.writer.file.bytes.length ≤ maxFileSize)
      (hbuf : ∀ ids : List UInt64, ids.Perm ((accepted log).flatten.map Prod.fst) →
        (Bitmap.toBuffer (ids.foldl Bitmap.set (Bitmap.empty : B))).length < 2 ^ 32)
      (hp : (accepted log).flatten.Perm ps)
  | other {blocks : List Block} (h : Documented r blocks) (hp : (pairsOf blocks).Perm ps)

variable [LawfulBitmap B]

omit [LawfulBitmap B] in
theorem _root_.VibeCol.Provides.perm {sched : Sched} {skip : Bool} {filter : Option B} {r : Reader B} {a b : List Block}
    (h : Provides sched skip filter r a) (hp : (pairsOf a).Perm (pairsOf b)) : Provides sched skip filter r b := by
  intro deny
  obtain ⟨⟨res, h1, h2⟩, g, h3, h4⟩ := h deny
  refine ⟨⟨res, h1, h2.perm ((hp.filter _).map _)⟩, g, h3, fun x => ?_⟩
  rw [h4]
  exact ⟨fun ⟨v, hv⟩ => ⟨v, hp.mem_iff.1 hv⟩, fun ⟨v, hv⟩ => ⟨v, hp.mem_iff.2 hv⟩⟩

/-- The pairs as one block. -/
def oneBlock (ps : List Pair) : List Block := [(ps.map Prod.fst, ps.map Prod.snd)]

theorem pairsOf_oneBlock (ps : List Pair) : pairsOf (oneBlock ps) = ps := by
  unfold oneBlock pairsOf
  rw [List.flatMap_cons, List.flatMap_nil, List.append_nil]
  induction ps with
  | nil => rfl
  | cons p ps ih => simp only [List.map_cons, List.zip_cons_cons, ih]

/-- A file that is open provides its pairs. -/
theorem OpenOn.provides {r : Reader B} {ps : List Pair} (h : OpenOn r ps) (sched : Sched) (hs : sched.Fair) (skip : Bool)
    (filter : Option B) : Provides sched skip filter r (oneBlock ps) := by
  cases h with
  | writer h hp => exact (h.provides sched hs skip filter).perm (by rw [pairsOf_oneBlock]; exact hp)
  | @simple env opts calls log sw h hsort henc hb hno hclose hr hsize hbuf hp =>
    obtain ⟨stored, blks, h1, h2⟩ := h.result hsort henc hb hno
    have hcl : sw.closed = true := by
      obtain ⟨sw0, _, hr⟩ := h.created
      have := closed_of_log env calls sw0 (by rw [hr]; exact hclose)
      rwa [hr] at this
    rcases h2 with h2 | h2
    · rw [h2.isOpen] at hcl; cases hcl
    obtain ⟨r', hr', hR, _, ⟨bs, hc, hread, hall⟩, hg⟩ := h2.reads henc hsize
    rw [hr] at hr'
    cases hr'
    have hperm := h1.perm
    obtain ⟨g, hg1, hg2⟩ := hg (hbuf _ (hperm.map _))
    have hpairs : pairsOf (blks.map Blk.pairs) = stored.flatten := by
      rw [h2.stream]
      simp only [pairsOf, blkPairs, List.flatMap_map]
      rfl
    refine Provides.perm (a := blks.map Blk.pairs) (fun deny => ?_) (by rw [pairsOf_oneBlock, hpairs]; exact hperm.trans hp)
    refine ⟨hR.general sched hs _ (.inr (.inl rfl)), g, hg1, fun x => ?_⟩
    rw [hg2, hpairs]
  | @other blocks h hp =>
    refine Provides.perm (a := blocks) (fun deny => ?_) (by rw [pairsOf_oneBlock]; exact hp)
    obtain ⟨file, enc, places, data, H, hm, h5, h6, hop, hx⟩ := h.file
    exact ⟨C76_aggregate H hm ⟨h5, h6⟩ r hop sched hs _ (.inr (.inl rfl)), _, C76_bitmap H hm r hop, hx⟩

theorem visible_remaining (allowed : UInt64 → Bool) (fs : List (List Pair)) :
    visible allowed (fs.map oneBlock) = (remaining fs).filter fun p => allowed p.1 := by
  induction fs with
  | nil => rfl
  | cons f fs ih =>
    rw [List.map_cons]
    unfold visible remaining
    rw [ih, List.filter_append, pairsOf_oneBlock, List.filter_filter]
    congr 1
    refine List.filter_congr fun p _ => ?_
    congr 1
    rw [List.any_map, Bool.eq_iff_iff]
    simp only [Function.comp_def, pairsOf_oneBlock, Bool.not_eq_true', List.any_eq_false, List.all_eq_true, List.any_eq_true, bne_iff_ne,
      ne_eq, beq_iff_eq]
    constructor
    · intro h g hg q hq e; exact h g hg ⟨q, hq, e⟩
    · rintro h g hg ⟨q, hq, e⟩; exact h g hg q hq e

/-- What a stack answers. -/
theorem stack_answer (sched : Sched) (hs : sched.Fair) {readers : List (Reader B)} {files : List (List Pair)}
    (h : Each OpenOn readers files) (skip : Bool) (filter : Option B) :
    ∃ res, multiAggregate sched readers skip filter = .ok res ∧
      IsAggregate res (((remaining files).filter fun p => allowedBy filter p.1).map Prod.snd) := by
  have hE : Each (Provides sched skip filter) readers (files.map oneBlock) := by
    induction h with
    | nil => exact .nil
    | cons h _ ih => exact .cons (h.provides sched hs skip filter) ih
  obtain ⟨res, h1, h2⟩ := multiAggregate_spec sched readers _ skip filter hE
  rw [visible_remaining] at h2
  exact ⟨res, h1, h2⟩

theorem _root_.VibeCol.IsAggregate.same {a b : AggregateResult} {vs : List Int64} (ha : IsAggregate a vs) (hb : IsAggregate b vs) :
    SameAnswer a b := by
  refine ⟨ha.count.trans hb.count.symm, ha.sum.trans hb.sum.symm, ?_, fun h => ?_⟩
  · rw [ha.avg, hb.avg, ha.count, hb.count, ha.sum, hb.sum]
  · exact ha.unique hb (fun h0 => h (ha.count_zero.2 h0))

/-! ### Remaining pairs -/

/-- An ID occurs in a file. -/
def Has (f : List Pair) (id : UInt64) : Prop := ∃ v, (id, v) ∈ f

theorem keeps_iff (newer : List (List Pair)) (p : Pair) :
    (newer.all fun g => g.all fun q => q.1 != p.1) = true ↔ ∀ g ∈ newer, ¬ Has g p.1 := by
  simp only [List.all_eq_true, bne_iff_ne, ne_eq]
  constructor
  · rintro h g hg ⟨v, hv⟩; exact h g hg _ hv rfl
  · intro h g hg q hq e
    exact h g hg ⟨q.2, by rw [← e]; exact hq⟩

theorem remaining_cons (f : List Pair) (newer : List (List Pair)) :
    remaining (f :: newer) = (f.filter fun p => newer.all fun g => g.all fun q => q.1 != p.1) ++ remaining newer := rfl

theorem has_remaining (fs : List (List Pair)) (id : UInt64) : Has (remaining fs) id ↔ ∃ f ∈ fs, Has f id := by
  induction fs with
  | nil => simp [remaining, Has]
  | cons f fs ih =>
    constructor
    · rintro ⟨v, hv⟩
      rw [remaining_cons, List.mem_append] at hv
      rcases hv with hv | hv
      · exact ⟨f, List.mem_cons_self, v, (List.mem_filter.1 hv).1⟩
      · obtain ⟨g, hg, h⟩ := ih.1 ⟨v, hv⟩
        exact ⟨g, List.mem_cons_of_mem _ hg, h⟩
    · rintro ⟨g, hg, hh⟩
      by_cases hl : ∃ g ∈ fs, Has g id
      · obtain ⟨v, hv⟩ := ih.2 hl
        exact ⟨v, by rw [remaining_cons]; exact List.mem_append_right _ hv⟩
      · rcases List.mem_cons.1 hg with rfl | hg
        · obtain ⟨v, hv⟩ := hh
          refine ⟨v, ?_⟩
          rw [remaining_cons]
          refine List.mem_append_left _ (List.mem_filter.2 ⟨hv, ?_⟩)
          rw [keeps_iff]
          exact fun g hg h => hl ⟨g, hg, h⟩
        · exact absurd ⟨g, hg, hh⟩ hl

theorem remaining_append (fs gs : List (List Pair)) :
    remaining (fs ++ gs) = ((remaining fs).filter fun p => gs.all fun g => g.all fun q => q.1 != p.1) ++ remaining gs := by
  induction fs with
  | nil => rfl
  | cons f fs ih =>
    rw [List.cons_append, remaining_cons, remaining_cons, ih, List.filter_append, List.filter_filter, List.append_assoc]
    congr 1
    refine List.filter_congr fun p _ => ?_
    rw [List.all_append, Bool.and_comm]

/-- A run of files can be replaced by another one of which the same pairs remain. -/
theorem remaining_replace (older run run' newer : List (List Pair)) (h : (remaining run).Perm (remaining run')) :
    (remaining (older ++ run ++ newer)).Perm (remaining (older ++ run' ++ newer)) := by
  have hsame : ∀ id, (∃ f ∈ run, Has f id) ↔ ∃ f ∈ run', Has f id := by
    intro id
    rw [← has_remaining, ← has_remaining]
    exact ⟨fun ⟨v, hv⟩ => ⟨v, h.mem_iff.1 hv⟩, fun ⟨v, hv⟩ => ⟨v, h.mem_iff.2 hv⟩⟩
  simp only [remaining_append, List.filter_append, List.append_assoc]
  refine List.Perm.append (List.Perm.of_eq ?_) ((h.filter _).append_right _)
  refine List.filter_congr fun p _ => ?_
  rw [List.all_append, List.all_append]
  congr 1
  rw [Bool.eq_iff_iff, keeps_iff, keeps_iff]
  constructor
  · intro hk f hf ho
    obtain ⟨g, hg, hh⟩ := (hsame p.1).2 ⟨f, hf, ho⟩
    exact hk g hg hh
  · intro hk f hf ho
    obtain ⟨g, hg, hh⟩ := (hsame p.1).1 ⟨f, hf, ho⟩
    exact hk g hg hh

/-! ### The theorems -/

/-- **C77.** In a stack of files any run of neighbouring files can be replaced by another run of which the same pairs remain (in any
order): `MultiReader.Aggregate` answers the same, with every filter and option and on every schedule. -/
theorem C77_replace (sched sched' : Sched) (hs : sched.Fair) (hs' : sched'.Fair) {ro rr rr' rn : List (Reader B)}
    {older run run' newer : List (List Pair)} (ho : Each OpenOn ro older) (hr : Each OpenOn rr run) (hr' : Each OpenOn rr' run')
    (hn : Each OpenOn rn newer) (h : (remaining run).Perm (remaining run')) (skip skip' : Bool) (filter : Option B) :
    ∃ res res', multiAggregate sched (ro ++ rr ++ rn) skip filter = .ok res ∧
      multiAggregate sched' (ro ++ rr' ++ rn) skip' filter = .ok res' ∧ SameAnswer res res' := by
  obtain ⟨res, h1, h2⟩ := stack_answer sched hs (forall2_append (forall2_append ho hr) hn) skip filter
  obtain ⟨res', h3, h4⟩ := stack_answer sched' hs' (forall2_append (forall2_append ho hr') hn) skip' filter
  refine ⟨res, res', h1, h3, (h2.perm ?_).same h4⟩
  exact ((remaining_replace older run run' newer h).filter _).map _

theorem remaining_single (f : List Pair) : remaining [f] = f := by
  rw [remaining_cons]
  show f.filter (fun _ => true) ++ [] = f
  rw [List.append_nil, List.filter_eq_self.2 (fun _ _ => rfl)]

/-- **C77, merging.** A run of neighbouring files can be replaced by one file that has the pairs remaining of them, in any order. -/
theorem C77_merge (sched sched' : Sched) (hs : sched.Fair) (hs' : sched'.Fair) {ro rr rn : List (Reader B)} {m : Reader B}
    {older run newer : List (List Pair)} {ps : List Pair} (ho : Each OpenOn ro older) (hr : Each OpenOn rr run)
    (hm : OpenOn m ps) (hn : Each OpenOn rn newer) (h : ps.Perm (remaining run)) (skip skip' : Bool) (filter : Option B) :
    ∃ res res', multiAggregate sched (ro ++ rr ++ rn) skip filter = .ok res ∧
      multiAggregate sched' (ro ++ [m] ++ rn) skip' filter = .ok res' ∧ SameAnswer res res' :=
  C77_replace sched sched' hs hs' ho hr (.cons hm .nil) hn (by rw [remaining_single]; exact h.symm) skip skip' filter

/-- The blocks of a file that is open. -/
theorem OpenOn.reads {r : Reader B} {ps : List Pair} (h : OpenOn r ps) : ∃ blocks, Reads r blocks ∧ (pairsOf blocks).Perm ps := by
  cases h with
  | writer h hp =>
    obtain ⟨env, opts, log, file, hf, henc, hr, rfl⟩ := h.opened
    exact ⟨_, hf.reads henc h.few r hr, hp⟩
  | @simple env opts calls log sw h hsort henc hb hno hclose hr hsize hbuf hp =>
    obtain ⟨stored, blks, h1, h2⟩ := h.result hsort henc hb hno
    have hcl : sw.closed = true := by
      obtain ⟨sw0, _, hr⟩ := h.created
      have := closed_of_log env calls sw0 (by rw [hr]; exact hclose)
      rwa [hr] at this
    rcases h2 with h2 | h2
    · rw [h2.isOpen] at hcl; cases hcl
    obtain ⟨r', hr', hR, _⟩ := h2.reads henc hsize
    rw [hr] at hr'
    cases hr'
    refine ⟨_, hR, List.Perm.trans (List.Perm.of_eq ?_) (h1.perm.trans hp)⟩
    rw [h2.stream]
    simp only [pairsOf, blkPairs, List.flatMap_map]
    rfl
  | other h hp =>
    obtain ⟨file, enc, places, data, H, hm, h5, h6, hop, hx⟩ := h.file
    exact ⟨_, Foreign.reads H hm ⟨H.encoding, h5, h6⟩ r hop, hp⟩

/-- **C77, merging everything.** If all files are merged into one, aggregating that file alone, by any number of workers, answers what
the stack answered (for an unfiltered aggregation by the index: if no block can have the least `int64` among its statistics). -/
theorem C77_single (sched sched' : Sched) (hs : sched.Fair) (hs' : sched'.Fair) {readers : List (Reader B)} {files : List (List Pair)}
    (h : Each OpenOn readers files) {m : Reader B} (hm : OpenOn m (remaining files)) (skip : Bool) (filter : Option B)
    (o : AggregateOptions B) (hof : o.filter = filter) (hod : o.denyFilter = none)
    (hos : filter.isSome ∨ o.skipPreCalculated = true ∨
      ∀ blocks : List Block, (∀ b ∈ blocks, b.1.length = b.2.length) → (pairsOf blocks).Perm (remaining files) →
        StatsRepresentable blocks) :
    ∃ res res', multiAggregate sched readers skip filter = .ok res ∧ aggregateWithOptions sched' m o = .ok res' ∧
      SameAnswer res res' := by
  obtain ⟨res, h1, h2⟩ := stack_answer sched hs h skip filter
  obtain ⟨blocks, hR, hp⟩ := hm.reads
  obtain ⟨res', h3, h4⟩ := hR.general sched' hs' o (by
    rw [hof]
    rcases hos with h | h | h
    · exact .inl h
    · exact .inr (.inr (.inl h))
    · exact .inr (.inr (.inr (h _ (fun b hb => ((hR.toIndexed.ok b hb).2.1)) hp))))
  refine ⟨res, res', h1, h3, (h2.perm ?_).same h4⟩
  unfold selectedValues
  rw [hof, hod]
  refine ((hp.symm.filter _).map _).trans (List.Perm.of_eq ?_)
  congr 1
  refine List.filter_congr fun p _ => ?_
  simp [allowedBy]

/-- **C77, dropping.** A file all of whose IDs occur in the run of files that follows it can be left out. -/
theorem C77_drop (sched sched' : Sched) (hs : sched.Fair) (hs' : sched'.Fair) {ro rn : List (Reader B)} {r : Reader B}
    {older newer : List (List Pair)} {ps : List Pair} (ho : Each OpenOn ro older) (hr : OpenOn r ps)
    (hn : Each OpenOn rn newer) (h : ∀ p ∈ ps, ∃ g ∈ newer, ∃ v, (p.1, v) ∈ g) (skip skip' : Bool) (filter : Option B) :
    ∃ res res', multiAggregate sched (ro ++ r :: rn) skip filter = .ok res ∧
      multiAggregate sched' (ro ++ rn) skip' filter = .ok res' ∧ SameAnswer res res' := by
  have := C77_replace sched sched' hs hs' ho (.cons hr hn) hn .nil (by
    rw [remaining_cons, List.filter_eq_nil_iff.2]
    · exact .refl _
    · intro p hp hk
      obtain ⟨g, hg, hv⟩ := h p hp
      exact (keeps_iff _ _).1 hk g hg hv) skip skip' filter
  simpa using this

theorem remaining_disjoint (fs : List (List Pair)) (h : fs.Pairwise fun f g => ∀ p ∈ f, ∀ q ∈ g, p.1 ≠ q.1) :
    remaining fs = fs.flatten := by
  induction fs with
  | nil => rfl
  | cons f fs ih =>
    rw [List.pairwise_cons] at h
    rw [remaining_cons, ih h.2, List.flatten_cons, List.filter_eq_self.2]
    intro p hp
    rw [keeps_iff]
    rintro g hg ⟨v, hv⟩
    exact h.1 g hg p hp _ hv rfl

/-- **C77, reordering.** Neighbouring files without common IDs can be reordered. -/
theorem C77_reorder (sched sched' : Sched) (hs : sched.Fair) (hs' : sched'.Fair) {ro rn : List (Reader B)}
    {run run' : List (Reader B × List Pair)} {older newer : List (List Pair)} (ho : Each OpenOn ro older)
    (hr : ∀ f ∈ run, OpenOn f.1 f.2) (hn : Each OpenOn rn newer) (hp : run.Perm run')
    (hd : run.Pairwise fun f g => ∀ p ∈ f.2, ∀ q ∈ g.2, p.1 ≠ q.1) (skip skip' : Bool) (filter : Option B) :
    ∃ res res', multiAggregate sched (ro ++ run.map Prod.fst ++ rn) skip filter = .ok res ∧
      multiAggregate sched' (ro ++ run'.map Prod.fst ++ rn) skip' filter = .ok res' ∧ SameAnswer res res' := by
  have each : ∀ l : List (Reader B × List Pair), (∀ f ∈ l, OpenOn f.1 f.2) → Each OpenOn (l.map Prod.fst) (l.map Prod.snd) := by
    intro l
    induction l with
    | nil => intro _; exact .nil
    | cons f l ih =>
      intro h
      exact .cons (h f List.mem_cons_self) (ih fun g hg => h g (List.mem_cons_of_mem _ hg))
  refine C77_replace sched sched' hs hs' ho (each run hr) (each run' fun f hf => hr f (hp.mem_iff.2 hf)) hn ?_ skip skip' filter
  have hd' := hp.pairwise hd (fun {f g} h p hp q hq e => h q hq p hp e.symm)
  rw [remaining_disjoint _ (List.pairwise_map.2 hd), remaining_disjoint _ (List.pairwise_map.2 hd')]
  exact (hp.map _).flatten

/-- The calls that write batches of pairs with a `SimpleWriter` and close it. -/
def writeAll (batches : List (List Pair)) : List SWCall :=
  batches.map (fun b => .write (b.map Prod.fst) (b.map Prod.snd)) ++ [.close]

theorem expected_writeAll (batches : List (List Pair)) :
    expectedSW (writeAll batches) false = (writeAll batches).map fun c => (c, .ok ()) := by
  unfold writeAll
  induction batches with
  | nil => rfl
  | cons b bs ih =>
    rw [List.map_cons, List.cons_append, expectedSW, List.map_cons]
    have h1 : SWCall.expected (.write (b.map Prod.fst) (b.map Prod.snd)) false = .ok () := by simp [SWCall.expected]
    rw [h1]
    exact congrArg _ ih

theorem zip_fst_snd (b : List Pair) : (b.map Prod.fst).zip (b.map Prod.snd) = b := by
  induction b with
  | nil => rfl
  | cons p ps ih => simp only [List.map_cons, List.zip_cons_cons, ih]

theorem accepted_writeAll (batches : List (List Pair)) : accepted ((writeAll batches).map fun c => (c, .ok ())) = batches := by
  unfold writeAll
  induction batches with
  | nil => rfl
  | cons b bs ih =>
    rw [List.map_cons, List.cons_append, List.map_cons]
    show (acceptedBy _ _) ++ accepted _ = _
    rw [ih]
    show [_] ++ bs = b :: bs
    rw [zip_fst_snd]
    rfl

/-- **C77, the recipe.** Writing the pairs that remain of a run of files, in any batches, to a new file with a `SimpleWriter` of any
block size in a symmetric encoding works when nothing fails: all calls return nil, the file opens, and it can take the place of the run. -/
theorem C77_compact {env : Env} (hsort : LawfulSort env.sort) (hnf : env.NoFault) (opts : List WriterOption)
    (henc : SymEnc (chosenEncoding opts)) (batches : List (List Pair)) (hlarge : ∀ b ∈ batches, b.length + 999 ≤ 2 ^ 27)
    (hfew : batches.flatten.length ≤ 7 * 10 ^ 7)
    (hbuf : ∀ ids : List UInt64, ids.Perm (batches.flatten.map Prod.fst) →
      (Bitmap.toBuffer (ids.foldl Bitmap.set (Bitmap.empty : B))).length < 2 ^ 32)
    {ro rr rn : List (Reader B)} {older run newer : List (List Pair)} (ho : Each OpenOn ro older) (hr : Each OpenOn rr run)
    (hn : Each OpenOn rn newer) (h : batches.flatten.Perm (remaining run)) :
    ∃ (sw : SimpleWriter B) (m : Reader B),
      SWHistory B env opts (writeAll batches) ((writeAll batches).map fun c => (c, .ok ())) sw ∧
      newReader sw.writer.file.bytes = .ok m ∧
      ∀ (sched sched' : Sched), sched.Fair → sched'.Fair → ∀ (skip skip' : Bool) (filter : Option B),
        ∃ res res', multiAggregate sched (ro ++ rr ++ rn) skip filter = .ok res ∧
          multiAggregate sched' (ro ++ [m] ++ rn) skip' filter = .ok res' ∧ SameAnswer res res' := by
  have hb : ∀ c ∈ writeAll batches, c.Bounded := by
    intro c hc
    unfold writeAll at hc
    rcases List.mem_append.1 hc with hc | hc
    · obtain ⟨b, hb, rfl⟩ := List.mem_map.1 hc
      show (b.map Prod.fst).length + 999 ≤ _
      rw [List.length_map]
      exact hlarge b hb
    · obtain rfl := List.mem_singleton.1 hc
      trivial
  obtain ⟨sw, hsw⟩ := C23_succeeds (B := B) hsort hnf opts henc (writeAll batches) hb
  rw [expected_writeAll] at hsw
  have hno : SWNoIOError ((writeAll batches).map fun c => (c, Except.ok ())) := by
    intro ev hev
    obtain ⟨c, _, rfl⟩ := List.mem_map.1 hev
    simp
  have hclose : (SWCall.close, Except.ok ()) ∈ (writeAll batches).map fun c => ((c, Except.ok ()) : SWCall × Result) :=
    List.mem_map.2 ⟨.close, by simp [writeAll], rfl⟩
  have hsize : sw.writer.file.bytes.length ≤ maxFileSize := by
    obtain ⟨stored, blks, h1, h2⟩ := hsw.result hsort henc hb hno
    have hperm := h1.perm
    rw [accepted_writeAll] at hperm
    have hlen := hperm.length_eq
    have hcl : sw.closed = true := by
      obtain ⟨sw0, _, hr⟩ := hsw.created
      have := closed_of_log env (writeAll batches) sw0 (by rw [hr]; exact hclose)
      rwa [hr] at this
    rcases h2 with h2 | h2
    · rw [h2.isOpen] at hcl; cases hcl
    have hsz := h2.size
    have hb2 : (Bitmap.toBuffer (bitmapOfPairs B stored.flatten)).length < 2 ^ 32 := hbuf _ (hperm.map _)
    rw [hlen] at hsz
    unfold maxFileSize maxBlocks
    omega
  obtain ⟨m, hm, _⟩ : ∃ r : Reader B, newReader sw.writer.file.bytes = .ok r ∧ True := by
    obtain ⟨r, _, hr, _⟩ := C20_stream hsort hsw henc hb hno hclose hsize
    exact ⟨r, hr, trivial⟩
  refine ⟨sw, m, hsw, hm, fun sched sched' hs hs' skip skip' filter => ?_⟩
  refine C77_merge sched sched' hs hs' ho hr (ps := remaining run)
    (.simple hsw hsort henc hb hno hclose hm hsize (by rw [accepted_writeAll]; exact hbuf) (by rw [accepted_writeAll]; exact h)) hn
    (.refl _) skip skip' filter

/-! ### Non-vacuity -/

/-- The stack of the example of C24 (IDs 1, 2, 3, 9 below 2, 7). -/
theorem stack_open : ∃ r1 r2 : Reader IdSet, Each OpenOn [r1, r2] [[(3, 30), (1, -10), (2, 20), (9, -1)], [(2, 5), (7, 6)]] := by
  obtain ⟨r1, r2, h⟩ := stack_example
  cases h with
  | cons h1 h2 =>
    cases h2 with
    | cons h2 _ => exact ⟨r1, r2, .cons (.writer h1 (.of_eq (by decide))) (.cons (.writer h2 (.of_eq (by decide))) .nil)⟩

/-- Non-vacuity of `C77_compact` (and so of `C77_merge` and `C77_replace`): the two files are merged into one written in two batches,
with blocks of one pair each; the sum is 30 before and after. -/
theorem C77_example : ∃ (r1 r2 : Reader IdSet) (sw : SimpleWriter IdSet) (m : Reader IdSet),
    SWHistory IdSet quietEnv [.withEncoding encDeltaBoth, .withBlockSize 0]
      (writeAll [[(9, -1), (3, 30), (1, -10)], [(7, 6), (2, 5)]])
      ((writeAll [[(9, -1), (3, 30), (1, -10)], [(7, 6), (2, 5)]]).map fun c => (c, .ok ())) sw ∧
    newReader sw.writer.file.bytes = .ok m ∧
    multiAggregate inOrder [r1, r2] false none = .ok ⟨5, -10, 30, 30, .quot 30 5⟩ ∧
    multiAggregate inOrder [m] true none = .ok ⟨5, -10, 30, 30, .quot 30 5⟩ := by
  obtain ⟨r1, r2, h⟩ := stack_open
  have hp : ([[(9, -1), (3, 30), (1, -10)], [(7, 6), (2, 5)]] : List (List Pair)).flatten.Perm
      (remaining [[(3, 30), (1, -10), (2, 20), (9, -1)], [(2, 5), (7, 6)]]) := by
    decide
  obtain ⟨sw, m, h1, h2, h3⟩ := C77_compact (B := IdSet) (env := quietEnv) sortByInsertion_lawful quietEnv_noFault
    [.withEncoding encDeltaBoth, .withBlockSize 0] (by unfold SymEnc; decide) [[(9, -1), (3, 30), (1, -10)], [(7, 6), (2, 5)]]
    (by decide) (by decide)
    (fun ids hids => Nat.lt_of_le_of_lt (idSet_buffer 5 ids (by rw [hids.length_eq]; decide)) (by decide)) .nil h .nil hp
  obtain ⟨res, res', h4, h5, h6⟩ := h3 inOrder inOrder inOrder_fair inOrder_fair false true none
  obtain ⟨res2, h7, h8⟩ := stack_answer inOrder inOrder_fair h false none
  rw [show ((remaining [[(3, 30), (1, -10), (2, 20), (9, -1)], [(2, 5), (7, 6)]]).filter fun p => allowedBy (none : Option IdSet) p.1).map Prod.snd
    = [30, -10, -1, 5, 6] from by decide] at h8
  have e : res2 = ⟨5, -10, 30, 30, .quot 30 5⟩ := (h8.unique (accOf_isAggregate _) (by decide)).trans (by decide)
  have e2 : res = res2 := by
    have h4 : multiAggregate inOrder [r1, r2] false none = .ok res := h4
    rw [h7] at h4; cases h4; rfl
  have e3 : res' = res2 := by
    rw [← h6.all (by rw [e2, e]; decide), e2]
  exact ⟨r1, r2, sw, m, h1, h2, by rw [h7, e], by rw [← e, ← e3]; exact h5⟩

theorem intSum_bound (K : Nat) (vs : List Int64) (h : ∀ v ∈ vs, -(K : Int) ≤ v.toInt ∧ v.toInt ≤ K) :
    -(K * vs.length : Int) ≤ intSum vs ∧ intSum vs ≤ K * vs.length := by
  induction vs with
  | nil => simp [intSum]
  | cons v vs ih =>
    have h1 := h v List.mem_cons_self
    have h2 := ih fun w hw => h w (List.mem_cons_of_mem _ hw)
    have e : intSum (v :: vs) = v.toInt + intSum vs := by simp [intSum]
    rw [e, List.length_cons, Int.natCast_add, Int.mul_add]
    omega

/-- However a few small values are divided into blocks, the statistics are representable. -/
theorem small_representable (ps : List Pair) (hl : ps.length ≤ 1000) (h : ∀ p ∈ ps, -1000 ≤ p.2.toInt ∧ p.2.toInt ≤ 1000)
    (blocks : List Block) (hb : ∀ b ∈ blocks, b.1.length = b.2.length) (hp : (pairsOf blocks).Perm ps) : StatsRepresentable blocks := by
  intro b hbm
  have hsub : (b.1.zip b.2).Sublist (pairsOf blocks) := by
    obtain ⟨l1, l2, rfl⟩ := List.append_of_mem hbm
    unfold pairsOf
    rw [List.flatMap_append, List.flatMap_cons]
    exact (List.sublist_append_left _ _).trans (List.sublist_append_right _ _)
  have hv : ∀ v ∈ b.2, -1000 ≤ v.toInt ∧ v.toInt ≤ 1000 := by
    intro v hv
    have e : (b.1.zip b.2).map Prod.snd = b.2 := List.map_snd_zip (by rw [hb b hbm]; exact Nat.le_refl _)
    rw [← e] at hv
    obtain ⟨p, hpm, rfl⟩ := List.mem_map.1 hv
    exact h p (hp.mem_iff.1 (hsub.subset hpm))
  have hlen : b.2.length ≤ 1000 := by
    have h1 := hsub.length_le
    rw [hp.length_eq, List.length_zip, hb b hbm, Nat.min_self] at h1
    omega
  constructor
  · intro hm
    have := (hv _ hm).1
    revert this
    decide
  · obtain ⟨h1, h2⟩ := intSum_bound 1000 b.2 hv
    intro hc
    have e := congrArg Int64.toInt hc
    have hz : (1000 : Nat) * (b.2.length : Int) ≤ 1000000 := by omega
    rw [Int64.toInt_ofInt, show Int64.size = 18446744073709551616 from rfl, Int.bmod_eq_of_le (by omega) (by omega)] at e
    rw [show minInt64Value.toInt = -9223372036854775808 from rfl] at e
    omega

theorem small_open (ids : List UInt64) (vals : List Int64)
    (h : ∃ file, Finalized IdSet quietEnv [] [(.write ids vals, .ok ())] file)
    (hb : (Bitmap.toBuffer (bitmapOf IdSet [(ids, vals)])).length < 2 ^ 32) :
    ∃ r : Reader IdSet, OpenOn r (ids.zip vals) := by
  obtain ⟨file, h⟩ := h
  have h1 : 1 ≤ maxBlocks := by decide
  obtain ⟨r, hr, _⟩ := C29_accessors h h1
  refine ⟨r, .writer (blocks := [(ids, vals)]) ⟨⟨_, _, _, _, h, .inl rfl, hr, rfl⟩, h1, hb⟩ (.of_eq ?_)⟩
  simp [pairsOf]

/-- Non-vacuity of `C77_single`, without a filter and by the index. -/
example : ∃ r1 r2 m : Reader IdSet, ∃ res, multiAggregate inOrder [r1, r2] false none = .ok res ∧ aggregate inOrder m = .ok res ∧ res.sum = 30 := by
  obtain ⟨r1, r2, h⟩ := stack_open
  obtain ⟨m, hm⟩ := small_open [3, 1, 9, 2, 7] [30, -10, -1, 5, 6] (finalized_of_log [] [.write [3, 1, 9, 2, 7] [30, -10, -1, 5, 6]]
    [(.write [3, 1, 9, 2, 7] [30, -10, -1, 5, 6], .ok ())] (by decide) (by decide +kernel) (by unfold NoMismatch; decide) (by decide)) (by decide)
  obtain ⟨res, res', h1, h2, h3⟩ := C77_single inOrder inOrder inOrder_fair inOrder_fair h (m := m) hm false none {} rfl rfl
    (.inr (.inr (small_representable _ (by decide) (by decide))))
  obtain ⟨res2, h7, h8⟩ := stack_answer inOrder inOrder_fair h false none
  rw [h1] at h7
  cases h7
  refine ⟨r1, r2, m, res, h1, ?_, h8.sum⟩
  rw [h3.all (by rw [h8.count]; decide)]
  exact h2

/-- **C77 is refuted for files that are not neighbours**: merging the oldest and the newest of three files changes the answer,
whether the merged file takes the place of the one or of the other. -/
theorem C77_refuted : ∃ a b c m : Reader IdSet,
    OpenOn a [(1, 10)] ∧ OpenOn b [(1, 20), (2, 7)] ∧ OpenOn c [(2, 5)] ∧ OpenOn m (remaining [[(1, 10)], [(2, 5)]]) ∧
    ∃ r0 r1 r2, multiAggregate inOrder [a, b, c] false none = .ok r0 ∧ multiAggregate inOrder [m, b] false none = .ok r1 ∧
      multiAggregate inOrder [b, m] false none = .ok r2 ∧ r0.sum = 25 ∧ r1.sum = 27 ∧ r2.sum = 15 := by
  obtain ⟨a, ha⟩ := small_open [1] [10] (finalized_of_log [] [.write [1] [10]] [(.write [1] [10], .ok ())] (by decide) (by decide +kernel)
    (by unfold NoMismatch; decide) (by decide)) (by decide)
  obtain ⟨b, hb⟩ := small_open [1, 2] [20, 7] (finalized_of_log [] [.write [1, 2] [20, 7]] [(.write [1, 2] [20, 7], .ok ())] (by decide)
    (by decide +kernel) (by unfold NoMismatch; decide) (by decide)) (by decide)
  obtain ⟨c, hc⟩ := small_open [2] [5] (finalized_of_log [] [.write [2] [5]] [(.write [2] [5], .ok ())] (by decide) (by decide +kernel)
    (by unfold NoMismatch; decide) (by decide)) (by decide)
  obtain ⟨m, hm⟩ := small_open [1, 2] [10, 5] (finalized_of_log [] [.write [1, 2] [10, 5]] [(.write [1, 2] [10, 5], .ok ())] (by decide)
    (by decide +kernel) (by unfold NoMismatch; decide) (by decide)) (by decide)
  obtain ⟨r0, h1, h2⟩ := stack_answer inOrder inOrder_fair (.cons ha (.cons hb (.cons hc .nil))) false none
  obtain ⟨r1, h3, h4⟩ := stack_answer inOrder inOrder_fair (.cons hm (.cons hb .nil)) false none
  obtain ⟨r2, h5, h6⟩ := stack_answer inOrder inOrder_fair (.cons hb (.cons hm .nil)) false none
  exact ⟨a, b, c, m, ha, hb, hc, hm, r0, r1, r2, h1, h3, h5, h2.sum, h4.sum, h6.sum⟩

/-- Non-vacuity of `C77_drop` and `C77_reorder`: a file hidden by the two above it, which have no ID in common. -/
example : ∃ a b c : Reader IdSet, OpenOn a [(2, 5)] ∧ OpenOn b [(1, 20), (2, 7)] ∧ OpenOn c [(3, 1)] ∧
    ∃ res res', multiAggregate inOrder [a, b, c] false none = .ok res ∧ multiAggregate inOrder [c, b] true none = .ok res' ∧
      SameAnswer res res' ∧ res'.sum = 28 := by
  obtain ⟨a, ha⟩ := small_open [2] [5] (finalized_of_log [] [.write [2] [5]] [(.write [2] [5], .ok ())] (by decide) (by decide +kernel)
    (by unfold NoMismatch; decide) (by decide)) (by decide)
  obtain ⟨b, hb⟩ := small_open [1, 2] [20, 7] (finalized_of_log [] [.write [1, 2] [20, 7]] [(.write [1, 2] [20, 7], .ok ())] (by decide)
    (by decide +kernel) (by unfold NoMismatch; decide) (by decide)) (by decide)
  obtain ⟨c, hc⟩ := small_open [3] [1] (finalized_of_log [] [.write [3] [1]] [(.write [3] [1], .ok ())] (by decide) (by decide +kernel)
    (by unfold NoMismatch; decide) (by decide)) (by decide)
  have hb : OpenOn b [(1, 20), (2, 7)] := hb
  have hc : OpenOn c [(3, 1)] := hc
  obtain ⟨r0, r1, h1, h2, h3⟩ := C77_drop inOrder inOrder inOrder_fair inOrder_fair .nil ha (.cons hb (.cons hc .nil))
    (by intro p hp; obtain rfl := List.mem_singleton.1 hp; exact ⟨_, List.mem_cons_self, 7, by decide⟩) false false none
  obtain ⟨r1', r2, h4, h5, h6⟩ := C77_reorder inOrder inOrder inOrder_fair inOrder_fair (older := []) (newer := []) .nil
    (run := [(b, [(1, 20), (2, 7)]), (c, [(3, 1)])]) (run' := [(c, [(3, 1)]), (b, [(1, 20), (2, 7)])])
    (by rintro f hf; simp only [List.mem_cons, List.not_mem_nil, or_false] at hf; rcases hf with rfl | rfl <;> assumption) .nil
    (.swap ..) (by
      rw [List.pairwise_cons]
      refine ⟨?_, List.pairwise_singleton ..⟩
      intro g hg
      obtain rfl := List.mem_singleton.1 hg
      dsimp only
      decide) false true none
  have h2 : multiAggregate inOrder [b, c] false none = .ok r1 := h2
  have h4 : multiAggregate inOrder [b, c] false none = .ok r1' := h4
  rw [h2] at h4
  cases h4
  obtain ⟨r3, h7, h8⟩ := stack_answer inOrder inOrder_fair (.cons hc (.cons hb .nil)) true none
  have h5 : multiAggregate inOrder [c, b] true none = .ok r2 := h5
  rw [h5] at h7
  cases h7
  exact ⟨a, b, c, ha, hb, hc, r0, r2, h1, h5, ⟨h3.count.trans h6.count, h3.sum.trans h6.sum, h3.avg.trans h6.avg, fun h =>
    (h3.all h).trans (h6.all (by rw [← h3.count]; exact h))⟩, h8.sum⟩

end VibeCol.Merge
