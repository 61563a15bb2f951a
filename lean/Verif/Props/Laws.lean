/-
C84: laws that relate the results of different aggregations.
-/
import Verif.Props.Multi
namespace VibeCol.Laws
set_option linter.unusedSectionVars false
variable {B : Type} [Bitmap B] [LawfulBitmap B]

/-- The options let a pair with this ID through: it is in the allow filter, if there is one, and not in the deny filter, if there is
one. -/
def Selects (o : AggregateOptions B) (id : UInt64) : Prop :=
  (∀ f, o.filter = some f → Bitmap.contains f id = true) ∧ ∀ d, o.denyFilter = some d → Bitmap.contains d id = false

/-- An aggregation that does not depend on the statistics in the index, or a file whose statistics are representable (C10). -/
def Sound (o : AggregateOptions B) (blocks : List Block) : Prop :=
  o.filter.isSome ∨ o.denyFilter.isSome ∨ o.skipPreCalculated = true ∨ StatsRepresentable blocks

/-- A reader of a finalized file with these blocks. -/
structure Opened (B : Type) [Bitmap B] (r : Reader B) (blocks : List Block) : Prop where
  file : ∃ (env : Env) (opts : List WriterOption) (log : Log) (file : Bytes), Finalized B env opts log file ∧
    SymEnc (chosenEncoding opts) ∧ (acked log).length ≤ maxBlocks ∧ newReader file = .ok r ∧ blocks = acked log

/-- `a` is what `AggregateWithOptions` returns, under some fair schedule. -/
def Returns (r : Reader B) (o : AggregateOptions B) (a : AggregateResult) : Prop :=
  ∃ sched : Sched, sched.Fair ∧ aggregateWithOptions sched r o = .ok a

/-! ### Lists -/

def passB (o : AggregateOptions B) (p : UInt64 × Int64) : Bool :=
  (o.filter.all fun f => Bitmap.contains f p.1) && (o.denyFilter.all fun d => !Bitmap.contains d p.1)

theorem passB_iff (o : AggregateOptions B) (p : UInt64 × Int64) : passB o p = true ↔ Selects o p.1 := by
  unfold passB Selects
  rcases o.filter with _ | f <;> rcases o.denyFilter with _ | d <;> simp

def chosen (o : AggregateOptions B) (blocks : List Block) : List (UInt64 × Int64) := (pairsOf blocks).filter (passB o)

theorem exact {r : Reader B} {blocks : List Block} (h : Opened B r blocks) {o : AggregateOptions B} (hs : Sound o blocks)
    {a : AggregateResult} (ha : Returns r o a) : IsAggregate a ((chosen o blocks).map Prod.snd) := by
  obtain ⟨env, opts, log, file, hf, henc, hn, hr, rfl⟩ := h.file
  obtain ⟨sched, hfair, he⟩ := ha
  obtain ⟨res, h1, h2⟩ := C13_general hf henc hn r hr sched hfair o hs
  rw [h1] at he
  cases he
  exact h2

theorem filter_union {α : Type} (l : List α) (p q u i : α → Bool) (hu : ∀ x, u x = (p x || q x)) (hi : ∀ x, i x = (p x && q x)) :
    (l.filter u ++ l.filter i).Perm (l.filter p ++ l.filter q) := by
  induction l with
  | nil => exact List.Perm.refl _
  | cons x l ih =>
    rw [List.filter_cons, List.filter_cons, List.filter_cons, List.filter_cons, hu, hi]
    cases p x <;> cases q x
    · exact ih
    · exact (List.Perm.cons x ih).trans List.perm_middle.symm
    · exact List.Perm.cons x ih
    · exact List.Perm.cons x (List.perm_middle.trans ((List.Perm.cons x ih).trans List.perm_middle.symm))

theorem filter_sub {α : Type} (l : List α) (p q : α → Bool) (h : ∀ x, p x = true → q x = true) :
    (l.filter p).length ≤ (l.filter q).length ∧ ∀ x ∈ l.filter p, x ∈ l.filter q := by
  refine ⟨?_, fun x hx => ?_⟩
  · induction l with
    | nil => exact Nat.le_refl _
    | cons x l ih =>
      rw [List.filter_cons, List.filter_cons]
      split
      · next h1 => rw [if_pos (h x h1)]; exact Nat.succ_le_succ ih
      · split
        · exact Nat.le_succ_of_le ih
        · exact ih
  · rw [List.mem_filter] at hx ⊢
    exact ⟨hx.1, h x hx.2⟩

/-! ### The laws -/

/-- **C84.** Options that let through more cannot make the count smaller, the minimum larger or the maximum smaller. -/
theorem C84_monotone {r : Reader B} {blocks : List Block} (h : Opened B r blocks) {o o' : AggregateOptions B}
    (hs : Sound o blocks) (hs' : Sound o' blocks) (hsub : ∀ id, Selects o id → Selects o' id) {a a' : AggregateResult}
    (ha : Returns r o a) (ha' : Returns r o' a') :
    a.count ≤ a'.count ∧ (a.count ≠ 0 → a'.min ≤ a.min ∧ a.max ≤ a'.max) := by
  have e := exact h hs ha
  have e' := exact h hs' ha'
  obtain ⟨h1, h2⟩ := filter_sub (pairsOf blocks) (passB o) (passB o') (fun x hx => (passB_iff o' x).2 (hsub _ ((passB_iff o x).1 hx)))
  have hm : ∀ v ∈ (chosen o blocks).map Prod.snd, v ∈ (chosen o' blocks).map Prod.snd := by
    intro v hv
    obtain ⟨p, hp, rfl⟩ := List.mem_map.1 hv
    exact List.mem_map_of_mem (h2 p hp)
  refine ⟨?_, fun hc => ?_⟩
  · rw [e.count, e'.count, List.length_map, List.length_map]
    exact h1
  · have hne : (chosen o blocks).map Prod.snd ≠ [] := fun h => hc (e.count_zero.2 h)
    exact ⟨e'.min_le _ (hm _ (e.min_mem hne)), e'.le_max _ (hm _ (e.max_mem hne))⟩

/-- **C84.** Options that let through the same IDs give the same result, whatever bitmaps are used to say so, with any numbers of
workers, with or without the index. (Minimum and maximum of nothing are not determined, see C17.) -/
theorem C84_same {r : Reader B} {blocks : List Block} (h : Opened B r blocks) {o o' : AggregateOptions B}
    (hs : Sound o blocks) (hs' : Sound o' blocks) (hsame : ∀ id, Selects o id ↔ Selects o' id) {a a' : AggregateResult}
    (ha : Returns r o a) (ha' : Returns r o' a') :
    a.count = a'.count ∧ a.sum = a'.sum ∧ a.avg = a'.avg ∧ (a.count ≠ 0 → a = a') := by
  have e := exact h hs ha
  have e' := exact h hs' ha'
  have heq : chosen o blocks = chosen o' blocks := by
    unfold chosen
    congr 1
    funext x
    rw [Bool.eq_iff_iff, passB_iff, passB_iff, hsame]
  rw [← heq] at e'
  have hc : a.count = a'.count := by rw [e.count, e'.count]
  have hsum : a.sum = a'.sum := by rw [e.sum, e'.sum]
  refine ⟨hc, hsum, by rw [e.avg, e'.avg, hc, hsum], fun hne => e.unique e' (fun h => hne (e.count_zero.2 h))⟩

/-- **C84.** The union and the intersection of two selections have together as many pairs, and the same sum, as the two selections. -/
theorem C84_union {r : Reader B} {blocks : List Block} (h : Opened B r blocks) {o1 o2 ou oi : AggregateOptions B}
    (hs1 : Sound o1 blocks) (hs2 : Sound o2 blocks) (hsu : Sound ou blocks) (hsi : Sound oi blocks)
    (hu : ∀ id, Selects ou id ↔ Selects o1 id ∨ Selects o2 id) (hi : ∀ id, Selects oi id ↔ Selects o1 id ∧ Selects o2 id)
    {a1 a2 au ai : AggregateResult} (h1 : Returns r o1 a1) (h2 : Returns r o2 a2) (h3 : Returns r ou au) (h4 : Returns r oi ai) :
    au.count + ai.count = a1.count + a2.count ∧ au.sum + ai.sum = a1.sum + a2.sum := by
  have e1 := exact h hs1 h1
  have e2 := exact h hs2 h2
  have eu := exact h hsu h3
  have ei := exact h hsi h4
  have hp := filter_union (pairsOf blocks) (passB o1) (passB o2) (passB ou) (passB oi)
    (fun x => by rw [Bool.eq_iff_iff, Bool.or_eq_true, passB_iff, passB_iff, passB_iff, hu])
    (fun x => by rw [Bool.eq_iff_iff, Bool.and_eq_true, passB_iff, passB_iff, passB_iff, hi])
  have hp' := hp.map Prod.snd
  rw [List.map_append, List.map_append] at hp'
  constructor
  · rw [eu.count, ei.count, e1.count, e2.count, ← List.length_append, ← List.length_append]
    exact hp'.length_eq
  · rw [eu.sum, ei.sum, e1.sum, e2.sum, ofInt_add64, ofInt_add64, ← intSum_append, ← intSum_append]
    exact congrArg Int64.ofInt (intSum_perm hp')

/-- **C84.** The aggregate of a disjoint union is put together from the aggregates of the parts: counts and sums add up, the minimum
is the smaller and the maximum the larger one, and a part without pairs changes nothing. -/
theorem C84_split {r : Reader B} {blocks : List Block} (h : Opened B r blocks) {o1 o2 o : AggregateOptions B}
    (hs1 : Sound o1 blocks) (hs2 : Sound o2 blocks) (hs : Sound o blocks)
    (hu : ∀ id, Selects o id ↔ Selects o1 id ∨ Selects o2 id) (hd : ∀ id, ¬ (Selects o1 id ∧ Selects o2 id))
    {a1 a2 a : AggregateResult} (h1 : Returns r o1 a1) (h2 : Returns r o2 a2) (h3 : Returns r o a) :
    a.count = a1.count + a2.count ∧ a.sum = a1.sum + a2.sum ∧
    (a1.count ≠ 0 → a2.count ≠ 0 →
      a.min = (if a1.min < a2.min then a1.min else a2.min) ∧ a.max = (if a1.max > a2.max then a1.max else a2.max)) ∧
    (a1.count = 0 → a2.count ≠ 0 → a = a2) ∧ (a2.count = 0 → a1.count ≠ 0 → a = a1) := by
  have e1 := exact h hs1 h1
  have e2 := exact h hs2 h2
  have e := exact h hs h3
  have hp := filter_union (pairsOf blocks) (passB o1) (passB o2) (passB o) (fun _ => false)
    (fun x => by rw [Bool.eq_iff_iff, Bool.or_eq_true, passB_iff, passB_iff, passB_iff, hu])
    (fun x => by
      symm
      rw [Bool.and_eq_false_iff]
      cases hx : passB o1 x
      · exact .inl rfl
      · right
        cases hy : passB o2 x
        · rfl
        · exact absurd ⟨(passB_iff o1 x).1 hx, (passB_iff o2 x).1 hy⟩ (hd x.1))
  rw [show (pairsOf blocks).filter (fun _ => false) = [] from by simp, List.append_nil] at hp
  have hp' := hp.map Prod.snd
  rw [List.map_append] at hp'
  have em : IsAggregate a ((chosen o1 blocks).map Prod.snd ++ (chosen o2 blocks).map Prod.snd) := e.perm hp'
  generalize (chosen o1 blocks).map Prod.snd = xs at e1 em
  generalize (chosen o2 blocks).map Prod.snd = ys at e2 em
  have hm := IsAggregate.merge e1 e2
  refine ⟨?_, ?_, fun c1 c2 => ?_, fun c1 c2 => ?_, fun c2 c1 => ?_⟩
  · rw [em.count, e1.count, e2.count, List.length_append]
  · rw [em.sum, e1.sum, e2.sum, intSum_append, ofInt_add64]
  · have hne : xs ++ ys ≠ [] := fun h0 => c1 (e1.count_zero.2 (List.append_eq_nil_iff.1 h0).1)
    have := em.unique hm hne
    rw [this, if_neg c1]
    unfold mergeAggregateResults
    rw [if_neg c1, if_neg c2]
    exact ⟨rfl, rfl⟩
  · cases e1.count_zero.1 c1
    exact em.unique e2 (fun h0 => c2 (e2.count_zero.2 h0))
  · cases e2.count_zero.1 c2
    rw [List.append_nil] at em
    exact em.unique e1 (fun h0 => c1 (e1.count_zero.2 h0))

/-- **C84.** In particular, a bitmap used as allow filter and the same bitmap used as deny filter split the file in two. -/
theorem C84_complement {r : Reader B} {blocks : List Block} (h : Opened B r blocks) (f : B) (skip1 skip2 : Bool)
    (p1 p2 p : Int) {a1 a2 a : AggregateResult}
    (h1 : Returns r { skipPreCalculated := skip1, filter := some f, parallel := p1 } a1)
    (h2 : Returns r { skipPreCalculated := skip2, denyFilter := some f, parallel := p2 } a2)
    (h3 : Returns r { skipPreCalculated := true, parallel := p } a) :
    a.count = a1.count + a2.count ∧ a.sum = a1.sum + a2.sum ∧
    (a1.count ≠ 0 → a2.count ≠ 0 →
      a.min = (if a1.min < a2.min then a1.min else a2.min) ∧ a.max = (if a1.max > a2.max then a1.max else a2.max)) ∧
    (a1.count = 0 → a2.count ≠ 0 → a = a2) ∧ (a2.count = 0 → a1.count ≠ 0 → a = a1) := by
  refine C84_split h (.inl rfl) (.inr (.inl rfl)) (.inr (.inr (.inl rfl))) (fun id => ?_) (fun id => ?_) h1 h2 h3
  · unfold Selects
    cases hc : Bitmap.contains f id <;> simp [hc]
  · unfold Selects
    cases hc : Bitmap.contains f id <;> simp [hc]

/-- **C84.** An allow filter and a deny filter together select the pairs of the allow filter without those of both: the count and the
sum of what is denied are taken away. -/
theorem C84_minus {r : Reader B} {blocks : List Block} (h : Opened B r blocks) (f d both : B)
    (hb : ∀ id, Bitmap.contains both id = (Bitmap.contains f id && Bitmap.contains d id)) (skip1 skip2 skip3 : Bool)
    (p1 p2 p3 : Int) {a1 a2 a : AggregateResult}
    (h1 : Returns r { skipPreCalculated := skip1, filter := some f, denyFilter := some d, parallel := p1 } a1)
    (h2 : Returns r { skipPreCalculated := skip2, filter := some both, parallel := p2 } a2)
    (h3 : Returns r { skipPreCalculated := skip3, filter := some f, parallel := p3 } a) :
    a.count = a1.count + a2.count ∧ a.sum = a1.sum + a2.sum := by
  have := C84_split h (.inl rfl) (.inl rfl) (.inl rfl) (fun id => ?_) (fun id => ?_) h1 h2 h3
  · exact ⟨this.1, this.2.1⟩
  · unfold Selects
    cases hc : Bitmap.contains f id <;> cases hd : Bitmap.contains d id <;> simp [hb, hc, hd]
  · unfold Selects
    cases hc : Bitmap.contains f id <;> cases hd : Bitmap.contains d id <;> simp [hb, hc, hd]

/-- **C84.** Aggregates do not depend on the order in which pairs were written, nor on blocks, encodings and block sizes. -/
theorem C84_order {r r' : Reader B} {blocks blocks' : List Block} (h : Opened B r blocks) (h' : Opened B r' blocks')
    (hperm : (pairsOf blocks).Perm (pairsOf blocks')) {o o' : AggregateOptions B}
    (hs : Sound o blocks) (hs' : Sound o' blocks') (hsame : ∀ id, Selects o id ↔ Selects o' id) {a a' : AggregateResult}
    (ha : Returns r o a) (ha' : Returns r' o' a') :
    a.count = a'.count ∧ a.sum = a'.sum ∧ a.avg = a'.avg ∧ (a.count ≠ 0 → a = a') := by
  have e := exact h hs ha
  have e' := exact h' hs' ha'
  have hf : passB o = passB o' := by
    funext x
    rw [Bool.eq_iff_iff, passB_iff, passB_iff, hsame]
  have hp : ((chosen o' blocks').map Prod.snd).Perm ((chosen o blocks).map Prod.snd) := by
    unfold chosen
    rw [hf]
    exact ((hperm.filter _).map _).symm
  replace e' := e'.perm hp
  have hc : a.count = a'.count := by rw [e.count, e'.count]
  have hsum : a.sum = a'.sum := by rw [e.sum, e'.sum]
  exact ⟨hc, hsum, by rw [e.avg, e'.avg, hc, hsum], fun hne => e.unique e' (fun h => hne (e.count_zero.2 h))⟩

/-! ### Stacks of files -/

theorem visible_filter (allowed : UInt64 → Bool) (files : List (List Block)) :
    visible allowed files = (visible (fun _ => true) files).filter fun p => allowed p.1 := by
  induction files with
  | nil => rfl
  | cons f newer ih =>
    unfold visible
    rw [List.filter_append, List.filter_filter, ← ih]
    simp only [Bool.true_and]

/-- **C84, for a `MultiReader`.** A larger filter cannot make the count smaller, the minimum larger or the maximum smaller; the union
and the intersection of two filters have together as many pairs, and the same sum, as the two filters. -/
theorem C84_multi (readers : List (Reader B)) (files : List (List Block)) (h : Each (FileWith B) readers files)
    (f1 f2 fu fi : Option B) (hu : ∀ id, allowedBy fu id = (allowedBy f1 id || allowedBy f2 id))
    (hi : ∀ id, allowedBy fi id = (allowedBy f1 id && allowedBy f2 id))
    (s1 s2 su si : Sched) (h1 : s1.Fair) (h2 : s2.Fair) (h3 : su.Fair) (h4 : si.Fair) (k1 k2 ku ki : Bool) :
    ∃ a1 a2 au ai, multiAggregate s1 readers k1 f1 = .ok a1 ∧ multiAggregate s2 readers k2 f2 = .ok a2 ∧
      multiAggregate su readers ku fu = .ok au ∧ multiAggregate si readers ki fi = .ok ai ∧
      au.count + ai.count = a1.count + a2.count ∧ au.sum + ai.sum = a1.sum + a2.sum ∧
      ai.count ≤ a1.count ∧ a1.count ≤ au.count ∧ (ai.count ≠ 0 → a1.min ≤ ai.min ∧ ai.max ≤ a1.max) ∧
      (a1.count ≠ 0 → au.min ≤ a1.min ∧ a1.max ≤ au.max) := by
  obtain ⟨a1, r1, e1⟩ := C24_newestWins s1 h1 readers files h k1 f1
  obtain ⟨a2, r2, e2⟩ := C24_newestWins s2 h2 readers files h k2 f2
  obtain ⟨au, ru, eu⟩ := C24_newestWins su h3 readers files h ku fu
  obtain ⟨ai, ri, ei⟩ := C24_newestWins si h4 readers files h ki fi
  rw [visible_filter] at e1 e2 eu ei
  generalize visible (fun _ => true) files = l at e1 e2 eu ei
  have hp := (filter_union l (fun p => allowedBy f1 p.1) (fun p => allowedBy f2 p.1) (fun p => allowedBy fu p.1)
    (fun p => allowedBy fi p.1) (fun x => hu x.1) (fun x => hi x.1)).map Prod.snd
  rw [List.map_append, List.map_append] at hp
  have mono : ∀ (f g : Option B) (a b : AggregateResult), (∀ id, allowedBy f id = true → allowedBy g id = true) →
      IsAggregate a ((l.filter fun p => allowedBy f p.1).map Prod.snd) →
      IsAggregate b ((l.filter fun p => allowedBy g p.1).map Prod.snd) →
      a.count ≤ b.count ∧ (a.count ≠ 0 → b.min ≤ a.min ∧ a.max ≤ b.max) := by
    intro f g a b hfg ea eb
    obtain ⟨c1, c2⟩ := filter_sub l (fun p => allowedBy f p.1) (fun p => allowedBy g p.1) (fun x => hfg x.1)
    refine ⟨by rw [ea.count, eb.count, List.length_map, List.length_map]; exact c1, fun hc => ?_⟩
    have hne := fun h => hc (ea.count_zero.2 h)
    have hm : ∀ v ∈ (l.filter fun p => allowedBy f p.1).map Prod.snd, v ∈ (l.filter fun p => allowedBy g p.1).map Prod.snd := by
      intro v hv
      obtain ⟨p, hp, rfl⟩ := List.mem_map.1 hv
      exact List.mem_map_of_mem (c2 p hp)
    exact ⟨eb.min_le _ (hm _ (ea.min_mem hne)), eb.le_max _ (hm _ (ea.max_mem hne))⟩
  have m1 := mono fi f1 ai a1 (fun id hid => by rw [hi, Bool.and_eq_true] at hid; exact hid.1) ei e1
  have m2 := mono f1 fu a1 au (fun id hid => by rw [hu, hid, Bool.true_or]) e1 eu
  refine ⟨a1, a2, au, ai, r1, r2, ru, ri, ?_, ?_, m1.1, m2.1, m1.2, m2.2⟩
  · rw [eu.count, ei.count, e1.count, e2.count, ← List.length_append, ← List.length_append]
    exact hp.length_eq
  · rw [eu.sum, ei.sum, e1.sum, e2.sum, ofInt_add64, ofInt_add64, ← intSum_append, ← intSum_append]
    exact congrArg Int64.ofInt (intSum_perm hp)

/-- Each of these aggregations does return a result: the hypotheses `Returns` of the laws are met. -/
theorem C84_returns {r : Reader B} {blocks : List Block} (h : Opened B r blocks) (o : AggregateOptions B) (hs : Sound o blocks)
    (sched : Sched) (hf : sched.Fair) : ∃ a, aggregateWithOptions sched r o = .ok a ∧ Returns r o a := by
  obtain ⟨env, opts, log, file, hfin, henc, hn, hr, rfl⟩ := h.file
  obtain ⟨a, h1, _⟩ := C13_general hfin henc hn r hr sched hf o hs
  exact ⟨a, h1, sched, hf, h1⟩

/-- Non-vacuity of C84: a file with the pairs (3, 30), (1, -10), (2, 20), (5, 7), (1, -2^63 + 1), split by the bitmap {1, 2}. -/
theorem C84_example : ∃ r : Reader IdSet, Opened IdSet r (acked exampleLog) ∧
    ∃ a1 a2 a, Returns r { filter := some ⟨[1, 2]⟩, parallel := 4 } a1 ∧ Returns r { denyFilter := some ⟨[1, 2]⟩ } a2 ∧
      Returns r { skipPreCalculated := true } a ∧ a1.count = 3 ∧ a2.count = 2 ∧ a.count = 5 := by
  obtain ⟨file, h⟩ := example_finalized
  obtain ⟨r, hr, _⟩ := C29_accessors h (by decide)
  have ho : Opened IdSet r (acked exampleLog) := ⟨_, _, _, _, h, by unfold SymEnc; decide, by decide, hr, rfl⟩
  obtain ⟨a1, _, h1⟩ := C84_returns ho { filter := some ⟨[1, 2]⟩, parallel := 4 } (.inl rfl) inOrder inOrder_fair
  obtain ⟨a2, _, h2⟩ := C84_returns ho { denyFilter := some ⟨[1, 2]⟩ } (.inr (.inl rfl)) inOrder inOrder_fair
  obtain ⟨a, _, h3⟩ := C84_returns ho { skipPreCalculated := true } (.inr (.inr (.inl rfl))) inOrder inOrder_fair
  refine ⟨r, ho, a1, a2, a, h1, h2, h3, ?_, ?_, ?_⟩
  · rw [(exact ho (.inl rfl) h1).count]; decide
  · rw [(exact ho (.inr (.inl rfl)) h2).count]; decide
  · rw [(exact ho (.inr (.inr (.inl rfl))) h3).count]; decide

/-- Non-vacuity of `C84_multi`: a stack of two files and the filters {1, 2} and {2, 7}. -/
theorem C84_multi_example : ∃ r1 r2 : Reader IdSet, Each (FileWith IdSet) [r1, r2] [acked oldLog, acked newLog] ∧
    (∀ id, allowedBy (some (⟨[1, 2, 7]⟩ : IdSet)) id = (allowedBy (some (⟨[1, 2]⟩ : IdSet)) id || allowedBy (some (⟨[2, 7]⟩ : IdSet)) id)) ∧
    (∀ id, allowedBy (some (⟨[2]⟩ : IdSet)) id = (allowedBy (some (⟨[1, 2]⟩ : IdSet)) id && allowedBy (some (⟨[2, 7]⟩ : IdSet)) id)) ∧
    ∃ a, multiAggregate inOrder [r1, r2] false (some ⟨[1, 2, 7]⟩) = .ok a ∧ a.count = 3 := by
  obtain ⟨r1, r2, h⟩ := stack_example
  have hc : ∀ (l : List UInt64) (id : UInt64), allowedBy (some (⟨l⟩ : IdSet)) id = true ↔ id ∈ l := by
    intro l id
    show List.contains l id = true ↔ _
    exact List.contains_iff_mem
  refine ⟨r1, r2, h, fun id => ?_, fun id => ?_, ?_⟩
  · rw [Bool.eq_iff_iff, Bool.or_eq_true, hc, hc, hc]
    simp only [List.mem_cons, List.not_mem_nil, or_false]
    constructor
    · rintro (h | h | h) <;> simp [h]
    · rintro ((h | h) | (h | h)) <;> simp [h]
  · rw [Bool.eq_iff_iff, Bool.and_eq_true, hc, hc, hc]
    simp only [List.mem_cons, List.not_mem_nil, or_false]
    constructor
    · intro h; simp [h]
    · rintro ⟨h | h, h' | h'⟩
      · rw [h] at h'; exact absurd h' (by decide)
      · rw [h] at h'; exact absurd h' (by decide)
      · exact h
      · exact h
  · obtain ⟨a, h1, h2⟩ := C24_newestWins inOrder inOrder_fair [r1, r2] _ h false (some ⟨[1, 2, 7]⟩)
    exact ⟨a, h1, by rw [h2.count]; decide⟩

end VibeCol.Laws
