/-
C74: a stack of files that are read while their writers go on.
-/
import Verif.Spec.MultiLive
import Verif.Props.Live
import Verif.Props.MultiIO
import Verif.Props.Readable
set_option linter.unusedSectionVars false
set_option linter.unusedSimpArgs false
namespace VibeCol.MultiLive
open VibeCol.MultiIO (zipIdx_map_getElem? index_of_each each_of_index selected_visibleRead)
variable {B : Type} [Bitmap B]

/-! ### Calls -/

/-- The calls of a client that made a `MultiReader` of some readers: `Aggregate`, and any call on one of the readers directly. -/
inductive StackCall (B : Type) where
  | aggregate (found : Nat → Found) (sched : Sched) (skipPreCalculated : Bool) (filter : Option B)
  | on (i : Nat) (c : LiveCall B)

/-- Everything a call may find may be found in the files of the stack. -/
def StackCall.Finds (stack : List (Part B)) : StackCall B → Prop
  | .aggregate found _ _ _ => VibeCol.Finds stack found
  | .on i c => ∀ p, stack[i]? = some p → c.Finds (MaySee anyCall p.writer)

/-- What one call does to the readers. -/
def StackCall.after : StackCall B → List (Reader B) → List (Reader B)
  | .aggregate found sched skip filter, rs => (multiAggregateLive found sched rs skip filter).2
  | .on i c, rs =>
    match rs[i]? with
    | some r => rs.set i (c.run r).2
    | none => rs

/-- The readers after some calls. -/
def afterAll (calls : List (StackCall B)) (rs : List (Reader B)) : List (Reader B) :=
  calls.foldl (fun rs c => c.after rs) rs

/-! ### A stack that does not change -/

theorem multiLoopLive_static (sched : Sched) (skip : Bool) (filter : Option B) (rs : List (Reader B)) :
    ∀ (deny : B) (result : AggregateResult),
      (multiLoopLive sched skip filter (rs.map fun r => (⟨fun _ => r.bytes, fun _ => r.bytes⟩, r)) deny result).1 =
        multiLoop sched skip filter rs deny result := by
  induction rs with
  | nil => intro _ _; rfl
  | cons r rs ih =>
    intro deny result
    simp only [List.map_cons, multiLoopLive, multiLoop]
    rw [aggregateWithOptionsLive_static, getGlobalIDBitmapLive_static]
    cases aggregateWithOptions sched r { skipPreCalculated := skip, filter := filter, denyFilter := some deny } with
    | panic => rfl
    | err e => rfl
    | ok a =>
      dsimp only
      cases hg : getGlobalIDBitmap r with
      | mk g r' =>
        cases g with
        | panic => simp [Res.ok_bind]
        | err e => simp [Res.ok_bind]
        | ok g =>
          dsimp only
          rw [ih]
          simp [Res.ok_bind]

/-- On files that do not change, this is `Aggregate` of the other model. -/
theorem multiAggregateLive_static (sched : Sched) (skip : Bool) (filter : Option B) (rs : List (Reader B)) :
    (multiAggregateLive (fun i => ⟨fun _ => (rs[i]?.map Reader.bytes).getD [], fun _ => (rs[i]?.map Reader.bytes).getD []⟩) sched rs
      skip filter).1 = multiAggregate sched rs skip filter := by
  unfold multiAggregateLive multiAggregate
  by_cases h : rs.length = 0
  · rw [if_pos h, if_pos h]
  · rw [if_neg h, if_neg h, ← multiLoopLive_static, List.map_reverse]
    dsimp only
    congr 3
    apply List.ext_getElem?
    intro i
    rw [zipIdx_map_getElem?, List.getElem?_map]
    cases hr : rs[i]? with
    | none => rfl
    | some r =>
      simp only [Option.map_some]
      rw [hr]
      rfl

/-! ### One file -/

/-- The reader, if the file stays as it was when the header was read. -/
def proxy (p : Part B) : Reader B := { p.reader with bytes := p.writer.file.bytes }

/-- What a part of the stack provides. -/
structure Good (p : Part B) : Prop where
  reads : ReadsIn (proxy p)
  sees : ∀ f, MaySee anyCall p.writer f → Extends 64 p.writer.file.bytes f
  fresh : p.reader.globalIDs = none ∧ p.reader.cacheGlobalIDs = false
  aggregates : ∀ (sched : Sched), sched.Fair → ∀ (skip : Bool) (filter : Option B) (deny : B),
    ∃ res, aggregateWithOptions sched (proxy p) { skipPreCalculated := skip, filter := filter, denyFilter := some deny } = .ok res ∧
      IsAggregate res (selectedValues filter (some deny) p.delivered)
  bitmap : ∃ g, (getGlobalIDBitmap (proxy p)).1 = .ok g ∧ ∀ x, Bitmap.contains g x = true ↔ ∃ v, (x, v) ∈ pairsOf p.blocks

/-- The state of the reader of a part. -/
def Is (s : Reader B) (p : Part B) : Prop := CacheOf (proxy p) { s with bytes := p.writer.file.bytes }

theorem bitmapLive_bytes (view : Nat → Bytes) (s : Reader B) (b : Bytes) :
    getGlobalIDBitmapLive view { s with bytes := b } =
      ((getGlobalIDBitmapLive view s).1, { (getGlobalIDBitmapLive view s).2 with bytes := b }) := by
  obtain ⟨s1, s2, s3, s4, s5, s6⟩ := s
  unfold getGlobalIDBitmapLive
  cases s5 <;> cases s6 <;> dsimp only <;> repeat' split
  all_goals rfl

theorem sumEntries_bytes (r : Reader B) (b : Bytes) : sumEntries { r with bytes := b } = sumEntries r := by
  funext is
  induction is with
  | nil => rfl
  | cons i is ih =>
    funext a
    simp only [sumEntries]
    rw [ih]

theorem aggregateLive_bytes (view : UInt64 → Bytes) (sched : Sched) (s : Reader B) (b : Bytes) (o : AggregateOptions B) :
    aggregateWithOptionsLive view sched { s with bytes := b } o = aggregateWithOptionsLive view sched s o := by
  unfold aggregateWithOptionsLive aggregateParallelLive aggregateSequentialLive
  rw [sumEntries_bytes]
  rfl

theorem Is.readsIn {s : Reader B} {p : Part B} (h : Is s p) (hg : Good p) : ReadsIn { s with bytes := p.writer.file.bytes } :=
  hg.reads.still h.bytes h.header h.index

/-- Aggregating the reader of a part, in any state. -/
theorem Is.aggregate {s : Reader B} {p : Part B} (h : Is s p) (hg : Good p) (sched : Sched) (view : UInt64 → Bytes)
    (hv : ∀ i, MaySee anyCall p.writer (view i)) (o : AggregateOptions B) :
    aggregateWithOptionsLive view sched s o = aggregateWithOptions sched (proxy p) o := by
  have hr := h.readsIn hg
  rw [← aggregateLive_bytes view sched s p.writer.file.bytes, aggregate_extends hr.index hr.small fun i => hg.sees _ (hv i)]
  conv => lhs; rw [CacheOf.eq h]
  exact aggregate_cache _ _ _ _ _

/-- Loading its ID bitmap. -/
theorem Is.bitmap {s : Reader B} {p : Part B} (h : Is s p) (hg : Good p) (view : Nat → Bytes)
    (hv : ∀ n, MaySee anyCall p.writer (view n)) :
    (getGlobalIDBitmapLive view s).1 = (getGlobalIDBitmap (proxy p)).1 ∧ Is (getGlobalIDBitmapLive view s).2 p := by
  have h1 := bitmapLive_bytes view s p.writer.file.bytes
  rw [getGlobalIDBitmap_extends (h.readsIn hg) fun n => hg.sees _ (hv n)] at h1
  obtain ⟨h2, h3⟩ := CacheOf.get (r := proxy p) hg.fresh.1 hg.fresh.2 h
  rw [h1] at h2 h3
  exact ⟨h2, h3⟩

theorem Is.call {s : Reader B} {p : Part B} (h : Is s p) (hg : Good p) (c : LiveCall B)
    (hc : c.Finds (MaySee anyCall p.writer)) : Is (c.run s).2 p := by
  cases c with
  | enable => exact ⟨h.bytes, h.header, h.index, h.metadata, h.cached⟩
  | disable => exact ⟨h.bytes, h.header, h.index, h.metadata, nofun⟩
  | getBitmap view => exact (h.bitmap hg view hc).2
  | getPairs now i => exact h
  | aggregate view sched o => exact h

theorem Is.start {p : Part B} (hg : Good p) : Is p.reader p :=
  ⟨rfl, rfl, rfl, rfl, fun b hb => by
    have : p.reader.globalIDs = some b := hb
    rw [hg.fresh.1] at this; cases this⟩

/-! ### The stack -/

/-- What is needed of one step of the loop. -/
def Fits (x : Found × Reader B) (p : Part B) : Prop :=
  ((∀ k, MaySee anyCall p.writer (x.1.blocks k)) ∧ ∀ n, MaySee anyCall p.writer (x.1.bitmap n)) ∧ Is x.2 p ∧ Good p

/-- The loop computes what it computes if nothing changes. -/
theorem loop_still (sched : Sched) (skip : Bool) (filter : Option B) :
    ∀ (items : List (Found × Reader B)) (parts : List (Part B)) (deny : B) (result : AggregateResult), Each Fits items parts →
      (multiLoopLive sched skip filter items deny result).1 = multiLoop sched skip filter (parts.map proxy) deny result ∧
      Each Is (multiLoopLive sched skip filter items deny result).2 parts := by
  intro items
  induction items with
  | nil => intro parts deny result hE; cases hE; exact ⟨rfl, .nil⟩
  | cons x xs ih =>
    intro parts deny result hE
    cases hE with
    | @cons _ p _ ps hx ht =>
      obtain ⟨f, s⟩ := x
      obtain ⟨⟨hv1, hv2⟩, hi, hg⟩ := hx
      have hrest : Each Is (xs.map Prod.snd) ps := by
        clear ih
        induction ht with
        | nil => exact .nil
        | cons h _ ih => exact .cons h.2.1 ih
      obtain ⟨h2, h3⟩ := hi.bitmap hg f.bitmap hv2
      simp only [multiLoopLive, multiLoop, List.map_cons]
      rw [hi.aggregate hg sched f.blocks hv1]
      cases aggregateWithOptions sched (proxy p) { skipPreCalculated := skip, filter := filter, denyFilter := some deny } with
      | panic => exact ⟨rfl, .cons hi hrest⟩
      | err e => exact ⟨rfl, .cons hi hrest⟩
      | ok a =>
        rw [Res.ok_bind, ← h2]
        dsimp only
        generalize getGlobalIDBitmapLive f.bitmap s = z at *
        obtain ⟨zg, zr⟩ := z
        dsimp only at h2 h3 ⊢
        cases zg with
        | panic => exact ⟨rfl, .cons h3 hrest⟩
        | err e => exact ⟨rfl, .cons h3 hrest⟩
        | ok g =>
          rw [Res.ok_bind]
          obtain ⟨e1, e2⟩ := ih ps (Bitmap.or deny g) (if result.count = 0 then a else mergeAggregateResults result a) ht
          exact ⟨e1, .cons h3 e2⟩

theorem fits_of {ss : List (Reader B)} {stack : List (Part B)} (h : Each Is ss stack) (hg : ∀ p ∈ stack, Good p)
    {found : Nat → Found} (hf : VibeCol.Finds stack found) :
    Each Fits (ss.zipIdx.map fun x => (found x.2, x.1)).reverse stack.reverse := by
  obtain ⟨hl, hi⟩ := index_of_each h
  refine Each.reverse (each_of_index _ _ (by simp [hl]) fun i x p hx hp => ?_)
  rw [zipIdx_map_getElem?] at hx
  cases hs : ss[i]? with
  | none => rw [hs] at hx; cases hx
  | some s =>
    rw [hs] at hx
    cases hx
    exact ⟨hf i p hp, hi i s p hs hp, hg p (List.mem_of_getElem? hp)⟩

/-- `Aggregate` computes what it computes if nothing changes. -/
theorem aggregate_still {ss : List (Reader B)} {stack : List (Part B)} (h : Each Is ss stack) (hg : ∀ p ∈ stack, Good p)
    {found : Nat → Found} (hf : VibeCol.Finds stack found) (sched : Sched) (skip : Bool) (filter : Option B) :
    (multiAggregateLive found sched ss skip filter).1 = multiAggregate sched (stack.map proxy) skip filter ∧
    Each Is (multiAggregateLive found sched ss skip filter).2 stack := by
  have hl := (index_of_each h).1
  unfold multiAggregateLive multiAggregate
  by_cases h0 : ss.length = 0
  · rw [if_pos h0, if_pos (by rw [List.length_map, ← hl, h0])]
    exact ⟨rfl, h⟩
  · rw [if_neg h0, if_neg (by rw [List.length_map, ← hl]; exact h0)]
    obtain ⟨h1, h2⟩ := loop_still sched skip filter _ _ Bitmap.empty .zero (fits_of h hg hf)
    rw [List.map_reverse] at h1
    refine ⟨h1, ?_⟩
    have := h2.reverse
    rw [List.reverse_reverse] at this
    exact this

theorem after_still {stack : List (Part B)} (hg : ∀ p ∈ stack, Good p) (calls : List (StackCall B))
    (hc : ∀ c ∈ calls, c.Finds stack) : ∀ {ss : List (Reader B)}, Each Is ss stack → Each Is (afterAll calls ss) stack := by
  induction calls with
  | nil => intro ss h; exact h
  | cons c cs ih =>
    intro ss h
    refine ih (fun c' hc' => hc c' (List.mem_cons_of_mem _ hc')) ?_
    have hcc := hc c List.mem_cons_self
    cases c with
    | aggregate found sched skip filter => exact (aggregate_still h hg hcc sched skip filter).2
    | on i c =>
      obtain ⟨hl, hi⟩ := index_of_each h
      cases hs : ss[i]? with
      | none =>
        have : (StackCall.on i c).after ss = ss := by simp only [StackCall.after, hs]
        dsimp only; rw [this]; exact h
      | some s =>
        have : (StackCall.on i c).after ss = ss.set i (c.run s).2 := by simp only [StackCall.after, hs]
        dsimp only; rw [this]
        refine each_of_index _ _ (by simp [hl]) fun j s' p hs' hp => ?_
        rw [List.getElem?_set] at hs'
        by_cases hij : i = j
        · subst hij
          have hlt := (List.getElem?_eq_some_iff.1 hs).1
          rw [if_pos rfl, if_pos hlt] at hs'
          cases hs'
          exact (hi i s p hs hp).call (hg p (List.mem_of_getElem? hp)) c (hcc p hp)
        · rw [if_neg hij] at hs'
          exact hi j s' p hs' hp

theorem start {stack : List (Part B)} (hg : ∀ p ∈ stack, Good p) : Each Is (stack.map Part.reader) stack := by
  induction stack with
  | nil => exact .nil
  | cons p ps ih => exact .cons (Is.start (hg p List.mem_cons_self)) (ih fun q hq => hg q (List.mem_cons_of_mem _ hq))

variable [LawfulBitmap B]

/-- The loop over a stack some of whose readers do not deliver all blocks whose IDs are in their bitmaps. -/
theorem multiLoop_parts (sched : Sched) (hs : sched.Fair) (skip : Bool) (filter : Option B) :
    ∀ (parts : List (Part B)) (newer : List (List Block × List Block)) (deny : B) (result : AggregateResult),
      (∀ p ∈ parts, Good p) →
      (∀ x, Bitmap.contains deny x = true ↔ ∃ g ∈ newer, ∃ v, (x, v) ∈ pairsOf g.1) →
      IsAggregate result ((visibleRead (allowedBy filter) newer).map Prod.snd) →
      ∃ res, multiLoop sched skip filter (parts.map proxy) deny result = .ok res ∧
        IsAggregate res ((visibleRead (allowedBy filter)
          ((parts.map fun p => (p.blocks, p.delivered)).reverse ++ newer)).map Prod.snd) := by
  intro parts
  induction parts with
  | nil => intro newer deny result _ _ hres; exact ⟨result, rfl, hres⟩
  | cons p ps ih =>
    intro newer deny result hg hd hres
    have hp := hg p List.mem_cons_self
    obtain ⟨rr, h1, h2⟩ := hp.aggregates sched hs skip filter deny
    obtain ⟨g, h3, h4⟩ := hp.bitmap
    rw [selected_visibleRead filter deny _ newer hd] at h2
    have hm := (IsAggregate.merge hres h2).perm
      (ws := (visibleRead (allowedBy filter) ((p.blocks, p.delivered) :: newer)).map Prod.snd) (by
        have hv : visibleRead (allowedBy filter) ((p.blocks, p.delivered) :: newer) =
          (pairsOf p.delivered).filter (fun p => allowedBy filter p.1 &&
            !(newer.any fun g => (pairsOf g.1).any fun q => q.1 == p.1)) ++ visibleRead (allowedBy filter) newer := rfl
        rw [hv, List.map_append]
        exact List.perm_append_comm)
    obtain ⟨res, h5, h6⟩ := ih ((p.blocks, p.delivered) :: newer) (Bitmap.or deny g) _
      (fun q hq => hg q (List.mem_cons_of_mem _ hq)) (by
        intro x
        rw [LawfulBitmap.contains_or, Bool.or_eq_true, hd, h4]
        constructor
        · rintro (⟨g, hg, h⟩ | h)
          · exact ⟨g, List.mem_cons_of_mem _ hg, h⟩
          · exact ⟨_, List.mem_cons_self, h⟩
        · rintro ⟨g, hg, h⟩
          rcases List.mem_cons.1 hg with rfl | hg
          · exact .inr h
          · exact .inl ⟨g, hg, h⟩) hm
    refine ⟨res, ?_, by rw [List.map_cons, List.reverse_cons, List.append_assoc]; exact h6⟩
    rw [List.map_cons]
    unfold multiLoop
    rw [h1, h3]
    exact h5

theorem Extends.trans {lo : Nat} {f g k : Bytes} (h1 : Extends lo f g) (h2 : Extends lo g k) : Extends lo f k :=
  ⟨Nat.le_trans h1.1 h2.1, fun i a b => (h2.2 i a (Nat.lt_of_lt_of_le b h1.1)).trans (h1.2 i a b)⟩

theorem bitmap_pairs {env : Env} {opts : List WriterOption} {log : Log} {file : Bytes}
    (h : Finalized B env opts log file) (henc : SymEnc (chosenEncoding opts)) (hn : (acked log).length ≤ maxBlocks)
    (hbuf : (Bitmap.toBuffer (bitmapOf B (acked log))).length < 2 ^ 32) (r : Reader B) (hr : newReader file = .ok r) :
    ∃ g, (getGlobalIDBitmap r).1 = .ok g ∧ ∀ x, Bitmap.contains g x = true ↔ ∃ v, (x, v) ∈ pairsOf (acked log) :=
  (FileWith.provides ⟨⟨env, opts, log, file, h, henc, hr, rfl⟩, hn, hbuf⟩ inOrder inOrder_fair false none Bitmap.empty).2

/-- A file opened between two `Finalize`s. -/
theorem good_between {p : Part B} (h : p.OpenedBetween) : Good p ∧ newReader p.writer.file.bytes = .ok p.reader := by
  obtain ⟨env, opts, calls, log, w, view, hh, hno, hb, henc, hf, hsz, hn, hbuf, hstat, hsee, hopen, hdel, hund⟩ := h
  obtain ⟨r, hr, hlive⟩ := C62_open hh hno hb hn hf hsz view hstat hsee
  rw [hopen] at hlive
  cases hlive
  have hfin : Finalized B env opts log p.writer.file.bytes := ⟨⟨calls, w, p.writer, hh, hf, rfl⟩, hno, hb, hsz⟩
  obtain ⟨hrb, hin⟩ := hfin.readsIn hn _ hr
  have hpos := finalize_atEnd hh hno hb hf
  have hprox : proxy p = p.reader := by unfold proxy; rw [← hrb]
  have hblocks : p.blocks = acked log := by unfold Part.blocks; rw [hdel, hund, List.append_nil]
  have hFW : FileWith B p.reader (acked log) := ⟨⟨env, opts, log, _, hfin, henc, hr, rfl⟩, hn, hbuf⟩
  refine ⟨⟨by rw [hprox]; exact hin, fun f hf => hf.extends 64 (fun _ => Nat.le_refl _) hpos, newReader_uncached hr, ?_, ?_⟩, hr⟩
  · intro sched hs skip filter deny
    rw [hprox, hdel]
    exact (hFW.provides sched hs skip filter deny).1
  · rw [hprox, hblocks]
    exact bitmap_pairs hfin henc hn hbuf _ hr

/-- Aggregating with an allow filter does not look at the header's number of blocks. -/
theorem aggregate_header (sched : Sched) (r : Reader B) (hd : FileHeader) (henc : hd.encodingType = r.header.encodingType)
    (skip : Bool) (f deny : B) :
    aggregateWithOptions sched { r with header := hd } { skipPreCalculated := skip, filter := some f, denyFilter := some deny } =
      aggregateWithOptions sched r { skipPreCalculated := skip, filter := some f, denyFilter := some deny } := by
  have h1 : (fun i : Int64 => readBlock { r with header := hd } i) = fun i => readBlock r i := by
    funext i
    unfold readBlock
    dsimp only
    rw [henc]
  have h2 : (fun i : UInt64 => readBlockFiltered { r with header := hd } i.toInt64 (some f) (some deny)) =
      fun i : UInt64 => readBlockFiltered r i.toInt64 (some f) (some deny) := by
    funext i
    unfold readBlockFiltered
    rw [congrFun h1 i.toInt64]
  unfold aggregateWithOptions aggregateSequential aggregateWithFilter
  simp only [ne_eq, not_true_eq_false, if_false, Option.isSome_some, or_self, if_true]
  rw [h2]
  rfl

/-- The blocks a reader delivers if its header has more blocks than its index. -/
theorem readable_range (r : Reader B) (l : List Block) (n : Nat) (hn : n < 2 ^ 64) (hl : l.length ≤ n)
    (h : ∀ i : UInt64, getPairs r i = match l[i.toNat]? with
      | some b => .ok b
      | none => .err .badBlockIndex) : readable r (List.range n) = l := by
  obtain ⟨m, rfl⟩ := Nat.exists_eq_add_of_le hl
  have key : ∀ k ≤ m, readable r (List.range (l.length + k)) = readable r (List.range l.length) := by
    intro k hk
    induction k with
    | zero => rfl
    | succ k ih =>
      rw [← Nat.add_assoc, List.range_succ]
      unfold readable at ih ⊢
      rw [List.filterMap_append, ih (by omega)]
      have : getPairs r (UInt64.ofNat (l.length + k)) = .err .badBlockIndex := by
        rw [h, UInt64.toNat_ofNat', Nat.mod_eq_of_lt (by omega), List.getElem?_eq_none_iff.2 (by omega)]
      rw [List.filterMap_cons, this]
      simp
  rw [key m (Nat.le_refl _)]
  have := readable_kept r (fun _ => false) l 0 (fun i hi => by
    rw [if_neg (by simp), h, UInt64.toNat_ofNat', Nat.mod_eq_of_lt (by omega), Nat.zero_add, List.getElem?_eq_getElem hi])
  rw [← List.range_eq_range'] at this
  have hfl : l.zipIdx.filter (fun _ => !false) = l.zipIdx := List.filter_eq_self.2 fun _ _ => rfl
  rw [this, hfl, List.zipIdx_map_fst]

/-- A file opened across a `Finalize`. -/
theorem good_across {p : Part B} (h : p.OpenedAcross) : Good p := by
  obtain ⟨env, opts, calls, calls2, log, log2, w, w1, w2, view, hh, hf, hrun, hf3, hno, hb, henc, hsz, hn, hbuf, hstat, hhdr, hsee,
    hopen, hdel, hund⟩ := h
  have hnoL : NoIOError log := fun ev hev => hno ev (List.mem_append_left _ hev)
  have hbL : ∀ ev ∈ log, ev.1.Bounded := fun ev hev => hb ev (List.mem_append_left _ hev)
  have hack : acked (log ++ log2) = acked log ++ acked log2 := by simp [acked]
  have hack' : acked (log ++ (Call.finalize, Except.ok ()) :: log2) = acked (log ++ log2) := by
    simp [acked, ackedBy]
  have hblocks : p.blocks = acked (log ++ log2) := by unfold Part.blocks; rw [hdel, hund, hack]
  have hh3 := hh.extend hf hrun
  have hno3 : NoIOError (log ++ (.finalize, .ok ()) :: log2) := by
    intro ev hev
    rcases List.mem_append.1 hev with hev | hev
    · exact hno ev (List.mem_append_left _ hev)
    · rcases List.mem_cons.1 hev with rfl | hev
      · simp
      · exact hno ev (List.mem_append_right _ hev)
  have hb3 : ∀ ev ∈ log ++ (.finalize, .ok ()) :: log2, ev.1.Bounded := by
    intro ev hev
    rcases List.mem_append.1 hev with hev | hev
    · exact hb ev (List.mem_append_left _ hev)
    · rcases List.mem_cons.1 hev with rfl | hev
      · trivial
      · exact hb ev (List.mem_append_right _ hev)
  have hpos1 := finalize_atEnd hh hnoL hbL hf
  have hpos3 := finalize_atEnd hh3 hno3 hb3 hf3
  -- the file after the second `Finalize` extends the file after the first
  have h13 : Extends 64 w1.file.bytes p.writer.file.bytes := by
    refine MaySee.extends (allowed := anyCall) (w := w1) 64 (fun _ => Nat.le_refl _) hpos1 (Later.maySee ?_)
    refine ⟨env, calls2 ++ [.finalize], fun _ _ => trivial, ?_, ?_⟩
    · rw [runCalls_append, hrun]
      have : (log2 ++ (runCalls env [Call.finalize] w2).1).dropLast = log2 := by simp [runCalls]
      dsimp only
      rw [this]
      exact NoIOError.finalize fun ev hev => hno ev (List.mem_append_right _ hev)
    · rw [runCalls_append, hrun]
      show (finalize env w2).2.file.bytes = _
      rw [hf3]
  have h3 : ∀ f, MaySee anyCall p.writer f → Extends 64 p.writer.file.bytes f :=
    fun f hf => hf.extends 64 (fun _ => Nat.le_refl _) hpos3
  have hfin1 : Finalized B env opts log w1.file.bytes := ⟨⟨calls, w, w1, hh, hf, rfl⟩, hnoL, hbL, Nat.lt_of_le_of_lt h13.1 hsz⟩
  have hfin3 : Finalized B env opts (log ++ (.finalize, .ok ()) :: log2) p.writer.file.bytes :=
    ⟨⟨_, w2, p.writer, hh3, hf3, rfl⟩, hno3, hb3, hsz⟩
  have hn3 : (acked (log ++ (Call.finalize, Except.ok ()) :: log2)).length ≤ maxBlocks := by rw [hack']; exact hn
  have hle : (acked log).length ≤ (acked (log ++ log2)).length := by rw [hack, List.length_append]; omega
  have hn1 : (acked log).length ≤ maxBlocks := Nat.le_trans hle hn
  have hrh : readHeader (view 1) = readHeader p.writer.file.bytes := by
    have hx := hhdr.extends 0 (fun hc => absurd rfl hc) hpos3
    obtain ⟨hd, blks, buf, bo, fs, hok, _, _⟩ := hfin3.fileOK
    have hfs := hok.fs_ge
    have hfs' := hok.fsLe
    unfold readHeader
    rw [readBytesAt_congr (f := p.writer.file.bytes) (g := view 1)]
    intro q _ hq
    rw [show (0 : Int64).toInt.toNat = 0 by decide, show (Int64.ofNat headerSize).toInt.toNat = 64 by decide] at hq
    exact hx.2 q (by omega) (by omega)
  obtain ⟨r1, r3, hr1, hr3, hlive, henc3, hlen1, hcount3⟩ := mixed_opened hh hf hrun hf3 hno hb hn hsz view hstat hrh
    fun n => Extends.trans h13 (h3 _ (hsee n))
  rw [hopen] at hlive
  obtain ⟨hrb1, hin1⟩ := hfin1.readsIn hn1 r1 hr1
  obtain ⟨hrb3, hin3⟩ := hfin3.readsIn hn3 r3 hr3
  have hpr : p.reader = { r1 with header := r3.header } := Res.ok.inj hlive
  have hprox : proxy p = { r1 with header := r3.header, bytes := p.writer.file.bytes } := by unfold proxy; rw [hpr]
  have hsm1 : w1.file.bytes.length < 2 ^ 63 := Nat.lt_of_le_of_lt h13.1 hsz
  have hindex : IndexIn { r1 with header := r3.header } r1.bytes.length := hin1.index
  -- aggregates do not notice the bytes added
  have hagg : ∀ sched o, aggregateWithOptions sched (proxy p) o = aggregateWithOptions sched { r1 with header := r3.header } o := by
    intro sched o
    rw [← aggregate_extends (r := { r1 with header := r3.header }) (view := fun _ => p.writer.file.bytes) hindex
      (by show r1.bytes.length < _; rw [hrb1]; exact hsm1) (fun _ => by show Extends 64 r1.bytes _; rw [hrb1]; exact h13),
      ← aggregateLive_bytes _ _ _ p.writer.file.bytes, hprox]
    rfl
  have hpairs : ∀ i : UInt64, getPairs { r1 with header := r3.header } i = match (acked log)[i.toNat]? with
      | some b => .ok b
      | none => .err .badBlockIndex := by
    intro i
    have := C62_mixed_blocks hh hnoL hbL henc hn1 hf hsm1 r1 hr1 r3.header henc3 (now := w1.file.bytes) (Later.now _ _).maySee i
    unfold getPairsLive readBlockLive at this
    rw [← hrb1] at this
    exact this
  have hu1 := newReader_uncached hr1
  refine ⟨?_, h3, by rw [hpr]; exact hu1, ?_, ?_⟩
  · rw [hprox]
    refine ⟨hsz, fun x hx => ?_, ?_⟩
    · obtain ⟨a, b, c⟩ := hin1.index x hx
      rw [hrb1] at c
      exact ⟨a, b, Nat.le_trans c h13.1⟩
    · have := hin3.bitmap
      rw [hrb3] at this
      exact this
  · intro sched hs skip filter deny
    rw [hagg, hdel]
    cases filter with
    | some f =>
      rw [aggregate_header _ _ _ henc3]
      exact C13_filtered hfin1 henc hn1 r1 hr1 sched hs _ (.inr rfl)
    | none =>
      have hcnt : r3.header.blockCount.toNat ≤ maxBlocks := by rw [hcount3]; exact hn
      have := C49_filtered { r1 with header := r3.header } (fun i => by
        rw [hpairs]; split <;> nofun) sched hs { skipPreCalculated := skip, filter := none, denyFilter := some deny }
        (.inr ⟨rfl, by show r3.header.blockCount.toNat ≤ _; unfold maxBlocks at hcnt; omega⟩)
      have hr : readable { r1 with header := r3.header } (considered { r1 with header := r3.header } none) = acked log :=
        readable_range _ _ _ (by show r3.header.blockCount.toNat < _; unfold maxBlocks at hcnt; omega)
          (by show _ ≤ r3.header.blockCount.toNat; rw [hcount3]; exact hle) hpairs
      dsimp only at this
      rw [hr] at this
      exact this
  · obtain ⟨g, hg, hx⟩ := bitmap_pairs hfin3 henc hn3 (by rw [hack']; exact hbuf) r3 hr3
    refine ⟨g, ?_, by rw [hblocks, ← hack']; exact hx⟩
    rw [← hg, hprox]
    have e1 := C62_mixed_bitmap (fun _ => p.writer.file.bytes) r1 r3 hu1.1 (newReader_uncached hr3).1
    have e2 := getGlobalIDBitmapLive_static r3
    rw [hrb3] at e2
    rw [e2] at e1
    rw [← e1]
    have e4 := getGlobalIDBitmapLive_static { r1 with header := r3.header, bytes := p.writer.file.bytes }
    dsimp only at e4
    rw [← e4, bitmapLive_bytes _ { r1 with header := r3.header } p.writer.file.bytes]

/-! ### C74 -/

/-- **C74.** A stack of files whose readers were each opened between two `Finalize`s of a writer that goes on: after any calls,
whatever the reads find in the files, `Aggregate` returns what it returns if no file has changed since the `Finalize`. -/
theorem C74_snapshot (stack : List (Part B)) (h : ∀ p ∈ stack, p.OpenedBetween) (calls : List (StackCall B))
    (hc : ∀ c ∈ calls, c.Finds stack) (found : Nat → Found) (hf : VibeCol.Finds stack found) (sched : Sched) (skip : Bool)
    (filter : Option B) :
    (multiAggregateLive found sched (afterAll calls (stack.map Part.reader)) skip filter).1 =
      multiAggregate sched (stack.map Part.reader) skip filter ∧
    ∀ p ∈ stack, newReader p.writer.file.bytes = .ok p.reader := by
  have hg : ∀ p ∈ stack, Good p := fun p hp => (good_between (h p hp)).1
  have hr : ∀ p ∈ stack, newReader p.writer.file.bytes = .ok p.reader := fun p hp => (good_between (h p hp)).2
  refine ⟨?_, hr⟩
  rw [(aggregate_still (after_still hg calls hc (start hg)) hg hf sched skip filter).1]
  congr 1
  refine List.map_congr_left fun p hp => ?_
  have : p.reader.bytes = p.writer.file.bytes := by
    have := hr p hp
    unfold newReader at this
    obtain ⟨hd, _, h2⟩ := Res.bind_ok this
    obtain ⟨z, _, h3⟩ := Res.bind_ok h2
    dsimp only at h3
    rw [← Res.ok.inj h3]
  unfold proxy
  rw [← this]

/-- **C74.** If the readers were opened at any such moments, even across a `Finalize`, `Aggregate` never fails, and
returns the exact aggregate of the pairs that pass the filter, are in a block that their reader delivers, and whose
ID is in no block, delivered or not, of a newer file. -/
theorem C74_aggregate (stack : List (Part B)) (h : ∀ p ∈ stack, p.OpenedBetween ∨ p.OpenedAcross) (calls : List (StackCall B))
    (hc : ∀ c ∈ calls, c.Finds stack) (found : Nat → Found) (hf : VibeCol.Finds stack found) (sched : Sched) (hs : sched.Fair)
    (skip : Bool) (filter : Option B) :
    ∃ res, (multiAggregateLive found sched (afterAll calls (stack.map Part.reader)) skip filter).1 = .ok res ∧
      IsAggregate res ((visibleRead (allowedBy filter) (stack.map fun p => (p.blocks, p.delivered))).map Prod.snd) := by
  have hg : ∀ p ∈ stack, Good p := fun p hp => (h p hp).elim (fun h => (good_between h).1) good_across
  rw [(aggregate_still (after_still hg calls hc (start hg)) hg hf sched skip filter).1]
  unfold multiAggregate
  by_cases h0 : (stack.map proxy).length = 0
  · rw [if_pos h0]
    have : stack = [] := by cases stack with
      | nil => rfl
      | cons p ps => simp at h0
    subst this
    exact ⟨_, rfl, zero_isAggregate⟩
  · rw [if_neg h0, ← List.map_reverse]
    obtain ⟨res, h1, h2⟩ := multiLoop_parts sched hs skip filter stack.reverse [] Bitmap.empty .zero
      (fun p hp => hg p (List.mem_reverse.1 hp)) (by simp [LawfulBitmap.contains_empty]) zero_isAggregate
    rw [List.append_nil, List.map_reverse, List.reverse_reverse] at h2
    exact ⟨res, h1, h2⟩

theorem any_blocks {α : Type} (stack : List α) (f : α → List Block) (g : α → List Block) (p : Pair) :
    ((stack.map fun a => (f a, g a)).any fun x => (pairsOf x.1).any fun q => q.1 == p.1) =
      (stack.map f).any fun x => (pairsOf x).any fun q => q.1 == p.1 := by
  rw [List.any_map, List.any_map]; rfl

theorem visibleRead_all (allowed : UInt64 → Bool) (files : List (List Block)) :
    visibleRead allowed (files.map fun f => (f, f)) = visible allowed files := by
  induction files with
  | nil => rfl
  | cons f fs ih =>
    simp only [List.map_cons, visibleRead, visible, ih]
    congr 2
    funext p
    have := any_blocks fs id id p
    rw [List.map_id] at this
    rw [← this]
    rfl

/-- **C74.** If none was opened across a `Finalize`, that is the exact aggregate of the visible pairs of the stack. -/
theorem C74_newestWins (stack : List (Part B)) (h : ∀ p ∈ stack, p.OpenedBetween) (calls : List (StackCall B))
    (hc : ∀ c ∈ calls, c.Finds stack) (found : Nat → Found) (hf : VibeCol.Finds stack found) (sched : Sched) (hs : sched.Fair)
    (skip : Bool) (filter : Option B) :
    ∃ res, (multiAggregateLive found sched (afterAll calls (stack.map Part.reader)) skip filter).1 = .ok res ∧
      IsAggregate res ((visible (allowedBy filter) (stack.map Part.blocks)).map Prod.snd) := by
  obtain ⟨res, h1, h2⟩ := C74_aggregate stack (fun p hp => .inl (h p hp)) calls hc found hf sched hs skip filter
  refine ⟨res, h1, ?_⟩
  rw [← visibleRead_all, List.map_map]
  have : (stack.map fun p => (p.blocks, p.delivered)) = stack.map ((fun f => (f, f)) ∘ Part.blocks) := by
    refine List.map_congr_left fun p hp => ?_
    obtain ⟨_, _, _, _, _, _, _, _, _, _, _, _, _, _, _, _, _, _, hund⟩ := h p hp
    simp [Part.blocks, hund]
  rw [← this]
  exact h2

/-- **C74.** What is left out: the visible pairs of the stack, as of the later `Finalize`s, are those that count together with the
visible ones in undelivered blocks. So no overwritten value ever counts; what an undelivered block overwrites in an older file
does not count either. -/
theorem C74_leftOut (allowed : UInt64 → Bool) (stack : List (Part B)) :
    (visible allowed (stack.map Part.blocks)).Perm
      (visibleRead allowed (stack.map fun p => (p.blocks, p.delivered)) ++
        visibleRead allowed (stack.map fun p => (p.blocks, p.undelivered))) := by
  induction stack with
  | nil => exact .nil
  | cons p ps ih =>
    simp only [List.map_cons, visibleRead, visible]
    simp only [any_blocks]
    have hp : pairsOf p.blocks = pairsOf p.delivered ++ pairsOf p.undelivered := by
      unfold pairsOf Part.blocks; rw [List.flatMap_append]
    rw [hp, List.filter_append]
    generalize (pairsOf p.delivered).filter _ = a
    generalize (pairsOf p.undelivered).filter _ = b
    generalize visibleRead allowed (ps.map fun p => (p.blocks, p.delivered)) = c at *
    generalize visibleRead allowed (ps.map fun p => (p.blocks, p.undelivered)) = d at *
    rw [List.append_assoc, List.append_assoc]
    refine List.Perm.append_left a ?_
    refine (List.Perm.append_left b ih).trans ?_
    rw [← List.append_assoc, ← List.append_assoc]
    exact List.Perm.append_right d List.perm_append_comm

/-! ### Examples -/

/-- The older file: IDs 5 and 9. -/
def olderLog : Log := [(.write [5, 9] [50, 90], .ok ())]

theorem older_finalized : ∃ file, Finalized IdSet quietEnv [] olderLog file :=
  finalized_of_log [] [.write [5, 9] [50, 90]] olderLog (by decide) (by decide +kernel) (by unfold NoMismatch; decide) (by decide)

/-- A file that is opened when its writer has finished. -/
theorem older_part : ∃ p : Part IdSet, p.OpenedBetween ∧ p.delivered = acked olderLog ∧ p.undelivered = [] := by
  obtain ⟨file, h⟩ := older_finalized
  obtain ⟨calls, w, w', hh, hf, rfl⟩ := h.made
  obtain ⟨r, hr, _⟩ := C29_accessors h (by decide)
  refine ⟨⟨r, acked olderLog, [], w'⟩, ⟨quietEnv, [], calls, olderLog, w, fun _ => w'.file.bytes, hh, h.noIOError, h.bounded,
    .inl rfl, hf, h.size, by decide, by decide, rfl, fun _ => (Later.now _ _).maySee, ?_, rfl, rfl⟩, rfl, rfl⟩
  rw [newReaderLive_static]; exact hr

/-- The file of `extended_logs`, opened before the block with the IDs 5 and 1 is added or across the `Finalize` after that, and
what its reads find after that `Finalize`. -/
theorem newer_parts : ∃ p q : Part IdSet, p.OpenedBetween ∧ p.delivered = acked (exampleLog.take 2) ∧ p.undelivered = [] ∧
    q.OpenedAcross ∧ q.delivered = acked (exampleLog.take 2) ∧ q.undelivered = [([5, 1], [7, -9223372036854775807])] ∧
    p.writer.file.bytes ≠ q.writer.file.bytes ∧ MaySee anyCall p.writer q.writer.file.bytes := by
  obtain ⟨calls, calls2, log, log2, w, w1, w2, w3, h, hf, hrun, hf3, hno, hb, hl1, hl2, hs1, hs3, hlat2, hlat3, e1, e2⟩ := extended_logs
  have hnoL : NoIOError log := fun ev hev => hno ev (List.mem_append_left _ hev)
  have hbL : ∀ ev ∈ log, ev.1.Bounded := fun ev hev => hb ev (List.mem_append_left _ hev)
  let view : Nat → Bytes := fun n => if n = 0 then w1.file.bytes else w3.file.bytes
  have hpos := finalize_atEnd h hnoL hbL hf
  obtain ⟨r1, r3, hr1, hr3, hlive, _, _, hcnt⟩ := C62_mixed h hf hrun hf3 hno hb (by rw [hl2]; decide) hs3 view rfl rfl
    (fun n => hlat3.maySee)
  have henc : SymEnc (chosenEncoding exampleOpts) := .inr (.inr (.inr rfl))
  have hgrow : w1.file.bytes ≠ w3.file.bytes := by
    intro hc
    have h1 := (C61_blocks h hnoL hbL henc (by rw [hl1]; decide) hf hs1 r1 hr1 (Later.now _ _).maySee).1
    rw [hc, hr3] at hr1
    rw [← Res.ok.inj hr1, hl1] at h1
    have h2 : r3.blockCount.toNat = 2 := hcnt.trans hl2
    omega
  refine ⟨⟨r1, acked log, [], w1⟩, ⟨_, acked log, acked log2, w3⟩,
    ⟨quietEnv, exampleOpts, calls, log, w, fun _ => w1.file.bytes, h, hnoL, hbL, henc, hf, hs1, by rw [hl1]; decide, ?_, rfl,
      fun _ => (Later.now _ _).maySee, by rw [newReaderLive_static]; exact hr1, rfl, rfl⟩, by rw [e1], rfl,
    ⟨quietEnv, exampleOpts, calls, calls2, log, log2, w, w1, w2, view, h, hf, hrun, hf3, hno, hb, henc, hs3, by rw [hl2]; decide, ?_,
      rfl, (Later.now _ _).maySee, fun _ => (Later.now _ _).maySee, hlive, rfl, rfl⟩, by rw [e1], by rw [e2]; rfl, hgrow, hlat3.maySee⟩
  · subst e1; decide
  · subst e1; subst e2; decide

theorem found_now {stack : List (Part IdSet)} (w : Nat → Bytes)
    (h : ∀ (i : Nat) p, stack[i]? = some p → MaySee anyCall p.writer (w i)) :
    VibeCol.Finds stack fun i => ⟨fun _ => w i, fun _ => w i⟩ :=
  fun i p hp => ⟨fun _ => h i p hp, fun _ => h i p hp⟩

/-- Non-vacuity of `C74_snapshot` and `C74_newestWins`: the newer file has been extended and finalized again since it was opened;
its reader's cache has been enabled and an aggregation has filled it. The old value 50 of ID 5 still counts. -/
example : ∃ stack : List (Part IdSet), ∃ calls found, (∀ p ∈ stack, p.OpenedBetween) ∧ (∀ c ∈ calls, StackCall.Finds stack c) ∧
    calls.length = 2 ∧ VibeCol.Finds stack found ∧ (∃ p ∈ stack, p.writer.file.bytes ≠ (found 1).blocks 0) ∧
    ∃ res, (multiAggregateLive found inOrder (afterAll calls (stack.map Part.reader)) false none).1 = .ok res ∧
      res.count = 5 ∧ res.sum = 180 := by
  obtain ⟨o, ho, hod, hou⟩ := older_part
  obtain ⟨p, q, hp, hpd, hpu, hq, hqd, hqu, hne, hsee⟩ := newer_parts
  have hall : ∀ x ∈ [o, p], x.OpenedBetween := by
    intro x hx
    simp only [List.mem_cons, List.not_mem_nil, or_false] at hx
    rcases hx with rfl | rfl
    · exact ho
    · exact hp
  let w : Nat → Bytes := fun i => if i = 0 then o.writer.file.bytes else q.writer.file.bytes
  have hfound : VibeCol.Finds [o, p] fun i => ⟨fun _ => w i, fun _ => w i⟩ := by
    refine found_now w fun i x hx => ?_
    match i with
    | 0 => cases hx; exact (Later.now _ _).maySee
    | 1 => cases hx; exact hsee
    | n + 2 => simp at hx
  let calls : List (StackCall IdSet) := [.on 1 .enable, .aggregate (fun i => ⟨fun _ => w i, fun _ => w i⟩) inOrder false none]
  have hcalls : ∀ c ∈ calls, StackCall.Finds [o, p] c := by
    intro c hc
    simp only [calls, List.mem_cons, List.not_mem_nil, or_false] at hc
    rcases hc with rfl | rfl
    · intro _ _; trivial
    · exact hfound
  refine ⟨[o, p], calls, _, hall, hcalls, rfl, hfound, ⟨p, by simp, hne⟩, ?_⟩
  obtain ⟨res, h1, h2⟩ := C74_newestWins [o, p] hall calls hcalls _ hfound inOrder inOrder_fair false none
  refine ⟨res, h1, ?_⟩
  have hb : [o, p].map Part.blocks = [acked olderLog, acked (exampleLog.take 2)] := by
    simp [Part.blocks, hod, hou, hpd, hpu]
  rw [hb, show (visible (allowedBy (none : Option IdSet)) [acked olderLog, acked (exampleLog.take 2)]).map Prod.snd =
    [50, 90, 30, -10, 20] from by decide] at h2
  have : res = ⟨5, -10, 90, 180, .quot 180 5⟩ := (h2.unique (accOf_isAggregate _) (by decide)).trans (by decide)
  exact ⟨by rw [this], by rw [this]⟩

/-- **C74 is refuted across a `Finalize`**: there is a stack in which ID 5 has the value 50 in the older file, and the newer
file was opened while a block with the value 7 for ID 5 was added and finalized. `Aggregate` counts neither: its result is not that of
the stack before the block was added, nor that of the stack after. -/
theorem C74_refuted : ∃ (stack : List (Part IdSet)) (found : Nat → Found),
    (∀ p ∈ stack, p.OpenedBetween ∨ p.OpenedAcross) ∧ VibeCol.Finds stack found ∧
    stack.map Part.delivered = [[([5, 9], [50, 90])], [([3, 1, 2], [30, -10, 20])]] ∧
    stack.map Part.undelivered = [[], [([5, 1], [7, -9223372036854775807])]] ∧
    ∃ res, (multiAggregateLive found inOrder (stack.map Part.reader) false none).1 = .ok res ∧
      IsAggregate res [90, 30, -10, 20] ∧
      ¬ IsAggregate res ((visible (allowedBy (none : Option IdSet)) (stack.map Part.delivered)).map Prod.snd) ∧
      ¬ IsAggregate res ((visible (allowedBy (none : Option IdSet)) (stack.map Part.blocks)).map Prod.snd) := by
  obtain ⟨o, ho, hod, hou⟩ := older_part
  obtain ⟨p, q, hp, hpd, hpu, hq, hqd, hqu, hne, hsee⟩ := newer_parts
  have hall : ∀ x ∈ [o, q], x.OpenedBetween ∨ x.OpenedAcross := by
    intro x hx
    simp only [List.mem_cons, List.not_mem_nil, or_false] at hx
    rcases hx with rfl | rfl
    · exact .inl ho
    · exact .inr hq
  let w : Nat → Bytes := fun i => if i = 0 then o.writer.file.bytes else q.writer.file.bytes
  have hfound : VibeCol.Finds [o, q] fun i => ⟨fun _ => w i, fun _ => w i⟩ := by
    refine found_now w fun i x hx => ?_
    match i with
    | 0 => cases hx; exact (Later.now _ _).maySee
    | 1 => cases hx; exact (Later.now _ _).maySee
    | n + 2 => simp at hx
  refine ⟨[o, q], _, hall, hfound, by simp [hod, hqd]; decide, by simp [hou, hqu], ?_⟩
  obtain ⟨res, h1, h2⟩ := C74_aggregate [o, q] hall [] nofun _ hfound inOrder inOrder_fair false none
  have hb : [o, q].map (fun p => (p.blocks, p.delivered)) = [(acked olderLog, acked olderLog),
      (acked (exampleLog.take 2) ++ [([5, 1], [7, -9223372036854775807])], acked (exampleLog.take 2))] := by
    simp [Part.blocks, hod, hou, hqd, hqu]
  have hb1 : [o, q].map Part.delivered = [acked olderLog, acked (exampleLog.take 2)] := by simp [hod, hqd]
  have hb2 : [o, q].map Part.blocks = [acked olderLog, acked (exampleLog.take 2) ++ [([5, 1], [7, -9223372036854775807])]] := by
    simp [Part.blocks, hod, hou, hqd, hqu]
  rw [hb, show (visibleRead (allowedBy (none : Option IdSet)) [(acked olderLog, acked olderLog),
      (acked (exampleLog.take 2) ++ [([5, 1], [7, -9223372036854775807])], acked (exampleLog.take 2))]).map Prod.snd =
    [90, 30, -10, 20] from by decide] at h2
  refine ⟨res, h1, h2, fun hc => ?_, fun hc => ?_⟩
  · rw [hb1] at hc
    have := h2.count.symm.trans hc.count
    revert this; decide
  · rw [hb2] at hc
    have := h2.count.symm.trans hc.count
    revert this; decide

end VibeCol.MultiLive
