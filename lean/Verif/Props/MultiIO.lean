/-
C65: aggregates over a stack of files when reads fail or readers have been closed.
-/
import Verif.Spec.MultiIO
import Verif.Props.ReadFaults
import Verif.Props.Multi
namespace VibeCol.MultiIO
variable {B : Type} [Bitmap B]

/-! ### Lists -/

theorem each_of_index {α β : Type} {R : α → β → Prop} (as : List α) (bs : List β) (hl : as.length = bs.length)
    (h : ∀ (i : Nat) a b, as[i]? = some a → bs[i]? = some b → R a b) : Each R as bs := by
  induction as generalizing bs with
  | nil =>
    cases bs with
    | nil => exact .nil
    | cons b bs => simp at hl
  | cons a as ih =>
    cases bs with
    | nil => simp at hl
    | cons b bs =>
      exact .cons (h 0 a b rfl rfl) (ih bs (by simpa using hl) fun i x y hx hy => h (i + 1) x y (by simpa using hx) (by simpa using hy))

theorem index_of_each {α β : Type} {R : α → β → Prop} {as : List α} {bs : List β} (h : Each R as bs) :
    as.length = bs.length ∧ ∀ (i : Nat) a b, as[i]? = some a → bs[i]? = some b → R a b := by
  induction h with
  | nil => exact ⟨rfl, fun i a b ha _ => by simp at ha⟩
  | cons h _ ih =>
    refine ⟨by simp [ih.1], fun i a b ha hb => ?_⟩
    cases i with
    | zero =>
      simp only [List.getElem?_cons_zero, Option.some.injEq] at ha hb
      subst ha; subst hb; exact h
    | succ i => exact ih.2 i a b (by simpa using ha) (by simpa using hb)

theorem zipIdx_map_getElem? {α β : Type} (l : List α) (g : α × Nat → β) (i : Nat) :
    (l.zipIdx.map g)[i]? = (l[i]?).map fun a => g (a, i) := by
  rw [List.getElem?_map, List.getElem?_zipIdx]
  cases l[i]? <;> simp

/-! ### One reader -/

variable [LawfulBitmap B]

/-- What a reader of a finalized file provides in the state `s` it has after any calls. -/
theorem provides {r : Reader B} {blocks : List Block} (h : FileWith B r blocks) {s : OpenReader B} {cl : Bool}
    (hc : CacheOf r s.reader) (ho : s.isOpen = !cl) (f : ReadFails) (sched : Sched) (hs : sched.Fair) (skip : Bool)
    (filter : Option B) (deny : B) :
    (∃ rr, aggregateWithOptionsIO (fun i => !s.isOpen || f.blocks i) sched s.reader
        { skipPreCalculated := skip, filter := filter, denyFilter := some deny } = .ok rr ∧
      IsAggregate rr (selectedValues filter (some deny) (unfailed (fun k => cl || f.blocks (UInt64.ofNat k)) blocks))) ∧
    ((∃ r', getGlobalIDBitmapIO (fun n => !s.isOpen || f.bitmap n) s.reader = (.err .io, r') ∧ CacheOf r r' ∧
        (cl = true ∨ ∃ n, f.bitmap n = true)) ∨
      ∃ g r', getGlobalIDBitmapIO (fun n => !s.isOpen || f.bitmap n) s.reader = (.ok g, r') ∧ CacheOf r r' ∧
        ∀ x, Bitmap.contains g x = true ↔ ∃ v, (x, v) ∈ pairsOf blocks) := by
  obtain ⟨g, hg, hx⟩ := (h.provides inOrder inOrder_fair skip filter deny).2
  obtain ⟨env, opts, log, file, hf, henc, hr, rfl⟩ := h.opened
  obtain ⟨hu1, hu2⟩ := newReader_uncached hr
  constructor
  · obtain ⟨rr, h1, h2⟩ := (hf.reads henc h.few r hr).unfailed_aggregate (fun i => cl || f.blocks i) sched hs
      { skipPreCalculated := skip, filter := filter, denyFilter := some deny } (.inr (.inl rfl))
    refine ⟨rr, ?_, h2⟩
    rw [hc.eq, aggregateIO_cache, ho, Bool.not_not]
    exact h1
  · rcases getGlobalIDBitmapIO_or (fun n => !s.isOpen || f.bitmap n) s.reader with h1 | ⟨⟨n, hfail⟩, h1⟩
    · right
      obtain ⟨h2, h3⟩ := hc.get hu1 hu2
      refine ⟨g, _, ?_, h3, hx⟩
      rw [h1, ← hg, ← h2]
    · left
      refine ⟨s.reader, h1, hc, ?_⟩
      rw [ho, Bool.not_not, Bool.or_eq_true] at hfail
      exact hfail.imp id fun hn => ⟨n, hn⟩

omit [LawfulBitmap B] in
/-- The values one reader contributes if some blocks are not read. -/
theorem selected_visibleRead (filter : Option B) (deny : B) (f : List Block) (newer : List (List Block × List Block))
    (hd : ∀ x, Bitmap.contains deny x = true ↔ ∃ g ∈ newer, ∃ v, (x, v) ∈ pairsOf g.1) :
    selectedValues filter (some deny) f =
      ((pairsOf f).filter (fun p => allowedBy filter p.1 && !(newer.any fun g => (pairsOf g.1).any fun q => q.1 == p.1))).map Prod.snd := by
  rw [selected_visible filter deny f (newer.map Prod.fst) (by
    intro x
    rw [hd]
    constructor
    · rintro ⟨g, hg, h⟩; exact ⟨g.1, List.mem_map.2 ⟨g, hg, rfl⟩, h⟩
    · rintro ⟨g, hg, h⟩
      obtain ⟨g', hg', rfl⟩ := List.mem_map.1 hg
      exact ⟨g', hg', h⟩)]
  simp only [List.any_map]
  rfl

/-! ### The loop -/

/-- A reader of the stack: as opened, the blocks of its file, whether it has been closed, and the reads that fail. -/
structure Item (B : Type) where
  reader : Reader B
  blocks : List Block
  closed : Bool
  fails : ReadFails

/-- The blocks of the file and those that are read. -/
def Item.read (d : Item B) : List Block × List Block :=
  (d.blocks, unfailed (fun k => d.closed || d.fails.blocks (UInt64.ofNat k)) d.blocks)

/-- The state of the reader. -/
def Item.Is (s : OpenReader B) (d : Item B) : Prop := CacheOf d.reader s.reader ∧ s.isOpen = !d.closed

theorem loop_spec (sched : Sched) (hs : sched.Fair) (skip : Bool) (filter : Option B) :
    ∀ (items : List (ReadFails × OpenReader B)) (data : List (Item B)) (newer : List (List Block × List Block)) (deny : B)
      (result : AggregateResult),
      Each (fun x d => x.1 = d.fails ∧ d.Is x.2 ∧ FileWith B d.reader d.blocks) items data →
      (∀ x, Bitmap.contains deny x = true ↔ ∃ g ∈ newer, ∃ v, (x, v) ∈ pairsOf g.1) →
      IsAggregate result ((visibleRead (allowedBy filter) newer).map Prod.snd) →
      ((multiLoopIO sched skip filter items deny result).1 = .err .io ∧
          ∃ d ∈ data, d.closed = true ∨ ∃ n, d.fails.bitmap n = true) ∨
        ∃ res, (multiLoopIO sched skip filter items deny result).1 = .ok res ∧
          IsAggregate res ((visibleRead (allowedBy filter) ((data.map Item.read).reverse ++ newer)).map Prod.snd) := by
  intro items
  induction items with
  | nil =>
    intro data newer deny result hE _ hres
    cases hE
    exact .inr ⟨result, rfl, hres⟩
  | cons x xs ih =>
    intro data newer deny result hE hd hres
    cases hE with
    | @cons _ d _ ds hx ht =>
      obtain ⟨f, s⟩ := x
      obtain ⟨hfd, ⟨hc, ho⟩, hf⟩ := hx
      dsimp only at hfd hc ho
      subst hfd
      obtain ⟨⟨rr, h1, h2⟩, hbm⟩ := provides hf hc ho d.fails sched hs skip filter deny
      rcases hbm with ⟨r', h3, h4, h5⟩ | ⟨g, r', h3, h4, h5⟩
      · unfold multiLoopIO
        rw [h1]
        dsimp only
        rw [h3]
        exact .inl ⟨rfl, d, List.mem_cons_self .., h5⟩
      · rw [selected_visibleRead filter deny _ newer hd] at h2
        have hm := (IsAggregate.merge hres h2).perm (ws := (visibleRead (allowedBy filter) (d.read :: newer)).map Prod.snd) (by
          have hv : visibleRead (allowedBy filter) (d.read :: newer) =
            (pairsOf (unfailed (fun k => d.closed || d.fails.blocks (UInt64.ofNat k)) d.blocks)).filter (fun p => allowedBy filter p.1 &&
              !(newer.any fun g => (pairsOf g.1).any fun q => q.1 == p.1)) ++ visibleRead (allowedBy filter) newer := rfl
          rw [hv, List.map_append]
          exact List.perm_append_comm)
        have ih2 := ih ds (d.read :: newer) (Bitmap.or deny g) _ ht (by
          intro x
          rw [LawfulBitmap.contains_or, Bool.or_eq_true, hd, h5]
          constructor
          · rintro (⟨g, hg, h⟩ | h)
            · exact ⟨g, List.mem_cons_of_mem _ hg, h⟩
            · exact ⟨d.read, List.mem_cons_self .., h⟩
          · rintro ⟨g, hg, h⟩
            rcases List.mem_cons.1 hg with rfl | hg
            · exact .inr h
            · exact .inl ⟨g, hg, h⟩) hm
        unfold multiLoopIO
        rw [h1]
        dsimp only
        rw [h3]
        dsimp only
        rcases ih2 with ⟨e1, e, he, e2⟩ | ⟨res, e1, e2⟩
        · exact .inl ⟨e1, e, List.mem_cons_of_mem _ he, e2⟩
        · refine .inr ⟨res, e1, ?_⟩
          rw [List.map_cons, List.reverse_cons, List.append_assoc]
          exact e2

/-! ### Histories -/

omit [LawfulBitmap B] in
theorem getBitmap_flag (r : Reader B) : (getGlobalIDBitmap r).2.cacheGlobalIDs = r.cacheGlobalIDs := by
  unfold getGlobalIDBitmap
  split
  · rfl
  · dsimp only
    repeat' split
    all_goals first | rfl | (rename_i h; simp_all)

/-- What the calls on a reader that `Aggregate` makes leave of its state. -/
def Kept (s : OpenReader B) (x : OpenReader B) : Prop :=
  s.isOpen = x.isOpen ∧ s.reader.cacheGlobalIDs = x.reader.cacheGlobalIDs ∧
    ∀ r : Reader B, r.globalIDs = none → r.cacheGlobalIDs = false → CacheOf r x.reader → CacheOf r s.reader

omit [LawfulBitmap B] in
theorem bitmapIO_kept (f : Nat → Bool) (s : OpenReader B) : Kept { s with reader := (getGlobalIDBitmapIO f s.reader).2 } s := by
  rcases getGlobalIDBitmapIO_or f s.reader with h | ⟨_, h⟩
  · rw [h]
    exact ⟨rfl, getBitmap_flag _, fun r h1 h2 hc => (hc.get h1 h2).2⟩
  · rw [h]
    exact ⟨rfl, rfl, fun r _ _ hc => hc⟩

omit [LawfulBitmap B] in
theorem loop_kept (sched : Sched) (skip : Bool) (filter : Option B) (items : List (ReadFails × OpenReader B)) :
    ∀ deny result, Each Kept (multiLoopIO sched skip filter items deny result).2 (items.map Prod.snd) := by
  have same : ∀ l : List (OpenReader B), Each Kept l l := by
    intro l
    induction l with
    | nil => exact .nil
    | cons s l ih => exact .cons ⟨rfl, rfl, fun _ _ _ h => h⟩ ih
  induction items with
  | nil => intro deny result; exact .nil
  | cons x xs ih =>
    intro deny result
    obtain ⟨f, s⟩ := x
    unfold multiLoopIO
    have hk := bitmapIO_kept (fun n => !s.isOpen || f.bitmap n) s
    split
    · exact .cons ⟨rfl, rfl, fun _ _ _ h => h⟩ (same _)
    · exact .cons ⟨rfl, rfl, fun _ _ _ h => h⟩ (same _)
    · split
      · rename_i r' hb; rw [hb] at hk; exact .cons hk (same _)
      · rename_i r' hb; rw [hb] at hk; exact .cons hk (same _)
      · rename_i g r' hb; rw [hb] at hk
        exact .cons hk (ih _ _)

/-- The states of the readers after some calls. -/
structure Stack (readers : List (Reader B)) (calls : List (MultiCall B)) (ss : List (OpenReader B)) : Prop where
  len : ss.length = readers.length
  each : ∀ (i : Nat) s r, ss[i]? = some s → readers[i]? = some r → CacheOf r s.reader ∧
    s.isOpen = (!closesReader calls i) ∧ (enables calls = false → s.reader.cacheGlobalIDs = false)

omit [LawfulBitmap B] in
theorem Stack.step {readers : List (Reader B)} (hfresh : ∀ r ∈ readers, r.globalIDs = none ∧ r.cacheGlobalIDs = false)
    {calls : List (MultiCall B)} {ss : List (OpenReader B)} (h : Stack readers calls ss) (c : MultiCall B) :
    Stack readers (calls ++ [c]) (c.run ss).2 := by
  have hcl : ∀ i, closesReader (calls ++ [c]) i = (closesReader calls i || closesReader [c] i) := by
    intro i; unfold closesReader; rw [List.any_append]
  have hen : enables (calls ++ [c]) = (enables calls || enables [c]) := by
    unfold enables; rw [List.any_append]
  cases c with
  | aggregate fails sched skip filter =>
    have hk : Each Kept (multiAggregateIO fails sched ss skip filter).2 ss := by
      unfold multiAggregateIO
      split
      · rename_i h0
        rw [List.eq_nil_of_length_eq_zero h0]; exact .nil
      · have := (loop_kept sched skip filter (ss.zipIdx.map fun x => (fails x.2, x.1)).reverse Bitmap.empty .zero).reverse
        rw [List.map_reverse, List.reverse_reverse, List.map_map] at this
        have e : ss.zipIdx.map (Prod.snd ∘ fun x : OpenReader B × Nat => (fails x.2, x.1)) = ss := by
          have : (Prod.snd ∘ fun x : OpenReader B × Nat => (fails x.2, x.1)) = Prod.fst := rfl
          rw [this, List.zipIdx_map_fst]
        rw [e] at this
        exact this
    obtain ⟨hl, hi⟩ := index_of_each hk
    refine ⟨hl.trans h.len, fun i s r hs hr => ?_⟩
    have hlt : i < ss.length := by
      rw [h.len]; exact (List.getElem?_eq_some_iff.1 hr).1
    obtain ⟨k1, k2, k3⟩ := hi i s ss[i] hs (List.getElem?_eq_getElem hlt)
    obtain ⟨h1, h2, h3⟩ := h.each i ss[i] r (List.getElem?_eq_getElem hlt) hr
    obtain ⟨f1, f2⟩ := hfresh r (List.mem_of_getElem? hr)
    refine ⟨k3 r f1 f2 h1, ?_, fun he => ?_⟩
    · rw [k1, h2, hcl]; simp [closesReader]
    · rw [k2]; refine h3 ?_
      rw [hen] at he; simpa [enables] using he
  | close failing =>
    have hgen : ∀ (l : List (Bool × OpenReader B)) (e : Except Err Unit), (closeAll l e).2 = l.map fun x => { x.2 with isOpen := false } := by
      intro l
      induction l with
      | nil => intro e; rfl
      | cons x l ih => intro e; simp only [closeAll, closeReader, ih, List.map_cons]
    have hss : ((MultiCall.close failing : MultiCall B).run ss).2 = ss.map fun s => { s with isOpen := false } := by
      show (closeAll _ _).2 = _
      rw [hgen, List.map_map]
      have : ((fun x : Bool × OpenReader B => ({ x.2 with isOpen := false } : OpenReader B)) ∘
          fun x : OpenReader B × Nat => (failing x.2, x.1)) = (fun s => { s with isOpen := false }) ∘ Prod.fst := rfl
      rw [this, ← List.map_map, List.zipIdx_map_fst]
    rw [hss]
    refine ⟨by rw [List.length_map]; exact h.len, fun i s r hs hr => ?_⟩
    rw [List.getElem?_map] at hs
    cases hx : ss[i]? with
    | none => rw [hx] at hs; cases hs
    | some x =>
      rw [hx] at hs
      cases hs
      obtain ⟨h1, h2, h3⟩ := h.each i x r hx hr
      refine ⟨h1, ?_, fun he => h3 (by rw [hen] at he; simpa [enables] using he)⟩
      rw [hcl]; simp [closesReader]
  | on j c =>
    have hrun : ((MultiCall.on j c : MultiCall B).run ss).2 = match ss[j]? with
        | some s => ss.set j (c.run s).2
        | none => ss := by
      simp only [MultiCall.run]
      generalize ss[j]? = o
      cases o <;> rfl
    rw [hrun]
    have other : ∀ i, i ≠ j → closesReader (calls ++ [.on j c]) i = closesReader calls i := by
      intro i hi
      rw [hcl]
      have : closesReader [MultiCall.on j c] i = false := by
        unfold closesReader
        cases c <;> simp
        omega
      rw [this, Bool.or_false]
    have hen' : enables (calls ++ [.on j c]) = false → enables calls = false := by
      intro he; rw [hen] at he; simp only [Bool.or_eq_false_iff] at he; exact he.1
    cases hj : ss[j]? with
    | none =>
      dsimp only
      refine ⟨h.len, fun i s r hs hr => ?_⟩
      obtain ⟨h1, h2, h3⟩ := h.each i s r hs hr
      have hij : i ≠ j := by rintro rfl; rw [hj] at hs; cases hs
      exact ⟨h1, by rw [other i hij]; exact h2, fun he => h3 (hen' he)⟩
    | some x =>
      dsimp only
      refine ⟨by rw [List.length_set]; exact h.len, fun i s r hs hr => ?_⟩
      rw [List.getElem?_set] at hs
      by_cases hij : j = i
      · subst hij
        rw [if_pos rfl, if_pos (List.getElem?_eq_some_iff.1 hj).1] at hs
        cases hs
        obtain ⟨h1, h2, h3⟩ := h.each j x r hj hr
        obtain ⟨f1, f2⟩ := hfresh r (List.mem_of_getElem? hr)
        obtain ⟨a, b⟩ := runIO_state r f1 f2 [c] x h1
        refine ⟨a, ?_, fun he => ?_⟩
        · have b' : (c.run x).2.isOpen = (x.isOpen && !closes [c]) := b
          rw [b', h2, hcl]
          have : closesReader [MultiCall.on j c] j = closes [c] := by
            unfold closesReader closes
            cases c <;> simp
          rw [this]
          cases closesReader calls j <;> simp
        · have hc0 := h3 (hen' he)
          rw [hen] at he
          cases c with
          | enable => simp [enables] at he
          | disable => rfl
          | getBitmap fail =>
            have := (bitmapIO_kept (fun n => !x.isOpen || fail n) x).2.1
            exact this.trans hc0
          | getPairs fail i => exact hc0
          | aggregate fail sched o => exact hc0
          | close failing => exact hc0
      · rw [if_neg hij] at hs
        obtain ⟨h1, h2, h3⟩ := h.each i s r hs hr
        exact ⟨h1, by rw [other i (Ne.symm hij)]; exact h2, fun he => h3 (hen' he)⟩

omit [LawfulBitmap B] in
theorem Stack.run {readers : List (Reader B)} (hfresh : ∀ r ∈ readers, r.globalIDs = none ∧ r.cacheGlobalIDs = false)
    (more : List (MultiCall B)) : ∀ {calls : List (MultiCall B)} {ss : List (OpenReader B)}, Stack readers calls ss →
    Stack readers (calls ++ more) (runMulti more ss).2 := by
  induction more with
  | nil => intro calls ss h; rw [List.append_nil]; exact h
  | cons c cs ih =>
    intro calls ss h
    have := ih (h.step hfresh c)
    rw [List.append_assoc] at this
    exact this

omit [LawfulBitmap B] in
theorem FileWith.fresh {r : Reader B} {blocks : List Block} (h : FileWith B r blocks) :
    r.globalIDs = none ∧ r.cacheGlobalIDs = false := by
  obtain ⟨_, _, _, _, _, _, hr, _⟩ := h.opened
  exact newReader_uncached hr

omit [LawfulBitmap B] in
theorem stack_of {readers : List (Reader B)} {files : List (List Block)} (h : Each (FileWith B) readers files)
    (calls : List (MultiCall B)) : Stack readers calls (runMulti calls (readers.map fun r => ⟨r, true⟩)).2 := by
  have hfresh : ∀ r ∈ readers, r.globalIDs = none ∧ r.cacheGlobalIDs = false := by
    intro r hr
    obtain ⟨hl, hi⟩ := index_of_each h
    obtain ⟨i, hlt, rfl⟩ := List.getElem_of_mem hr
    exact FileWith.fresh (hi i readers[i] (files[i]'(by omega)) (List.getElem?_eq_getElem hlt) (List.getElem?_eq_getElem (by omega)))
  have h0 : Stack readers [] (readers.map fun r => (⟨r, true⟩ : OpenReader B)) := by
    refine ⟨by simp, fun i s r hs hr => ?_⟩
    rw [List.getElem?_map, hr] at hs
    cases hs
    obtain ⟨f1, f2⟩ := hfresh r (List.mem_of_getElem? hr)
    refine ⟨⟨rfl, rfl, rfl, rfl, fun b hb => ?_⟩, rfl, fun _ => f2⟩
    change r.globalIDs = some b at hb
    rw [f1] at hb; cases hb
  exact h0.run hfresh calls

/-! ### The claims -/

omit [LawfulBitmap B] [Bitmap B] in
theorem data_spec {readers : List (Reader B)} {files : List (List Block)} (hl : readers.length = files.length)
    (cl : Nat → Bool) (fails : Nat → ReadFails) :
    ∃ data : List (Item B), data.length = readers.length ∧
      (∀ (i : Nat) r f, readers[i]? = some r → files[i]? = some f → data[i]? = some ⟨r, f, cl i, fails i⟩) ∧
      data.map Item.read = readOf (fun i k => cl i || (fails i).blocks (UInt64.ofNat k)) files := by
  refine ⟨((readers.zip files).zipIdx).map fun x => ⟨x.1.1, x.1.2, cl x.2, fails x.2⟩, ?_, ?_, ?_⟩
  · simp [hl]
  · intro i r f hr hf
    rw [zipIdx_map_getElem?, (List.getElem?_zip_eq_some (z := (r, f))).2 ⟨hr, hf⟩]
    rfl
  · apply List.ext_getElem?
    intro i
    rw [List.map_map, zipIdx_map_getElem?]
    unfold readOf
    rw [zipIdx_map_getElem?]
    cases hf : files[i]? with
    | none =>
      rw [List.getElem?_eq_none_iff.2]
      · rfl
      · rw [List.length_zip, hl, Nat.min_self]; exact List.getElem?_eq_none_iff.1 hf
    | some f =>
      have hlt := (List.getElem?_eq_some_iff.1 hf).1
      rw [(List.getElem?_zip_eq_some (z := (readers[i]'(by omega), f))).2 ⟨List.getElem?_eq_getElem (by omega), hf⟩]
      rfl

omit [LawfulBitmap B] in
theorem stack_items {readers : List (Reader B)} {files : List (List Block)} {calls : List (MultiCall B)}
    {ss : List (OpenReader B)} (hst : Stack readers calls ss)
    (hi : ∀ (i : Nat) r f, readers[i]? = some r → files[i]? = some f → FileWith B r f) (hl : readers.length = files.length)
    {fails : Nat → ReadFails} {data : List (Item B)} (hdl : data.length = readers.length)
    (hdi : ∀ (i : Nat) r f, readers[i]? = some r → files[i]? = some f →
      data[i]? = some ⟨r, f, closesReader calls i, fails i⟩) :
    Each (fun (x : ReadFails × OpenReader B) d => x.1 = d.fails ∧ d.Is x.2 ∧ FileWith B d.reader d.blocks)
      (ss.zipIdx.map fun x => (fails x.2, x.1)) data := by
  refine each_of_index _ _ (by simp [hdl, hst.len]) fun i x d hx hd => ?_
  have hlt : i < readers.length := by rw [← hdl]; exact (List.getElem?_eq_some_iff.1 hd).1
  have hr : readers[i]? = some readers[i] := List.getElem?_eq_getElem hlt
  have hf : files[i]? = some (files[i]'(by omega)) := List.getElem?_eq_getElem (by omega)
  have hsi : ss[i]? = some (ss[i]'(by rw [hst.len]; exact hlt)) := List.getElem?_eq_getElem _
  rw [zipIdx_map_getElem?, hsi] at hx
  rw [hdi i _ _ hr hf] at hd
  cases hx; cases hd
  obtain ⟨h1, h2, _⟩ := hst.each i _ _ hsi hr
  exact ⟨rfl, ⟨h1, h2⟩, hi i _ _ hr hf⟩

/-- **C65.** After any calls, whatever reads fail, `Aggregate` of a stack of files either reports a failed read (and then a
read of a bitmap failed, or a reader has been closed) or returns the exact aggregate of the visible pairs among those in the
blocks that were read. -/
theorem C65_aggregate {readers : List (Reader B)} {files : List (List Block)} (h : Each (FileWith B) readers files)
    (calls : List (MultiCall B)) (fails : Nat → ReadFails) (sched : Sched) (hs : sched.Fair) (skip : Bool)
    (filter : Option B) :
    ∃ res, ((MultiCall.aggregate fails sched skip filter).run (runMulti calls (readers.map fun r => ⟨r, true⟩)).2).1 =
        .result res ∧
      ((res = .err .io ∧ ∃ i, i < files.length ∧ (closesReader calls i = true ∨ ∃ n, (fails i).bitmap n = true)) ∨
        ∃ a, res = .ok a ∧
          IsAggregate a ((visibleRead (allowedBy filter) (readOf (unread calls fails) files)).map Prod.snd)) := by
  have hst := stack_of h calls
  generalize (runMulti calls (readers.map fun r => (⟨r, true⟩ : OpenReader B))).2 = ss at hst
  obtain ⟨hl, hi⟩ := index_of_each h
  refine ⟨(multiAggregateIO fails sched ss skip filter).1, rfl, ?_⟩
  unfold multiAggregateIO
  by_cases h0 : ss.length = 0
  · rw [if_pos h0]
    refine .inr ⟨_, rfl, ?_⟩
    have : files = [] := List.eq_nil_of_length_eq_zero (by rw [← hl, ← hst.len, h0])
    rw [this]
    exact zero_isAggregate
  · rw [if_neg h0]
    obtain ⟨data, hdl, hdi, hread⟩ := data_spec hl (closesReader calls) fails
    have hE := stack_items hst hi hl hdl hdi
    have hrun := loop_spec sched hs skip filter _ _ [] Bitmap.empty .zero hE.reverse
      (by simp [LawfulBitmap.contains_empty]) zero_isAggregate
    dsimp only
    rcases hrun with ⟨e1, d, hd, e2⟩ | ⟨res, e1, e2⟩
    · refine .inl ⟨e1, ?_⟩
      obtain ⟨i, hlt, rfl⟩ := List.getElem_of_mem (List.mem_reverse.1 hd)
      refine ⟨i, by omega, ?_⟩
      have := hdi i _ _ (List.getElem?_eq_getElem (by omega : i < readers.length))
        (List.getElem?_eq_getElem (by omega : i < files.length))
      rw [List.getElem?_eq_getElem hlt] at this
      rw [Option.some.injEq] at this
      rw [this] at e2
      exact e2
    · refine .inr ⟨res, e1, ?_⟩
      rw [← List.map_reverse, List.reverse_reverse, List.append_nil, hread] at e2
      exact e2

theorem flatMap_sublist {α β : Type} {l₁ l₂ : List α} (h : l₁.Sublist l₂) (g : α → List β) :
    (l₁.flatMap g).Sublist (l₂.flatMap g) := by
  induction h with
  | slnil => exact .slnil
  | cons a _ ih => rw [List.flatMap_cons]; exact ih.trans (List.sublist_append_right _ _)
  | cons_cons a _ ih => rw [List.flatMap_cons, List.flatMap_cons]; exact List.Sublist.append (List.Sublist.refl _) ih

theorem any_fst (fail : Nat → Nat → Bool) (fs : List (List Block)) (n : Nat) (p : Pair) :
    ((fs.zipIdx n).map fun x => (x.1, unfailed (fail x.2) x.1)).any (fun g => (pairsOf g.1).any fun q => q.1 == p.1) =
      fs.any fun g => (pairsOf g).any fun q => q.1 == p.1 := by
  have h : fs.any (fun g => (pairsOf g).any fun q => q.1 == p.1) =
      ((fs.zipIdx n).map Prod.fst).any fun g => (pairsOf g).any fun q => q.1 == p.1 := by rw [List.zipIdx_map_fst]
  rw [h, List.any_map, List.any_map]
  rfl

/-- **C65.** Failures only remove pairs from what is aggregated: what is read is a part of the visible pairs, so no
failure makes an overwritten value of an older file count. -/
theorem C65_noStale (allowed : UInt64 → Bool) (fail : Nat → Nat → Bool) (files : List (List Block)) :
    (visibleRead allowed (readOf fail files)).Sublist (visible allowed files) := by
  unfold readOf
  generalize 0 = n
  induction files generalizing n with
  | nil => exact .slnil
  | cons f fs ih =>
    rw [List.zipIdx_cons, List.map_cons]
    unfold visibleRead visible
    refine List.Sublist.append ?_ (ih (n + 1))
    have hany := any_fst fail fs (n + 1)
    simp only [hany]
    refine List.Sublist.filter _ ?_
    unfold pairsOf unfailed
    have hsub : ((f.zipIdx.filter fun x => !fail n x.2).map Prod.fst).Sublist f := by
      have := List.Sublist.map Prod.fst (List.filter_sublist (p := fun x : Block × Nat => !fail n x.2) (l := f.zipIdx))
      rwa [List.zipIdx_map_fst] at this
    exact flatMap_sublist hsub _

theorem visibleRead_all (allowed : UInt64 → Bool) (fail : Nat → Nat → Bool) (files : List (List Block))
    (h : ∀ i, i < files.length → ∀ k, fail i k = false) : visibleRead allowed (readOf fail files) = visible allowed files := by
  unfold readOf
  have gen : ∀ (fs : List (List Block)) n, (∀ i, i < fs.length → ∀ k, fail (n + i) k = false) →
      visibleRead allowed ((fs.zipIdx n).map fun x => (x.1, unfailed (fail x.2) x.1)) = visible allowed fs := by
    intro fs
    induction fs with
    | nil => intro n _; rfl
    | cons f fs ih =>
      intro n hn
      rw [List.zipIdx_cons, List.map_cons]
      unfold visibleRead visible
      rw [ih (n + 1) fun i hi k => by
        have := hn (i + 1) (by simp; omega) k
        rwa [show n + 1 + i = n + (i + 1) by omega], unfailed_none f (fail n) fun k _ => hn 0 (by simp) k]
      have hany := any_fst fail fs (n + 1)
      simp only [hany]
  exact gen files 0 fun i hi k => by rw [Nat.zero_add]; exact h i hi k

/-- **C65.** Failures of the past leave no trace: if no reader has been closed and no read fails during the call, the result
is that of C24, whatever failed in earlier calls. -/
theorem C65_recovers {readers : List (Reader B)} {files : List (List Block)} (h : Each (FileWith B) readers files)
    (calls : List (MultiCall B)) (hcl : ∀ i, i < files.length → closesReader calls i = false) (fails : Nat → ReadFails)
    (hb : ∀ i, i < files.length → ∀ k, (fails i).blocks k = false) (hm : ∀ i, i < files.length → ∀ n, (fails i).bitmap n = false)
    (sched : Sched) (hs : sched.Fair) (skip : Bool) (filter : Option B) :
    ∃ a, ((MultiCall.aggregate fails sched skip filter).run (runMulti calls (readers.map fun r => ⟨r, true⟩)).2).1 =
        .result (.ok a) ∧ IsAggregate a ((visible (allowedBy filter) files).map Prod.snd) := by
  obtain ⟨res, h1, ⟨_, i, hi, h2⟩ | ⟨a, rfl, h2⟩⟩ := C65_aggregate h calls fails sched hs skip filter
  · exfalso
    rcases h2 with h2 | ⟨n, h2⟩
    · rw [hcl i hi] at h2; cases h2
    · rw [hm i hi n] at h2; cases h2
  · refine ⟨a, h1, ?_⟩
    rw [visibleRead_all _ _ _ fun i hi k => by unfold unread; rw [hcl i hi, hb i hi]; rfl] at h2
    exact h2

/-- A closed reader without a cached bitmap fails. -/
theorem closed_bitmap {r : Reader B} {blocks : List Block} (h : FileWith B r blocks) {r' : Reader B} (hc : CacheOf r r')
    (hn : r'.cacheGlobalIDs = false) : getGlobalIDBitmapIO (fun _ => true) r' = (.err .io, r') := by
  obtain ⟨env, opts, log, file, hf, henc, hr, rfl⟩ := h.opened
  obtain ⟨hd, blks, bo, fs, hcon⟩ := hf.contents' (hf.noMismatch henc.allMatch)
  have h1 := hcon.newReader (B := B) h.few
  rw [hr] at h1
  cases h1
  have H := hcon.ok
  have hsm := H.small
  have hfit := H.bmFits
  have hfs := H.fsLe
  have hbo := H.bo64
  have hoff : hd.bitmapOffset ≠ 0 := by
    rw [H.bmOff]; intro hc
    have := congrArg UInt64.toNat hc
    simp at this; omega
  have hsize : hd.bitmapSize ≠ 0 := by
    rw [H.bmSize]; intro hc
    have := congrArg UInt64.toNat hc
    rw [UInt64.toNat_ofNat'] at this
    simp at this; omega
  unfold getGlobalIDBitmapIO
  rw [hn]
  have hh := hc.header
  have hhd : r'.header = hd := hh
  simp only [hhd, hoff, hsize, or_self, if_false]
  rw [H.bmOff, uint64_ofNat_toInt64]
  have : readBytesAtIO true r'.bytes (Int64.ofNat bo) 4 = .err .io := by
    unfold readBytesAtIO
    rw [if_neg (by decide), if_neg (int64_ofNat_not_neg bo (by omega)), if_neg (by decide), if_pos rfl]
  rw [this]
  cases r'.globalIDs <;> rfl

/-- A closed reader without a cached bitmap stops the loop with the error. -/
theorem loop_closed (sched : Sched) (hs : sched.Fair) (skip : Bool) (filter : Option B) :
    ∀ (items : List (ReadFails × OpenReader B)) (data : List (Item B)) (deny : B) (result : AggregateResult),
      Each (fun x d => x.1 = d.fails ∧ d.Is x.2 ∧ FileWith B d.reader d.blocks) items data →
      (∃ x ∈ items, x.2.isOpen = false ∧ x.2.reader.cacheGlobalIDs = false) →
      (multiLoopIO sched skip filter items deny result).1 = .err .io := by
  intro items
  induction items with
  | nil => rintro data deny result _ ⟨x, hx, _⟩; cases hx
  | cons x xs ih =>
    intro data deny result hE hex
    cases hE with
    | @cons _ d _ ds hx ht =>
      obtain ⟨f, s⟩ := x
      obtain ⟨hfd, ⟨hc, ho⟩, hf⟩ := hx
      dsimp only at hfd hc ho
      subst hfd
      obtain ⟨⟨rr, h1, h2⟩, hbm⟩ := provides hf hc ho d.fails sched hs skip filter deny
      rcases hbm with ⟨r', h3, h4, h5⟩ | ⟨g, r', h3, h4, h5⟩
      · unfold multiLoopIO
        rw [h1]
        dsimp only
        rw [h3]
      · obtain ⟨y, hy, hy1, hy2⟩ := hex
        rcases List.mem_cons.1 hy with rfl | hy
        · exfalso
          dsimp only at hy1 hy2
          have hfun : (fun n => !s.isOpen || d.fails.bitmap n) = fun _ => true := by funext n; rw [hy1]; rfl
          rw [hfun, closed_bitmap hf hc hy2] at h3
          cases h3
        · unfold multiLoopIO
          rw [h1]
          dsimp only
          rw [h3]
          exact ih ds _ _ ht ⟨y, hy, hy1, hy2⟩

/-- **C65.** If one of the readers has been closed, by `MultiReader.Close` or directly, and no bitmap cache was ever enabled,
`Aggregate` returns the error of reading a closed file. -/
theorem C65_closed {readers : List (Reader B)} {files : List (List Block)} (h : Each (FileWith B) readers files)
    (calls : List (MultiCall B)) (i : Nat) (hi : i < files.length) (hcl : closesReader calls i = true)
    (hen : enables calls = false) (fails : Nat → ReadFails) (sched : Sched) (hs : sched.Fair) (skip : Bool)
    (filter : Option B) :
    ((MultiCall.aggregate fails sched skip filter).run (runMulti calls (readers.map fun r => ⟨r, true⟩)).2).1 =
      .result (.err .io) := by
  have hst := stack_of h calls
  generalize (runMulti calls (readers.map fun r => (⟨r, true⟩ : OpenReader B))).2 = ss at hst
  obtain ⟨hl, hix⟩ := index_of_each h
  show MultiOut.result (multiAggregateIO fails sched ss skip filter).1 = _
  unfold multiAggregateIO
  have hlen := hst.len
  rw [if_neg (by omega)]
  obtain ⟨data, hdl, hdi, hread⟩ := data_spec hl (closesReader calls) fails
  have hE := stack_items hst hix hl hdl hdi
  dsimp only
  congr 1
  refine loop_closed sched hs skip filter _ _ _ _ hE.reverse ?_
  have hr : readers[i]? = some (readers[i]'(by omega)) := List.getElem?_eq_getElem _
  have hsi : ss[i]? = some (ss[i]'(by omega)) := List.getElem?_eq_getElem _
  obtain ⟨_, h2, h3⟩ := hst.each i _ _ hsi hr
  refine ⟨(fails i, ss[i]'(by omega)), ?_, ?_, h3 hen⟩
  · rw [List.mem_reverse]
    refine List.mem_of_getElem? (i := i) ?_
    rw [zipIdx_map_getElem?, hsi]
    rfl
  · dsimp only; rw [h2, hcl]; rfl

/-- **C65.** After `MultiReader.Close`, `Aggregate` returns that error or, if bitmaps are cached, the empty aggregate. -/
theorem C65_afterClose {readers : List (Reader B)} {files : List (List Block)} (h : Each (FileWith B) readers files)
    (calls : List (MultiCall B)) (hcl : ∃ failing, MultiCall.close failing ∈ calls) (fails : Nat → ReadFails) (sched : Sched)
    (hs : sched.Fair) (skip : Bool) (filter : Option B) :
    ∃ res, ((MultiCall.aggregate fails sched skip filter).run (runMulti calls (readers.map fun r => ⟨r, true⟩)).2).1 =
        .result res ∧ (res = .err .io ∨ ∃ a, res = .ok a ∧ a.count = 0 ∧ a.sum = 0) := by
  obtain ⟨res, h1, ⟨h2, _⟩ | ⟨a, rfl, h2⟩⟩ := C65_aggregate h calls fails sched hs skip filter
  · exact ⟨res, h1, .inl h2⟩
  · refine ⟨_, h1, .inr ⟨a, rfl, ?_⟩⟩
    obtain ⟨failing, hm⟩ := hcl
    have hall : ∀ i, closesReader calls i = true := by
      intro i
      unfold closesReader
      exact List.any_eq_true.2 ⟨_, hm, rfl⟩
    have hnil : visibleRead (allowedBy filter) (readOf (unread calls fails) files) = [] := by
      have gen : ∀ (l : List (List Block)) n, visibleRead (allowedBy filter)
          ((l.zipIdx n).map fun x => (x.1, unfailed (unread calls fails x.2) x.1)) = [] := by
        intro l
        induction l with
        | nil => intro n; rfl
        | cons g l ih =>
          intro n
          rw [List.zipIdx_cons, List.map_cons]
          unfold visibleRead
          rw [unfailed_all g _ fun k _ => by unfold unread; rw [hall]; rfl, ih]
          rfl
      exact gen files 0
    rw [hnil] at h2
    exact ⟨by rw [h2.count]; rfl, by rw [h2.sum]; rfl⟩

/-! ### Examples -/

/-- Non-vacuity of C65: reading the only block of the newest file fails. Its values 5 and 6 are missing, but the older
value 20 of ID 2 does not take their place; the next call, in which nothing fails, counts the newest values. -/
example : ∃ r1 r2 : Reader IdSet, Each (FileWith IdSet) [r1, r2] [acked oldLog, acked newLog] ∧ ∃ a b,
    (runMulti [.aggregate (fun i => ⟨fun _ => i == 1, fun _ => false⟩) inOrder false none,
        .aggregate (fun _ => ⟨fun _ => false, fun _ => false⟩) inOrder false none] [⟨r1, true⟩, ⟨r2, true⟩]).1 =
      [.result (.ok a), .result (.ok b)] ∧ a.count = 3 ∧ a.sum = 19 ∧ b.count = 5 ∧ b.sum = 30 := by
  obtain ⟨r1, r2, h⟩ := stack_example
  obtain ⟨res, h1, hres⟩ := C65_aggregate h [] (fun i => ⟨fun _ => i == 1, fun _ => false⟩) inOrder inOrder_fair false none
  rcases hres with ⟨_, i, _, hf | ⟨_, hf⟩⟩ | ⟨a, rfl, ha⟩
  · cases hf
  · cases hf
  obtain ⟨b, h2, hb⟩ := C65_recovers h [.aggregate (fun i => ⟨fun _ => i == 1, fun _ => false⟩) inOrder false none]
    (fun _ _ => rfl) (fun _ => ⟨fun _ => false, fun _ => false⟩) (fun _ _ _ => rfl) (fun _ _ _ => rfl) inOrder inOrder_fair false none
  refine ⟨r1, r2, h, a, b, ?_, ?_⟩
  · simp only [runMulti, List.map] at h1 h2 ⊢
    rw [h1, h2]
  · rw [show (visibleRead (allowedBy (none : Option IdSet)) (readOf (unread ([] : List (MultiCall IdSet))
      fun i => ⟨fun _ => i == 1, fun _ => false⟩) [acked oldLog, acked newLog])).map Prod.snd = [30, -10, -1] from by decide] at ha
    rw [show (visible (allowedBy (none : Option IdSet)) [acked oldLog, acked newLog]).map Prod.snd = [30, -10, -1, 5, 6] from by decide] at hb
    exact ⟨by rw [ha.count]; rfl, by rw [ha.sum]; decide, by rw [hb.count]; rfl, by rw [hb.sum]; decide⟩

/-- Non-vacuity of `C65_closed`: the client closes the older reader. -/
example : ∃ r1 r2 : Reader IdSet, Each (FileWith IdSet) [r1, r2] [acked oldLog, acked newLog] ∧
    (runMulti [.on 0 (.close false), .aggregate (fun _ => ⟨fun _ => false, fun _ => false⟩) inOrder false none]
      [⟨r1, true⟩, ⟨r2, true⟩]).1 = [.reader (.closed (.ok ())), .result (.err .io)] := by
  obtain ⟨r1, r2, h⟩ := stack_example
  have h1 := C65_closed h [.on 0 (.close false)] 0 (by decide) rfl rfl (fun _ => ⟨fun _ => false, fun _ => false⟩) inOrder
    inOrder_fair false none
  refine ⟨r1, r2, h, ?_⟩
  simp only [runMulti, List.map] at h1 ⊢
  rw [h1]
  rfl

omit [LawfulBitmap B] in
/-- Enabling the cache and reading the bitmap fills the cache. -/
theorem fill_cache {r : Reader B} (h1 : r.globalIDs = none) (h2 : r.cacheGlobalIDs = false) {g : B}
    (h : (getGlobalIDBitmap r).1 = .ok g) :
    getGlobalIDBitmapIO (fun _ => false) (enableCaching r) = (.ok g, { r with globalIDs := some g, cacheGlobalIDs := true }) := by
  have e : getGlobalIDBitmapIO (fun _ => false) (enableCaching r) = getGlobalIDBitmap (enableCaching r) := by
    rcases getGlobalIDBitmapIO_or (fun _ => false) (enableCaching r) with h | ⟨⟨_, h⟩, _⟩
    · exact h
    · cases h
  rw [e]
  unfold getGlobalIDBitmap at h ⊢
  unfold enableCaching
  rw [h1, h2] at h
  rw [h1]
  dsimp only at h ⊢
  by_cases hz : r.header.bitmapOffset = 0 ∨ r.header.bitmapSize = 0
  · rw [if_pos hz] at h ⊢
    cases h
    rfl
  · rw [if_neg hz] at h ⊢
    split at h
    · cases h
    · cases h
    · split at h
      · cases h
      · cases h
      · rename_i hb2
        simp only [hb2]
        cases h
        rfl

/-- **C65 cannot be strengthened to an error after every `Close`:** with cached bitmaps, `Aggregate` on a closed stack of files
with six pairs returns count 0 and no error. -/
theorem C65_refuted_silent : ∃ r1 r2 : Reader IdSet, Each (FileWith IdSet) [r1, r2] [acked oldLog, acked newLog] ∧
    ∃ (calls : List (MultiCall IdSet)) (a : AggregateResult), (∃ failing, MultiCall.close failing ∈ calls) ∧
      ((MultiCall.aggregate (fun _ => ⟨fun _ => false, fun _ => false⟩) inOrder false none).run
        (runMulti calls ([r1, r2].map fun r => ⟨r, true⟩)).2).1 = .result (.ok a) ∧ a.count = 0 ∧ a.sum = 0 := by
  obtain ⟨r1, r2, hE⟩ := stack_example
  refine ⟨r1, r2, hE, [.on 0 .enable, .on 1 .enable, .on 0 (.getBitmap fun _ => false), .on 1 (.getBitmap fun _ => false),
    .close fun _ => false], ?_⟩
  obtain ⟨res, h1, h2⟩ := C65_afterClose hE [.on 0 .enable, .on 1 .enable, .on 0 (.getBitmap fun _ => false),
    .on 1 (.getBitmap fun _ => false), .close fun _ => false] ⟨fun _ => false, by simp⟩
    (fun _ => ⟨fun _ => false, fun _ => false⟩) inOrder inOrder_fair false none
  rcases h2 with rfl | ⟨a, rfl, ha, hb⟩
  · exfalso
    cases hE with
    | cons f1 hE =>
      cases hE with
      | cons f2 hE =>
        obtain ⟨u1, v1⟩ := FileWith.fresh f1
        obtain ⟨u2, v2⟩ := FileWith.fresh f2
        obtain ⟨_, g1, l1, _⟩ := f1.provides inOrder inOrder_fair false none Bitmap.empty
        obtain ⟨_, g2, l2, _⟩ := f2.provides inOrder inOrder_fair false none Bitmap.empty
        have k1 := fill_cache u1 v1 l1
        have k2 := fill_cache u2 v2 l2
        have hst : (runMulti [.on 0 .enable, .on 1 .enable, .on 0 (.getBitmap fun _ => false),
            .on 1 (.getBitmap fun _ => false), .close fun _ => false] ([r1, r2].map fun r => (⟨r, true⟩ : OpenReader IdSet))).2 =
            [⟨{ r1 with globalIDs := some g1, cacheGlobalIDs := true }, false⟩,
              ⟨{ r2 with globalIDs := some g2, cacheGlobalIDs := true }, false⟩] := by
          simp [runMulti, MultiCall.run, IOCall.run, k1, k2, closeAll, closeReader]
        rw [hst] at h1
        have c1 : CacheOf r1 { r1 with globalIDs := some g1, cacheGlobalIDs := true } :=
          ⟨rfl, rfl, rfl, rfl, fun b hb => by cases hb; exact l1⟩
        have c2 : CacheOf r2 { r2 with globalIDs := some g2, cacheGlobalIDs := true } :=
          ⟨rfl, rfl, rfl, rfl, fun b hb => by cases hb; exact l2⟩
        obtain ⟨⟨a1, p1, _⟩, _⟩ := provides f1 (s := ⟨_, false⟩) (cl := true) c1 rfl ⟨fun _ => false, fun _ => false⟩ inOrder
          inOrder_fair false none (Bitmap.or Bitmap.empty g2)
        obtain ⟨⟨a2, p2, _⟩, _⟩ := provides f2 (s := ⟨_, false⟩) (cl := true) c2 rfl ⟨fun _ => false, fun _ => false⟩ inOrder
          inOrder_fair false none Bitmap.empty
        have hne : (multiAggregateIO (fun _ => ⟨fun _ => false, fun _ => false⟩) inOrder
            [⟨{ r1 with globalIDs := some g1, cacheGlobalIDs := true }, false⟩,
              ⟨{ r2 with globalIDs := some g2, cacheGlobalIDs := true }, false⟩] false none).1 ≠ .err .io := by
          unfold multiAggregateIO
          rw [if_neg (by simp)]
          simp only [List.zipIdx_cons, List.zipIdx_nil, List.map_cons, List.map_nil, List.reverse_cons, List.reverse_nil,
            List.nil_append, List.cons_append]
          unfold multiLoopIO
          rw [p2]
          simp only [getGlobalIDBitmapIO]
          unfold multiLoopIO
          rw [p1]
          simp [getGlobalIDBitmapIO, multiLoopIO]
        exact hne (MultiOut.result.inj h1)
  · exact ⟨a, ⟨fun _ => false, by simp⟩, h1, ha, hb⟩

end VibeCol.MultiIO
