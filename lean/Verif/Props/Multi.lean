/-
C24, C25: `MultiReader.Aggregate`.
-/
import Verif.Spec.Multi
import Verif.Props.Aggregation
import Verif.Props.Bitmap
import Verif.Lemmas.Simple
set_option linter.unusedSimpArgs false
namespace VibeCol
variable {B : Type} [Bitmap B]

/-! ### Merging exact aggregates -/

theorem ofInt_add64 (a b : Int) : Int64.ofInt a + Int64.ofInt b = Int64.ofInt (a + b) := by
  exact (Int64.ofInt_add ..).symm

theorem IsAggregate.count_zero {r : AggregateResult} {vs : List Int64} (h : IsAggregate r vs) : r.count = 0 ↔ vs = [] := by
  rw [h.count]; exact List.length_eq_zero_iff

theorem IsAggregate.perm {r : AggregateResult} {vs ws : List Int64} (h : IsAggregate r vs) (hp : vs.Perm ws) : IsAggregate r ws := by
  have hne : ws ≠ [] → vs ≠ [] := by
    rintro h1 rfl; exact h1 hp.nil_eq.symm
  refine ⟨by rw [h.count, hp.length_eq], by rw [h.sum, intSum_perm hp], fun h1 => hp.mem_iff.1 (h.min_mem (hne h1)),
    fun v hv => h.min_le v (hp.mem_iff.2 hv), fun h1 => hp.mem_iff.1 (h.max_mem (hne h1)), fun v hv => h.le_max v (hp.mem_iff.2 hv), ?_⟩
  rw [h.avg]
  by_cases hv : vs = []
  · subst hv
    have : ws = [] := hp.nil_eq.symm
    subst this; rfl
  · have : ws ≠ [] := by rintro rfl; exact hv hp.eq_nil
    rw [if_neg hv, if_neg this]

theorem IsAggregate.merge {a b : AggregateResult} {xs ys : List Int64} (ha : IsAggregate a xs) (hb : IsAggregate b ys) :
    IsAggregate (if a.count = 0 then b else mergeAggregateResults a b) (xs ++ ys) := by
  by_cases h1 : xs = []
  · subst h1
    rw [if_pos (ha.count_zero.2 rfl)]
    exact hb
  · have hc : a.count ≠ 0 := fun h => h1 (ha.count_zero.1 h)
    rw [if_neg hc]
    unfold mergeAggregateResults
    rw [if_neg hc]
    by_cases h2 : ys = []
    · subst h2
      rw [if_pos (hb.count_zero.2 rfl), List.append_nil]
      exact ha
    · have hc2 : b.count ≠ 0 := fun h => h2 (hb.count_zero.1 h)
      rw [if_neg hc2]
      have hmin : ∀ v ∈ xs ++ ys, minInt64 a.min b.min ≤ v := by
        intro v hv
        unfold minInt64
        rcases List.mem_append.1 hv with hv | hv
        · have := ha.min_le v hv
          split
          · exact this
          · rename_i h; exact Int64.le_trans (Int64.not_lt.1 h) this
        · have := hb.min_le v hv
          split
          · rename_i h; exact Int64.le_trans (Int64.le_of_lt h) this
          · exact this
      have hmax : ∀ v ∈ xs ++ ys, v ≤ maxInt64 a.max b.max := by
        intro v hv
        unfold maxInt64
        rcases List.mem_append.1 hv with hv | hv
        · have := ha.le_max v hv
          split
          · exact this
          · rename_i h; exact Int64.le_trans this (Int64.not_lt.1 h)
        · have := hb.le_max v hv
          split
          · rename_i h; exact Int64.le_trans this (Int64.le_of_lt h)
          · exact this
      refine ⟨?_, ?_, fun _ => ?_, hmin, fun _ => ?_, hmax, ?_⟩
      · simp only [List.length_append, ha.count, hb.count]
      · simp only [ha.sum, hb.sum, intSum_append, ofInt_add64]
      · simp only [minInt64]
        split
        · exact List.mem_append_left _ (ha.min_mem h1)
        · exact List.mem_append_right _ (hb.min_mem h2)
      · simp only [maxInt64]
        split
        · exact List.mem_append_left _ (ha.max_mem h1)
        · exact List.mem_append_right _ (hb.max_mem h2)
      · simp only
        rw [if_pos (by omega), if_neg (by simp [h1])]

variable [LawfulBitmap B]

omit [LawfulBitmap B] in
/-- The values one reader contributes, given a deny bitmap that holds the IDs of the newer files. -/
theorem selected_visible (filter : Option B) (deny : B) (f : List Block) (newer : List (List Block))
    (hd : ∀ x, Bitmap.contains deny x = true ↔ ∃ g ∈ newer, ∃ v, (x, v) ∈ pairsOf g) :
    selectedValues filter (some deny) f =
      ((pairsOf f).filter (fun p => allowedBy filter p.1 && !(newer.any fun g => (pairsOf g).any fun q => q.1 == p.1))).map Prod.snd := by
  unfold selectedValues
  congr 1
  refine List.filter_congr ?_
  intro p _
  show (allowedBy filter p.1 && !Bitmap.contains deny p.1) = _
  congr 2
  rw [Bool.eq_iff_iff, hd]
  simp only [List.any_eq_true, beq_iff_eq]
  constructor
  · rintro ⟨g, hg, v, hv⟩; exact ⟨g, hg, _, hv, rfl⟩
  · rintro ⟨g, hg, q, hq, h⟩; exact ⟨g, hg, q.2, by rw [← h]; exact hq⟩

/-- What the loop over the readers needs to know about a reader: filtered aggregates and the bitmap are those of `blocks`. -/
def Provides (sched : Sched) (skip : Bool) (filter : Option B) (r : Reader B) (blocks : List Block) : Prop :=
  ∀ deny : B,
    (∃ res, aggregateWithOptions sched r { skipPreCalculated := skip, filter := filter, denyFilter := some deny } = .ok res ∧
      IsAggregate res (selectedValues filter (some deny) blocks)) ∧
    ∃ g, (getGlobalIDBitmap r).1 = .ok g ∧ ∀ x, Bitmap.contains g x = true ↔ ∃ v, (x, v) ∈ pairsOf blocks

/-- What a reader on a finalized file provides. -/
theorem FileWith.provides {r : Reader B} {blocks : List Block} (h : FileWith B r blocks) (sched : Sched) (hs : sched.Fair)
    (skip : Bool) (filter : Option B) : Provides sched skip filter r blocks := by
  intro deny
  obtain ⟨env, opts, log, file, hf, henc, hr, rfl⟩ := h.opened
  refine ⟨C13_filtered hf henc h.few r hr sched hs _ (.inr rfl), ?_⟩
  obtain ⟨g, hg, hx⟩ := C18_bitmap hf (hf.noMismatch henc.allMatch) h.few h.buffer r hr
  refine ⟨g, hg, fun x => ?_⟩
  rw [hx]
  have H := hf.reads henc h.few r hr
  constructor
  · rintro ⟨b, hb, hm⟩
    have hl := (H.toIndexed.ok b hb).2.1
    obtain ⟨i, hi, rfl⟩ := List.getElem_of_mem hm
    refine ⟨b.2[i]'(by omega), List.mem_flatMap.2 ⟨b, hb, ?_⟩⟩
    have : (b.1.zip b.2)[i]'(by rw [List.length_zip]; omega) = (b.1[i], b.2[i]'(by omega)) := by simp
    rw [← this]
    exact List.getElem_mem _
  · rintro ⟨v, hv⟩
    obtain ⟨b, hb, hm⟩ := List.mem_flatMap.1 hv
    exact ⟨b, hb, (List.of_mem_zip hm).1⟩

/-- The loop over readers from newest to oldest. -/
theorem multiLoop_spec (sched : Sched) (skip : Bool) (filter : Option B) :
    ∀ (readers : List (Reader B)) (files : List (List Block)) (newer : List (List Block)) (deny : B) (result : AggregateResult),
      Each (Provides sched skip filter) readers files →
      (∀ x, Bitmap.contains deny x = true ↔ ∃ g ∈ newer, ∃ v, (x, v) ∈ pairsOf g) →
      IsAggregate result ((visible (allowedBy filter) newer).map Prod.snd) →
      ∃ res, multiLoop sched skip filter readers deny result = .ok res ∧
        IsAggregate res ((visible (allowedBy filter) (files.reverse ++ newer)).map Prod.snd) := by
  intro readers
  induction readers with
  | nil =>
    intro files newer deny result hE _ hres
    cases hE
    exact ⟨result, rfl, hres⟩
  | cons r rs ih =>
    intro files newer deny result hE hd hres
    cases hE with
    | @cons _ f _ fs hf ht =>
      obtain ⟨⟨rr, h1, h2⟩, g, h3, h4⟩ := hf deny
      rw [selected_visible filter deny f newer hd] at h2
      have hm := (IsAggregate.merge hres h2).perm (ws := (visible (allowedBy filter) (f :: newer)).map Prod.snd) (by
        have hv : visible (allowedBy filter) (f :: newer) = (pairsOf f).filter (fun p => allowedBy filter p.1 &&
          !(newer.any fun g => (pairsOf g).any fun q => q.1 == p.1)) ++ visible (allowedBy filter) newer := rfl
        rw [hv, List.map_append]
        exact List.perm_append_comm)
      obtain ⟨res, h5, h6⟩ := ih fs (f :: newer) (Bitmap.or deny g) _ ht (by
        intro x
        rw [LawfulBitmap.contains_or, Bool.or_eq_true, hd, h4]
        constructor
        · rintro (⟨g, hg, h⟩ | h)
          · exact ⟨g, List.mem_cons_of_mem _ hg, h⟩
          · exact ⟨f, List.mem_cons_self, h⟩
        · rintro ⟨g, hg, h⟩
          rcases List.mem_cons.1 hg with rfl | hg
          · exact .inr h
          · exact .inl ⟨g, hg, h⟩) hm
      refine ⟨res, ?_, by rw [List.reverse_cons, List.append_assoc]; exact h6⟩
      unfold multiLoop
      rw [h1, h3]
      exact h5

theorem Each.reverse {α β : Type} {R : α → β → Prop} {as : List α} {bs : List β} (h : Each R as bs) :
    Each R as.reverse bs.reverse := by
  induction h with
  | nil => exact .nil
  | cons h _ ih =>
    rw [List.reverse_cons, List.reverse_cons]
    exact forall2_append ih (.cons h .nil)

theorem multiAggregate_spec (sched : Sched) (readers : List (Reader B)) (files : List (List Block)) (skip : Bool)
    (filter : Option B) (h : Each (Provides sched skip filter) readers files) :
    ∃ res, multiAggregate sched readers skip filter = .ok res ∧
      IsAggregate res ((visible (allowedBy filter) files).map Prod.snd) := by
  unfold multiAggregate
  cases h with
  | nil => exact ⟨_, rfl, zero_isAggregate⟩
  | @cons r f rs fs hf ht =>
    rw [if_neg (by simp)]
    obtain ⟨res, h1, h2⟩ := multiLoop_spec sched skip filter (r :: rs).reverse (f :: fs).reverse [] Bitmap.empty .zero
      (Each.reverse (.cons hf ht)) (by simp [LawfulBitmap.contains_empty]) zero_isAggregate
    rw [List.reverse_reverse, List.append_nil] at h2
    exact ⟨res, h1, h2⟩

theorem Each.imp {α β : Type} {R S : α → β → Prop} {as : List α} {bs : List β} (h : Each R as bs)
    (hi : ∀ a b, R a b → S a b) : Each S as bs := by
  induction h with
  | nil => exact .nil
  | cons h _ ih => exact .cons (hi _ _ h) ih

/-- **C24.** `MultiReader.Aggregate` over readers of finalized files, ordered from oldest to
newest, returns the exact aggregate of the pairs that pass the filter (if any) and whose ID
occurs in no newer file. -/
theorem C24_newestWins (sched : Sched) (hs : sched.Fair) (readers : List (Reader B)) (files : List (List Block))
    (h : Each (FileWith B) readers files) (skip : Bool) (filter : Option B) :
    ∃ res, multiAggregate sched readers skip filter = .ok res ∧
      IsAggregate res ((visible (allowedBy filter) files).map Prod.snd) :=
  multiAggregate_spec sched readers files skip filter (h.imp fun _ _ hf => hf.provides sched hs skip filter)

/-! ### The stack as a map -/

/-- `id` occurs in a file. -/
def occurs (f : List Block) (id : UInt64) : Prop := ∃ v, (id, v) ∈ pairsOf f

theorem foldl_upsert_absent (ps : List Pair) : ∀ (m : UInt64 → Option Int64) (id : UInt64), (∀ v, (id, v) ∉ ps) → ps.foldl upsert m id = m id := by
  induction ps with
  | nil => intro m id _; rfl
  | cons p ps ih =>
    intro m id h
    rw [List.foldl_cons, ih _ _ (fun v hv => h v (List.mem_cons_of_mem _ hv))]
    unfold upsert
    rw [if_neg]
    rintro rfl
    exact h p.2 List.mem_cons_self

theorem foldl_upsert_present (ps : List Pair) : ∀ (m : UInt64 → Option Int64), (ps.map Prod.fst).Nodup → ∀ (id : UInt64) (v : Int64),
    (id, v) ∈ ps → ps.foldl upsert m id = some v := by
  induction ps with
  | nil => intro m _ id v h; cases h
  | cons p ps ih =>
    intro m hn id v h
    rw [List.map_cons, List.nodup_cons] at hn
    rw [List.foldl_cons]
    rcases List.mem_cons.1 h with rfl | h
    · rw [foldl_upsert_absent]
      · simp [upsert]
      · intro v hv
        exact hn.1 (List.mem_map.2 ⟨_, hv, rfl⟩)
    · exact ih _ hn.2 id v h

theorem foldl_upsert_congr (ps : List Pair) : ∀ (m m' : UInt64 → Option Int64) (id : UInt64), m id = m' id → ps.foldl upsert m id = ps.foldl upsert m' id := by
  induction ps with
  | nil => intro m m' id h; exact h
  | cons p ps ih =>
    intro m m' id h
    rw [List.foldl_cons, List.foldl_cons]
    refine ih _ _ _ ?_
    unfold upsert
    split
    · rfl
    · exact h

theorem foldl_files (files : List (List Block)) : ∀ (m : UInt64 → Option Int64) (id : UInt64),
    (∀ f ∈ files, ((pairsOf f).map Prod.fst).Nodup) →
    ((∀ f ∈ files, ¬ occurs f id) → files.foldl (fun m f => (pairsOf f).foldl upsert m) m id = m id) ∧
    ((∃ f ∈ files, occurs f id) → files.foldl (fun m f => (pairsOf f).foldl upsert m) m id = latest files id) := by
  induction files with
  | nil =>
    intro m id _
    exact ⟨fun _ => rfl, by rintro ⟨f, hf, _⟩; cases hf⟩
  | cons f fs ih =>
    intro m id hn
    have hn' : ∀ f ∈ fs, ((pairsOf f).map Prod.fst).Nodup := fun g hg => hn g (List.mem_cons_of_mem _ hg)
    unfold latest
    rw [List.foldl_cons, List.foldl_cons]
    constructor
    · intro h
      rw [(ih _ id hn').1 (fun g hg => h g (List.mem_cons_of_mem _ hg))]
      exact foldl_upsert_absent _ _ _ (fun v hv => h f List.mem_cons_self ⟨v, hv⟩)
    · intro h
      by_cases h1 : ∃ g ∈ fs, occurs g id
      · rw [(ih _ id hn').2 h1, (ih _ id hn').2 h1]
      · have h2 : ∀ g ∈ fs, ¬ occurs g id := fun g hg ho => h1 ⟨g, hg, ho⟩
        rw [(ih _ id hn').1 h2, (ih _ id hn').1 h2]
        obtain ⟨g, hg, v, hv⟩ := h
        rcases List.mem_cons.1 hg with rfl | hg
        · rw [foldl_upsert_present _ _ (hn _ List.mem_cons_self) _ _ hv, foldl_upsert_present _ _ (hn _ List.mem_cons_self) _ _ hv]
        · exact absurd ⟨v, hv⟩ (h2 g hg)

theorem mem_visible (allowed : UInt64 → Bool) (files : List (List Block)) (id : UInt64) (v : Int64)
    (hn : ∀ f ∈ files, ((pairsOf f).map Prod.fst).Nodup) :
    (id, v) ∈ visible allowed files ↔ allowed id = true ∧ latest files id = some v := by
  induction files with
  | nil => simp [visible, latest]
  | cons f fs ih =>
    have hn' : ∀ f ∈ fs, ((pairsOf f).map Prod.fst).Nodup := fun g hg => hn g (List.mem_cons_of_mem _ hg)
    have hv : visible allowed (f :: fs) = (pairsOf f).filter (fun p => allowed p.1 &&
          !(fs.any fun g => (pairsOf g).any fun q => q.1 == p.1)) ++ visible allowed fs := rfl
    have hl : latest (f :: fs) = fs.foldl (fun m f => (pairsOf f).foldl upsert m) ((pairsOf f).foldl upsert fun _ => none) := rfl
    have hany : ((fs.any fun g => (pairsOf g).any fun q => q.1 == id) = true) ↔ ∃ g ∈ fs, occurs g id := by
      simp only [List.any_eq_true, beq_iff_eq, occurs]
      constructor
      · rintro ⟨g, hg, q, hq, rfl⟩; exact ⟨g, hg, q.2, hq⟩
      · rintro ⟨g, hg, v, hv⟩; exact ⟨g, hg, _, hv, rfl⟩
    rw [hv, hl, List.mem_append, List.mem_filter, ih hn']
    simp only [Bool.and_eq_true, Bool.not_eq_true']
    by_cases h1 : ∃ g ∈ fs, occurs g id
    · rw [(foldl_files fs _ id hn').2 h1]
      have := hany.2 h1
      simp [this]
    · have h2 : ∀ g ∈ fs, ¬ occurs g id := fun g hg ho => h1 ⟨g, hg, ho⟩
      rw [(foldl_files fs _ id hn').1 h2]
      have h3 : (fs.any fun g => (pairsOf g).any fun q => q.1 == id) = false := by
        rw [← Bool.not_eq_true, hany]; exact h1
      have h4 : latest fs id = none := (foldl_files fs (fun _ => none) id hn').1 h2
      rw [h3, h4]
      constructor
      · rintro (⟨hm, ha, _⟩ | ⟨_, h⟩)
        · exact ⟨ha, foldl_upsert_present _ _ (hn _ List.mem_cons_self) _ _ hm⟩
        · cases h
      · rintro ⟨ha, hm⟩
        refine .inl ⟨?_, ha, rfl⟩
        by_cases ho : occurs f id
        · obtain ⟨w, hw⟩ := ho
          rw [foldl_upsert_present _ _ (hn _ List.mem_cons_self) _ _ hw] at hm
          cases hm; exact hw
        · rw [foldl_upsert_absent _ _ _ (fun v hv => ho ⟨v, hv⟩)] at hm
          cases hm

theorem visible_nodup (allowed : UInt64 → Bool) (files : List (List Block))
    (hn : ∀ f ∈ files, ((pairsOf f).map Prod.fst).Nodup) : ((visible allowed files).map Prod.fst).Nodup := by
  induction files with
  | nil => exact List.nodup_nil
  | cons f fs ih =>
    have hn' : ∀ f ∈ fs, ((pairsOf f).map Prod.fst).Nodup := fun g hg => hn g (List.mem_cons_of_mem _ hg)
    have hv : visible allowed (f :: fs) = (pairsOf f).filter (fun p => allowed p.1 &&
          !(fs.any fun g => (pairsOf g).any fun q => q.1 == p.1)) ++ visible allowed fs := rfl
    rw [hv, List.map_append, List.nodup_append]
    refine ⟨List.Sublist.nodup (List.Sublist.map _ List.filter_sublist) (hn _ List.mem_cons_self), ih hn', ?_⟩
    rintro a ha b hb rfl
    obtain ⟨p, hp, rfl⟩ := List.mem_map.1 ha
    obtain ⟨q, hq, hqp⟩ := List.mem_map.1 hb
    have h1 := (List.mem_filter.1 hp).2
    simp only [Bool.and_eq_true, Bool.not_eq_true'] at h1
    have h2 := (mem_visible allowed fs q.1 q.2 hn').1 hq
    have h3 : ∃ g ∈ fs, occurs g q.1 := Classical.byContradiction fun h => by
      rw [(foldl_files fs (fun _ => none) q.1 hn').1 (fun g hg ho => h ⟨g, hg, ho⟩) |> fun e => (show latest fs q.1 = none from e)] at h2
      cases h2.2
    obtain ⟨g, hg, w, hw⟩ := h3
    have : (fs.any fun g => (pairsOf g).any fun q => q.1 == p.1) = true := by
      simp only [List.any_eq_true, beq_iff_eq]
      exact ⟨g, hg, _, hw, hqp⟩
    rw [this] at h1
    cases h1.2

/-- **C25.** If no ID occurs twice inside one file, `MultiReader.Aggregate` returns the exact
aggregate of the entries (restricted by the filter, if any) of the map obtained by applying all
files as upserts from the oldest to the newest: `entries` lists that map, each key once. -/
theorem C25_lastWriterWins (sched : Sched) (hs : sched.Fair) (readers : List (Reader B)) (files : List (List Block))
    (h : Each (FileWith B) readers files) (huniq : ∀ f ∈ files, ((pairsOf f).map Prod.fst).Nodup)
    (skip : Bool) (filter : Option B) :
    ∃ res, ∃ entries : List Pair, multiAggregate sched readers skip filter = .ok res ∧
      (entries.map Prod.fst).Nodup ∧
      (∀ id v, (id, v) ∈ entries ↔ allowedBy filter id = true ∧ latest files id = some v) ∧
      IsAggregate res (entries.map Prod.snd) := by
  obtain ⟨res, h1, h2⟩ := C24_newestWins sched hs readers files h skip filter
  exact ⟨res, _, h1, visible_nodup _ _ huniq, fun id v => mem_visible _ _ id v huniq, h2⟩

/-! ### Non-vacuity -/

/-- The old file: IDs 1, 2, 3 and, in a second block, 9. -/
def oldLog : Log := [(.write [3, 1, 2] [30, -10, 20], .ok ()), (.write [9] [-1], .ok ())]

/-- The new file: IDs 2 and 7. -/
def newLog : Log := [(.write [2, 7] [5, 6], .ok ())]

theorem old_finalized : ∃ file, Finalized IdSet quietEnv exampleOpts oldLog file :=
  finalized_of_log exampleOpts [.write [3, 1, 2] [30, -10, 20], .write [9] [-1]] oldLog
    (by decide) (by decide +kernel) (by unfold NoMismatch; decide) (by decide)

theorem new_finalized : ∃ file, Finalized IdSet quietEnv [] newLog file :=
  finalized_of_log [] [.write [2, 7] [5, 6]] newLog
    (by decide) (by decide +kernel) (by unfold NoMismatch; decide) (by decide)

/-- A stack of two files of different encodings, with an ID in both. -/
theorem stack_example : ∃ r1 r2 : Reader IdSet, Each (FileWith IdSet) [r1, r2] [acked oldLog, acked newLog] := by
  obtain ⟨file1, h1⟩ := old_finalized
  obtain ⟨r1, hr1, _⟩ := C29_accessors h1 (by decide)
  obtain ⟨file2, h2⟩ := new_finalized
  obtain ⟨r2, hr2, _⟩ := C29_accessors h2 (by decide)
  exact ⟨r1, r2, .cons ⟨⟨_, _, _, _, h1, .inr (.inr (.inr rfl)), hr1, rfl⟩, by decide, by decide⟩
    (.cons ⟨⟨_, _, _, _, h2, .inl rfl, hr2, rfl⟩, by decide, by decide⟩ .nil)⟩

/-- Non-vacuity of C24 and C25: in that stack the new value 5 of ID 2 hides the old value 20; the
filter drops ID 9. -/
example : ∃ r1 r2 : Reader IdSet, ∃ res, multiAggregate inOrder [r1, r2] false (some ⟨[1, 2, 3, 7]⟩) = .ok res ∧
    (∀ f ∈ [acked oldLog, acked newLog], ((pairsOf f).map Prod.fst).Nodup) ∧
    latest [acked oldLog, acked newLog] 2 = some 5 ∧
    res.count = 4 ∧ res.min = -10 ∧ res.max = 30 ∧ res.sum = 31 := by
  obtain ⟨r1, r2, h⟩ := stack_example
  obtain ⟨res, h1, h2⟩ := C24_newestWins inOrder inOrder_fair _ _ h false (some ⟨[1, 2, 3, 7]⟩)
  rw [show (visible (allowedBy (some (⟨[1, 2, 3, 7]⟩ : IdSet))) [acked oldLog, acked newLog]).map Prod.snd = [30, -10, 5, 6] from by decide] at h2
  have : res = ⟨4, -10, 30, 31, .quot 31 4⟩ := (h2.unique (accOf_isAggregate _) (by decide)).trans (by decide)
  exact ⟨r1, r2, res, h1, by decide, by decide, by rw [this], by rw [this], by rw [this], by rw [this]⟩

/-- The hypothesis of C25 is needed: a file may hold an ID twice, and then both pairs count, while
the map has one entry for the ID. -/
theorem C25_refuted_duplicates : ∃ r : Reader IdSet, Each (FileWith IdSet) [r] [acked exampleLog] ∧
    ∃ res, multiAggregate inOrder [r] false none = .ok res ∧
      ∀ entries : List Pair, (entries.map Prod.fst).Nodup →
        (∀ id v, (id, v) ∈ entries ↔ latest [acked exampleLog] id = some v) → ¬ IsAggregate res (entries.map Prod.snd) := by
  obtain ⟨file, h⟩ := example_finalized
  obtain ⟨r, hr, _⟩ := C29_accessors h (by decide)
  have hE : Each (FileWith IdSet) [r] [acked exampleLog] :=
    .cons ⟨⟨_, _, _, _, h, .inr (.inr (.inr rfl)), hr, rfl⟩, by decide, by decide⟩ .nil
  obtain ⟨res, h1, h2⟩ := C24_newestWins inOrder inOrder_fair _ _ hE false none
  refine ⟨r, hE, res, h1, ?_⟩
  intro entries hn hm ha
  have h3 : res.count = 5 := h2.count
  have h4 : ((1 : UInt64), (-10 : Int64)) ∉ entries := by
    rw [hm]; decide
  have h5 : res.count = entries.length := by rw [ha.count, List.length_map]
  -- every entry is a pair of the file other than (1, -10)
  have hsub : entries ⊆ [(3, 30), (2, 20), (5, 7), (1, -9223372036854775807)] := by
    rintro ⟨id, v⟩ hiv
    have hl := (hm id v).1 hiv
    have : latest [acked exampleLog] id = if id = 1 then some (-9223372036854775807) else if id = 5 then some 7 else
        if id = 2 then some 20 else if id = 1 then some (-10) else if id = 3 then some 30 else none := rfl
    rw [this] at hl
    simp only [List.mem_cons, Prod.mk.injEq]
    split at hl
    · cases hl; rename_i h; simp [h]
    split at hl
    · cases hl; rename_i h; simp [h]
    split at hl
    · cases hl; rename_i h; simp [h]
    split at hl
    · cases hl; rename_i h; simp [h]
    · cases hl
  have hnd : entries.Nodup := List.Pairwise.of_map Prod.fst (fun a b h e => h (by rw [e])) hn
  have hlen := hnd.length_le_of_subset hsub
  simp only [List.length_cons, List.length_nil] at hlen
  omega

end VibeCol
