/-
C52: reads that fail, and closed readers.
-/
import Verif.Spec.ReadFaults
import Verif.Lemmas.ReadFaults
import Verif.Props.Bitmap
namespace VibeCol
set_option linter.unusedSectionVars false
variable {B : Type} [Bitmap B]

/-- **C52.** `NewReader` under read failures: it reports an I/O error, which it does only if some
operation failed, or gives exactly what it gives without failures. Any file. -/
theorem C52_open (fail : Nat → Bool) (file : Bytes) :
    newReaderIO (B := B) fail file = newReader file ∨ (∃ n, fail n = true) ∧ newReaderIO (B := B) fail file = .err .io :=
  newReaderIO_or fail file

theorem newReaderIO_ok {fail : Nat → Bool} {file : Bytes} {r : Reader B} (h : newReaderIO fail file = .ok r) :
    newReader file = .ok r := by
  rcases C52_open (B := B) fail file with h1 | ⟨_, h1⟩
  · rw [← h1, h]
  · rw [h] at h1; cases h1

/-! ### The state of a reader after any calls -/

theorem getGlobalIDBitmapIO_or (f : Nat → Bool) (r : Reader B) :
    getGlobalIDBitmapIO f r = getGlobalIDBitmap r ∨ (∃ n, f n = true) ∧ getGlobalIDBitmapIO f r = (.err .io, r) := by
  have key : ∀ (rem : B → Reader B),
      (match readBytesAtIO (f 0) r.bytes r.header.bitmapOffset.toInt64 4 with
      | .err e => ((.err e, r) : Res B × Reader B)
      | .panic => (.panic, r)
      | .ok sizeBuf =>
        match readBytesAtIO (f 1) r.bytes (r.header.bitmapOffset.toInt64 + 4) (Int64.ofNat (rd32 sizeBuf 0).toNat) with
        | .err e => (.err e, r)
        | .panic => (.panic, r)
        | .ok bitmapBuf => (.ok (Bitmap.fromBuffer bitmapBuf), rem (Bitmap.fromBuffer bitmapBuf))) =
      (match readBytesAt r.bytes r.header.bitmapOffset.toInt64 4 with
      | .err e => ((.err e, r) : Res B × Reader B)
      | .panic => (.panic, r)
      | .ok sizeBuf =>
        match readBytesAt r.bytes (r.header.bitmapOffset.toInt64 + 4) (Int64.ofNat (rd32 sizeBuf 0).toNat) with
        | .err e => (.err e, r)
        | .panic => (.panic, r)
        | .ok bitmapBuf => (.ok (Bitmap.fromBuffer bitmapBuf), rem (Bitmap.fromBuffer bitmapBuf))) ∨
      (∃ n, f n = true) ∧
      (match readBytesAtIO (f 0) r.bytes r.header.bitmapOffset.toInt64 4 with
      | .err e => ((.err e, r) : Res B × Reader B)
      | .panic => (.panic, r)
      | .ok sizeBuf =>
        match readBytesAtIO (f 1) r.bytes (r.header.bitmapOffset.toInt64 + 4) (Int64.ofNat (rd32 sizeBuf 0).toNat) with
        | .err e => (.err e, r)
        | .panic => (.panic, r)
        | .ok bitmapBuf => (.ok (Bitmap.fromBuffer bitmapBuf), rem (Bitmap.fromBuffer bitmapBuf))) = (.err .io, r) := by
    intro rem
    rcases readBytesAtIO_or (f 0) r.bytes r.header.bitmapOffset.toInt64 4 with h | ⟨hf, h⟩
    · rw [h]
      cases readBytesAt r.bytes r.header.bitmapOffset.toInt64 4 with
      | err e => exact .inl rfl
      | panic => exact .inl rfl
      | ok sz =>
        dsimp only
        rcases readBytesAtIO_or (f 1) r.bytes (r.header.bitmapOffset.toInt64 + 4) (Int64.ofNat (rd32 sz 0).toNat) with h | ⟨hf, h⟩
        · rw [h]; exact .inl rfl
        · rw [h]; exact .inr ⟨⟨_, hf⟩, rfl⟩
    · rw [h]; exact .inr ⟨⟨_, hf⟩, rfl⟩
  unfold getGlobalIDBitmapIO getGlobalIDBitmap
  obtain ⟨bs, hd, fm, idx, g, c⟩ := r
  by_cases h0 : hd.bitmapOffset = 0 ∨ hd.bitmapSize = 0
  · left
    simp only [h0, if_true]
    rfl
  · simp only [h0, if_false]
    cases g with
    | some g =>
      cases c with
      | true => exact .inl rfl
      | false => exact key fun b => ⟨bs, hd, fm, idx, some g, false⟩
    | none =>
      cases c with
      | true => exact key fun b => ⟨bs, hd, fm, idx, some b, true⟩
      | false => exact key fun b => ⟨bs, hd, fm, idx, none, false⟩

theorem aggregateIO_cache (fail : UInt64 → Bool) (r : Reader B) (g : Option B) (c : Bool) (sched : Sched) (o : AggregateOptions B) :
    aggregateWithOptionsIO fail sched { r with globalIDs := g, cacheGlobalIDs := c } o = aggregateWithOptionsIO fail sched r o := by
  unfold aggregateWithOptionsIO aggregateParallelIO aggregateSequentialIO
  rw [sumEntries_cache]
  rfl

theorem newReader_uncached {file : Bytes} {r : Reader B} (hr : newReader file = .ok r) :
    r.globalIDs = none ∧ r.cacheGlobalIDs = false := by
  unfold newReader at hr
  cases h1 : readHeader file with
  | err e => rw [h1] at hr; cases hr
  | panic => rw [h1] at hr; cases hr
  | ok hd =>
    rw [h1, Res.ok_bind] at hr
    cases h2 : readFooter file hd with
    | err e => rw [h2] at hr; cases hr
    | panic => rw [h2] at hr; cases hr
    | ok p =>
      rw [h2, Res.ok_bind] at hr
      cases hr
      exact ⟨rfl, rfl⟩

/-- After any calls with any failures: the reader is as opened, up to a right cache, and it is
closed if `Close` was called. -/
theorem runIO_state (r : Reader B) (hn : r.globalIDs = none) (hc : r.cacheGlobalIDs = false) (calls : List (IOCall B))
    (s : OpenReader B) (h : CacheOf r s.reader) :
    CacheOf r (runIO calls s).2.reader ∧ (runIO calls s).2.isOpen = (s.isOpen && !closes calls) := by
  induction calls generalizing s with
  | nil => exact ⟨h, by simp [runIO, closes]⟩
  | cons c cs ih =>
    have hstep : CacheOf r (c.run s).2.reader ∧ (c.run s).2.isOpen = (s.isOpen && !closes [c]) := by
      cases c with
      | enable => exact ⟨⟨h.bytes, h.header, h.index, h.metadata, h.cached⟩, by simp [IOCall.run, closes]⟩
      | disable => exact ⟨⟨h.bytes, h.header, h.index, h.metadata, fun b hb => by cases hb⟩, by simp [IOCall.run, closes]⟩
      | getBitmap fail =>
        refine ⟨?_, by simp [IOCall.run, closes]⟩
        show CacheOf r (getGlobalIDBitmapIO (fun n => !s.isOpen || fail n) s.reader).2
        rcases getGlobalIDBitmapIO_or (fun n => !s.isOpen || fail n) s.reader with h1 | ⟨_, h1⟩
        · rw [h1]; exact (h.get hn hc).2
        · rw [h1]; exact h
      | getPairs fail i => exact ⟨h, by simp [IOCall.run, closes]⟩
      | aggregate fail sched o => exact ⟨h, by simp [IOCall.run, closes]⟩
      | close failing => exact ⟨h, by simp [IOCall.run, closes, closeReader]⟩
    obtain ⟨h1, h2⟩ := ih _ hstep.1
    refine ⟨h1, ?_⟩
    show (runIO cs (c.run s).2).2.isOpen = _
    rw [h2, hstep.2]
    unfold closes
    simp only [List.any_cons, List.any_nil, Bool.or_false]
    cases s.isOpen <;> simp

theorem opened_state {file : Bytes} {r : Reader B} (hr : newReader file = .ok r) (calls : List (IOCall B)) :
    CacheOf r (runIO calls ⟨r, true⟩).2.reader ∧ (runIO calls ⟨r, true⟩).2.isOpen = !closes calls := by
  obtain ⟨h1, h2⟩ := newReader_uncached hr
  have := runIO_state r h1 h2 calls ⟨r, true⟩ ⟨rfl, rfl, rfl, rfl, fun b hb => by
    change r.globalIDs = some b at hb
    rw [h1] at hb; cases hb⟩
  rw [Bool.true_and] at this
  exact this

/-! ### Pairs and bitmap -/

section Lawful
variable [LawfulBitmap B]

/-- **C52.** On a finalized file (symmetric encodings), after any calls with any failures, `GetPairs`
returns exactly the pairs of the block; if the read fails or the reader has been closed, it
returns an error. -/
theorem C52_pairs {env : Env} {opts : List WriterOption} {log : Log} {file : Bytes}
    (h : Finalized B env opts log file) (henc : SymEnc (chosenEncoding opts)) (hn : (acked log).length ≤ maxBlocks)
    (opening : Nat → Bool) (r : Reader B) (hr : newReaderIO opening file = .ok r) (before : List (IOCall B))
    (fail : Bool) (i : Nat) (hi : i < (acked log).length) :
    ((IOCall.getPairs fail (UInt64.ofNat i)).run (runIO before ⟨r, true⟩).2).1 =
      .pairs (if fail || closes before then .err .io else .ok (acked log)[i]) := by
  have hr' := newReaderIO_ok hr
  obtain ⟨hc, ho⟩ := opened_state hr' before
  show IOOut.pairs (getPairsIO (!(runIO before ⟨r, true⟩).2.isOpen || fail) (runIO before ⟨r, true⟩).2.reader (UInt64.ofNat i)) = _
  rw [ho, hc.eq, Bool.not_not]
  have hread := (h.reads henc hn r hr').read i hi
  show IOOut.pairs (getPairsIO (closes before || fail) r (UInt64.ofNat i)) = _
  rw [Bool.or_comm]
  cases fail || closes before
  · rw [getPairsIO_false, hread]; rfl
  · rw [getPairsIO_true _ _ _ hread]; rfl

/-- **C52.** `GetGlobalIDBitmap` after any calls with any failures (cached or not) returns the exact set
of IDs, or an I/O error, and that only if a read failed or the reader has been closed. -/
theorem C52_bitmap {env : Env} {opts : List WriterOption} {log : Log} {file : Bytes}
    (h : Finalized B env opts log file) (hm : NoMismatch log) (hn : (acked log).length ≤ maxBlocks)
    (hbuf : (Bitmap.toBuffer (bitmapOf B (acked log))).length < 2 ^ 32)
    (opening : Nat → Bool) (r : Reader B) (hr : newReaderIO opening file = .ok r) (before : List (IOCall B))
    (fail : Nat → Bool) :
    ∃ res, ((IOCall.getBitmap fail).run (runIO before ⟨r, true⟩).2).1 = .bitmap res ∧
      ((res = .err .io ∧ ((∃ n, fail n = true) ∨ closes before = true)) ∨
        ∃ bm, res = .ok bm ∧ ∀ id, Bitmap.contains bm id = true ↔ ∃ b ∈ acked log, id ∈ b.1) := by
  have hr' := newReaderIO_ok hr
  obtain ⟨hc, ho⟩ := opened_state hr' before
  obtain ⟨hu1, hu2⟩ := newReader_uncached hr'
  have hn' := hn
  unfold maxBlocks at hn'
  obtain ⟨bm, hb1, hb2⟩ := C18_bitmap h hm (by omega) hbuf r hr'
  refine ⟨(getGlobalIDBitmapIO (fun n => !(runIO before ⟨r, true⟩).2.isOpen || fail n) (runIO before ⟨r, true⟩).2.reader).1, rfl, ?_⟩
  rcases getGlobalIDBitmapIO_or (fun n => !(runIO before ⟨r, true⟩).2.isOpen || fail n) (runIO before ⟨r, true⟩).2.reader with h1 | ⟨⟨n, hf⟩, h1⟩
  · right
    rw [h1, (hc.get hu1 hu2).1, hb1]
    refine ⟨bm, rfl, fun id => ?_⟩
    exact hb2 id
  · left
    rw [h1]
    refine ⟨rfl, ?_⟩
    simp only [ho, Bool.not_not, Bool.or_eq_true] at hf
    rcases hf with hf | hf
    · exact .inr hf
    · exact .inl ⟨n, hf⟩

/-! ### Aggregates -/

theorem flatMap_unfailed (g : Block → List Int64) (out : UInt64 → List Int64) (fail : Nat → Bool) (l : List Block) (k : Nat)
    (h : ∀ i (hi : i < l.length), out (UInt64.ofNat (k + i)) = if fail (k + i) then [] else g l[i]) :
    ((List.range' k l.length).map UInt64.ofNat).flatMap out =
      (((l.zipIdx k).filter fun x => !fail x.2).map Prod.fst).flatMap g := by
  induction l generalizing k with
  | nil => rfl
  | cons b l ih =>
    rw [List.length_cons, List.range'_succ, List.map_cons, List.flatMap_cons, List.zipIdx_cons, List.filter_cons]
    have h0 := h 0 (by simp)
    rw [Nat.add_zero, List.getElem_cons_zero] at h0
    rw [ih (k + 1) (by
      intro i hi
      have := h (i + 1) (by simpa using hi)
      rw [List.getElem_cons_succ, show k + (i + 1) = k + 1 + i by omega] at this
      exact this), h0]
    cases hk : fail k <;> simp

theorem flatMap_filter_nil {α : Type} (p : α → Bool) (f : α → List Int64) (l : List α) (h : ∀ x ∈ l, p x = false → f x = []) :
    (l.filter p).flatMap f = l.flatMap f := by
  induction l with
  | nil => rfl
  | cons x l ih =>
    rw [List.filter_cons, List.flatMap_cons]
    have := ih (fun y hy => h y (List.mem_cons_of_mem _ hy))
    cases hp : p x
    · rw [h x (by simp) hp]; simpa using this
    · simp only [if_true, List.flatMap_cons, this]

theorem flatMap_congr' {α β : Type} (f g : α → List β) (l : List α) (h : ∀ x ∈ l, f x = g x) : l.flatMap f = l.flatMap g := by
  induction l with
  | nil => rfl
  | cons x l ih =>
    rw [List.flatMap_cons, List.flatMap_cons, h x (by simp), ih fun y hy => h y (List.mem_cons_of_mem _ hy)]

/-- The aggregate computed from blocks some of which cannot be read. -/
theorem Reads.unfailed_aggregate {r : Reader B} {blocks : List Block} (H : Reads r blocks) (fail : UInt64 → Bool)
    (sched : Sched) (hs : sched.Fair) (o : AggregateOptions B)
    (ho : o.filter.isSome ∨ o.denyFilter.isSome ∨ o.skipPreCalculated = true) :
    ∃ res, aggregateWithOptionsIO fail sched r o = .ok res ∧
      IsAggregate res (selectedValues o.filter o.denyFilter (unfailed (fun i => fail (UInt64.ofNat i)) blocks)) := by
  rw [parallelIO_eq fail sched hs r o (by
    rcases ho with h | h | h
    · exact .inl h
    · exact .inr (.inl h)
    · exact .inr (.inr (.inl h))) (.inr (.inr H.alloc))]
  have hlt := H.lt64
  have hpairs : ∀ i (hi : i < blocks.length), getPairsIO (fail (UInt64.ofNat i)) r (UInt64.ofNat i) =
      if fail (UInt64.ofNat i) then .err .io else .ok blocks[i] := by
    intro i hi
    have hr := H.read i hi
    cases fail (UInt64.ofNat i)
    · rw [getPairsIO_false, hr]; rfl
    · rw [getPairsIO_true _ _ _ hr]; rfl
  have hwf : ∀ i (hi : i < blocks.length), ∃ is, readBlockFilteredIO (fail (UInt64.ofNat i)) r (UInt64.ofNat i).toInt64 o.filter o.denyFilter =
      if fail (UInt64.ofNat i) then .err .io else .ok (is, selectedValues o.filter o.denyFilter [blocks[i]]) := by
    intro i hi
    obtain ⟨is, h1⟩ := H.filtered o.filter o.denyFilter i hi
    have hp : readBlockIO (fail (UInt64.ofNat i)) r (UInt64.ofNat i).toInt64 = _ := hpairs i hi
    refine ⟨is, ?_⟩
    unfold readBlockFilteredIO
    rw [hp]
    unfold readBlockFiltered at h1
    rw [show readBlock r (UInt64.ofNat i).toInt64 = .ok blocks[i] from H.read i hi] at h1
    cases fail (UInt64.ofNat i)
    · simp only [Bool.false_eq_true, if_false]
      rw [Res.ok_bind] at h1 ⊢
      refine Eq.trans h1 ?_
      rw [selectedValues_eq]
      simp
    · rfl
  have hcnt := H.count_toNat
  by_cases hf : o.filter.isSome ∨ o.denyFilter.isSome
  · unfold aggregateSequentialIO
    dsimp only
    rw [if_pos hf]
    have hsel : selectedValues o.filter o.denyFilter (unfailed (fun i => fail (UInt64.ofNat i)) blocks) =
        (unfailed (fun i => fail (UInt64.ofNat i)) blocks).flatMap fun b => selectedValues o.filter o.denyFilter [b] :=
      selectedValues_flatMap _ _ _
    -- the values read from block `i`
    let out : UInt64 → List Int64 := fun i => match readBlockFilteredIO (fail i) r i.toInt64 o.filter o.denyFilter with
      | .ok b => b.2
      | _ => []
    have hout : ∀ i (hi : i < blocks.length), out (UInt64.ofNat i) =
        if fail (UInt64.ofNat i) then [] else selectedValues o.filter o.denyFilter [blocks[i]] := by
      intro i hi
      obtain ⟨is, h1⟩ := hwf i hi
      show (match readBlockFilteredIO (fail (UInt64.ofNat i)) r (UInt64.ofNat i).toInt64 o.filter o.denyFilter with
        | .ok b => b.2
        | _ => []) = _
      rw [h1]
      cases fail (UInt64.ofNat i) <;> rfl
    have hall : ((List.range blocks.length).map UInt64.ofNat).flatMap out =
        selectedValues o.filter o.denyFilter (unfailed (fun i => fail (UInt64.ofNat i)) blocks) := by
      rw [hsel, List.range_eq_range']
      exact flatMap_unfailed _ out (fun i => fail (UInt64.ofNat i)) blocks 0 (by
        intro i hi
        rw [Nat.zero_add]; exact hout i hi)
    have hcons : ((considered r o.filter).map UInt64.ofNat).flatMap out =
        selectedValues o.filter o.denyFilter (unfailed (fun i => fail (UInt64.ofNat i)) blocks) := by
      rw [← hall, List.flatMap_map, List.flatMap_map]
      cases hfl : o.filter with
      | none =>
        show (List.range r.header.blockCount.toNat).flatMap _ = _
        rw [hcnt]
      | some f =>
        show ((List.range r.blockIndex.length).filter _).flatMap _ = _
        rw [flatMap_filter_nil, H.index]
        intro i hi hp
        have hi' : i < r.blockIndex.length := List.mem_range.1 hi
        have hib : i < blocks.length := by rw [← H.index]; exact hi'
        rw [List.getElem?_eq_getElem hi'] at hp
        rw [hout i hib]
        split
        · rfl
        · rw [hfl, selectedValues_eq]
          have := H.skipped_empty f o.denyFilter i hib hi' (by
            simp only [Bool.and_eq_false_iff, decide_eq_false_iff_not, UInt64.not_le] at hp
            exact hp)
          simp [this]
    rw [H.iterator, Res.ok_bind, iterBlocks_considered]
    by_cases h0 : ((considered r o.filter).map UInt64.ofNat).length = 0
    · rw [if_pos h0]
      rw [List.eq_nil_of_length_eq_zero h0] at hcons
      rw [← hcons]
      exact ⟨_, rfl, zero_isAggregate⟩
    · rw [if_neg h0]
      have hmem : ∀ i ∈ (considered r o.filter).map UInt64.ofNat, ∃ k, k < blocks.length ∧ i = UInt64.ofNat k := by
        intro i hi
        rw [← iterBlocks_considered r o.filter] at hi
        exact H.iter_range o.filter i hi
      have hsum : ∀ (l : List UInt64) (pre : List Int64), (∀ i ∈ l, ∃ k, k < blocks.length ∧ i = UInt64.ofNat k) →
          sumBlocks (fun i => readBlockFilteredIO (fail i) r i.toInt64 o.filter o.denyFilter) l (accOf pre) =
            .ok (accOf (pre ++ l.flatMap out)) := by
        intro l
        induction l with
        | nil => intro pre _; simp [sumBlocks]
        | cons i l ih =>
          intro pre hl
          obtain ⟨k, hk, rfl⟩ := hl i (by simp)
          obtain ⟨is, h1⟩ := hwf k hk
          rw [sumBlocks, h1, List.flatMap_cons, hout k hk]
          cases fail (UInt64.ofNat k)
          · simp only [Bool.false_eq_true, if_false]
            rw [addValues_accOf, ih _ (fun j hj => hl j (List.mem_cons_of_mem _ hj)), List.append_assoc]
          · simp only [if_true, List.nil_append]
            exact ih _ (fun j hj => hl j (List.mem_cons_of_mem _ hj))
      rw [← accOf_nil, hsum _ _ hmem, Res.ok_bind, List.nil_append, hcons]
      exact ⟨_, rfl, accOf_isAggregate _⟩
  · have hfn : o.filter = none := by
      cases hh : o.filter with
      | none => rfl
      | some f => exact absurd (.inl (by rw [hh]; rfl)) hf
    have hdn : o.denyFilter = none := by
      cases hh : o.denyFilter with
      | none => rfl
      | some f => exact absurd (.inr (by rw [hh]; rfl)) hf
    have hsk : o.skipPreCalculated = true := by
      rcases ho with h | h | h
      · exact absurd (.inl h) hf
      · exact absurd (.inr h) hf
      · exact h
    unfold aggregateSequentialIO
    simp only [hfn, hdn, hsk, Option.isSome_none, Bool.false_eq_true, or_self, if_false, and_false, reduceCtorEq]
    have hnp : ∀ i, getPairsIO (fail i) r i = .panic → getPairs r i = .panic := by
      intro i hp
      rcases getPairsIO_or (fail i) r i with h1 | ⟨_, h1⟩
      · rw [← h1, hp]
      · rw [hp] at h1; cases h1
    have hsum : ∀ (n : Nat) (pre : List Int64), n ≤ blocks.length →
        sumBlocks (fun i => getPairsIO (fail i) r i) ((List.range n).map UInt64.ofNat) (accOf pre) =
          .ok (accOf (pre ++ ((List.range n).map UInt64.ofNat).flatMap fun i =>
            match getPairsIO (fail i) r i with
            | .ok b => b.2
            | _ => [])) := by
      intro n pre hn
      have : ∀ (l : List UInt64) (pre : List Int64), (∀ i ∈ l, ∃ k, k < blocks.length ∧ i = UInt64.ofNat k) →
          sumBlocks (fun i => getPairsIO (fail i) r i) l (accOf pre) = .ok (accOf (pre ++ l.flatMap fun i =>
            match getPairsIO (fail i) r i with
            | .ok b => b.2
            | _ => [])) := by
        intro l
        induction l with
        | nil => intro pre _; simp [sumBlocks]
        | cons i l ih =>
          intro pre hl
          obtain ⟨k, hk, rfl⟩ := hl i (by simp)
          rw [sumBlocks, List.flatMap_cons, hpairs k hk]
          cases fail (UInt64.ofNat k)
          · simp only [Bool.false_eq_true, if_false]
            rw [show blocks[k] = (blocks[k].1, blocks[k].2) from rfl]
            dsimp only
            rw [addValues_accOf, ih _ (fun j hj => hl j (List.mem_cons_of_mem _ hj)), List.append_assoc]
          · simp only [if_true, List.nil_append]
            exact ih _ (fun j hj => hl j (List.mem_cons_of_mem _ hj))
      apply this
      intro i hi
      obtain ⟨k, hk, rfl⟩ := List.mem_map.1 hi
      exact ⟨k, by have := List.mem_range.1 hk; omega, rfl⟩
    rw [hcnt, ← accOf_nil, hsum _ _ (Nat.le_refl _), Res.ok_bind, List.nil_append]
    refine ⟨_, rfl, ?_⟩
    have hv : selectedValues (none : Option B) none (unfailed (fun i => fail (UInt64.ofNat i)) blocks) =
        ((List.range blocks.length).map UInt64.ofNat).flatMap fun i =>
            match getPairsIO (fail i) r i with
            | .ok b => b.2
            | _ => [] := by
      rw [selectedValues_none, Reads.flatMap_values, List.range_eq_range', ← List.flatMap_def]
      · refine (flatMap_unfailed (fun b => b.2) _ (fun i => fail (UInt64.ofNat i)) blocks 0 ?_).symm
        intro i hi
        rw [Nat.zero_add, hpairs i hi]
        cases fail (UInt64.ofNat i) <;> rfl
      · intro b hb
        unfold unfailed at hb
        obtain ⟨p, hp, rfl⟩ := List.mem_map.1 hb
        have := (List.mem_filter.1 hp).1
        obtain ⟨_, _, h3⟩ := List.mem_zipIdx this
        exact (H.ok _ (by rw [h3]; exact List.getElem_mem _)).2.1
    rw [hv]
    exact accOf_isAggregate _

/-- **C52.** An aggregate for which blocks are read (a filter or `SkipPreCalculated`), on a finalized file
after any calls with any failures, with any number of workers and schedule, never reports an
error: it is the exact aggregate of the blocks whose read did not fail; on a closed reader, of
nothing. -/
theorem C52_aggregate {env : Env} {opts : List WriterOption} {log : Log} {file : Bytes}
    (h : Finalized B env opts log file) (henc : SymEnc (chosenEncoding opts)) (hn : (acked log).length ≤ maxBlocks)
    (opening : Nat → Bool) (r : Reader B) (hr : newReaderIO opening file = .ok r) (before : List (IOCall B))
    (fail : UInt64 → Bool) (sched : Sched) (hs : sched.Fair) (o : AggregateOptions B)
    (ho : o.filter.isSome ∨ o.denyFilter.isSome ∨ o.skipPreCalculated = true) :
    ∃ res, ((IOCall.aggregate fail sched o).run (runIO before ⟨r, true⟩).2).1 = .result (.ok res) ∧
      IsAggregate res (selectedValues o.filter o.denyFilter
        (unfailed (fun i => closes before || fail (UInt64.ofNat i)) (acked log))) := by
  have hr' := newReaderIO_ok hr
  obtain ⟨hc, hopen⟩ := opened_state hr' before
  obtain ⟨res, h1, h2⟩ := (h.reads henc hn r hr').unfailed_aggregate (fun i => closes before || fail i) sched hs o ho
  refine ⟨res, ?_, h2⟩
  show IOOut.result (aggregateWithOptionsIO (fun i => !(runIO before ⟨r, true⟩).2.isOpen || fail i) sched (runIO before ⟨r, true⟩).2.reader o) = _
  rw [hopen, hc.eq, Bool.not_not, aggregateIO_cache, h1]

theorem unfailed_all (blocks : List Block) (fail : Nat → Bool) (h : ∀ i, i < blocks.length → fail i = true) :
    unfailed fail blocks = [] := by
  unfold unfailed
  rw [List.map_eq_nil_iff, List.filter_eq_nil_iff]
  intro p hp
  obtain ⟨_, h2, _⟩ := List.mem_zipIdx hp
  simp [h p.2 (by omega)]

theorem unfailed_none (blocks : List Block) (fail : Nat → Bool) (h : ∀ i, i < blocks.length → fail i = false) :
    unfailed fail blocks = blocks := by
  unfold unfailed
  rw [List.filter_eq_self.2]
  · exact List.zipIdx_map_fst 0 blocks
  · intro p hp
    obtain ⟨_, h2, _⟩ := List.mem_zipIdx hp
    simp [h p.2 (by omega)]

/-- **C52, the silent case.** On a reader that has been closed, an aggregate that reads blocks returns
the count 0 and no error, whatever the file contains. -/
theorem C52_closed_silent {env : Env} {opts : List WriterOption} {log : Log} {file : Bytes}
    (h : Finalized B env opts log file) (henc : SymEnc (chosenEncoding opts)) (hn : (acked log).length ≤ maxBlocks)
    (opening : Nat → Bool) (r : Reader B) (hr : newReaderIO opening file = .ok r) (before : List (IOCall B))
    (hcl : closes before = true) (fail : UInt64 → Bool) (sched : Sched) (hs : sched.Fair) (o : AggregateOptions B)
    (ho : o.filter.isSome ∨ o.denyFilter.isSome ∨ o.skipPreCalculated = true) :
    ∃ res, ((IOCall.aggregate fail sched o).run (runIO before ⟨r, true⟩).2).1 = .result (.ok res) ∧
      res.count = 0 ∧ res.sum = 0 := by
  obtain ⟨res, h1, h2⟩ := C52_aggregate h henc hn opening r hr before fail sched hs o ho
  rw [hcl, unfailed_all _ _ (by intro i _; rfl)] at h2
  refine ⟨res, h1, ?_, ?_⟩
  · rw [h2.count]; rfl
  · rw [h2.sum]; rfl

/-- **C52.** The aggregate from the index needs no read: it is exact even if all reads fail and after
`Close` (under the condition of C10). -/
theorem C52_footer {env : Env} {opts : List WriterOption} {log : Log} {file : Bytes}
    (h : Finalized B env opts log file) (hn : (acked log).length ≤ maxBlocks) (hrep : StatsRepresentable (acked log))
    (opening : Nat → Bool) (r : Reader B) (hr : newReaderIO opening file = .ok r) (before : List (IOCall B))
    (fail : UInt64 → Bool) (sched : Sched) (hs : sched.Fair) (workers : Int) :
    ∃ res, ((IOCall.aggregate fail sched { parallel := workers }).run (runIO before ⟨r, true⟩).2).1 = .result (.ok res) ∧
      IsAggregate res (valuesOf (acked log)) := by
  have hr' := newReaderIO_ok hr
  obtain ⟨hc, hopen⟩ := opened_state hr' before
  have H := h.indexed hn r hr'
  obtain ⟨res, h1, h2⟩ := C10_parallel h hn hrep r hr' sched hs workers
  refine ⟨res, ?_, h2⟩
  show IOOut.result (aggregateWithOptionsIO (fun i => !(runIO before ⟨r, true⟩).2.isOpen || fail i) sched (runIO before ⟨r, true⟩).2.reader _) = _
  rw [hc.eq, aggregateIO_cache]
  by_cases hidx : r.blockIndex = []
  · have hb : acked log = [] := by
      have := H.index
      rw [hidx] at this
      exact List.eq_nil_of_length_eq_zero this.symm
    rw [parallelIO_eq _ sched hs r _ (.inr (.inr (.inr hidx))) (.inr (.inr H.alloc))]
    rw [← h1, H.parallel_eq sched hs]
    unfold aggregateSequentialIO aggregateSequential
    have h0 := H.count_toNat
    rw [hb] at h0
    simp [hidx, h0, sumBlocks]
  · rw [aggregateIO_footer _ sched r _ rfl rfl rfl hidx, h1]

end Lawful

/-- **C52.** `Close` returns nil exactly the first time, if the operating system reports no error. -/
theorem C52_close (r : Reader B) (file : Bytes) (hr : newReader file = .ok r) (before : List (IOCall B)) (failing : Bool) :
    ((IOCall.close failing).run (runIO before ⟨r, true⟩).2).1 = .closed
      (if failing || closes before then .error .io else .ok ()) := by
  obtain ⟨_, ho⟩ := opened_state hr before
  show IOOut.closed (if (runIO before ⟨r, true⟩).2.isOpen = true ∧ failing = false then Except.ok () else .error .io) = _
  rw [ho]
  cases failing <;> cases closes before <;> rfl

/-- **C52.** `MultiReader.Close` closes every reader, and returns nil exactly if every `Close` did. -/
theorem C52_closeAll (ss : List (Bool × OpenReader B)) :
    (∀ s ∈ (closeAll ss (.ok ())).2, s.isOpen = false) ∧
    (closeAll ss (.ok ())).2.map OpenReader.reader = ss.map (fun s => s.2.reader) ∧
    ((closeAll ss (.ok ())).1 = .ok () ↔ ∀ s ∈ ss, (closeReader s.1 s.2).1 = .ok ()) := by
  have gen : ∀ (ss : List (Bool × OpenReader B)) (e : Except Err Unit),
      (∀ s ∈ (closeAll ss e).2, s.isOpen = false) ∧
      (closeAll ss e).2.map OpenReader.reader = ss.map (fun s => s.2.reader) ∧
      ((closeAll ss e).1 = .ok () ↔ e = .ok () ∧ ∀ s ∈ ss, (closeReader s.1 s.2).1 = .ok ()) := by
    intro ss
    induction ss with
    | nil => intro e; simp [closeAll]
    | cons s ss ih =>
      intro e
      obtain ⟨f, s⟩ := s
      obtain ⟨h1, h2, h3⟩ := ih (match (closeReader f s).1 with
        | .ok _ => e
        | .error e => .error e)
      refine ⟨?_, ?_, ?_⟩
      · intro x hx
        rcases List.mem_cons.1 hx with rfl | hx
        · rfl
        · exact h1 x hx
      · show _ :: _ = _ :: _
        rw [← h2]; rfl
      · refine Iff.trans h3 ?_
        cases hc : (closeReader f s).1 with
        | ok u => simp [hc]
        | error e' => simp [hc]
  have := gen ss (.ok ())
  simpa using this

/-- Non-vacuity of C52: a finalized file with three blocks, opened; a failing read of the middle block leaves the
aggregate of the other two. -/
example : ∃ file, ∃ r : Reader IdSet, Finalized IdSet quietEnv fullOpts fullLog file ∧ SymEnc (chosenEncoding fullOpts) ∧
    newReaderIO (fun _ => false) file = .ok r ∧ (acked fullLog).length = 3 ∧
    (unfailed (fun i => i == 1) (acked fullLog)).length = 2 := by
  obtain ⟨file, h⟩ := full_finalized
  obtain ⟨r, h1, _⟩ := C29_accessors h (by decide)
  refine ⟨file, r, h, .inr (.inl rfl), ?_, by decide, by decide⟩
  rcases C52_open (B := IdSet) (fun _ => false) file with h2 | ⟨⟨_, h2⟩, _⟩
  · rw [h2, h1]
  · cases h2

end VibeCol
