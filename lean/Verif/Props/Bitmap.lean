/-
C18, C19: the global ID bitmap and its cache.
-/
import Verif.Props.Aggregation
import Verif.Lemmas.Ids
namespace VibeCol
variable {B : Type} [Bitmap B]

/-! ### C18 -/

/-- **C18.** On a finalized file (any encoding), `GetGlobalIDBitmap` returns a bitmap that
contains exactly the IDs of the acknowledged pairs. The serialized bitmap must fit the 32-bit
length field. -/
theorem C18_bitmap [LawfulBitmap B] {env : Env} {opts : List WriterOption} {log : Log} {file : Bytes}
    (h : Finalized B env opts log file) (hmis : NoMismatch log) (hn : (acked log).length ≤ maxBlocks)
    (hbuf : (Bitmap.toBuffer (bitmapOf B (acked log))).length < 2 ^ 32)
    (r : Reader B) (hr : newReader file = .ok r) :
    ∃ bm, (getGlobalIDBitmap r).1 = .ok bm ∧
      ∀ x, Bitmap.contains bm x = true ↔ ∃ b ∈ acked log, x ∈ b.1 := by
  obtain ⟨hd, blks, bo, fs, hc⟩ := h.contents' hmis
  have h1 := hc.newReader (B := B) hn
  rw [hr] at h1
  cases h1
  refine ⟨_, hc.ok.bitmap (B := B) hbuf _ rfl rfl rfl, fun x => ?_⟩
  rw [LawfulBitmap.contains_fromBuffer_toBuffer, contains_bitmapOf, mem_idsOf]

/-- **C18 under write failures.** Even if `WriteBlock` calls failed (with an I/O error or
mismatching sections) before, the bitmap of a file whose `Finalize` returned nil contains all
IDs of the blocks left in the file, and only IDs that were passed to some `WriteBlock`. -/
theorem C18_faulty [LawfulBitmap B] {env : Env} {opts : List WriterOption} {calls : List Call} {log : Log}
    {w w' : Writer B} (hh : History B env opts calls log w) (hb : ∀ ev ∈ log, ev.1.Bounded)
    (hno : FinalizeNoIOError log) (hf : finalize env w = (.ok (), w')) (hsize : w'.file.bytes.length < 2 ^ 63)
    (r : Reader B) (hr : newReader w'.file.bytes = .ok r) (hn : log.length ≤ maxBlocks)
    (hbuf : r.header.bitmapSize.toNat < 2 ^ 32) :
    ∃ blocks bm, LeftBy log blocks ∧ (getGlobalIDBitmap r).1 = .ok bm ∧
      (∀ b ∈ blocks, ∀ x ∈ b.1, Bitmap.contains bm x = true) ∧
      (∀ x, Bitmap.contains bm x = true → ∃ ids vals res, (Call.write ids vals, res) ∈ log ∧ x ∈ ids) ∧
      r.blockCount.toNat = blocks.length := by
  obtain ⟨blks, extra, hi, hp, ho, he, ht, hfit⟩ := history_faulty hh (hh.bounded hb) hno
  obtain ⟨_, _, _, _, _, hok, _⟩ := wp_ok (finalize_inv env w blks extra hi) hf
  obtain ⟨hd, bo, fs, hok, htgt, hbo⟩ := hok hsize
  have hlen : ∀ {l : Log} {bs : List Block}, LeftBy l bs → bs.length ≤ l.length := by
    intro l bs hl
    induction hl with
    | nil => exact Nat.le_refl _
    | cons hl t ih =>
      have : ∀ (c : Call) (r : Result), (ackedBy c r).length ≤ 1 := by
        intro c r
        unfold ackedBy
        split <;> simp
      cases hl with
      | acked => rename_i c r _ _; have := this c r; simp only [List.length_append, List.length_cons]; omega
      | torn => simp only [List.length_append, List.length_cons, List.length_nil]; omega
  have hl := hlen hp
  rw [List.length_map] at hl
  unfold maxBlocks at hn
  have h1 := hok.newReader (B := B) (by omega)
  rw [hr] at h1
  cases h1
  have hbs : (Bitmap.toBuffer w.globalIDs).length < 2 ^ 32 := by
    have h2 := hok.bmSize
    have h3 := hok.bmFits
    have h4 := hok.small
    have h5 := hok.fsLe
    change hd.bitmapSize.toNat < 2 ^ 32 at hbuf
    rw [h2, UInt64.toNat_ofNat'] at hbuf
    omega
  refine ⟨blks.map Blk.pairs, _, hp, hok.bitmap (B := B) hbs _ rfl rfl rfl, ?_, ?_, ?_⟩
  · intro b hb x hx
    rw [LawfulBitmap.contains_fromBuffer_toBuffer, hi.bitmap]
    obtain ⟨k, hk, rfl⟩ := List.mem_map.1 hb
    exact .inl ⟨k, hk, hx⟩
  · intro x hx
    rw [LawfulBitmap.contains_fromBuffer_toBuffer] at hx
    obtain ⟨c, hc, hx⟩ := history_ids hh (hh.bounded hb) hno x hx
    rw [hh.calls_eq] at hc
    obtain ⟨⟨c', res⟩, hev, rfl⟩ := List.mem_map.1 hc
    cases c' with
    | write ids vals => exact ⟨ids, vals, res, hev, hx⟩
    | estimate ids vals => cases hx
    | finalize => cases hx
  · show hd.blockCount.toNat = _
    rw [hok.count, UInt64.toNat_ofNat', List.length_map]; omega

/-- Non-vacuity of C18: the bitmap of the example file, with a serialized size below 2^32. -/
example : ∃ file, ∃ r : Reader IdSet, Finalized IdSet quietEnv exampleOpts exampleLog file ∧ newReader file = .ok r ∧
    NoMismatch exampleLog ∧ (Bitmap.toBuffer (bitmapOf IdSet (acked exampleLog))).length < 2 ^ 32 ∧
    ∃ bm, (getGlobalIDBitmap r).1 = .ok bm ∧ Bitmap.contains bm 5 = true ∧ Bitmap.contains bm 4 = false := by
  obtain ⟨file, h⟩ := example_finalized
  obtain ⟨r, h1, _⟩ := C29_accessors h (by decide)
  have hm : NoMismatch exampleLog := by unfold NoMismatch; decide
  obtain ⟨bm, h2, h3⟩ := C18_bitmap h hm (by decide) (by decide) r h1
  refine ⟨file, r, h, h1, hm, by decide, bm, h2, (h3 5).2 (by decide), ?_⟩
  cases hc : Bitmap.contains bm 4 with
  | false => rfl
  | true => exact absurd ((h3 4).1 hc) (by decide)

/-- The history for `C18_refuted`: `WriteBlock` rejects the pair with a section size mismatch. -/
def rejectedLog : Log := [(.write [9] [1], .error .sectionSizeMismatch)]

/-- **C18 is refuted when a `WriteBlock` was rejected**: with `EncodingVarIntID` the call
`WriteBlock([9],[1])` fails, no pair is persisted, `Finalize` returns nil, and the bitmap
contains the ID 9. -/
theorem C18_refuted : ∃ (w w' : Writer IdSet) (r : Reader IdSet) (bm : IdSet),
    History IdSet quietEnv [.withEncoding encVarIntID] [.write [9] [1]] rejectedLog w ∧
    finalize quietEnv w = (.ok (), w') ∧ newReader w'.file.bytes = .ok r ∧ r.blockCount = 0 ∧
    (getGlobalIDBitmap r).1 = .ok bm ∧ Bitmap.contains bm 9 = true := by
  obtain ⟨w0, h0⟩ := newWriter_ok (B := IdSet) quietEnv quietEnv_noFault [.withEncoding encVarIntID]
  have hlog : (runCalls quietEnv [.write [9] [1]]
      (newWriter (B := IdSet) [.withEncoding encVarIntID] quietEnv).2).1 = rejectedLog := by decide +kernel
  have hfin : (finalize quietEnv (runCalls quietEnv [.write [9] [1]]
      (newWriter (B := IdSet) [.withEncoding encVarIntID] quietEnv).2).2).1 = .ok () := by decide +kernel
  have hread : (match newReader (B := IdSet) (finalize quietEnv (runCalls quietEnv [.write [9] [1]]
      (newWriter (B := IdSet) [.withEncoding encVarIntID] quietEnv).2).2).2.file.bytes with
    | .ok r => decide (r.blockCount = 0) && (match (getGlobalIDBitmap r).1 with
      | .ok bm => Bitmap.contains bm 9
      | _ => false)
    | _ => false) = true := by decide +kernel
  rw [h0] at hlog hfin hread
  cases hr : newReader (B := IdSet) (finalize quietEnv (runCalls quietEnv [.write [9] [1]] w0).2).2.file.bytes with
  | err e => rw [hr] at hread; cases hread
  | panic => rw [hr] at hread; cases hread
  | ok r =>
    rw [hr] at hread
    simp only [Bool.and_eq_true, decide_eq_true_eq] at hread
    cases hg : (getGlobalIDBitmap r).1 with
    | err e => rw [hg] at hread; cases hread.2
    | panic => rw [hg] at hread; cases hread.2
    | ok bm =>
      rw [hg] at hread
      exact ⟨_, _, r, bm, ⟨w0, h0, Prod.ext hlog rfl⟩, Prod.ext hfin rfl, hr, hread.1, hg, hread.2⟩

/-! ### C19 -/

/-- A call on a `Reader`. -/
inductive ReaderCall (B : Type) where
  | enable
  | disable
  | getBitmap
  | getPairs (i : UInt64)
  | aggregate (sched : Sched) (o : AggregateOptions B)

/-- What the caller gets. -/
inductive ReaderOut (B : Type) where
  | done
  | bitmap (b : Res B)
  | pairs (p : Res (List UInt64 × List Int64))
  | result (a : Res AggregateResult)

/-- Run one call. -/
def ReaderCall.run : ReaderCall B → Reader B → ReaderOut B × Reader B
  | .enable, r => (.done, enableCaching r)
  | .disable, r => (.done, disableCaching r)
  | .getBitmap, r => (.bitmap (getGlobalIDBitmap r).1, (getGlobalIDBitmap r).2)
  | .getPairs i, r => (.pairs (VibeCol.getPairs r i), r)
  | .aggregate sched o, r => (.result (aggregateWithOptions sched r o), r)

/-- Run calls one after the other on the same reader. -/
def runReader : List (ReaderCall B) → Reader B → List (ReaderOut B) × Reader B
  | [], r => ([], r)
  | c :: cs, r =>
    let (o, r') := c.run r
    let (os, r'') := runReader cs r'
    (o :: os, r'')

/-- `r'` is `r` up to the cache, and a cached bitmap is the one `r` would load. -/
structure CacheOf (r r' : Reader B) : Prop where
  bytes : r'.bytes = r.bytes
  header : r'.header = r.header
  index : r'.blockIndex = r.blockIndex
  metadata : r'.footerMeta = r.footerMeta
  cached : ∀ b, r'.globalIDs = some b → (getGlobalIDBitmap r).1 = .ok b

theorem CacheOf.eq {r r' : Reader B} (h : CacheOf r r') :
    r' = { r with globalIDs := r'.globalIDs, cacheGlobalIDs := r'.cacheGlobalIDs } := by
  obtain ⟨h1, h2, h3, h4, _⟩ := h
  cases r'; cases r
  simp_all

omit [Bitmap B] in
theorem getPairs_cache (r : Reader B) (g : Option B) (c : Bool) (i : UInt64) :
    getPairs { r with globalIDs := g, cacheGlobalIDs := c } i = getPairs r i := rfl

omit [Bitmap B] in
theorem sumEntries_cache (r : Reader B) (g : Option B) (c : Bool) :
    sumEntries { r with globalIDs := g, cacheGlobalIDs := c } = sumEntries r := by
  funext is
  induction is with
  | nil => rfl
  | cons i is ih =>
    funext a
    simp only [sumEntries]
    rw [ih]

theorem aggregate_cache (r : Reader B) (g : Option B) (c : Bool) (sched : Sched) (o : AggregateOptions B) :
    aggregateWithOptions sched { r with globalIDs := g, cacheGlobalIDs := c } o = aggregateWithOptions sched r o := by
  unfold aggregateWithOptions aggregateParallel aggregateSequential
  rw [sumEntries_cache]
  rfl

theorem getGlobalIDBitmap_fresh (r : Reader B) (hn : r.globalIDs = none) (hc : r.cacheGlobalIDs = false) :
    (getGlobalIDBitmap r).2 = r := by
  unfold getGlobalIDBitmap
  rw [hn, hc]
  simp only [Bool.false_eq_true, if_false]
  split
  · rfl
  · split
    · rfl
    · rfl
    · split <;> rfl

/-- Loading does not depend on the cache fields; the result is remembered if wanted. -/
theorem CacheOf.get {r r' : Reader B} (hn : r.globalIDs = none) (hc : r.cacheGlobalIDs = false) (h : CacheOf r r') :
    (getGlobalIDBitmap r').1 = (getGlobalIDBitmap r).1 ∧ CacheOf r (getGlobalIDBitmap r').2 := by
  have hcached := h.cached
  rw [h.eq] at hcached ⊢
  generalize r'.globalIDs = g at *
  generalize r'.cacheGlobalIDs = c at *
  have key : ∀ b, (getGlobalIDBitmap r).1 = .ok b →
      CacheOf r { r with globalIDs := some b, cacheGlobalIDs := c } := by
    intro b hb
    refine ⟨rfl, rfl, rfl, rfl, ?_⟩
    intro b' hb'
    cases hb'
    exact hb
  have key2 : CacheOf r { r with globalIDs := g, cacheGlobalIDs := c } := ⟨rfl, rfl, rfl, rfl, hcached⟩
  have load : ¬ (∃ b, g = some b ∧ c = true) →
      (getGlobalIDBitmap { r with globalIDs := g, cacheGlobalIDs := c }).1 = (getGlobalIDBitmap r).1 ∧
      ((getGlobalIDBitmap { r with globalIDs := g, cacheGlobalIDs := c }).2 =
        { r with globalIDs := g, cacheGlobalIDs := c } ∨
        ∃ b, (getGlobalIDBitmap r).1 = .ok b ∧
          (getGlobalIDBitmap { r with globalIDs := g, cacheGlobalIDs := c }).2 =
            { r with globalIDs := some b, cacheGlobalIDs := c }) := by
    intro hno
    have hg : (g = none ∨ c = false) := by
      cases g with
      | none => exact .inl rfl
      | some b => cases c with
        | false => exact .inr rfl
        | true => exact absurd ⟨b, rfl, rfl⟩ hno
    unfold getGlobalIDBitmap
    simp only [hn, hc]
    rcases hg with rfl | rfl
    · simp only
      split
      · refine ⟨rfl, ?_⟩
        cases c
        · exact .inl rfl
        · exact .inr ⟨_, rfl, rfl⟩
      · split
        · exact ⟨rfl, .inl rfl⟩
        · exact ⟨rfl, .inl rfl⟩
        · split
          · exact ⟨rfl, .inl rfl⟩
          · exact ⟨rfl, .inl rfl⟩
          · refine ⟨rfl, ?_⟩
            cases c
            · exact .inl rfl
            · exact .inr ⟨_, rfl, rfl⟩
    · simp only
      split
      · exact ⟨rfl, .inl rfl⟩
      · split
        · exact ⟨rfl, .inl rfl⟩
        · exact ⟨rfl, .inl rfl⟩
        · split
          · exact ⟨rfl, .inl rfl⟩
          · exact ⟨rfl, .inl rfl⟩
          · exact ⟨rfl, .inl rfl⟩
  by_cases hhit : ∃ b, g = some b ∧ c = true
  · obtain ⟨b, rfl, rfl⟩ := hhit
    exact ⟨(hcached b rfl).symm, key2⟩
  · obtain ⟨h1, h2⟩ := load hhit
    refine ⟨h1, ?_⟩
    rcases h2 with h2 | ⟨b, hb, h2⟩
    · rw [h2]; exact key2
    · rw [h2]; exact key b hb

/-- What a call returns on a reader that has just been opened. -/
def freshOut (r : Reader B) (c : ReaderCall B) : ReaderOut B := (c.run r).1

/-- **C19.** On a reader opened from any file contents whatsoever, any sequence of calls
(enabling and disabling the cache, reading the bitmap, reading pairs, aggregating) returns from
every call what a freshly opened reader returns from it. -/
theorem C19_transparent (file : Bytes) (r : Reader B) (hr : newReader file = .ok r) (calls : List (ReaderCall B)) :
    (runReader calls r).1 = calls.map (freshOut r) := by
  have hf : r.globalIDs = none ∧ r.cacheGlobalIDs = false := by
    unfold newReader at hr
    cases h1 : readHeader file with
    | err e => rw [h1] at hr; cases hr
    | panic => rw [h1] at hr; cases hr
    | ok hd =>
      rw [h1, Res.ok_bind] at hr
      cases h2 : readFooter file hd with
      | err e => rw [h2] at hr; cases hr
      | panic => rw [h2] at hr; cases hr
      | ok p =>
        rw [h2, Res.ok_bind] at hr
        cases hr
        exact ⟨rfl, rfl⟩
  have : ∀ r', CacheOf r r' → (runReader calls r').1 = calls.map (freshOut r) := by
    induction calls with
    | nil => intro r' _; rfl
    | cons c cs ih =>
      intro r' h
      show (c.run r').1 :: (runReader cs (c.run r').2).1 = freshOut r c :: cs.map (freshOut r)
      have hstep : (c.run r').1 = freshOut r c ∧ CacheOf r (c.run r').2 := by
        cases c with
        | enable => exact ⟨rfl, h.bytes, h.header, h.index, h.metadata, h.cached⟩
        | disable => exact ⟨rfl, h.bytes, h.header, h.index, h.metadata, fun b hb => by cases hb⟩
        | getBitmap =>
          obtain ⟨h1, h2⟩ := h.get hf.1 hf.2
          exact ⟨congrArg ReaderOut.bitmap h1, h2⟩
        | getPairs i =>
          refine ⟨congrArg ReaderOut.pairs ?_, h⟩
          rw [h.eq]; exact getPairs_cache r _ _ i
        | aggregate sched o =>
          refine ⟨congrArg ReaderOut.result ?_, h⟩
          rw [h.eq]; exact aggregate_cache r _ _ sched o
      rw [hstep.1, ih _ hstep.2]
  exact this r ⟨rfl, rfl, rfl, rfl, fun b hb => by rw [hf.1] at hb; cases hb⟩

/-- Non-vacuity of C19: a reader of a finalized file; the cache is filled, hit, dropped and
filled again. -/
example : ∃ file, ∃ r : Reader IdSet, newReader file = .ok r ∧
    (runReader [.enable, .getBitmap, .getBitmap, .disable, .getBitmap, .enable, .getBitmap] r).1.length = 7 ∧
    (runReader [.enable, .getBitmap] r).2.globalIDs.isSome = true := by
  obtain ⟨file, h⟩ := example_finalized
  obtain ⟨r, h1, _⟩ := C29_accessors h (by decide)
  obtain ⟨bm, h2, _⟩ := C18_bitmap h (by unfold NoMismatch; decide) (by decide) (by decide) r h1
  refine ⟨file, r, h1, rfl, ?_⟩
  obtain ⟨hd, blks, bo, fs, hc⟩ := h.contents' (by unfold NoMismatch; decide)
  have h4 := hc.newReader (B := IdSet) (by decide)
  rw [h1] at h4
  cases h4
  show (getGlobalIDBitmap (enableCaching (okReader file hd (chosenEncoding exampleOpts) blks))).2.globalIDs.isSome = true
  have h5 := hc.ok.bitmap (B := IdSet) (by decide) (enableCaching (okReader file hd (chosenEncoding exampleOpts) blks)) rfl rfl rfl
  revert h5
  unfold getGlobalIDBitmap enableCaching okReader
  simp only [if_true]
  split
  · intro _; rfl
  · split
    · intro h; cases h
    · intro h; cases h
    · split
      · intro h; cases h
      · intro h; cases h
      · intro _; rfl

end VibeCol
