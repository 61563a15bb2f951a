/-
C35: a block of 4 GiB. C41: files with more blocks than 2^32 / 56.
-/
import Verif.Props.RoundTrip
import Verif.Props.Faults
import Verif.Props.Readable
set_option linter.unusedSimpArgs false
namespace VibeCol
variable {B : Type} [Bitmap B] [LawfulBitmap B]

/-- **C41.** However many blocks a finalized file has (below 2^32), the reader opens it, reports
their number, and returns the first 76,695,844 of them as written. -/
theorem C41_prefix {env : Env} {opts : List WriterOption} {log : Log} {file : Bytes}
    (h : Finalized B env opts log file) (henc : SymEnc (chosenEncoding opts))
    (hn : (acked log).length < 2 ^ 32) :
    ∃ r : Reader B, newReader file = .ok r ∧ r.blockCount.toNat = (acked log).length ∧
      ∀ (i : Nat) (hi : i < (acked log).length), i < maxBlocks → getPairs r (UInt64.ofNat i) = .ok (acked log)[i] := by
  obtain ⟨hd, blks, bo, fs, hc⟩ := h.contents henc
  have hlen : blks.length = (acked log).length := hc.count
  refine ⟨_, hc.ok.newReader_any (by omega), ?_, fun i hi hm => ?_⟩
  · show hd.blockCount.toNat = _
    rw [hc.ok.count, UInt64.toNat_ofNat', ← hlen]; omega
  · have hi' : i < blks.length := by omega
    unfold maxBlocks at hm
    unfold getPairs
    rw [uint64_ofNat_toInt64, hc.ok.readBlock i hi' _ rfl hc.ok.enc ?_ (by omega),
      decodeBlockData_sections _ henc _ _ (hc.ok.ok _ (List.getElem_mem hi')).len]
    · congr 1
      have : (acked log)[i] = (blks.map Blk.pairs)[i]'(by simpa using hi') := by simp only [hc.pairs]
      rw [this, List.getElem_map]; rfl
    · simp only [List.getElem?_map, List.getElem?_range hi', Option.map_some, Option.some.injEq]
      exact parseEntry_fields _ _ _ (by omega) (hc.ok.slice_entry i hi')

/-- One pair in one block, `n` times. -/
def manyCalls (n : Nat) : List Call := List.replicate n (.write [7] [1])

omit [LawfulBitmap B] in
theorem addEntry_count (l : List FooterEntry) (a : Acc) :
    (l.foldl Acc.addEntry a).count = a.count + (l.map fun x => x.count.toNat).sum := by
  induction l generalizing a with
  | nil => rfl
  | cons x l ih => rw [List.foldl_cons, ih, List.map_cons, List.sum_cons, ← Nat.add_assoc]; rfl

theorem acked_many (n : Nat) : acked (List.replicate n (Call.write [7] [1], Except.ok ())) =
    List.replicate n ([7], [1]) := by
  unfold acked
  induction n with
  | zero => rfl
  | succ n ih => rw [List.replicate_succ, List.flatMap_cons, ih, List.replicate_succ]; rfl

theorem many_finalized (n : Nat) (hn : n ≤ 76695845) : ∃ log file, Finalized IdSet quietEnv [] log file ∧
    acked log = List.replicate n ([7], [1]) := by
  have hb : ∀ c ∈ manyCalls n, c.Bounded := fun c hc => by
    rw [List.eq_of_mem_replicate hc]; simp [Call.Bounded]
  have htp : totalPairs (manyCalls n) = n := by
    simp [totalPairs, manyCalls, List.map_replicate, Call.pairs]
  have hsz : sizeBound (manyCalls n) (8 * n) < 2 ^ 63 := by
    unfold sizeBound
    rw [htp, manyCalls, List.length_replicate]
    have : (n + 1) * (4175 + 8 * n + 56 * n) ≤ (76695845 + 1) * (4175 + 8 * 76695845 + 56 * 76695845) :=
      Nat.mul_le_mul (by omega) (by omega)
    omega
  obtain ⟨log, file, hf, hlog⟩ := C01_progress (B := IdSet) quietEnv_noFault [] (.inl rfl) (manyCalls n) hb (8 * n)
    (by rw [htp]; exact idSet_buffer n) hsz
  refine ⟨log, file, hf, ?_⟩
  obtain ⟨calls, w, w', hh, _, _⟩ := hf.made
  have hall : ∀ ev ∈ log, ev = (Call.write [7] [1], .ok ()) := by
    rintro ⟨c, r⟩ hev
    have hc : c ∈ manyCalls n := by rw [← hlog]; exact List.mem_map_of_mem hev
    obtain rfl := List.eq_of_mem_replicate hc
    rcases C01_accepted hh (.inl rfl) hf.noIOError hf.bounded _ _ r hev rfl (by simp) with rfl | ⟨k, h1, h2, _⟩
    · rfl
    · simp at h2; omega
  have hl : log.length = n := by
    have := congrArg List.length hlog
    simpa [manyCalls] using this
  rw [List.eq_replicate_iff.2 ⟨hl, hall⟩, acked_many]

theorem wrapped (n : Nat) (hn : n = 76695844) : (UInt32.ofNat n * 56 + 52).toNat = 20 := by
  simp only [UInt32.toNat_add, UInt32.toNat_mul, UInt32.toNat_ofNat']
  rw [show (56 : UInt32).toNat = 56 by decide, show (52 : UInt32).toNat = 52 by decide]
  omega

theorem entry_maxID (x : FooterEntry) (h : x.maxID = 7) : slice (entryBytes x) 20 4 = le32 7 := by
  have h8 : slice (entryBytes x) 20 8 = le64 7 := by
    rw [← h]
    simp [slice, entryBytes, FooterEntry.fields, List.drop_append, List.drop_eq_nil_of_le, List.take_of_length_le]
  have := slice_of_slice h8 0 4 (by omega)
  rw [Nat.add_zero] at this
  rw [this]
  decide

theorem many_aggregate (n : Nat) (hn : n = 76695844) : ∃ (log : Log) (file : Bytes) (r : Reader IdSet) (res : AggregateResult),
    Finalized IdSet quietEnv [] log file ∧ acked log = List.replicate (n + 1) ([7], [1]) ∧
    newReader file = .ok r ∧ (∀ sched, aggregate sched r = .ok res) ∧ res.count = n + 7 := by
  obtain ⟨log, file, hf, ha⟩ := many_finalized (n + 1) (by omega)
  obtain ⟨hd, blks, bo, fs, hc⟩ := hf.contents (.inl rfl)
  have hlen : blks.length = n + 1 := by rw [hc.count, ha, List.length_replicate]
  have hblk : ∀ b ∈ blks, b.ids = [7] ∧ b.vals = [1] := by
    intro b hb
    have : b.pairs ∈ acked log := by rw [← hc.pairs]; exact List.mem_map_of_mem hb
    rw [ha] at this
    have := List.eq_of_mem_replicate this
    exact ⟨congrArg Prod.fst this, congrArg Prod.snd this⟩
  have hnr := hc.ok.newReader_any (B := IdSet) (by omega)
  refine ⟨log, file, _, (((List.range blks.length).map fun i =>
    parseEntry (slice file (fs + 4) (blks.length * 56)) (UInt32.ofNat i)).foldl Acc.addEntry Acc.init).result,
    hf, ha, hnr, fun sched => ?_, ?_⟩
  · unfold aggregate aggregateWithOptions
    rw [if_neg (by decide)]
    unfold aggregateSequential
    rw [if_neg (by decide), if_pos]
    refine ⟨?_, rfl⟩
    show 0 < (List.map _ _).length
    rw [List.length_map, List.length_range, hlen]; omega
  · show (List.foldl Acc.addEntry Acc.init (List.map _ _)).count = _
    rw [addEntry_count, List.map_map]
    show 0 + _ = _
    rw [Nat.zero_add]
    generalize hbuf : slice file (fs + 4) (blks.length * 56) = buf
    have hent : ∀ i (hi : i < blks.length), slice buf (i * 56) 56 = entryBytes (blks[i].entry encRaw) :=
      fun i hi => by rw [← hbuf]; exact hc.ok.slice_entry i hi
    have h1 : ∀ i, i < n → (parseEntry buf (UInt32.ofNat i)).count.toNat = 1 := by
      intro i hi
      rw [parseEntry_fields _ _ _ (by omega) (hent i (by omega))]
      show (UInt32.ofNat (blks[i]'_).ids.length).toNat = 1
      rw [(hblk _ (List.getElem_mem (by omega))).1]; rfl
    have h2 : (parseEntry buf (UInt32.ofNat n)).count.toNat = 7 := by
      show (rd32 buf (UInt32.ofNat n * 56 + 52).toNat).toNat = 7
      rw [wrapped n hn]
      have h0 := hent 0 (by omega)
      rw [Nat.zero_mul] at h0
      have hmax : (blks[0].entry encRaw).maxID = 7 := by
        show (calculateMinMaxUint64 blks[0].ids).2 = 7
        rw [(hblk _ (List.getElem_mem (by omega))).1]; rfl
      rw [rd32_of_slice buf 20 7]; · rfl
      have h3 := slice_of_slice h0 20 4 (by omega)
      rw [Nat.zero_add] at h3
      show slice buf 20 4 = _
      rw [h3]
      exact entry_maxID _ hmax
    rw [hlen, List.range_succ, List.map_append, List.sum_append]
    have h3 : ((List.range n).map ((fun x : FooterEntry => x.count.toNat) ∘ fun i => parseEntry buf (UInt32.ofNat i))) =
        List.replicate n 1 := by
      rw [List.eq_replicate_iff]
      refine ⟨by rw [List.length_map, List.length_range], fun x hx => ?_⟩
      obtain ⟨i, hi, rfl⟩ := List.mem_map.1 hx
      exact h1 i (List.mem_range.1 hi)
    rw [h3, List.sum_replicate_nat]
    simp only [List.map_cons, List.map_nil, Function.comp, h2, List.sum_cons, List.sum_nil]
    omega

/-- **C41 (refutation).** With one block more than that, each holding one pair, the default `Aggregate`
counts six pairs too many: the last index entry is read partly from the start of the index. -/
theorem C41_refuted : ∃ (log : Log) (file : Bytes) (r : Reader IdSet) (res : AggregateResult),
    Finalized IdSet quietEnv [] log file ∧ acked log = List.replicate 76695845 ([7], [1]) ∧
    newReader file = .ok r ∧ (∀ sched, aggregate sched r = .ok res) ∧ res.count = 76695845 + 6 :=
  many_aggregate 76695844 rfl

/-- Non-vacuity of C41: the file with one block too many. -/
example : ∃ log file, Finalized IdSet quietEnv [] log file ∧ (acked log).length = 76695845 ∧
    ∃ r : Reader IdSet, newReader file = .ok r ∧ r.blockCount.toNat = 76695845 ∧
      getPairs r (UInt64.ofNat 76695843) = .ok ([7], [1]) := by
  obtain ⟨log, file, hf, ha⟩ := many_finalized 76695845 (Nat.le_refl _)
  have hl : (acked log).length = 76695845 := by rw [ha, List.length_replicate]
  obtain ⟨r, h1, h2, h3⟩ := C41_prefix hf (.inl rfl) (by rw [hl]; decide)
  refine ⟨log, file, hf, hl, r, h1, by rw [h2, hl], ?_⟩
  rw [h3 76695843 (by rw [hl]; decide) (by decide)]
  congr 1
  exact List.eq_of_mem_replicate (by rw [← ha]; exact List.getElem_mem _)

/-! ### C35 -/

omit [Bitmap B] [LawfulBitmap B] in
theorem raw_sizes (ids : List UInt64) (vals : List Int64) (h : ids.length = 2 ^ 28) (h' : vals.length = 2 ^ 28) :
    idSize encRaw ids = 2 ^ 31 ∧ valSize encRaw vals = 2 ^ 31 ∧ (idSection encRaw ids).length = 2 ^ 31 ∧
    (valSection encRaw vals).length = 2 ^ 31 := by
  have h1 := flatten_map_eq le64 ids 8 le64_length
  have h2 := flatten_map_eq leI64 vals 8 leI64_length
  refine ⟨?_, ?_, ?_, ?_⟩
  · show ids.length * 8 = _; omega
  · show vals.length * 8 = _; omega
  · show (ids.map le64).flatten.length = _; omega
  · show (vals.map leI64).flatten.length = _; omega

/-- `WriteBlock` accepts 2^28 pairs in the raw encoding: the estimate wraps around to 4032 bytes. -/
theorem huge_accepted {env : Env} (hn : env.NoFault) {w : Writer B} (h0 : newWriter [] env = (.ok (), w))
    (ids : List UInt64) (vals : List Int64) (h : ids.length = 2 ^ 28) (h' : vals.length = 2 ^ 28) :
    ∃ w1, writeBlock ids vals env w = (.ok (), w1) ∧ Committed w ids vals w1 := by
  obtain ⟨hi, hc, ho, he, ht, hpos, _⟩ := newWriter_inv h0
  obtain ⟨s1, s2, s3, s4⟩ := raw_sizes ids vals h h'
  change w.encodingType = encRaw at he
  change w.blockSizeTarget = 16384 at ht
  have hp : w.file.pos = 64 := by
    obtain ⟨i, o, _, rfl⟩ := wp_ok (writeHeader_spec env []) h0
    exact startBytes_length _ _
  have hk : KnownEnc w.encodingType := by rw [he]; exact SymEnc.known (.inl rfl)
  have key : wp (writeBlock ids vals) (fun _ w1 => Committed w ids vals w1) (fun _ _ => Faulty env w) env w := by
    unfold writeBlock
    refine wp_ite (fun hc => absurd (by omega) hc) (fun _ => wp_ite (fun hc => absurd hc (by omega)) (fun _ => ?_))
    refine wp_bind (wp_mono (estimateBlockSize_gen env w ids vals hk (by omega) (by omega) (by rw [he, s1]; decide)
      (by rw [he, s2]; decide)) ?_ (fun e w' h => h.2.1))
    rintro s w1 ⟨hs, hst⟩
    refine wp_bind (wp_get ?_)
    have htw : w1.blockSizeTarget = w.blockSizeTarget := by obtain ⟨o, _, rfl⟩ := hst; rfl
    have hew : w1.encodingType = w.encodingType := hst.enc
    have hs' : s = 4032 := by
      rw [hs, he, s1, s2, hp]; decide
    refine wp_ite (fun hc => absurd hc.1 ?_) (fun _ => ?_)
    · rw [htw, ht, hs']; decide
    refine wp_mono (writeBlockInternal_gen env w1 ids vals (by rw [hew]; exact hk) (by rw [hew, he, s1]; decide)
      (by rw [hew, he, s2]; decide) (by rw [hew, he, s3]; decide) (by rw [hew, he, s4]; decide)
      (by intro hc; rw [hc] at h; simp at h) (by intro hc; rw [hc] at h'; simp at h')
      (by rw [hst.file]; exact hi.posLe) (by rw [hst.file]; exact hi.near)) ?_ ?_
    · rintro _ w2 ⟨_, _, hcm⟩
      obtain ⟨o, _, rfl⟩ := hst
      exact hcm
    · intro e w2 hwe
      have hF : Faulty env w1 := by
        cases hwe with
        | early _ hF => exact hF
        | mid _ _ hF => exact hF
        | mismatch _ _ hm => exact absurd ⟨by rw [hew, he, s1, s3], by rw [hew, he, s2, s4]⟩ hm
        | sync _ hF => exact hF
      exact hst.faulty hF
  unfold wp at key
  generalize writeBlock ids vals env w = res at key ⊢
  obtain ⟨r, w1⟩ := res
  cases r with
  | ok u => exact ⟨w1, rfl, key⟩
  | error e => exact absurd key (NoFault.not_faulty hn ho)

/-- **C35 (refutation).** Whatever 2^28 pairs are passed to `WriteBlock` of a raw-encoded file with the
default block size: without any I/O error `WriteBlock` and `Finalize` return nil, the file opens, its
index counts the pairs, but `GetPairs` refuses the block and no aggregate that reads blocks sees
any of the pairs. (The hypothesis on the bitmap only keeps the file below 2^63 bytes.) -/
theorem C35_refuted {env : Env} (hn : env.NoFault) (ids : List UInt64) (vals : List Int64)
    (h : ids.length = 2 ^ 28) (h' : vals.length = 2 ^ 28)
    (hbuf : (Bitmap.toBuffer (ids.foldl Bitmap.set (Bitmap.empty : B))).length < 2 ^ 62) :
    ∃ (w w' : Writer B) (r : Reader B), History B env [] [.write ids vals] [(.write ids vals, .ok ())] w ∧
      finalize env w = (.ok (), w') ∧ newReader w'.file.bytes = .ok r ∧ r.blockCount = 1 ∧
      (∃ x, r.blockIndex = [x] ∧ x.count.toNat = 2 ^ 28) ∧ getPairs r 0 = .err .sectionBounds ∧
      ∀ (sched : Sched) (_ : sched.Fair) (o : AggregateOptions B),
        o.filter.isSome ∨ o.denyFilter.isSome ∨ o.skipPreCalculated = true →
        ∃ res, aggregateWithOptions sched r o = .ok res ∧ res.count = 0 ∧ res.sum = 0 := by
  obtain ⟨w0, h0⟩ := newWriter_ok (B := B) env hn []
  obtain ⟨w1, h1, hcm⟩ := huge_accepted hn h0 ids vals h h'
  obtain ⟨s1, s2, s3, s4⟩ := raw_sizes ids vals h h'
  have hfo : w1.fileOpen = true := by
    obtain ⟨_, _, ho, _⟩ := newWriter_inv h0
    obtain ⟨o, _, rfl⟩ := hcm; exact ho
  have hhist : History B env [] [.write ids vals] [(.write ids vals, .ok ())] w1 :=
    ⟨w0, h0, by simp only [runCalls, Call.run, h1]⟩
  obtain ⟨i, o, d, hw1⟩ := committed_one h0 hcm
  generalize env.clock i = t0 at hw1
  have himgl : (image encRaw ids vals).length = 2 ^ 32 + 80 := by
    rw [image_length, s3, s4]
  have hpl : (padded 64 (image encRaw ids vals)).length = 2 ^ 32 + 4032 := by
    rw [padded_length, himgl]; decide
  have hpos : w1.file.pos = 64 + (2 ^ 32 + 4032) := by rw [hw1, ← hpl]; rfl
  have hbl : w1.file.bytes.length = 64 + (2 ^ 32 + 4032) := by
    rw [hw1, ← hpl]; simp only [oneWriter, List.length_append, startBytes_length]
  have hfinal : ∃ t w', finalize env w1 = (.ok (), w') ∧ w'.file.bytes = finalBytes t w1 := by
    have hspec := finalize_spec env w1 (by omega) (by omega) (by omega)
    unfold wp at hspec
    generalize finalize env w1 = res at hspec ⊢
    obtain ⟨r, w'⟩ := res
    cases r with
    | ok u =>
      obtain ⟨_, _, t, hs⟩ := hspec
      exact ⟨t, w', rfl, by rw [hs.file]⟩
    | error e =>
      obtain ⟨f, hfe, _⟩ := hspec
      exfalso
      cases hfe with
      | bitmap k hF => exact NoFault.not_faulty hn hfo hF
      | header t k hF => exact NoFault.not_faulty hn hfo hF
      | foot t k hF _ => exact NoFault.not_faulty hn hfo hF
      | tracking t hh => rw [hw1] at hh; exact hh.2 rfl
  obtain ⟨t, w', hfin, hbytes⟩ := hfinal
  let blk : Blk := ⟨64, ids, vals⟩
  have hsize : blk.size encRaw = 2 ^ 32 + 4032 := hpl
  have hgl : w1.globalIDs = ids.foldl Bitmap.set Bitmap.empty := by rw [hw1]; rfl
  have henc : w1.encodingType = encRaw := by rw [hw1]; rfl
  have hfoot : footBytes w1 = le32 (UInt32.ofNat [blk].length) ++
      ([blk].map fun b => entryBytes (b.entry w1.encodingType)).flatten := by
    rw [henc]
    unfold footBytes
    rw [hw1]
    rfl
  have hsmall : (finalBytes t w1).length < 2 ^ 63 := by
    rw [finalBytes, List.length_append, phase2_length t w1 (by omega) (by omega), phase1_length w1 (by omega), tailBytes]
    have hpad : (footPad w1).length < 4096 := by
      simp only [footPad, List.length_replicate]; exact Blk.calculatePadding_lt _
    simp only [List.length_append, hfoot, metaBytes, le64_length, le32_length, List.map_cons, List.map_nil,
      List.flatten_cons, List.flatten_nil, entryBytes_length, bitmapBytes, hgl, List.length_nil]
    omega
  have hbase := final_base w1 [blk] (by omega) (by omega) (by rw [hw1]; rfl) hfoot
    (by rw [henc]; exact ⟨Nat.le_refl _, by show 64 + blk.size encRaw ≤ _; omega⟩)
    (by
      intro b hb
      rw [List.mem_singleton] at hb
      subst hb
      rw [henc, hw1]
      show slice (startBytes t0 [] ++ padded 64 (image encRaw ids vals)) 64 (image encRaw ids vals).length =
        image encRaw ids vals
      rw [slice_append_right _ _ _ _ (by rw [startBytes_length]; omega), startBytes_length]
      simp [slice, padded])
    t hsmall
  rw [← hbytes, henc] at hbase
  have hread : ∀ r : Reader B, r = okReader w'.file.bytes (finHeader t w1) encRaw [blk] → getPairs r 0 = .err .sectionBounds := by
    intro r hr
    have himg := hbase.img blk (by simp)
    have hfs := hbase.fsLe
    have hfit := hbase.bmFits
    have hsm := hbase.small
    unfold getPairs
    rw [show (0 : UInt64).toInt64 = Int64.ofNat 0 from rfl]
    unfold readBlock
    rw [if_neg (int64_ofNat_not_neg 0 (by omega)), int64_toInt_ofNat _ (by omega), Int.toNat_natCast,
      show r.blockIndex[0]? = some (blk.entry encRaw) by rw [hr]; rfl]
    dsimp only
    have eo : (blk.entry encRaw).blockOffset = UInt64.ofNat 64 := rfl
    have es : (blk.entry encRaw).blockSize = UInt32.ofNat (blk.size encRaw) := rfl
    have hb : r.bytes = w'.file.bytes := by rw [hr]; rfl
    rw [eo, es, hsize, show (UInt32.ofNat (2 ^ 32 + 4032)).toNat = 4032 by decide, uint64_ofNat_toInt64,
      show (64 : Int64) = Int64.ofNat 64 from rfl, int64_ofNat_add, int64_ofNat_sub _ _ (by omega) (by omega),
      hb, readBytesAt_ok _ _ _ (by omega) hsm]
    simp only [Res.ok_bind]
    have hdl : (slice w'.file.bytes (64 + 64) (4032 - 64)).length = 3968 := slice_length _ _ _ (by omega)
    rw [goSlice_ok _ _ _ (by omega) (by omega), goSlice_ok _ _ _ (by omega) (by omega),
      goSlice_ok _ _ _ (by omega) (by omega), goSlice_ok _ _ _ (by omega) (by omega)]
    simp only [Res.ok_bind]
    have himg' : image encRaw ids vals = blk.img encRaw := rfl
    have hil : (blk.img encRaw).length = 2 ^ 32 + 80 := himgl
    have part : ∀ o n, o + n ≤ (blk.img encRaw).length →
        slice w'.file.bytes (64 + o) n = slice (blk.img encRaw) o n :=
      fun o n hn => slice_of_slice himg o n hn
    have h52 := header52_length encRaw ids vals
    have l1 : slice (blk.img encRaw) 68 4 = le32 (UInt32.ofNat (idSize encRaw ids)) := by
      rw [← himg']; simp [slice, image, layoutBytes, List.drop_append, List.drop_eq_nil_of_le, List.take_of_length_le, h52]
    have l3 : slice (blk.img encRaw) 76 4 = le32 (UInt32.ofNat (valSize encRaw vals)) := by
      rw [← himg']; simp [slice, image, layoutBytes, List.drop_append, List.drop_eq_nil_of_le, List.take_of_length_le, h52]
    have r1 : rd32 (slice w'.file.bytes (64 + 64) (4032 - 64)) 4 = UInt32.ofNat (idSize encRaw ids) :=
      rd32_slice_of _ _ _ _ _ (by omega) (by rw [Nat.add_assoc, part _ _ (by omega), l1])
    have r3 : rd32 (slice w'.file.bytes (64 + 64) (4032 - 64)) 12 = UInt32.ofNat (valSize encRaw vals) :=
      rd32_slice_of _ _ _ _ _ (by omega) (by rw [Nat.add_assoc, part _ _ (by omega), l3])
    rw [r1, r3, s1, s2, hdl, if_neg (by decide), if_neg (by decide), if_pos]
    left
    rw [show (UInt32.ofNat (2 ^ 31)).toNat = 2 ^ 31 by decide]
    omega
  have hnr := hbase.newReader (B := B) (by simp)
  refine ⟨w1, w', _, hhist, hfin, hnr, hbase.count, ⟨_, rfl, ?_⟩, hread _ rfl, ?_⟩
  · show (UInt32.ofNat ids.length).toNat = 2 ^ 28
    rw [h]; rfl
  · generalize hR : okReader (B := B) w'.file.bytes (finHeader t w1) encRaw [blk] = R
    have hbc : R.blockCount.toNat = 1 := by
      rw [← hR]
      show (finHeader t w1).blockCount.toNat = 1
      rw [hbase.count]; rfl
    have hix : R.blockIndex.length = 1 := by rw [← hR]; rfl
    have herr : ∀ i, ∃ e, getPairs R i = .err e := by
      intro i
      by_cases hi : i = 0
      · exact ⟨_, by rw [hi]; exact hread R hR.symm⟩
      · refine ⟨_, C30_bounds R i ?_ (by rw [hix]; decide)⟩
        rw [hix]
        have : i.toNat ≠ 0 := fun h0 => hi (UInt64.toNat_inj.1 h0)
        omega
    have hp : ∀ i, getPairs R i ≠ .panic := by
      intro i hi
      obtain ⟨e, he⟩ := herr i
      rw [he] at hi; cases hi
    have hnone : ∀ l, readable R l = [] := by
      intro l
      unfold readable
      refine List.filterMap_eq_nil_iff.2 fun i _ => ?_
      obtain ⟨e, he⟩ := herr (UInt64.ofNat i)
      rw [he]
    intro sched hs o ho
    have hfew : R.blockCount.toNat ≤ 2 ^ 45 := by rw [hbc]; decide
    by_cases hfd : o.filter.isSome ∨ o.denyFilter.isSome
    · obtain ⟨res, h1, h2⟩ := C49_filtered R hp sched hs o (hfd.imp_right fun h => ⟨h, hfew⟩)
      rw [hnone] at h2
      exact ⟨res, h1, h2.count, h2.sum⟩
    · have ho' : o.skipPreCalculated = true := by
        rcases ho with h | h | h
        · exact absurd (.inl h) hfd
        · exact absurd (.inr h) hfd
        · exact h
      obtain ⟨s, f, d, n⟩ := o
      dsimp only at hfd ho'
      cases f with
      | some f => exact absurd (.inl rfl) hfd
      | none =>
        cases d with
        | some d => exact absurd (.inr rfl) hfd
        | none =>
          subst ho'
          obtain ⟨res, h1, h2⟩ := C49_skip R hp sched hs n (.inr hfew)
          rw [hnone] at h2
          exact ⟨res, h1, h2.count, h2.sum⟩

/-- Non-vacuity of C35. -/
example : ∃ (w w' : Writer IdSet) (r : Reader IdSet),
    History IdSet quietEnv [] [.write (List.replicate (2 ^ 28) 7) (List.replicate (2 ^ 28) 1)]
      [(.write (List.replicate (2 ^ 28) 7) (List.replicate (2 ^ 28) 1), .ok ())] w ∧
    finalize quietEnv w = (.ok (), w') ∧ newReader w'.file.bytes = .ok r ∧
    getPairs r 0 = .err .sectionBounds := by
  obtain ⟨w, w', r, h1, h2, h3, _, _, h4, _⟩ := C35_refuted (B := IdSet) quietEnv_noFault
    (List.replicate (2 ^ 28) 7) (List.replicate (2 ^ 28) 1) List.length_replicate List.length_replicate
    (Nat.lt_of_le_of_lt (idSet_buffer (2 ^ 28) _ (Nat.le_of_eq List.length_replicate)) (by decide))
  exact ⟨w, w', r, h1, h2, h3, h4⟩

end VibeCol
