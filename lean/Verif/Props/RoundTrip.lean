/-
C01, C02, C29, C32, C36: what is written is what is read.
-/
import Verif.Props.Example
set_option linter.unusedSimpArgs false
namespace VibeCol
variable {B : Type} [Bitmap B] [LawfulBitmap B]

/-- What a reader of `file` returns for every block, and how many blocks it reports. -/
structure ReadsBack (B : Type) [Bitmap B] (file : Bytes) (blocks : List Block) : Prop where
  opens : ∃ r : Reader B, newReader file = .ok r ∧ r.blockCount.toNat = blocks.length ∧
    ∀ (i : Nat) (h : i < blocks.length), getPairs r (UInt64.ofNat i) = .ok blocks[i]

omit [LawfulBitmap B] in
theorem Contents.readsBack {file : Bytes} {opts log hd blks} {bo fs}
    (h : Contents B file opts log hd blks bo fs) (henc : SymEnc (chosenEncoding opts))
    (hn : (acked log).length ≤ maxBlocks) : ReadsBack B file (acked log) := by
  have hr := h.reads (B := B) henc hn
  exact ⟨_, h.newReader hn, hr.count_toNat, hr.read⟩

/-- **C01.** A finalized file in a symmetric encoding reads back as the acknowledged blocks. -/
theorem C01_roundtrip {env : Env} {opts : List WriterOption} {log : Log} {file : Bytes}
    (h : Finalized B env opts log file) (henc : SymEnc (chosenEncoding opts))
    (hn : (acked log).length ≤ maxBlocks) : ReadsBack B file (acked log) := by
  obtain ⟨hd, blks, bo, fs, hc⟩ := h.contents henc
  exact hc.readsBack henc hn

/-- **C01.** Valid pairs are never refused: without an I/O error, `WriteBlock` returns nil or
`BlockFullError`, so every call is acknowledged wholly or up to its block boundary. -/
theorem C01_accepted {env : Env} {opts : List WriterOption} {calls : List Call} {log : Log} {w : Writer B}
    (h : History B env opts calls log w) (henc : SymEnc (chosenEncoding opts)) (hno : NoIOError log)
    (hb : ∀ ev ∈ log, ev.1.Bounded) (ids : List UInt64) (vals : List Int64) (r : Result)
    (hev : (Call.write ids vals, r) ∈ log) (hl : ids.length = vals.length) (hne : ids ≠ []) :
    r = .ok () ∨ ∃ n, 1 ≤ n ∧ n < ids.length ∧ r = .error (.blockFull n) := by
  obtain ⟨pre, post, hlog⟩ := List.append_of_mem hev
  obtain ⟨wi, hw, hr, _⟩ := h.split hlog
  have hpre : ∀ ev ∈ pre, ev ∈ log := fun ev he => by rw [hlog]; exact List.mem_append_left _ he
  have hno' : NoIOError pre := fun ev he => hno ev (hpre ev he)
  obtain ⟨blks, hi, _, _, _, he, _⟩ := history_clean hw (hw.bounded fun ev h => hb ev (hpre ev h)) henc hno'
  obtain ⟨new, extra', ha, _⟩ := writeBlock_inv env wi blks [] hi (by rw [he]; exact henc.known) ids vals hl
    (List.length_pos_iff.2 hne) (hb _ hev)
  have hio : r ≠ .error .io := hno _ hev
  change (writeBlock ids vals env wi).1 = r at hr
  rw [hr] at ha
  cases ha with
  | all => exact .inl rfl
  | part k hk1 hk2 => exact .inr ⟨k, hk1, hk2, rfl⟩
  | none e hne =>
    rcases hne with ⟨rfl, _⟩ | ⟨_, hns⟩
    · exact absurd rfl hio
    · rw [he] at hns; exact absurd henc.allMatch hns
  | torn => exact absurd rfl hio

/-- **C01.** If no file operation fails, any calls followed by `Finalize` lead to a finalized
file, as long as it stays below 2^63 bytes (`K` bounds the serialized bitmap). -/
theorem C01_progress {env : Env} (hn : env.NoFault) (opts : List WriterOption)
    (henc : SymEnc (chosenEncoding opts)) (calls : List Call) (hb : ∀ c ∈ calls, c.Bounded) (K : Nat)
    (hK : ∀ L : List UInt64, L.length ≤ totalPairs calls →
      (Bitmap.toBuffer (L.foldl Bitmap.set (Bitmap.empty : B))).length ≤ K)
    (hsize : sizeBound calls K < 2 ^ 63) :
    ∃ log file, Finalized B env opts log file ∧ log.map Prod.fst = calls :=
  finalized_noFault hn opts henc calls hb K hK hsize

/-- Non-vacuity of C01: two blocks, unsorted and repeated IDs, a `Finalize` in between. -/
example : ∃ file, Finalized IdSet quietEnv exampleOpts exampleLog file ∧
    acked exampleLog = [([3, 1, 2], [30, -10, 20]), ([5, 1], [7, -9223372036854775807])] ∧
    ReadsBack IdSet file (acked exampleLog) := by
  obtain ⟨file, h⟩ := example_finalized
  exact ⟨file, h, rfl, C01_roundtrip h (.inr (.inr (.inr rfl))) (by decide)⟩

/-- Non-vacuity of C01 with a block split. -/
example : ∃ file, Finalized IdSet quietEnv fullOpts fullLog file ∧
    acked fullLog = [([3, 1, 2], [30, -10, 20]), ([1], [-10]), ([2], [20])] ∧
    ReadsBack IdSet file (acked fullLog) := by
  obtain ⟨file, h⟩ := full_finalized
  exact ⟨file, h, rfl, C01_roundtrip h (.inr (.inl rfl)) (by decide)⟩

/-! ### C02: the four asymmetric encodings -/

/-- `ds` are the consecutive differences of `vs`, after the first element. -/
def Differences (vs ds : List Int64) : Prop :=
  ds.length = vs.length ∧ ∀ i (h : i < vs.length) (h' : i < ds.length),
    ds[i] = if i = 0 then vs[i] else vs[i] - vs[i - 1]

/-- The same for IDs. -/
def DifferencesU (vs ds : List UInt64) : Prop :=
  ds.length = vs.length ∧ ∀ i (h : i < vs.length) (h' : i < ds.length),
    ds[i] = if i = 0 then vs[i] else vs[i] - vs[i - 1]

theorem deltaEncodeInt64From_get (p : Int64) (vs : List Int64) (i : Nat) (h : i < vs.length)
    (h' : i < (deltaEncodeInt64From p vs).length) :
    (deltaEncodeInt64From p vs)[i] = vs[i] - (if i = 0 then p else vs[i - 1]) := by
  induction vs generalizing p i with
  | nil => simp at h
  | cons v vs ih =>
    cases i with
    | zero => simp [deltaEncodeInt64From]
    | succ i =>
      simp only [deltaEncodeInt64From, List.getElem_cons_succ, Nat.add_sub_cancel]
      rw [ih v i (by simpa using h)]
      cases i <;> simp

theorem differences_deltaEncodeInt64 (vs : List Int64) : Differences vs (deltaEncodeInt64 vs) := by
  refine ⟨by simp, fun i h h' => ?_⟩
  cases vs with
  | nil => simp at h
  | cons v vs =>
    cases i with
    | zero => simp [deltaEncodeInt64]
    | succ i =>
      simp only [deltaEncodeInt64, List.getElem_cons_succ, Nat.add_sub_cancel]
      rw [deltaEncodeInt64From_get v vs i (by simpa using h)]
      cases i <;> simp

theorem deltaEncodeFrom_get (p : UInt64) (vs : List UInt64) (i : Nat) (h : i < vs.length)
    (h' : i < (deltaEncodeFrom p vs).length) :
    (deltaEncodeFrom p vs)[i] = vs[i] - (if i = 0 then p else vs[i - 1]) := by
  induction vs generalizing p i with
  | nil => simp at h
  | cons v vs ih =>
    cases i with
    | zero => simp [deltaEncodeFrom]
    | succ i =>
      simp only [deltaEncodeFrom, List.getElem_cons_succ, Nat.add_sub_cancel]
      rw [ih v i (by simpa using h)]
      cases i <;> simp

theorem differences_deltaEncode (vs : List UInt64) : DifferencesU vs (deltaEncode vs) := by
  refine ⟨by simp, fun i h h' => ?_⟩
  cases vs with
  | nil => simp at h
  | cons v vs =>
    cases i with
    | zero => simp [deltaEncode]
    | succ i =>
      simp only [deltaEncode, List.getElem_cons_succ, Nat.add_sub_cancel]
      rw [deltaEncodeFrom_get v vs i (by simpa using h)]
      cases i <;> simp

omit [LawfulBitmap B] in
/-- What `GetPairs` computes, for any encoding. -/
theorem Contents.getPairs {file : Bytes} {opts log hd blks} {bo fs}
    (h : Contents B file opts log hd blks bo fs) (hn : (acked log).length ≤ maxBlocks) :
    ∃ r : Reader B, VibeCol.newReader file = .ok r ∧ r.blockCount.toNat = (acked log).length ∧
    ∀ (i : Nat) (hi : i < (acked log).length),
      VibeCol.getPairs r (UInt64.ofNat i) = decodeBlockData (idSection (chosenEncoding opts) (acked log)[i].1)
        (valSection (chosenEncoding opts) (acked log)[i].2) (acked log)[i].1.length (chosenEncoding opts) ∧
      (acked log)[i].1.length = (acked log)[i].2.length ∧
      SectionsMatch (chosenEncoding opts) (acked log)[i].1 (acked log)[i].2 := by
  have hcnt := h.count
  unfold maxBlocks at hn
  refine ⟨_, h.newReader hn, ?_, ?_⟩
  · show hd.blockCount.toNat = _
    rw [h.ok.count, UInt64.toNat_ofNat']; omega
  · intro i hi
    have hi' : i < blks.length := by omega
    have hp : (acked log)[i] = (blks[i].ids, blks[i].vals) := by
      simp only [← h.pairs, List.getElem_map]; rfl
    have hok := h.ok.ok _ (List.getElem_mem hi')
    rw [hp]
    refine ⟨?_, hok.len, hok.sec⟩
    unfold VibeCol.getPairs
    rw [uint64_ofNat_toInt64, h.ok.readBlock i hi' (okReader file hd _ blks) rfl h.ok.enc (by simp [okReader, hi']) (by omega)]

/-- **C02, EncodingDeltaID.** `GetPairs` returns the right IDs but, instead of the values,
their consecutive differences. -/
theorem C02_deltaID {env : Env} {opts : List WriterOption} {log : Log} {file : Bytes}
    (h : Finalized B env opts log file) (henc : chosenEncoding opts = encDeltaID)
    (hn : (acked log).length ≤ maxBlocks) :
    ∃ r : Reader B, newReader file = .ok r ∧ r.blockCount.toNat = (acked log).length ∧
      ∀ (i : Nat) (hi : i < (acked log).length), ∃ ds, Differences (acked log)[i].2 ds ∧
        getPairs r (UInt64.ofNat i) = .ok ((acked log)[i].1, ds) := by
  obtain ⟨hd, blks, bo, fs, hc⟩ := h.contents' (h.noMismatch (henc ▸ allMatch_deltaID))
  obtain ⟨r, h1, h2, h3⟩ := hc.getPairs hn
  refine ⟨r, h1, h2, fun i hi => ⟨_, differences_deltaEncodeInt64 _, ?_⟩⟩
  obtain ⟨h4, h5, _⟩ := h3 i hi
  rw [h4, henc]
  have := decodeBlockData_fixed encDeltaID (by decide) (deltaEncode (acked log)[i].1)
    (deltaEncodeInt64 (acked log)[i].2) (by simpa using h5)
  simpa [idSection, valSection, useVarIntForIDs, useVarIntForValues, encIDs, encVals, deltaEnc,
      encRaw, encDeltaBoth, encDeltaID, encDeltaValue, encVarInt, encVarIntID, encVarIntBoth,
      encVarIntValue, deltaDecode_deltaEncode] using this

/-- **C02, EncodingDeltaValue.** `GetPairs` returns the right values but, instead of the IDs,
their consecutive differences. -/
theorem C02_deltaValue {env : Env} {opts : List WriterOption} {log : Log} {file : Bytes}
    (h : Finalized B env opts log file) (henc : chosenEncoding opts = encDeltaValue)
    (hn : (acked log).length ≤ maxBlocks) :
    ∃ r : Reader B, newReader file = .ok r ∧ r.blockCount.toNat = (acked log).length ∧
      ∀ (i : Nat) (hi : i < (acked log).length), ∃ ds, DifferencesU (acked log)[i].1 ds ∧
        getPairs r (UInt64.ofNat i) = .ok (ds, (acked log)[i].2) := by
  obtain ⟨hd, blks, bo, fs, hc⟩ := h.contents' (h.noMismatch (henc ▸ allMatch_deltaValue))
  obtain ⟨r, h1, h2, h3⟩ := hc.getPairs hn
  refine ⟨r, h1, h2, fun i hi => ⟨_, differences_deltaEncode _, ?_⟩⟩
  obtain ⟨h4, h5, _⟩ := h3 i hi
  rw [h4, henc]
  have := decodeBlockData_fixed encDeltaValue (by decide) (deltaEncode (acked log)[i].1)
    (deltaEncodeInt64 (acked log)[i].2) (by simpa using h5)
  simpa [idSection, valSection, useVarIntForIDs, useVarIntForValues, encIDs, encVals, deltaEnc,
      encRaw, encDeltaBoth, encDeltaID, encDeltaValue, encVarInt, encVarIntID, encVarIntBoth,
      encVarIntValue, deltaDecodeInt64_deltaEncodeInt64] using this

/-- **C02, EncodingVarIntID.** A block is only ever accepted if its values happen to take
exactly eight bytes each, on average, as variable-length integers. -/
theorem C02_varIntID {env : Env} {opts : List WriterOption} {calls : List Call} {log : Log} {w : Writer B}
    (h : History B env opts calls log w) (henc : chosenEncoding opts = encVarIntID)
    (hno : NoIOError log) (hbd : ∀ ev ∈ log, ev.1.Bounded) (b : Block) (hb : b ∈ acked log) :
    (b.2.map fun v => (encodeSignedVarInt v).length).sum = 8 * b.2.length := by
  obtain ⟨blks, extra, hi, hl, _, he, _⟩ := history_faulty h (h.bounded hbd) hno.finalize
  rw [← hl.eq_acked hno] at hb
  obtain ⟨k, hk, rfl⟩ := List.mem_map.1 hb
  have := (hi.ok k hk).sec.2
  rw [he, henc] at this
  simp only [valSection, valSize, useVarIntForValues, isVarIntEnc, encVals, deltaEnc, encRaw, encDeltaBoth,
      encVarInt, encVarIntID, encVarIntBoth, encVarIntValue, encDeltaID, encDeltaValue] at this
  have h8 := flatten_map_eq leI64 k.vals 8 leI64_length
  simp at this h8
  show (List.map _ k.vals).sum = 8 * k.vals.length
  simp only [Function.comp_def] at this h8
  omega

/-- **C02, EncodingVarIntValue.** A block is only ever accepted if the differences of its IDs
happen to take exactly eight bytes each, on average, as variable-length integers. -/
theorem C02_varIntValue {env : Env} {opts : List WriterOption} {calls : List Call} {log : Log} {w : Writer B}
    (h : History B env opts calls log w) (henc : chosenEncoding opts = encVarIntValue)
    (hno : NoIOError log) (hbd : ∀ ev ∈ log, ev.1.Bounded) (b : Block) (hb : b ∈ acked log) :
    ∃ ds, DifferencesU b.1 ds ∧ (ds.map fun v => (encodeVarInt v).length).sum = 8 * b.1.length := by
  obtain ⟨blks, extra, hi, hl, _, he, _⟩ := history_faulty h (h.bounded hbd) hno.finalize
  rw [← hl.eq_acked hno] at hb
  obtain ⟨k, hk, rfl⟩ := List.mem_map.1 hb
  have := (hi.ok k hk).sec.1
  rw [he, henc] at this
  simp only [idSection, idSize, useVarIntForIDs, isVarIntEnc, encIDs, deltaEnc, encRaw, encDeltaBoth,
      encVarInt, encVarIntID, encVarIntBoth, encVarIntValue, encDeltaID, encDeltaValue] at this
  have h8 := flatten_map_eq le64 (deltaEncode k.ids) 8 le64_length
  refine ⟨_, differences_deltaEncode _, ?_⟩
  simp at this h8
  show (List.map _ (deltaEncode k.ids)).sum = 8 * k.ids.length
  simp only [Function.comp_def] at this h8
  omega

/-- Two pairs whose IDs, values and differences are all large. -/
def asymCalls : List Call := [.write [562949953421312, 1688849860263936] [562949953421312, 1125899906842624]]

/-- All four encodings accept them. -/
def asymLog : Log := [(.write [562949953421312, 1688849860263936] [562949953421312, 1125899906842624], .ok ())]

theorem asym_finalized (e : UInt32) (he : e = encDeltaID ∨ e = encDeltaValue ∨ e = encVarIntID ∨ e = encVarIntValue) :
    ∃ file, Finalized IdSet quietEnv [.withEncoding e] asymLog file := by
  refine finalized_of_log [.withEncoding e] asymCalls asymLog (by decide) ?_ (by unfold NoMismatch; decide) (by decide)
  rcases he with rfl | rfl | rfl | rfl <;> decide +kernel

/-- **C02 is refuted**: for each of the four asymmetric encodings there is a block for which
`WriteBlock` and `Finalize` return nil but which does not read back. -/
theorem C02_refuted (e : UInt32) (he : e = encDeltaID ∨ e = encDeltaValue ∨ e = encVarIntID ∨ e = encVarIntValue) :
    ∃ file, Finalized IdSet quietEnv [.withEncoding e] asymLog file ∧ ¬ ReadsBack IdSet file (acked asymLog) := by
  obtain ⟨file, h⟩ := asym_finalized e he
  refine ⟨file, h, ?_⟩
  rintro ⟨r, hr, _, hread⟩
  obtain ⟨hd, blks, bo, fs, hc⟩ := h.contents' (by unfold NoMismatch; decide)
  obtain ⟨r', hr', _, h3⟩ := hc.getPairs (by decide)
  rw [hr] at hr'
  cases hr'
  have h4 := (h3 0 (by decide)).1
  rw [hread 0 (by decide)] at h4
  rw [show chosenEncoding [WriterOption.withEncoding e] = e from rfl] at h4
  revert h4
  rcases he with rfl | rfl | rfl | rfl <;> decide +kernel

/-- **C02.** The encodings for which every finalized file reads back are exactly the four
symmetric ones. -/
theorem C02_classification (e : UInt32) (hk : KnownEnc e) :
    (∀ (env : Env) (opts : List WriterOption) (log : Log) (file : Bytes), chosenEncoding opts = e →
      Finalized IdSet env opts log file → (acked log).length ≤ maxBlocks → ReadsBack IdSet file (acked log)) ↔
    SymEnc e := by
  constructor
  · intro h
    by_cases hs : SymEnc e
    · exact hs
    · have he : e = encDeltaID ∨ e = encDeltaValue ∨ e = encVarIntID ∨ e = encVarIntValue := by
        unfold SymEnc at hs
        rcases knownEnc_cases hk with rfl | rfl | rfl | rfl | rfl | rfl | rfl | rfl <;> revert hs <;> decide
      obtain ⟨file, hf, hn⟩ := C02_refuted e he
      exact absurd (h _ _ _ _ rfl hf (by decide)) hn
  · rintro hs env opts log file rfl hf hn
    exact C01_roundtrip hf hs hn

/-! ### C29: header accessors -/

/-- **C29.** The accessors of a reader of a finalized file, whatever the encoding. -/
theorem C29_accessors {env : Env} {opts : List WriterOption} {log : Log} {file : Bytes}
    (h : Finalized B env opts log file) (hn : (acked log).length ≤ maxBlocks) :
    ∃ r : Reader B, newReader file = .ok r ∧ r.version = 1 ∧ r.encodingType = chosenEncoding opts ∧
      r.blockCount.toNat = (acked log).length ∧ r.header.blockSizeTarget = chosenBlockSize opts := by
  obtain ⟨hd, blks, buf, bo, fs, hok, hp, ht, _⟩ := h.fileOK
  have hl : blks.length = (acked log).length := by rw [← hp, List.length_map]
  unfold maxBlocks at hn
  refine ⟨_, hok.newReader (by omega), hok.ver, hok.enc, ?_, ht⟩
  show hd.blockCount.toNat = _
  rw [hok.count, UInt64.toNat_ofNat']; omega

/-- **C29.** `IsVarIntEncoded` holds for the four varint encodings and no other number. -/
theorem C29_isVarInt (e : UInt32) : isVarIntEnc e = true ↔ e.toNat ∈ [4, 5, 6, 7] := by
  simp only [isVarIntEnc, Bool.or_eq_true, beq_iff_eq, ← UInt32.toNat_inj]
  simp [encVarInt, encVarIntID, encVarIntValue, encVarIntBoth, or_assoc]

/-- **C29.** `IsDeltaEncoded` holds for the three delta encodings and no other number. -/
theorem C29_isDelta (e : UInt32) : isDeltaEnc e = true ↔ e.toNat ∈ [1, 2, 3] := by
  simp only [isDeltaEnc, Bool.or_eq_true, beq_iff_eq, ← UInt32.toNat_inj]
  simp [encDeltaID, encDeltaValue, encDeltaBoth, or_assoc]

/-- Non-vacuity of C29, with options overriding each other. -/
example : ∃ file, ∃ r : Reader IdSet, Finalized IdSet quietEnv exampleOpts exampleLog file ∧
    newReader file = .ok r ∧ r.encodingType = 7 ∧ r.blockCount.toNat = 2 := by
  obtain ⟨file, h⟩ := example_finalized
  obtain ⟨r, h1, _, h2, h3, _⟩ := C29_accessors h (by decide)
  exact ⟨file, r, h, h1, h2, h3⟩

/-! ### C32: repeated and interleaved `Finalize` -/

/-- **C32.** Wherever in a history a `Finalize` returned nil, the file contents at that moment
read back as all blocks acknowledged so far. -/
theorem C32_every_finalize {env : Env} {opts : List WriterOption} {calls : List Call} {log pre post : Log}
    {w : Writer B} (h : History B env opts calls log w) (hlog : log = pre ++ (.finalize, .ok ()) :: post)
    (henc : SymEnc (chosenEncoding opts)) (hno : NoIOError pre) (hb : ∀ ev ∈ pre, ev.1.Bounded)
    (hn : (acked pre).length ≤ maxBlocks) :
    ∃ wi : Writer B, History B env opts (pre.map Prod.fst ++ [.finalize]) (pre ++ [(.finalize, .ok ())]) wi ∧
      (wi.file.bytes.length < 2 ^ 63 → ReadsBack B wi.file.bytes (acked pre)) := by
  obtain ⟨wi, hw, hr, _⟩ := h.split hlog
  refine ⟨(Call.run env .finalize wi).2, ?_, fun hs => ?_⟩
  · obtain ⟨w0, hnew, hrun⟩ := hw.created
    refine ⟨w0, hnew, ?_⟩
    rw [runCalls_append, hrun]
    show (pre ++ [(Call.finalize, (Call.run env .finalize wi).1)], _) = _
    rw [hr]; rfl
  · refine C01_roundtrip (env := env) (opts := opts) ⟨⟨_, wi, _, hw, ?_, rfl⟩, hno, hb, hs⟩ henc hn
    exact Prod.ext hr rfl

/-- **C32.** If no file operation fails, every `Finalize` in a history returns nil. -/
theorem C32_succeeds {env : Env} (hnf : env.NoFault) {opts : List WriterOption} {calls : List Call} {log : Log}
    {w : Writer B} (h : History B env opts calls log w) (henc : SymEnc (chosenEncoding opts))
    (hb : ∀ ev ∈ log, ev.1.Bounded) (r : Result) (hev : (Call.finalize, r) ∈ log) : r = .ok () := by
  obtain ⟨pre, post, hlog⟩ := List.append_of_mem hev
  obtain ⟨wi, hw, hr, _⟩ := h.split hlog
  have hpre : ∀ ev ∈ pre, ev ∈ log := fun ev he => by rw [hlog]; exact List.mem_append_left _ he
  have hbp : ∀ c ∈ pre.map Prod.fst, c.Bounded := hw.bounded fun ev h => hb ev (hpre ev h)
  have hno : NoIOError pre := by
    obtain ⟨w0, h0, hrun⟩ := hw.created
    obtain ⟨hi, _, ho, _⟩ := newWriter_inv h0
    have := runCalls_noFault env hnf _ hbp w0 ho [] [] hi
    rwa [hrun] at this
  obtain ⟨blks, hi, hc, _, ho, _⟩ := history_clean hw hbp henc hno
  obtain ⟨w', hf⟩ := finalize_noFault hnf hi hc ho
  rw [← hr]
  exact congrArg Prod.fst hf

/-- Non-vacuity of C32: the example history has a `Finalize` after its first block. -/
example : ∃ pre post, exampleLog = pre ++ (.finalize, .ok ()) :: post ∧
    acked pre = [([3, 1, 2], [30, -10, 20])] ∧ acked post ≠ [] :=
  ⟨exampleLog.take 2, exampleLog.drop 3, rfl, rfl, by decide⟩

end VibeCol
