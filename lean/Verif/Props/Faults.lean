/-
C33, C34: I/O failures and retries.
-/
import Verif.Lemmas.Track
import Verif.Lemmas.Refinalize
import Verif.Lemmas.Retry
import Verif.Props.Crash
set_option linter.unusedSectionVars false
namespace VibeCol
variable {B : Type} [Bitmap B] [LawfulBitmap B]

/-! ### C33: I/O failures in `WriteBlock` -/

theorem LeftBy.length_le {log : Log} {bs : List Block} (h : LeftBy log bs) : bs.length ≤ log.length := by
  induction h with
  | nil => exact Nat.le_refl _
  | cons hl t ih =>
    have : ∀ (c : Call) (r : Result), (ackedBy c r).length ≤ 1 := by
      intro c r
      unfold ackedBy
      split <;> simp
    cases hl with
    | acked => rename_i c r _ _; have := this c r; simp only [List.length_append, List.length_cons]; omega
    | torn => simp only [List.length_append, List.length_cons, List.length_nil]; omega

/-- **C33.** Any fault schedule, any calls; `WriteBlock` calls may have failed with I/O errors (no
`Finalize` has). If `Finalize` now returns nil, the file reads back as: the acknowledged blocks in
order, with in between, for some of the `WriteBlock` calls that reported an I/O error, a block
holding a prefix of their pairs. Nothing else. -/
theorem C33_contents {env : Env} {opts : List WriterOption} (henc : SymEnc (chosenEncoding opts)) {calls : List Call}
    {log : Log} {w w' : Writer B} (h : History B env opts calls log w) (hno : FinalizeNoIOError log)
    (hb : ∀ ev ∈ log, ev.1.Bounded) (hn : log.length ≤ maxBlocks)
    (hf : finalize env w = (.ok (), w')) (hsz : w'.file.bytes.length < 2 ^ 63) :
    ∃ blocks, LeftBy log blocks ∧ ReadsBack B w'.file.bytes blocks := by
  obtain ⟨blks, extra, hi, hp, ho, he, ht, hfit⟩ := history_faulty h (h.bounded hb) hno
  obtain ⟨_, _, _, _, _, hok, _⟩ := wp_ok (finalize_inv env w blks extra hi) hf
  obtain ⟨hd, bo, fs, hok, htgt, hbo⟩ := hok hsz
  have hl := hp.length_le
  rw [List.length_map] at hl
  rw [he] at hok
  have hR := hok.reads (B := B) henc (Nat.le_trans hl hn)
  unfold maxBlocks at hn
  refine ⟨_, hp, _, hok.newReader (B := B) (by omega), ?_, ?_⟩
  · exact hR.count_toNat
  · exact hR.read

/-- **C33.** `WriteBlock` and `Finalize` have no way back: once `Finalize` has reported that
positions and blocks do not match (because a `WriteBlock` failed halfway), no later `Finalize` on
this writer returns nil, whatever calls come in between, under every fault schedule, for all
inputs and encodings. -/
theorem C33_stuck {env : Env} {opts : List WriterOption} {calls : List Call} {log : Log} {w w1 : Writer B}
    (h : History B env opts calls log w) (hf : finalize env w = (.error .positionTracking, w1))
    (env' : Env) (more : List Call) :
    (finalize env' (runCalls env' more w1).2).1 ≠ .ok () := by
  obtain ⟨w0, hnew, hrun⟩ := h.created
  have h0 : counters w0 = (0, 0) := by
    obtain ⟨i, o, _, rfl⟩ := wp_ok (writeHeader_spec env opts) hnew
    rw [startWriter_eq]; rfl
  have h1 := runCalls_moved calls env w0
  rw [hrun, h0] at h1
  have h2 : counters w1 = counters w := by
    have := Frame.finalize env w
    rw [hf] at this; exact this
  have h3 := runCalls_moved more env' w1
  rw [h2] at h3
  have hne := finalize_tracking_counters env w w1 hf
  generalize (runCalls env' more w1).2 = w2 at h3
  intro hok
  have h4 := finalize_ok_counters env' w2 hok
  simp only [counters] at h1 h3
  omega

/-! ### C34: retrying -/

/-- Between the calls the file offset of the writer was never inside the 64-byte file header.
(It is there only after a `Finalize` that failed while rewriting the header.) -/
def OffsetClear (B : Type) [Bitmap B] (env : Env) (opts : List WriterOption) (calls : List Call) : Prop :=
  ∀ k, 64 ≤ (runCalls env (calls.take k) (newWriter opts env : _ × Writer B).2).2.file.pos

/-- **C34, the part that holds.** Any fault schedule, any calls, failed or not, in any order and
repeated as often as the caller likes: as long as no `Finalize` failed while rewriting the header,
a `Finalize` that returns nil leaves a file that reads back as: the acknowledged blocks in order
and, for some of the `WriteBlock` calls that reported an I/O error, a block with a prefix of their
pairs. -/
theorem C34_retry {env : Env} {opts : List WriterOption} (henc : SymEnc (chosenEncoding opts)) {calls : List Call}
    {log : Log} {w w' : Writer B} (h : History B env opts calls log w) (hclear : OffsetClear B env opts calls)
    (hb : ∀ ev ∈ log, ev.1.Bounded) (hn : log.length ≤ maxBlocks)
    (hf : finalize env w = (.ok (), w')) (hsz : w'.file.bytes.length < 2 ^ 63) :
    ∃ blocks, LeftBy log blocks ∧ ReadsBack B w'.file.bytes blocks := by
  have hcb := h.bounded hb
  obtain ⟨w0, hnew, hrun⟩ := h.created
  obtain ⟨hi, hc, ho, he, ht, _⟩ := newWriter_inv hnew
  unfold OffsetClear at hclear
  rw [hnew] at hclear
  obtain ⟨new, extra, h1, h2, h3⟩ := runCalls_retry env calls hcb w0 [] [] hi hclear
  rw [hrun] at h1 h2 h3
  rw [List.nil_append] at h2
  obtain ⟨_, _, _, _, _, hok, _⟩ := wp_ok (finalize_inv env w new extra h2) hf
  obtain ⟨hd, bo, fs, hok, htgt, hbo⟩ := hok hsz
  have hl := h1.length_le
  rw [List.length_map] at hl
  rw [h3.enc, he] at hok
  have hR := hok.reads (B := B) henc (Nat.le_trans hl hn)
  refine ⟨_, h1, _, hok.newReader (B := B) (by unfold maxBlocks at hn; dsimp only at hl; omega), ?_, ?_⟩
  · exact hR.count_toNat
  · exact hR.read

/-- **C27, after earlier failures.** Any fault schedule, any calls, failed or not (but no `Finalize` that failed while rewriting the header), and then
a `Finalize` that is interrupted anywhere (under any faults `env1`) although it could have succeeded (under some `env2`). The file either reads
back as a complete file would - the acknowledged blocks in order and, for some of the failed `WriteBlock` calls, a block with a prefix of their
pairs -, or is rejected, or was cut off before the 24 bytes of footer metadata were begun and happens to end with the magic number. -/
theorem C27_faults {env env1 env2 : Env} {opts : List WriterOption} (henc : SymEnc (chosenEncoding opts)) {calls : List Call}
    {log : Log} {w w1 w2 : Writer B} {r1 : Result} (h : History B env opts calls log w) (hclear : OffsetClear B env opts calls)
    (hb : ∀ ev ∈ log, ev.1.Bounded) (hn : log.length ≤ maxBlocks) (hf1 : finalize env1 w = (r1, w1))
    (hf2 : finalize env2 w = (.ok (), w2)) (hsz : w2.file.bytes.length < 2 ^ 63) :
    ∃ blocks, LeftBy log blocks ∧ ReadsBack B w2.file.bytes blocks ∧
      (ReadsBack B w1.file.bytes blocks ∨ Rejected B w1.file.bytes ∨
        (w1.file.bytes.length + 24 < w2.file.bytes.length ∧ EndsWithMagic w1.file.bytes)) := by
  have hcb := h.bounded hb
  obtain ⟨w0, hnew, hrun⟩ := h.created
  obtain ⟨hi, hc, ho, he, ht, _⟩ := newWriter_inv hnew
  unfold OffsetClear at hclear
  rw [hnew] at hclear
  obtain ⟨new, extra, h1, h2, h3⟩ := runCalls_retry env calls hcb w0 [] [] hi hclear
  rw [hrun] at h1 h2 h3
  rw [List.nil_append] at h2
  have hl := h1.length_le
  rw [List.length_map] at hl
  have henc' : w.encodingType = chosenEncoding opts := h3.enc.trans he
  obtain ⟨g1, g2, g3⟩ := finalize_cut h2 henc' henc (Nat.le_trans hl hn) env1 env2 w1 w2 r1 hf1 hf2 hsz
  obtain ⟨g4, _, _⟩ := finalize_cut h2 henc' henc (Nat.le_trans hl hn) env2 env2 w2 w2 _ hf2 hf2 hsz
  refine ⟨_, h1, g4 rfl, ?_⟩
  by_cases heq : w1.file.bytes.length = w2.file.bytes.length
  · exact .inl (g1 heq)
  · by_cases hge : w2.file.bytes.length ≤ w1.file.bytes.length + 24
    · exact .inr (.inl (g2 hge heq))
    · by_cases hm : EndsWithMagic w1.file.bytes
      · exact .inr (.inr ⟨by omega, hm⟩)
      · exact .inr (.inl fun r => C26_rejected _ (by omega) hm r)

/-! #### A `Finalize` that fails in the header -/

/-- The writer after one block in raw encoding was written with no options. -/
def oneWriter (B : Type) [Bitmap B] (t : UInt64) (ids : List UInt64) (vals : List Int64) : Writer B :=
  { (initWriter : Writer B) with
    file := ⟨startBytes t [] ++ padded 64 (image encRaw ids vals), 64 + (padded 64 (image encRaw ids vals)).length⟩
    blockCount := 1
    blockPositions := [64]
    blockSizes := [UInt32.ofNat (padded 64 (image encRaw ids vals)).length]
    blockStats := [statsOf ids vals]
    globalIDs := ids.foldl Bitmap.set Bitmap.empty }

/-- The writer after a `Finalize` that failed before the first byte of the header. -/
def stuckWriter (B : Type) [Bitmap B] (t : UInt64) (ids : List UInt64) (vals : List Int64) : Writer B :=
  { oneWriter B t ids vals with file := ⟨phase1 (oneWriter B t ids vals), 0⟩ }

omit [LawfulBitmap B] in
theorem committed_one {env : Env} {w w1 : Writer B} (h0 : newWriter [] env = (.ok (), w)) {ids vals}
    (hc : Committed w ids vals w1) : ∃ i o d, w1 = { oneWriter B (env.clock i) ids vals with opNo := o, disk := d } := by
  obtain ⟨i, o, _, rfl⟩ := wp_ok (writeHeader_spec env []) h0
  obtain ⟨o', d', rfl⟩ := hc
  refine ⟨i, o', d', ?_⟩
  simp only [committedFile, startBytes_length]
  rw [List.take_of_length_le (by rw [startBytes_length]; omega)]
  simp only [startWriter, List.foldl_nil, withBlock, withPos, withIDs, oneWriter, initWriter, List.nil_append]
  rfl

/-- The general argument: if the first `Finalize` fails with the cursor at offset 0 and the second
one returns nil, the file is known. -/
theorem stuck_general {env : Env} (t : UInt64) (ht : ∀ i, env.clock i = t) {w w1 w2 w3 : Writer B}
    (h0 : newWriter [] env = (.ok (), w)) (ids : List UInt64) (vals : List Int64) (hlen : ids.length = vals.length)
    (hne : 0 < ids.length) (hid : ids.length ≤ 2 ^ 27)
    (h1 : writeBlock ids vals env w = (.ok (), w1)) (h2 : finalize env w1 = (.error .io, w2)) (hp : w2.file.pos = 0)
    (h3 : finalize env w2 = (.ok (), w3)) : w3.file.bytes = reFinal t (stuckWriter B t ids vals) := by
  obtain ⟨hi, hc, ho, he, ht', hpos, _⟩ := newWriter_inv h0
  change w.encodingType = encRaw at he
  have hout := writeBlock_out env w ids vals (by rw [he]; exact SymEnc.known (.inl rfl)) hlen hne hid hi.posLe hi.near
  have hcm : Committed w ids vals w1 := by
    rw [h1] at hout
    cases hout with
    | full _ _ _ _ hcm => exact hcm
  obtain ⟨i, o, d, rfl⟩ := committed_one h0 hcm
  rw [ht] at *
  clear hout h1
  have h64 : 64 ≤ (oneWriter B t ids vals).file.pos := by simp only [oneWriter]; omega
  have hle : (oneWriter B t ids vals).file.pos = (oneWriter B t ids vals).file.bytes.length := by
    simp only [oneWriter, List.length_append, startBytes_length]
  have hw2 : ∃ o d, w2 = { stuckWriter B t ids vals with opNo := o, disk := d } := by
    generalize hW : oneWriter B t ids vals = W at *
    obtain ⟨f, hfe, hs⟩ := wp_error (finalize_spec env { W with opNo := o, disk := d } h64 (Nat.le_of_eq hle) (by
      show W.file.bytes.length ≤ W.file.pos + 4; omega)) h2
    have hf := hs.file
    rw [hf] at hp
    cases hfe with
    | bitmap k hF =>
      exfalso
      change (W.file.put _).pos = 0 at hp
      have hge := ((PartialFile.refl (F := W.file) (Nat.le_of_eq hle) (by omega)).put
        ((bitmapBytes { W with opNo := o, disk := d }).take k)).ge
      omega
    | header t' k hF =>
      dsimp only at hp
      have hnil := List.eq_nil_of_length_eq_zero hp
      rw [hnil] at hs
      obtain ⟨o', d', rfl⟩ := hs
      refine ⟨o', d', ?_⟩
      unfold stuckWriter
      rw [hW]
      rfl
    | foot t' k hF _ =>
      exfalso
      have hl2 := phase2_length t' { W with opNo := o, disk := d } h64 (Nat.le_of_eq hle)
      have hl1 := phase1_length { W with opNo := o, disk := d } (Nat.le_of_eq hle)
      dsimp only at hp hl1
      rw [List.length_append, hl2] at hp
      omega
  obtain ⟨o2, d2, rfl⟩ := hw2
  have h60 : 60 ≤ (stuckWriter B t ids vals).file.bytes.length := by
    have := phase1_length (oneWriter B t ids vals) (Nat.le_of_eq hle)
    show 60 ≤ (phase1 (oneWriter B t ids vals)).length
    omega
  generalize stuckWriter B t ids vals = W at *
  obtain ⟨i3, hs3⟩ := wp_ok (finalize_from env { W with opNo := o2, disk := d2 } h60 (by show W.file.pos ≤ _; rw [hp]; exact Nat.zero_le _)) h3
  rw [hs3.file, ht]
  rfl

/-- Twenty IDs. -/
def stuckIDs : List UInt64 := [1, 2, 3, 4, 5, 6, 7, 8, 9, 10, 11, 12, 13, 14, 15, 16, 17, 18, 19, 20]

/-- Their values. -/
def stuckVals : List Int64 :=
  [100, 101, 102, 103, 104, 105, 106, 107, 108, 109, 110, 111, 112, 113, 114, 115, 116, 117, 118, 119]

/-- The write of the first header field by `Finalize` fails, everything else succeeds. -/
def headerFault : Env := { quietEnv with fault := fun n => if n = 80 then some 0 else none }

/-- A block, a `Finalize` that fails, a second `Finalize`. -/
def stuckCalls : List Call := [.write stuckIDs stuckVals, .finalize, .finalize]

/-- Results. -/
def stuckLog : Log := [(.write stuckIDs stuckVals, .ok ()), (.finalize, .error .io), (.finalize, .ok ())]

theorem stuckLog_eq : (runCalls headerFault stuckCalls (newWriter (B := IdSet) [] headerFault).2).1 = stuckLog ∧
    (newWriter (B := IdSet) [] headerFault).1 = .ok () ∧
    (runCalls headerFault (stuckCalls.take 2) (newWriter (B := IdSet) [] headerFault).2).2.file.pos = 0 := by
  decide +kernel

/-- What a reader makes of the final file: it is accepted, with one block, which has no pairs. -/
theorem stuckFile_read :
    (match newReader (B := IdSet) (reFinal 1700000000 (stuckWriter IdSet 1700000000 stuckIDs stuckVals)) with
      | .ok r => match getPairs r 0 with
        | .ok (ids, vals) => r.blockCount == 1 && ids.isEmpty && vals.isEmpty
        | _ => false
      | _ => false) = true := by
  decide +kernel

theorem runCalls_three (env : Env) (a b c : Call) (w : Writer B) {ra rb rc : Result}
    (h : (runCalls env [a, b, c] w).1 = [(a, ra), (b, rb), (c, rc)]) :
    ∃ w1 w2 w3, a.run env w = (ra, w1) ∧ b.run env w1 = (rb, w2) ∧ c.run env w2 = (rc, w3) ∧
      (runCalls env [a, b] w).2 = w2 ∧ (runCalls env [a, b, c] w).2 = w3 := by
  have h' : (runCalls env [a, b, c] w).1 = [(a, (a.run env w).1), (b, (b.run env (a.run env w).2).1),
    (c, (c.run env (b.run env (a.run env w).2).2).1)] := rfl
  rw [h'] at h
  simp only [List.cons.injEq, Prod.mk.injEq, true_and, and_true] at h
  exact ⟨_, _, _, Prod.ext h.1 rfl, Prod.ext h.2.1 rfl, Prod.ext h.2.2 rfl, rfl, rfl⟩

theorem stuck_read {env : Env} (ht : ∀ i, env.clock i = 1700000000) {w0 : Writer IdSet}
    (h0 : newWriter [] env = (.ok (), w0))
    (hlog : (runCalls env [.write stuckIDs stuckVals, .finalize, .finalize] w0).1 = stuckLog)
    (hpos : (runCalls env [.write stuckIDs stuckVals, .finalize] w0).2.file.pos = 0) :
    ∃ (r : Reader IdSet), newReader (runCalls env [.write stuckIDs stuckVals, .finalize, .finalize] w0).2.file.bytes = .ok r ∧
      r.blockCount = 1 ∧ getPairs r 0 = .ok ([], []) := by
  have hrd := stuckFile_read
  obtain ⟨w1, w2, w3, h1, h2, h3, h4, h5⟩ := runCalls_three env _ _ _ w0 hlog
  rw [h4] at hpos
  have hfile := stuck_general (env := env) 1700000000 ht h0 stuckIDs stuckVals rfl (by decide)
    (by decide) h1 h2 hpos h3
  rw [h5]
  rw [← hfile] at hrd
  clear hfile h5 h4 h3 h2 h1 hlog hpos h0
  cases hr : newReader (B := IdSet) w3.file.bytes with
  | err e => rw [hr] at hrd; cases hrd
  | panic => rw [hr] at hrd; cases hrd
  | ok r =>
    rw [hr] at hrd
    dsimp only at hrd
    cases hg : getPairs r 0 with
    | err e => rw [hg] at hrd; cases hrd
    | panic => rw [hg] at hrd; cases hrd
    | ok p =>
      rw [hg] at hrd
      obtain ⟨ids, vals⟩ := p
      simp only [Bool.and_eq_true, beq_iff_eq, List.isEmpty_iff] at hrd
      obtain ⟨⟨h1, rfl⟩, rfl⟩ := hrd
      exact ⟨r, rfl, h1, hg⟩

/-- **C34, refuted.** A block of twenty pairs is written. `Finalize` fails on the first field of the
header; calling it again returns nil. The file opens with one block, and reading this block
succeeds, but returns no pairs: the second `Finalize` wrote the bitmap over the block. -/
theorem C34_refuted_finalize : ∃ (w : Writer IdSet) (r : Reader IdSet),
    History IdSet headerFault [] stuckCalls stuckLog w ∧ acked stuckLog = [(stuckIDs, stuckVals)] ∧
    stuckIDs.length = 20 ∧ newReader w.file.bytes = .ok r ∧ r.blockCount = 1 ∧ getPairs r 0 = .ok ([], []) := by
  obtain ⟨hlog, hnew, hpos⟩ := stuckLog_eq
  have ht : ∀ i, headerFault.clock i = 1700000000 := fun _ => rfl
  generalize headerFault = env at *
  obtain ⟨w0, h0⟩ : ∃ w0, newWriter (B := IdSet) [] env = (.ok (), w0) := ⟨_, Prod.ext hnew rfl⟩
  rw [h0] at hlog hpos
  obtain ⟨r, hr⟩ := stuck_read ht h0 hlog hpos
  exact ⟨_, r, ⟨w0, h0, Prod.ext hlog rfl⟩, rfl, rfl, hr⟩

/-! #### A `WriteBlock` whose `Sync` fails -/

/-- The file operation with this number fails (a write without putting a byte into the file). -/
def faultAt (n : Nat) : Env := { quietEnv with fault := fun m => if m = n then some 0 else none }

/-- A block, and the same block again. -/
def againCalls : List Call := [.write [1] [1], .write [1] [1]]

/-- The first `WriteBlock` fails, the retry returns nil. -/
def againLog : Log := [(.write [1] [1], .error .io), (.write [1] [1], .ok ())]

/-- What is evaluated of a run followed by `Finalize`: results, block count, cursor, bitmap size. -/
def runOutcome (env : Env) (calls : List Call) : Result × Log × Result × Nat × Nat × Nat :=
  let w0 := (newWriter (B := IdSet) [] env)
  let x := runCalls env calls w0.2
  (w0.1, x.1, (finalize env x.2).1, x.2.blockCount, x.2.file.pos, (Bitmap.toBuffer x.2.globalIDs).length)

theorem againOutcome_eq : runOutcome (faultAt 36) againCalls = (.ok (), againLog, .ok (), 2, 8192, 16) := by
  decide +kernel

/-- A finalized history with known block count, from evaluated results; `Finalize` may not have
failed in between. -/
theorem outcome_reads {env : Env} {calls : List Call} {log : Log} {n p b : Nat}
    (h : runOutcome env calls = (.ok (), log, .ok (), n, p, b)) (hb : ∀ ev ∈ log, ev.1.Bounded)
    (hno : FinalizeNoIOError log) (hn : log.length ≤ maxBlocks) (hs : p + b + 56 * n < 2 ^ 62) :
    ∃ (w w' : Writer IdSet) (blocks : List Block), History IdSet env [] calls log w ∧ finalize env w = (.ok (), w') ∧
      LeftBy log blocks ∧ blocks.length = n ∧ ReadsBack IdSet w'.file.bytes blocks ∧ w'.file.bytes.length < 2 ^ 63 := by
  simp only [runOutcome, Prod.mk.injEq] at h
  obtain ⟨h0, h1, h2, h3, h4, h5⟩ := h
  obtain ⟨w0, h0'⟩ : ∃ w0, newWriter (B := IdSet) [] env = (.ok (), w0) := ⟨_, Prod.ext h0 rfl⟩
  rw [h0'] at h1 h2 h3 h4 h5
  have hh : History IdSet env [] calls log (runCalls env calls w0).2 := ⟨w0, h0', Prod.ext h1 rfl⟩
  generalize (runCalls env calls w0).2 = w at *
  have hf : finalize env w = (.ok (), (finalize env w).2) := Prod.ext h2 rfl
  have henc : SymEnc (chosenEncoding []) := .inl rfl
  obtain ⟨blks, extra, hi, hp, ho, he, ht, hfit⟩ := history_faulty hh (hh.bounded hb) hno
  obtain ⟨_, _, _, _, _, hok, hsz⟩ := wp_ok (finalize_inv env w blks extra hi) hf
  have hlen : blks.length = n := by rw [← hi.cnt, h3]
  obtain ⟨hd, bo, fs, hok, htgt, hbo⟩ := hok (by omega)
  have hl := hp.length_le
  rw [List.length_map] at hl
  rw [he] at hok
  have hR := hok.reads (B := IdSet) henc (Nat.le_trans hl hn)
  unfold maxBlocks at hn
  refine ⟨w, _, _, hh, hf, hp, by rw [List.length_map, hlen], ⟨_, hok.newReader (B := IdSet) (by omega), ?_, ?_⟩, by omega⟩
  · exact hR.count_toNat
  · exact hR.read

theorem again_blocks {blocks : List Block} (hl : LeftBy againLog blocks) (hn : blocks.length = 2) :
    blocks = [([1], [1]), ([1], [1])] := by
  unfold againLog at hl
  cases hl with
  | cons h1 t1 =>
    cases t1 with
    | cons h2 t2 =>
      cases t2
      cases h1 with
      | acked =>
        cases h2 with
        | acked => simp [ackedBy] at hn
      | torn _ _ k hk1 hk2 =>
        obtain rfl : k = 1 := by simp at hk2; omega
        cases h2 with
        | acked => rfl

/-- **C34, refuted for `WriteBlock`.** `WriteBlock` of one pair fails because the `Sync` fails; the
caller retries and gets nil, then `Finalize` returns nil: the file contains the pair twice. -/
theorem C34_refuted_write : ∃ (w w' : Writer IdSet), History IdSet (faultAt 36) [] againCalls againLog w ∧
    finalize (faultAt 36) w = (.ok (), w') ∧ acked againLog = [([1], [1])] ∧
    ReadsBack IdSet w'.file.bytes [([1], [1]), ([1], [1])] := by
  have hev := againOutcome_eq
  generalize faultAt 36 = env at *
  obtain ⟨w, w', blocks, hh, hf, hl, hn, hr, _⟩ := outcome_reads hev (by decide)
    (by unfold FinalizeNoIOError; decide) (by decide) (by decide)
  rw [again_blocks hl hn] at hr
  exact ⟨w, w', hh, hf, rfl, hr⟩

/-! #### Non-vacuity -/

/-- A `WriteBlock` that fails, another block. -/
def failCalls : List Call := [.write [2] [2], .write [1] [1]]

/-- Results. -/
def failLog : Log := [(.write [2] [2], .error .io), (.write [1] [1], .ok ())]

theorem failOutcome_eq : runOutcome (faultAt 14) failCalls = (.ok (), failLog, .ok (), 1, 4096, 16) := by
  decide +kernel

/-- The hypotheses of `C33_contents` are met although a `WriteBlock` failed. -/
example : ∃ (w w' : Writer IdSet) (blocks : List Block), History IdSet (faultAt 14) [] failCalls failLog w ∧
    finalize (faultAt 14) w = (.ok (), w') ∧ LeftBy failLog blocks ∧ ReadsBack IdSet w'.file.bytes blocks := by
  have hev := failOutcome_eq
  generalize faultAt 14 = env at *
  obtain ⟨w, w', _, hh, hf, _, _, _, hsz⟩ := outcome_reads hev (by decide)
    (by unfold FinalizeNoIOError; decide) (by decide) (by decide)
  obtain ⟨blocks, h1, h2⟩ := C33_contents (.inl rfl) hh (by unfold FinalizeNoIOError; decide) (by decide) (by decide) hf hsz
  exact ⟨w, w', blocks, hh, hf, h1, h2⟩

theorem midOutcome_eq : runOutcome (faultAt 20) failCalls = (.ok (), failLog, .error .positionTracking, 1, 4096, 16) := by
  decide +kernel

/-- Histories from evaluated results. -/
theorem outcome_history {env : Env} {calls : List Call} {log : Log} {r : Result} {n p b : Nat}
    (h : runOutcome env calls = (.ok (), log, r, n, p, b)) :
    ∃ (w w' : Writer IdSet), History IdSet env [] calls log w ∧ finalize env w = (r, w') ∧
      w.blockCount = n ∧ w.file.pos = p ∧ (Bitmap.toBuffer w.globalIDs).length = b := by
  simp only [runOutcome, Prod.mk.injEq] at h
  obtain ⟨h0, h1, h2, h3, h4, h5⟩ := h
  obtain ⟨w0, h0'⟩ : ∃ w0, newWriter (B := IdSet) [] env = (.ok (), w0) := ⟨_, Prod.ext h0 rfl⟩
  rw [h0'] at h1 h2 h3 h4 h5
  exact ⟨_, _, ⟨w0, h0', Prod.ext h1 rfl⟩, Prod.ext h2 rfl, h3, h4, h5⟩

/-- The hypotheses of `C33_stuck` are met if a `WriteBlock` fails halfway. -/
example : ∃ (w w1 : Writer IdSet), History IdSet (faultAt 20) [] failCalls failLog w ∧
    finalize (faultAt 20) w = (.error .positionTracking, w1) ∧
    ∀ env' more, (finalize env' (runCalls env' more w1).2).1 ≠ .ok () := by
  have hev := midOutcome_eq
  generalize faultAt 20 = env at *
  obtain ⟨w, w1, hh, hf, _⟩ := outcome_history hev
  exact ⟨w, w1, hh, hf, C33_stuck hh hf⟩

/-- A block and a `Finalize`. -/
def clearCalls : List Call := [.write [1] [1], .finalize]

/-- The `Finalize` fails. -/
def clearLog : Log := [(.write [1] [1], .ok ()), (.finalize, .error .io)]

theorem clearOutcome_eq : runOutcome (faultAt 39) clearCalls = (.ok (), clearLog, .ok (), 1, 4100, 8) ∧
    (runCalls (faultAt 39) (clearCalls.take 1) (newWriter (B := IdSet) [] (faultAt 39)).2).2.file.pos = 4096 ∧
    (newWriter (B := IdSet) [] (faultAt 39)).2.file.pos = 64 := by
  decide +kernel

/-- A session with a failed `Finalize`, after which everything works. -/
theorem clear_case : ∃ (w w' : Writer IdSet), History IdSet (faultAt 39) [] clearCalls clearLog w ∧
    OffsetClear IdSet (faultAt 39) [] clearCalls ∧
    finalize (faultAt 39) w = (.ok (), w') ∧ w'.file.bytes.length < 2 ^ 63 := by
  obtain ⟨hev, hp1, hp0⟩ := clearOutcome_eq
  generalize faultAt 39 = env at *
  obtain ⟨w, w', hh, hf, hn, hp, hbuf⟩ := outcome_history hev
  obtain ⟨w0, hnew, hrun⟩ := hh.created
  have hclear : OffsetClear IdSet env [] clearCalls := by
    intro k
    match k with
    | 0 => rw [List.take_zero]; exact Nat.le_of_eq hp0.symm
    | 1 => rw [hp1]; omega
    | k + 2 =>
      rw [show clearCalls.take (k + 2) = clearCalls by simp [clearCalls], hnew, hrun]
      show 64 ≤ w.file.pos
      omega
  have hclear' := hclear
  unfold OffsetClear at hclear'
  rw [hnew] at hclear'
  obtain ⟨new, extra, h1, h2, h3⟩ := runCalls_retry env clearCalls (by decide) w0 [] [] (newWriter_inv hnew).1 hclear'
  rw [hrun, List.nil_append] at h2
  obtain ⟨_, _, _, _, _, _, hsz⟩ := wp_ok (finalize_inv env w new extra h2) hf
  rw [← h2.cnt, hn, hp, hbuf] at hsz
  exact ⟨w, w', hh, hclear, hf, by omega⟩

/-- The hypotheses of `C34_retry` are met if a `Finalize` fails while writing the bitmap and is
called again. -/
example : ∃ (w w' : Writer IdSet) (blocks : List Block), History IdSet (faultAt 39) [] clearCalls clearLog w ∧
    OffsetClear IdSet (faultAt 39) [] clearCalls ∧
    finalize (faultAt 39) w = (.ok (), w') ∧ LeftBy clearLog blocks ∧ ReadsBack IdSet w'.file.bytes blocks := by
  obtain ⟨w, w', hh, hclear, hf, hsz⟩ := clear_case
  obtain ⟨blocks, h1, h2⟩ := C34_retry (.inl rfl) hh hclear (by decide) (by decide) hf hsz
  exact ⟨w, w', blocks, hh, hclear, hf, h1, h2⟩

/-- A case that meets the hypotheses of `C27_faults`: the session above, interrupted anywhere in its last `Finalize`. -/
theorem C27_faults_example : ∃ (w w' : Writer IdSet), History IdSet (faultAt 39) [] clearCalls clearLog w ∧
    finalize (faultAt 39) w = (.ok (), w') ∧ ∀ env1 : Env, ∃ blocks, LeftBy clearLog blocks ∧ ReadsBack IdSet w'.file.bytes blocks ∧
      (ReadsBack IdSet (finalize env1 w).2.file.bytes blocks ∨ Rejected IdSet (finalize env1 w).2.file.bytes ∨
        ((finalize env1 w).2.file.bytes.length + 24 < w'.file.bytes.length ∧ EndsWithMagic (finalize env1 w).2.file.bytes)) := by
  obtain ⟨w, w', hh, hclear, hf, hsz⟩ := clear_case
  generalize faultAt 39 = env at *
  exact ⟨w, w', hh, hf, fun env1 => C27_faults (r1 := (finalize env1 w).1) (.inl rfl) hh hclear (by decide) (by decide) rfl hf hsz⟩

end VibeCol
