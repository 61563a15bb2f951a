/-
C50, C51: the command line program.
-/
import Verif.Lemmas.Cli
import Verif.Props.Split
import Verif.Props.Crash
import Verif.Props.Aggregation
namespace VibeCol.Cli
variable {B : Type} [Bitmap B] [LawfulBitmap B]

theorem Each2.length_eq {α β : Type} {R : α → β → Prop} {as : List α} {bs : List β} (h : Each2 R as bs) :
    as.length = bs.length := by
  induction h with
  | nil => rfl
  | cons _ _ ih => simp [ih]

theorem means_iff (a b : Bytes) (ids : List UInt64) (vals : List Int64) :
    Means a b ids vals ↔ (split a).length = (split b).length ∧
      parseFields parseUint .parseID (split a) = .ok ids ∧ parseFields parseInt .parseValue (split b) = .ok vals := by
  rw [parseFields_iff parseUint .parseID DenotesID denotesID_iff,
    parseFields_iff parseInt .parseValue DenotesValue denotesValue_iff]
  constructor
  · rintro ⟨h1, ⟨fs, h2, h3⟩, ⟨gs, h4, h5⟩⟩
    rw [fieldsOf_iff] at h2 h4
    subst h2 h4
    exact ⟨by rw [h3.length_eq, h5.length_eq, h1], h3, h5⟩
  · rintro ⟨h1, h3, h5⟩
    exact ⟨by rw [← h3.length_eq, ← h5.length_eq, h1], ⟨_, fieldsOf_split a, h3⟩, ⟨_, fieldsOf_split b, h5⟩⟩

/-- The arguments have at most one meaning. -/
theorem means_unique {a b : Bytes} {ids ids' : List UInt64} {vals vals' : List Int64}
    (h : Means a b ids vals) (h' : Means a b ids' vals') : ids = ids' ∧ vals = vals' := by
  rw [means_iff] at h h'
  obtain ⟨_, h1, h2⟩ := h
  obtain ⟨_, h3, h4⟩ := h'
  rw [h1] at h3
  rw [h2] at h4
  cases h3; cases h4
  exact ⟨rfl, rfl⟩

theorem means_ne_nil {a b : Bytes} {ids : List UInt64} {vals : List Int64} (h : Means a b ids vals) : ids ≠ [] := by
  obtain ⟨_, ⟨fs, h2, h3⟩, _⟩ := h
  intro h0
  subst h0
  cases h3
  exact h2.1 rfl

omit [LawfulBitmap B] in
/-- **C50.** If the arguments do not denote equally many IDs and values, `vibecol write` exits with
status 1 and does not touch the output file; otherwise it opens it. -/
theorem C50_arguments (env : Env) (name a b : Bytes) :
    ((runWrite env name a b : WriteRun B).output.isSome ↔ ∃ ids vals, Means a b ids vals) ∧
    ((runWrite env name a b : WriteRun B).output = none → ∃ f, (runWrite env name a b : WriteRun B).exit = .error f) := by
  simp only [means_iff]
  unfold runWrite
  dsimp only
  by_cases hl : (split a).length = (split b).length
  · rw [if_neg (by simp [hl])]
    rcases h1 : parseFields parseUint .parseID (split a) with e | ids
    · dsimp only
      refine ⟨?_, fun _ => ⟨e, rfl⟩⟩
      simp
    · dsimp only
      rcases h2 : parseFields parseInt .parseValue (split b) with e | vals
      · dsimp only
        refine ⟨?_, fun _ => ⟨e, rfl⟩⟩
        simp
      · dsimp only
        have hs : ∃ ids' vals', (split a).length = (split b).length ∧
            (Except.ok ids : Except Failure _) = .ok ids' ∧ (Except.ok vals : Except Failure _) = .ok vals' :=
          ⟨ids, vals, hl, rfl, rfl⟩
        have key : ∀ r : WriteRun B, r.output.isSome = true →
            (r.output.isSome ↔ ∃ ids' vals', (split a).length = (split b).length ∧
              (Except.ok ids : Except Failure _) = .ok ids' ∧ (Except.ok vals : Except Failure _) = .ok vals') ∧
            (r.output = none → ∃ f, r.exit = .error f) := by
          intro r hr
          refine ⟨⟨fun _ => hs, fun _ => hr⟩, fun h => ?_⟩
          rw [h] at hr; cases hr
        apply key
        split
        · rfl
        · split
          · rfl
          · split <;> rfl
  · rw [if_pos hl]
    refine ⟨?_, fun _ => ⟨_, rfl⟩⟩
    simp [hl]

omit [LawfulBitmap B] in
/-- The rest of a run whose arguments are numbers. -/
theorem runWrite_means {env : Env} {name a b : Bytes} {ids : List UInt64} {vals : List Int64} (h : Means a b ids vals) :
    (runWrite env name a b : WriteRun B) =
      match newWriter (B := B) [] env with
      | (.error e, w) => ⟨.error (.create e), some w⟩
      | (.ok _, w) =>
      match writeBlock ids vals env w with
      | (.error e, w) => ⟨.error (.write e), some (fclose env w).2⟩
      | (.ok _, w) =>
      match finalizeAndClose env w with
      | (.error e, w) => ⟨.error (.finalize e), some w⟩
      | (.ok _, w) =>
        ⟨.ok (str "Wrote file with " ++ fmtNat ids.length ++ str " entries to " ++ name ++ str "\n"), some w⟩ := by
  rw [means_iff] at h
  unfold runWrite
  dsimp only
  rw [if_neg (by simp [h.1]), h.2.1]
  dsimp only
  rw [h.2.2]
  rfl

omit [Bitmap B] [LawfulBitmap B] in
theorem fclose_file (env : Env) (w : Writer B) : (fclose env w).2.file = w.file := by
  unfold fclose
  dsimp only
  split
  · rfl
  · split <;> rfl

omit [LawfulBitmap B] in
theorem finalizeAndClose_ok {env : Env} {w w' : Writer B} (h : finalizeAndClose env w = (.ok (), w')) :
    ∃ w1, finalize env w = (.ok (), w1) ∧ w'.file = w1.file := by
  rcases hf : finalize env w with ⟨r, w1⟩
  have h : WM.bind finalize (fun _ => fclose) env w = (.ok (), w') := h
  unfold WM.bind at h
  rw [hf] at h
  cases r with
  | error e => cases h
  | ok u =>
    refine ⟨w1, rfl, ?_⟩
    have := fclose_file env w1
    dsimp only at h
    rw [h] at this
    exact this

/-- The lines of a block. -/
theorem printPairs_spec (ids : List UInt64) (vals : List Int64) (h : ids.length = vals.length) :
    ∃ lines, printPairs ids vals = (lines.flatten, none) ∧ Each2 PairLine lines (ids.zip vals) := by
  induction ids generalizing vals with
  | nil => exact ⟨[], rfl, .nil⟩
  | cons id ids ih =>
    cases vals with
    | nil => cases h
    | cons v vs =>
      obtain ⟨lines, h1, h2⟩ := ih vs (by simpa using h)
      refine ⟨(fmtNat id.toNat ++ [9] ++ fmtInt v ++ [10]) :: lines, ?_, ?_⟩
      · simp only [printPairs, h1, List.flatten_cons]
      · exact .cons ⟨_, _, rfl, (fmtNat_decimal _).1, fmtInt_decimal v⟩ h2

theorem Each2.append {α β : Type} {R : α → β → Prop} {as as' : List α} {bs bs' : List β} (h : Each2 R as bs)
    (h' : Each2 R as' bs') : Each2 R (as ++ as') (bs ++ bs') := by
  induction h with
  | nil => exact h'
  | cons h _ ih => exact .cons h ih

omit [Bitmap B] [LawfulBitmap B] in
theorem dumpLoop_spec (r : Reader B) (blocks : List Block) (k : Nat) (hk : k + blocks.length < 2 ^ 32)
    (hl : ∀ b ∈ blocks, b.1.length = b.2.length)
    (hg : ∀ (i : Nat) (h : i < blocks.length), getPairs r (UInt64.ofNat (k + i)) = .ok blocks[i]) :
    ∃ lines, dumpLoop r blocks.length (UInt32.ofNat k) = (lines.flatten, none) ∧
      Each2 PairLine lines (pairsOf blocks) := by
  induction blocks generalizing k with
  | nil => exact ⟨[], rfl, .nil⟩
  | cons b bs ih =>
    have h0 := hg 0 (by simp)
    have hk' : (UInt32.ofNat k).toUInt64 = UInt64.ofNat k := by
      rw [← UInt64.toNat_inj, UInt32.toNat_toUInt64, UInt32.toNat_ofNat', UInt64.toNat_ofNat']
      simp only [List.length_cons] at hk
      omega
    have hk1 : UInt32.ofNat k + 1 = UInt32.ofNat (k + 1) := by
      rw [← UInt32.toNat_inj, UInt32.toNat_add, UInt32.toNat_ofNat', UInt32.toNat_ofNat']
      have : (1 : UInt32).toNat = 1 := rfl
      omega
    obtain ⟨l1, h1, h2⟩ := printPairs_spec b.1 b.2 (hl b (by simp))
    obtain ⟨l2, h3, h4⟩ := ih (k + 1) (by simp only [List.length_cons] at hk; omega)
      (fun x hx => hl x (by simp [hx])) (fun i hi => by
        have := hg (i + 1) (by simp; omega)
        rw [show k + (i + 1) = k + 1 + i by omega] at this
        rw [this]
        simp)
    refine ⟨l1 ++ l2, ?_, ?_⟩
    · rw [Nat.add_zero, List.getElem_cons_zero] at h0
      obtain ⟨ids, vals⟩ := b
      simp only [List.length_cons, dumpLoop, hk', h0]
      dsimp only at h1
      simp only [h1, hk1, h3, List.flatten_append]
    · have : pairsOf (b :: bs) = b.1.zip b.2 ++ pairsOf bs := by simp [pairsOf]
      rw [this]
      exact h2.append h4

/-- What `vibecol read` prints for a file holding `blocks`. -/
structure ReadText (fmtAvg : Avg → Bytes) (usage name : Bytes) (blocks : List Block) (dump agg : Bool) (text : Bytes) :
    Prop where
  parts : ∃ version count body stats : Bytes, ∃ lines,
    Decimal version 1 ∧ Decimal count blocks.length ∧ Each2 PairLine lines (pairsOf blocks) ∧
    body = str "ID\tValue\n--\t-----\n" ++ lines.flatten ++ str "\n" ∧
    (∃ res c mi ma s, IsAggregate res (valuesOf blocks) ∧ Decimal c res.count ∧ SignedDecimal mi res.min.toInt ∧
      SignedDecimal ma res.max.toInt ∧ SignedDecimal s res.sum.toInt ∧
      stats = str "Aggregate Statistics (from metadata only):\nCount: " ++ c ++ str "\nMin: " ++ mi ++
        str "\nMax: " ++ ma ++ str "\nSum: " ++ s ++ str "\nAverage: " ++ fmtAvg res.avg ++ str "\n") ∧
    text = str "File: " ++ name ++ str "\nVersion: " ++ version ++ str "\nBlocks: " ++ count ++ str "\n\n" ++
      (if dump then body else []) ++ (if agg then stats else if dump then [] else usage)

theorem str_append (s t : String) : str (s ++ t) = str s ++ str t := by
  simp [str]

/-- **C51.** For every finalized file, `vibecol read` exits with status 0 and prints the number of
blocks, with `--dump` exactly the acknowledged pairs, in order, one per line in decimal, and with
`--agg` their exact aggregates (if representable, see C10). -/
theorem C51_read {env : Env} {opts : List WriterOption} {log : Log} {file : Bytes}
    (h : Finalized B env opts log file) (henc : SymEnc (chosenEncoding opts))
    (hn : (acked log).length ≤ maxBlocks) (fmtAvg : Avg → Bytes) (usage name : Bytes) (sched : Sched)
    (dump agg : Bool) (hrep : agg = true → StatsRepresentable (acked log)) :
    ∃ text, runRead (B := B) fmtAvg usage sched name file dump agg = (text, none) ∧
      ReadText fmtAvg usage name (acked log) dump agg text := by
  obtain ⟨r, hr, hver, _, hcnt, _⟩ := C29_accessors (B := B) h hn
  obtain ⟨r', hr', _, hget⟩ := (C01_roundtrip h henc hn).opens
  rw [hr] at hr'
  cases hr'
  have H := h.reads henc hn r hr
  have hlens : ∀ b ∈ acked log, b.1.length = b.2.length := fun b hb => (H.ok b hb).2.1
  have hn32 : (acked log).length < 2 ^ 32 := by unfold maxBlocks at hn; omega
  obtain ⟨lines, hd1, hd2⟩ := dumpLoop_spec r (acked log) 0 (by omega) hlens
    (fun i hi => by rw [Nat.zero_add]; exact hget i hi)
  have hfuel : r.blockCount.toUInt32.toNat = (acked log).length := by
    rw [UInt64.toNat_toUInt32, hcnt, Nat.mod_eq_of_lt hn32]
  have hd1 : dumpLoop r r.blockCount.toUInt32.toNat 0 = (lines.flatten, none) := by rw [hfuel]; exact hd1
  unfold runRead
  rw [hr]
  dsimp only
  rw [hd1]
  dsimp only
  have hx : ∃ res, IsAggregate res (valuesOf (acked log)) ∧ (agg = true → aggregate sched r = .ok res) := by
    by_cases ha : agg = true
    · obtain ⟨res, h1, h2⟩ := C10_aggregate h hn (hrep ha) r hr sched
      exact ⟨res, h2, fun _ => h1⟩
    · exact ⟨_, accOf_isAggregate _, fun h => absurd h ha⟩
  obtain ⟨res, hres, hagg⟩ := hx
  refine ⟨str "File: " ++ name ++ str "\nVersion: " ++ fmtNat r.version.toNat ++ str "\nBlocks: " ++
    fmtNat r.blockCount.toNat ++ str "\n\n" ++
      (if dump then str "ID\tValue\n--\t-----\n" ++ lines.flatten ++ str "\n" else []) ++
      (if agg then aggText fmtAvg res else if dump then [] else usage), ?_, ⟨fmtNat r.version.toNat, fmtNat r.blockCount.toNat, _, _, lines, ?_, ?_, hd2, rfl, ⟨res, _, _, _, _, hres,
        (fmtNat_decimal _).1, fmtInt_decimal _, fmtInt_decimal _, fmtInt_decimal _, rfl⟩, ?_⟩⟩
  rotate_left
  · rw [hver]; exact (fmtNat_decimal 1).1
  · rw [hcnt]; exact (fmtNat_decimal _).1
  · have e1 : str "Aggregate Statistics (from metadata only):\nCount: " =
      str "Aggregate Statistics (from metadata only):\n" ++ str "Count: " := by rw [← str_append]; rfl
    have e2 : str "\nMin: " = str "\n" ++ str "Min: " := by rw [← str_append]; rfl
    have e3 : str "\nMax: " = str "\n" ++ str "Max: " := by rw [← str_append]; rfl
    have e4 : str "\nSum: " = str "\n" ++ str "Sum: " := by rw [← str_append]; rfl
    have e5 : str "\nAverage: " = str "\n" ++ str "Average: " := by rw [← str_append]; rfl
    rw [e1, e2, e3, e4, e5]
    simp only [aggText, List.append_assoc]
  · have e1 : str "\nVersion: " = str "\n" ++ str "Version: " := by rw [← str_append]; rfl
    have e2 : str "\nBlocks: " = str "\n" ++ str "Blocks: " := by rw [← str_append]; rfl
    have e3 : str "ID\tValue\n--\t-----\n" = str "ID\tValue\n" ++ str "--\t-----\n" := by rw [← str_append]; rfl
    rw [e1, e2, e3]
    cases agg with
    | false => cases dump <;> simp [List.append_assoc]
    | true =>
      rw [hagg rfl]
      cases dump <;> simp [List.append_assoc]

/-- **C50.** If `vibecol write` exits with status 0, under any faults, then its arguments denote
equally many IDs and values, it has printed their number, and the output file is a finalized file
holding exactly these pairs in one block: `vibecol read --dump` prints them again. -/
theorem C50_success {env : Env} {name a b text : Bytes} {out : Option (Writer B)}
    (h : (runWrite env name a b : WriteRun B) = ⟨.ok text, out⟩) :
    ∃ ids vals n w, Means a b ids vals ∧ Decimal n ids.length ∧ out = some w ∧
      text = str "Wrote file with " ++ n ++ str " entries to " ++ name ++ str "\n" ∧
      (ids.length ≤ 2 ^ 27 → w.file.bytes.length < 2 ^ 63 →
        Finalized B env [] [(.write ids vals, .ok ())] w.file.bytes ∧
        ∀ (fmtAvg : Avg → Bytes) (usage name' : Bytes) (sched : Sched) (dump agg : Bool),
          (agg = true → StatsRepresentable [(ids, vals)]) →
          ∃ text', runRead (B := B) fmtAvg usage sched name' w.file.bytes dump agg = (text', none) ∧
            ReadText fmtAvg usage name' [(ids, vals)] dump agg text') := by
  have hout : ∃ ids vals, Means a b ids vals := by
    apply Classical.byContradiction
    intro hno
    have h1 := (C50_arguments (B := B) env name a b)
    have h2 : (runWrite env name a b : WriteRun B).output = none := by
      rw [← Option.not_isSome_iff_eq_none, h1.1]
      exact hno
    obtain ⟨f, hf⟩ := h1.2 h2
    rw [h] at hf
    cases hf
  obtain ⟨ids, vals, hm⟩ := hout
  rw [runWrite_means hm] at h
  rcases h0 : newWriter (B := B) [] env with ⟨r0, w0⟩
  rw [h0] at h
  cases r0 with
  | error e => cases h
  | ok u =>
  dsimp only at h
  rcases h1 : writeBlock ids vals env w0 with ⟨r1, w1⟩
  rw [h1] at h
  cases r1 with
  | error e => cases h
  | ok u1 =>
  dsimp only at h
  rcases h2 : finalizeAndClose env w1 with ⟨r2, w2⟩
  rw [h2] at h
  cases r2 with
  | error e => cases h
  | ok u2 =>
  dsimp only at h
  rw [WriteRun.mk.injEq] at h
  obtain ⟨h3, h4⟩ := h
  cases h3
  obtain ⟨w3, h5, h6⟩ := finalizeAndClose_ok h2
  refine ⟨ids, vals, _, w2, hm, (fmtNat_decimal _).1, h4.symm, rfl, fun hid hsz => ?_⟩
  have hfin : Finalized B env [] [(.write ids vals, .ok ())] w2.file.bytes := by
    refine ⟨⟨[.write ids vals], w1, w3, ⟨w0, h0, ?_⟩, h5, by rw [h6]⟩, ?_, ?_, hsz⟩
    · simp [runCalls, Call.run, h1]
    · simp [NoIOError]
    · simpa [Call.Bounded] using hid
  refine ⟨hfin, fun fmtAvg usage name' sched dump agg hrep => ?_⟩
  exact C51_read hfin (.inl rfl) (by simp [acked, ackedBy, maxBlocks]) fmtAvg usage name' sched dump agg hrep

omit [LawfulBitmap B] in
theorem finalizeAndClose_noFault {env : Env} (hnf : env.NoFault) {w w1 : Writer B} (h : finalize env w = (.ok (), w1))
    (ho : w1.fileOpen = true) : ∃ w2, finalizeAndClose env w = (.ok (), w2) ∧ w2.file = w1.file := by
  have hf : fclose env w1 = (.ok (), { w1 with opNo := w1.opNo + 1, fileOpen := false }) := by
    unfold fclose
    dsimp only
    rw [if_neg (by simp [ho]), hnf]
  refine ⟨{ w1 with opNo := w1.opNo + 1, fileOpen := false }, ?_, rfl⟩
  show WM.bind finalize (fun _ => fclose) env w = _
  unfold WM.bind
  rw [h]
  exact hf

/-- **C50.** Without file system errors, `vibecol write` succeeds exactly if its arguments denote
equally many IDs and values, at most 1015 of them. If there are more, it exits with status 1, has
destroyed the previous contents of the output file, and leaves a file that cannot be opened (unless
the 1015th value happens to be the magic number). -/
theorem C50_capacity {env : Env} (hnf : env.NoFault) {name a b : Bytes} {ids : List UInt64} {vals : List Int64}
    (hm : Means a b ids vals) (hid : ids.length ≤ 2 ^ 27)
    (hbm : ∀ L : List UInt64, L.length ≤ 1015 → (Bitmap.toBuffer (L.foldl Bitmap.set (Bitmap.empty : B))).length < 2 ^ 32) :
    (ids.length ≤ 1015 → ∃ text w, (runWrite env name a b : WriteRun B) = ⟨.ok text, some w⟩ ∧
      w.file.bytes.length < 2 ^ 63) ∧
    (1015 < ids.length → ∃ w, (runWrite env name a b : WriteRun B) = ⟨.error (.write (.blockFull 1015)), some w⟩ ∧
      (vals[1014]? ≠ some magicNumber.toInt64 → ∀ r : Reader B, newReader w.file.bytes ≠ .ok r)) := by
  have hne := means_ne_nil hm
  have hlen := hm.1
  rw [runWrite_means hm]
  obtain ⟨w0, h0⟩ := newWriter_ok (B := B) env hnf []
  have hh : History B env [] [] [] w0 := ⟨w0, h0, rfl⟩
  have hd := C05_default hnf hh (fun _ h => absurd h (by simp)) (fun _ h => absurd h (by simp)) (by simp)
    ids vals hid hlen hne
  have hcap : defaultCapacity [] = 1015 := rfl
  rw [hcap] at hd
  rw [h0]
  dsimp only
  rcases h1 : writeBlock ids vals env w0 with ⟨r1, w1⟩
  rw [h1] at hd
  dsimp only at hd
  subst hd
  have hh1 : History B env [] [.write ids vals] _ w1 := ⟨w0, h0, by simp [runCalls, Call.run, h1]; rfl⟩
  have hb1 : ∀ c ∈ [Call.write ids vals], c.Bounded := by simpa [Call.Bounded] using hid
  constructor
  · intro hle
    rw [if_pos hle] at hh1 ⊢
    dsimp only
    have hno : NoIOError [(Call.write ids vals, (Except.ok () : Result))] := by simp [NoIOError]
    have hmis : NoMismatch [(Call.write ids vals, (Except.ok () : Result))] := by simp [NoMismatch]
    obtain ⟨blks, hi, hc, _, ho, _⟩ := history_clean' hh1 hb1 hmis hno
    obtain ⟨w2, h2⟩ := finalize_noFault hnf hi hc ho
    obtain ⟨_, _, hsame, _⟩ := wp_ok (finalize_inv env w1 blks [] hi) h2
    obtain ⟨w3, h3, h4⟩ := finalizeAndClose_noFault hnf h2 (hsame.opened.trans ho)
    rw [h3]
    refine ⟨_, w3, rfl, ?_⟩
    have := finalized_length hh1 hb1 hmis hno h2 (2 ^ 32) (fun L hL => Nat.le_of_lt (hbm L (by
      simp only [totalPairs, Call.pairs, List.map_cons, List.map_nil, List.sum_cons, List.sum_nil] at hL
      omega)))
    rw [h4]
    refine Nat.lt_of_le_of_lt this ?_
    simp only [sizeBound, totalPairs, Call.pairs, List.map_cons, List.map_nil, List.sum_cons, List.sum_nil,
      List.length_cons, List.length_nil]
    omega
  · intro hgt
    rw [if_neg (by omega)] at h1 ⊢
    dsimp only
    refine ⟨_, rfl, fun hv r => ?_⟩
    rw [fclose_file]
    have hsz : w1.file.bytes.length < 2 ^ 63 := by
      rcases C05_exact hnf hh (fun _ h => absurd h (by simp)) (fun _ h => absurd h (by simp))
        (SymEnc.regular (.inl rfl)) ids vals hid hlen hne with ⟨_, hx, _⟩ | ⟨n, _, h3, h4, _, h5, h6⟩
      · rw [h1] at hx; cases hx
      · rw [h1] at h5 h6
        cases h5
        dsimp only at h6
        rw [h6]
        rcases h4 with h4 | h4
        · have hw : w0.file.bytes.length = 64 := by
            obtain ⟨hi, hc, _, _, _, hp, _⟩ := newWriter_inv h0
            rw [← hc.atEnd]; exact hp
          have e1 : (chosenBlockSize []).toNat = 16384 := rfl
          rw [e1] at h4
          rw [List.length_append]
          omega
        · simp only [Doc.Pairs.first, Doc.pairs, List.length_take, List.length_map] at h4
          omega
    have hl : (vals.take 1015).getLast? = some (vals[1014]'(by omega)) := by
      rw [List.getLast?_eq_getElem?, List.length_take, show min 1015 vals.length - 1 = 1014 by omega,
        List.getElem?_take_of_lt (by omega), List.getElem?_eq_getElem]
    refine C27_raw rfl hh (fun _ h => absurd h (by simp)) (fun _ h => absurd h (by simp)) ids vals hid h1
      (ids.take 1015, vals.take 1015) rfl hsz _ hl ?_ r
    intro hc
    apply hv
    rw [List.getElem?_eq_getElem (by omega), ← hc]
    rfl

/-! ### Examples -/

theorem idSet_small (L : List UInt64) (h : L.length ≤ 1015) :
    (Bitmap.toBuffer (L.foldl Bitmap.set (Bitmap.empty : IdSet))).length < 2 ^ 32 := by
  have := idSet_buffer 1015 L h
  omega

/-- Non-vacuity of C50: `vibecol write -ids " 3,1\t,18446744073709551615" -values "-5,+07,
-9223372036854775808"` (the second ID is followed by a TAB). -/
example : Means (str " 3,1\t,18446744073709551615") (str "-5,+07, -9223372036854775808")
    [3, 1, 18446744073709551615] [-5, 7, -9223372036854775808] := by
  rw [means_iff]
  decide +kernel

/-- Not numbers: an empty field, a sign in an ID, a number that is too large. -/
example : (¬ ∃ ids vals, Means (str "1,") (str "1,2") ids vals) ∧ (¬ ∃ ids vals, Means (str "+1") (str "1") ids vals) ∧
    (¬ ∃ ids vals, Means (str "1") (str "9223372036854775808") ids vals) := by
  refine ⟨?_, ?_, ?_⟩ <;> rintro ⟨ids, vals, h⟩ <;> rw [means_iff] at h
  · have : parseFields parseUint .parseID (split (str "1,")) = .error (.parseID [] .syntax) := by decide +kernel
    rw [this] at h; cases h.2.1
  · have : parseFields parseUint .parseID (split (str "+1")) = .error (.parseID [43, 49] .syntax) := by decide +kernel
    rw [this] at h; cases h.2.1
  · have : parseFields parseInt .parseValue (split (str "9223372036854775808")) =
      .error (.parseValue (str "9223372036854775808") .range) := by decide +kernel
    rw [this] at h; cases h.2.2

/-- **C50.** Valid arguments that are refused: 1016 pairs. -/
theorem C50_refuted : ∃ (a b : Bytes) (ids : List UInt64) (vals : List Int64) (w : Writer IdSet), Means a b ids vals ∧
    ids.length = 1016 ∧ (runWrite quietEnv (str "x.col") a b : WriteRun IdSet) = ⟨.error (.write (.blockFull 1015)), some w⟩ ∧
    ∀ r : Reader IdSet, newReader w.file.bytes ≠ .ok r := by
  have hE : ∀ {β : Type} (R : Bytes → β → Prop) (x : β) (_ : R [55] x) (n : Nat),
      Each2 R (List.replicate n [55]) (List.replicate n x) := by
    intro β R x hx n
    induction n with
    | zero => exact .nil
    | succ n ih => exact .cons hx ih
  have hF : FieldsOf ([(44 : UInt8)].intercalate (List.replicate 1016 [55])) (List.replicate 1016 [55]) := by
    refine ⟨List.ne_nil_of_length_pos (by rw [List.length_replicate]; omega), ?_, rfl⟩
    intro f hf
    rw [List.eq_of_mem_replicate hf]
    decide
  have hm : Means ([(44 : UInt8)].intercalate (List.replicate 1016 [55])) ([(44 : UInt8)].intercalate (List.replicate 1016 [55]))
      (List.replicate 1016 7) (List.replicate 1016 7) := by
    refine ⟨by rw [List.length_replicate, List.length_replicate], ⟨_, hF, hE _ _ ?_ _⟩, ⟨_, hF, hE _ _ ?_ _⟩⟩
    · rw [← denotesID_iff]; decide +kernel
    · rw [← denotesValue_iff]; decide +kernel
  have hl : (List.replicate 1016 (7 : UInt64)).length = 1016 := List.length_replicate
  obtain ⟨w, h1, h2⟩ := (C50_capacity (B := IdSet) quietEnv_noFault (name := str "x.col") hm (by rw [hl]; omega)
    idSet_small).2 (by rw [hl]; omega)
  refine ⟨_, _, _, _, w, hm, hl, h1, h2 ?_⟩
  rw [List.getElem?_replicate, if_pos (by omega)]
  decide

/-- Non-vacuity of C50 and C51: three pairs are written and can be read. -/
example : ∃ (text : Bytes) (w : Writer IdSet), (runWrite quietEnv (str "x.col") (str "3,1,2") (str "-5,+7, 0") : WriteRun IdSet) =
      ⟨.ok text, some w⟩ ∧
    ∃ text', runRead (B := IdSet) (fun _ => []) [] inOrder (str "x.col") w.file.bytes true true = (text', none) ∧
      ReadText (fun _ => []) [] (str "x.col") [([3, 1, 2], [-5, 7, 0])] true true text' := by
  have hm : Means (str "3,1,2") (str "-5,+7, 0") [3, 1, 2] [-5, 7, 0] := by
    rw [means_iff]
    decide +kernel
  obtain ⟨text, w, h1, h2⟩ := (C50_capacity (B := IdSet) quietEnv_noFault (name := str "x.col") hm (by decide)
    idSet_small).1 (by decide)
  refine ⟨text, w, h1, ?_⟩
  obtain ⟨ids, vals, n, w', h3, _, h4, _, h5⟩ := C50_success h1
  cases h4
  obtain ⟨rfl, rfl⟩ := means_unique hm h3
  exact (h5 (by decide) h2).2 _ _ _ _ true true (fun _ => by
    intro b hb
    rw [List.mem_singleton] at hb
    subst hb
    decide)

end VibeCol.Cli
