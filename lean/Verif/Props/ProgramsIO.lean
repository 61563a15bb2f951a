/-
C78: the programs that read files, when reads fail.
-/
import Verif.Spec.ProgramsIO
import Verif.Props.ReadFaults
import Verif.Props.Cli
import Verif.Props.LoadTest
import Verif.Props.FilterExample
namespace VibeCol.ProgramsIO
open VibeCol.Cli (Stopped Failure ReadText)
set_option linter.unusedSectionVars false
variable {B : Type} [Bitmap B]

/-- The plain aggregate does not depend on reads: it comes from the index, and without one no block can be found. -/
theorem aggregateIO_default (fail : UInt64 → Bool) (sched : Sched) (r : Reader B) :
    aggregateWithOptionsIO fail sched r {} = aggregate sched r := by
  by_cases hidx : r.blockIndex = []
  · unfold aggregate aggregateWithOptionsIO aggregateWithOptions aggregateSequentialIO aggregateSequential
    have hp : ∀ i, getPairsIO (fail i) r i = getPairs r i := by
      intro i
      unfold getPairsIO getPairs readBlockIO readBlock
      rw [hidx]
      rfl
    have h0 : ¬ ((0 : Int) ≠ 0) := by simp
    have h1 : ¬ ((none : Option B).isSome = true ∨ (none : Option B).isSome = true) := by simp
    have h2 : ¬ (r.blockIndex.length > 0 ∧ False = False) := by simp [hidx]
    simp only [hp]
    rw [if_neg h0, if_neg h0, if_neg h1, if_neg h1]
  · exact aggregateIO_footer fail sched r {} rfl rfl rfl hidx

/-! ### vibecol read -/

theorem dumpLoopIO_or (fail : UInt32 → Bool) (r : Reader B) (fuel : Nat) (i : UInt32) :
    Cli.dumpLoopIO fail r fuel i = Cli.dumpLoop r fuel i ∨
    ∃ j out rest, fail j = true ∧ Cli.dumpLoopIO fail r fuel i = (out, some (.failed (.pairs j .io))) ∧
      (Cli.dumpLoop r fuel i).1 = out ++ rest := by
  induction fuel generalizing i with
  | zero => exact .inl rfl
  | succ fuel ih =>
    unfold Cli.dumpLoopIO Cli.dumpLoop
    rcases getPairsIO_or (fail i) r i.toUInt64 with h | ⟨hf, h⟩
    · rw [h]
      cases getPairs r i.toUInt64 with
      | panic => exact .inl rfl
      | err e => exact .inl rfl
      | ok p =>
        obtain ⟨ids, vals⟩ := p
        dsimp only
        rcases Cli.printPairs ids vals with ⟨out, _ | e⟩
        · dsimp only
          rcases ih (i + 1) with h | ⟨j, out', rest, h1, h2, h3⟩
          · rw [h]; exact .inl rfl
          · refine .inr ⟨j, out ++ out', rest, h1, ?_, ?_⟩
            · rw [h2]
            · rw [h3, List.append_assoc]
        · exact .inl rfl
    · rw [h]
      exact .inr ⟨i, [], _, hf, rfl, rfl⟩

/-- **C78.** `vibecol read` on any file, whichever reads fail: it behaves as if nothing had failed, or, which happens only if some
operation fails, stops with status 1 and an I/O error after a beginning of the text. -/
theorem C78_read (opening : Nat → Bool) (dumping : UInt32 → Bool) (aggregating : UInt64 → Bool) (fmtAvg : Avg → Bytes)
    (usage : Bytes) (sched : Sched) (name file : Bytes) (dump agg : Bool) :
    Cli.runReadIO (B := B) opening dumping aggregating fmtAvg usage sched name file dump agg =
      Cli.runRead (B := B) fmtAvg usage sched name file dump agg ∨
    ∃ out rest f, Cli.runReadIO (B := B) opening dumping aggregating fmtAvg usage sched name file dump agg = (out, some (.failed f)) ∧
      (f = .open .io ∧ (∃ n, opening n = true) ∨ ∃ i, dump = true ∧ f = .pairs i .io ∧ dumping i = true) ∧
      (Cli.runRead (B := B) fmtAvg usage sched name file dump agg).1 = out ++ rest := by
  unfold Cli.runReadIO Cli.runRead
  rcases C52_open (B := B) opening file with h | ⟨hf, h⟩
  · rw [h]
    cases newReader (B := B) file with
    | panic => exact .inl rfl
    | err e => exact .inl rfl
    | ok r =>
      dsimp only
      simp only [aggregateIO_default]
      cases dump with
      | false => exact .inl rfl
      | true =>
        simp only [if_true]
        rcases dumpLoopIO_or dumping r r.blockCount.toUInt32.toNat 0 with h | ⟨j, out, rest, h1, h2, h3⟩
        · rw [h]; exact .inl rfl
        · right
          rw [h2]
          generalize Cli.dumpLoop r r.blockCount.toUInt32.toNat 0 = d at h3
          obtain ⟨t, e⟩ := d
          subst h3
          have hpre : ∀ head tail : Bytes, ∃ rest', head ++ (Cli.str "ID\tValue\n" ++ Cli.str "--\t-----\n" ++ (out ++ rest) ++ tail) =
              head ++ (Cli.str "ID\tValue\n" ++ Cli.str "--\t-----\n" ++ out) ++ rest' :=
            fun head tail => ⟨rest ++ tail, by simp only [List.append_assoc]⟩
          have hpre2 : ∀ head tail more : Bytes, ∃ rest', head ++ (Cli.str "ID\tValue\n" ++ Cli.str "--\t-----\n" ++ (out ++ rest) ++ tail) ++ more =
              head ++ (Cli.str "ID\tValue\n" ++ Cli.str "--\t-----\n" ++ out) ++ rest' :=
            fun head tail more => ⟨rest ++ tail ++ more, by simp only [List.append_assoc]⟩
          simp only [Option.isNone_some, Bool.false_eq_true, if_false, List.append_nil]
          have hex : ∀ (X : Bytes × Option Stopped) (pre : Bytes), (∃ rest', X.1 = pre ++ rest') → ∃ out' rest' f, (pre, some (Stopped.failed (.pairs j .io))) =
              (out', some (.failed f)) ∧ (f = .open .io ∧ (∃ n, opening n = true) ∨ ∃ i, True ∧ f = .pairs i .io ∧ dumping i = true) ∧
              X.1 = out' ++ rest' :=
            fun X pre ⟨rest', h⟩ => ⟨pre, rest', _, rfl, .inr ⟨j, trivial, rfl, h1⟩, h⟩
          refine hex _ _ ?_
          cases e with
          | some e => exact hpre _ _
          | none =>
            dsimp only
            cases agg with
            | false =>
              simp only [Bool.false_eq_true, if_false, List.append_nil]
              exact hpre _ _
            | true =>
              simp only [if_true]
              cases aggregate sched r with
              | panic => exact hpre _ _
              | err e => exact hpre _ _
              | ok res => exact hpre2 _ _ _
  · rw [h]
    exact .inr ⟨[], _, _, rfl, .inl ⟨rfl, hf⟩, rfl⟩

section Lawful
variable [LawfulBitmap B]

/-- **C78.** `vibecol read` on a finalized file, whichever reads fail: if the exit status is 0, the text is complete and right (C51); with
`--dump` the status is 1 as soon as the read of a single block fails. -/
theorem C78_status {env : Env} {opts : List WriterOption} {log : Log} {file : Bytes}
    (h : Finalized B env opts log file) (henc : SymEnc (chosenEncoding opts)) (hn : (acked log).length ≤ maxBlocks)
    (opening : Nat → Bool) (dumping : UInt32 → Bool) (aggregating : UInt64 → Bool) (fmtAvg : Avg → Bytes) (usage name : Bytes)
    (sched : Sched) (dump agg : Bool) (hrep : agg = true → StatsRepresentable (acked log)) (text : Bytes) (stop : Option Stopped)
    (hrun : Cli.runReadIO (B := B) opening dumping aggregating fmtAvg usage sched name file dump agg = (text, stop)) :
    (stop = none → ReadText fmtAvg usage name (acked log) dump agg text) ∧
    (∀ i < (acked log).length, dump = true → dumping (UInt32.ofNat i) = true → ∃ f, stop = some (.failed f)) ∧
    ((∀ n, opening n = false) → (∀ i, dump = true → dumping i = false) → stop = none) := by
  obtain ⟨t, ht, hT⟩ := Cli.C51_read (B := B) h henc hn fmtAvg usage name sched dump agg hrep
  have hor := C78_read (B := B) opening dumping aggregating fmtAvg usage sched name file dump agg
  rw [hrun, ht] at hor
  refine ⟨?_, ?_, ?_⟩
  · rintro rfl
    rcases hor with h1 | ⟨out, rest, f, h1, _⟩
    · cases h1
      exact hT
    · cases h1
  · rintro i hi rfl hf
    rcases hor with h1 | ⟨out, rest, f, h1, _⟩
    · exfalso
      cases h1
      obtain ⟨r, hr, hcnt, hget⟩ := (C01_roundtrip h henc hn).opens
      unfold Cli.runReadIO at hrun
      rcases C52_open (B := B) opening file with ho | ⟨_, ho⟩
      · rw [ho, hr] at hrun
        dsimp only at hrun
        simp only [if_true] at hrun
        have key : ∀ fuel k : Nat, k + fuel < 2 ^ 32 → k ≤ i → i < k + fuel →
            (∀ j, k ≤ j → j < k + fuel → ∃ b, getPairs r (UInt64.ofNat j) = .ok b) →
            ∃ e, (Cli.dumpLoopIO dumping r fuel (UInt32.ofNat k)).2 = some e := by
          intro fuel
          induction fuel with
          | zero => intro k _ h1 h2; omega
          | succ fuel ih =>
            intro k hk h1 h2 hall
            have hk' : (UInt32.ofNat k).toUInt64 = UInt64.ofNat k := by
              rw [← UInt64.toNat_inj, UInt32.toNat_toUInt64, UInt32.toNat_ofNat', UInt64.toNat_ofNat']
              omega
            have hk1 : UInt32.ofNat k + 1 = UInt32.ofNat (k + 1) := by
              rw [← UInt32.toNat_inj, UInt32.toNat_add, UInt32.toNat_ofNat', UInt32.toNat_ofNat']
              have : (1 : UInt32).toNat = 1 := rfl
              omega
            obtain ⟨b, hb⟩ := hall k (Nat.le_refl _) (by omega)
            unfold Cli.dumpLoopIO
            rw [hk', hk1]
            by_cases hki : k = i
            · subst hki
              rw [hf, getPairsIO_true _ _ _ hb]
              exact ⟨_, rfl⟩
            · cases hfk : dumping (UInt32.ofNat k) with
              | true => rw [getPairsIO_true _ _ _ hb]; exact ⟨_, rfl⟩
              | false =>
                rw [getPairsIO_false, hb]
                obtain ⟨ids, vals⟩ := b
                dsimp only
                rcases Cli.printPairs ids vals with ⟨o, _ | e⟩
                · dsimp only
                  exact ih (k + 1) (by omega) (by omega) (by omega) fun j h3 h4 => hall j (by omega) (by omega)
                · exact ⟨e, rfl⟩
        have h32 : (acked log).length < 2 ^ 32 := by unfold maxBlocks at hn; omega
        have hc32 : r.blockCount.toUInt32.toNat = (acked log).length := by
          rw [UInt64.toNat_toUInt32, hcnt]
          exact Nat.mod_eq_of_lt h32
        obtain ⟨e, he⟩ := key (acked log).length 0 (by omega) (Nat.zero_le _) (by omega)
          fun j _ hj => ⟨_, hget j (by omega)⟩
        rw [hc32] at hrun
        rw [show (UInt32.ofNat 0) = 0 from rfl] at he
        generalize Cli.dumpLoopIO dumping r (acked log).length 0 = d at he hrun
        obtain ⟨o, e'⟩ := d
        dsimp only at he
        subst he
        cases hrun
      · rw [ho] at hrun
        cases hrun
    · rw [Prod.mk.injEq] at h1
      exact ⟨f, h1.2⟩
  · intro ho hd
    rcases hor with h1 | ⟨out, rest, f, h1, h2 | ⟨i, h2, _, h3⟩, _⟩
    · cases h1; rfl
    · obtain ⟨n, hx⟩ := h2.2
      rw [ho n] at hx
      cases hx
    · rw [hd i h2] at h3
      cases h3

/-! ### loadtest aggregate -/

omit [LawfulBitmap B] in
theorem scanIO_none {r : Reader B} {blocks : List Block} (H : Reads r blocks) (fail : UInt64 → Bool)
    (hf : ∀ i < blocks.length, fail (UInt64.ofNat i) = false) :
    LoadTest.scanIO fail r blocks.length 0 0 = .ok (Int64.ofNat (pairsOf blocks).length) := by
  have key : ∀ fuel i : Nat, i + fuel = blocks.length → ∀ total,
      LoadTest.scanIO fail r fuel (UInt64.ofNat i) total = LoadTest.scan r fuel (UInt64.ofNat i) total := by
    intro fuel
    induction fuel with
    | zero => intros; rfl
    | succ fuel ih =>
      intro i hi total
      unfold LoadTest.scanIO LoadTest.scan
      rw [hf i (by omega), getPairsIO_false, H.read i (by omega), show UInt64.ofNat i + 1 = UInt64.ofNat (i + 1) from by simp]
      simp only [Res.ok_bind]
      exact ih (i + 1) (by omega) _
  have h1 := key blocks.length 0 (by omega) 0
  rw [LoadTest.scan_eq H _ 0 (by omega)] at h1
  rw [show (UInt64.ofNat 0) = 0 from rfl] at h1
  rw [h1, List.drop_zero, Int64.zero_add]
  rfl

omit [LawfulBitmap B] in
theorem scanIO_some {r : Reader B} {blocks : List Block} (H : Reads r blocks) (fail : UInt64 → Bool)
    (hf : ∃ i < blocks.length, fail (UInt64.ofNat i) = true) :
    LoadTest.scanIO fail r blocks.length 0 0 = .err .io := by
  obtain ⟨i, hi, hf⟩ := hf
  have key : ∀ fuel k : Nat, k + fuel = blocks.length → k ≤ i → ∀ total,
      LoadTest.scanIO fail r fuel (UInt64.ofNat k) total = .err .io := by
    intro fuel
    induction fuel with
    | zero => intro k h1 h2; omega
    | succ fuel ih =>
      intro k h1 h2 total
      have hg := H.read k (by omega)
      unfold LoadTest.scanIO
      cases hk : fail (UInt64.ofNat k) with
      | true => rw [getPairsIO_true _ _ _ hg]; rfl
      | false =>
        rw [getPairsIO_false, hg, show UInt64.ofNat k + 1 = UInt64.ofNat (k + 1) from by simp]
        simp only [Res.ok_bind]
        by_cases hki : k = i
        · subst hki; rw [hf] at hk; cases hk
        · exact ih (k + 1) (by omega) (by omega) _
  exact key blocks.length 0 (by omega) (Nat.zero_le _) 0

theorem unfailed_cons (fail : Nat → Bool) (b : Block) (bs : List Block) :
    unfailed fail (b :: bs) = (if fail 0 then [] else [b]) ++ unfailed (fun i => fail (i + 1)) bs := by
  unfold unfailed
  rw [List.zipIdx_cons', List.filter_cons]
  have : ((List.map (Prod.map id fun x => x + 1) bs.zipIdx).filter fun x => !fail x.2).map Prod.fst =
      (bs.zipIdx.filter fun x => !fail (x.2 + 1)).map Prod.fst := by
    rw [List.filter_map, List.map_map]
    rfl
  cases fail 0 with
  | true => simpa using this
  | false => simpa using this

/-- The values lost. -/
theorem unfailed_length (fail : Nat → Bool) (blocks : List Block) (hne : ∀ b ∈ blocks, (b.1.zip b.2) ≠ []) :
    (valuesOf (unfailed fail blocks)).length ≤ (valuesOf blocks).length ∧
    ((valuesOf (unfailed fail blocks)).length = (valuesOf blocks).length ↔ ∀ i < blocks.length, fail i = false) := by
  induction blocks generalizing fail with
  | nil => simp [unfailed]
  | cons b bs ih =>
    obtain ⟨h1, h2⟩ := ih (fun i => fail (i + 1)) fun x hx => hne x (by simp [hx])
    have hb : 0 < (b.1.zip b.2).length := List.length_pos_iff.2 (hne b (by simp))
    have hvb : (valuesOf (b :: bs)).length = (b.1.zip b.2).length + (valuesOf bs).length := by
      simp [valuesOf, pairsOf]
    have hall : (∀ i < (b :: bs).length, fail i = false) ↔ fail 0 = false ∧ ∀ i < bs.length, fail (i + 1) = false := by
      constructor
      · intro h
        exact ⟨h 0 (by simp), fun i hi => h (i + 1) (by simp; omega)⟩
      · rintro ⟨h3, h4⟩ i hi
        cases i with
        | zero => exact h3
        | succ i => exact h4 i (by simpa using hi)
    rw [unfailed_cons, hall, ← h2, hvb]
    cases fail 0 with
    | true =>
      simp only [if_true, List.nil_append, reduceCtorEq, false_and, iff_false]
      omega
    | false =>
      simp only [Bool.false_eq_true, if_false, true_and]
      have : (valuesOf ([b] ++ unfailed (fun i => fail (i + 1)) bs)).length =
          (b.1.zip b.2).length + (valuesOf (unfailed (fun i => fail (i + 1)) bs)).length := by
        simp [valuesOf, pairsOf]
      rw [this]
      omega

theorem selectedValues_none' (blocks : List Block) : selectedValues (none : Option B) none blocks = valuesOf blocks := by
  unfold selectedValues valuesOf
  rw [List.filter_eq_self.2]
  intro p _
  rfl

theorem aggregate_reads {r : Reader B} {blocks : List Block} (H : Reads r blocks) (hver : r.version = 1) (file : Bytes)
    (hr : newReader file = .ok r)
    (opening : Nat → Bool) (aggregating scanning : UInt64 → Bool) (sched : Sched) (hs : sched.Fair) (skipCache : Bool) (parallel : Int)
    (hrep : skipCache = true ∨ StatsRepresentable blocks) :
    ((∃ n, opening n = true) ∧ LoadTest.runAggregateIO (B := B) opening aggregating scanning sched file skipCache parallel = .err .io) ∨
    ∃ rep, LoadTest.runAggregateIO (B := B) opening aggregating scanning sched file skipCache parallel = .ok rep ∧
      Printed blocks skipCache (fun i => aggregating (UInt64.ofNat i)) (fun i => scanning (UInt64.ofNat i)) rep := by
  unfold LoadTest.runAggregateIO
  rcases C52_open (B := B) opening file with ho | ⟨hf, ho⟩
  · right
    rw [ho, hr]
    simp only [Res.ok_bind]
    have hcnt : r.blockCount.toNat = blocks.length := H.count_toNat
    have hagg : ∃ res, aggregateWithOptionsIO aggregating sched r { skipPreCalculated := skipCache, parallel := parallel } = .ok res ∧
        (skipCache = true → IsAggregate res (valuesOf (unfailed (fun i => aggregating (UInt64.ofNat i)) blocks))) ∧
        (skipCache = false → IsAggregate res (valuesOf blocks)) := by
      cases hsk : skipCache with
      | true =>
        obtain ⟨res, h1, h2⟩ := H.unfailed_aggregate aggregating sched hs { skipPreCalculated := true, parallel := parallel }
          (.inr (.inr rfl))
        rw [selectedValues_none'] at h2
        exact ⟨res, h1, fun _ => h2, (fun h => by cases h)⟩
      | false =>
        have hrep : StatsRepresentable blocks := by
          rcases hrep with h | h
          · rw [hsk] at h; cases h
          · exact h
        refine ⟨(accOf (valuesOf blocks)).result, ?_, (fun h => by cases h), fun _ => accOf_isAggregate _⟩
        have hfoot := H.toIndexed.footer { parallel := 0 } rfl rfl rfl hrep
        by_cases hidx : r.blockIndex = []
        · rw [parallelIO_eq _ sched hs r _ (.inr (.inr (.inr hidx))) (.inr (.inr H.alloc)), ← hfoot]
          have := H.index
          rw [hidx] at this
          have h0 := H.count_toNat
          rw [← this] at h0
          unfold aggregateSequentialIO aggregateSequential
          simp [hidx, h0, sumBlocks]
        · rw [aggregateIO_footer _ sched r _ rfl rfl rfl hidx, H.toIndexed.parallel_eq sched hs]
          exact hfoot
    obtain ⟨res, h1, h2, h3⟩ := hagg
    rw [h1]
    simp only [Res.ok_bind]
    rw [hcnt]
    have hlen : (pairsOf blocks).length = (valuesOf blocks).length := by simp [valuesOf]
    by_cases hsc : ∃ i < blocks.length, scanning (UInt64.ofNat i) = true
    · rw [scanIO_some H scanning hsc]
      exact ⟨_, rfl, hver, hcnt, h2, h3, by rw [if_pos hsc]⟩
    · rw [scanIO_none H scanning fun i hi => by
        cases hx : scanning (UInt64.ofNat i) with
        | true => exact absurd ⟨i, hi, hx⟩ hsc
        | false => rfl]
      exact ⟨_, rfl, hver, hcnt, h2, h3, by rw [if_neg hsc, ← hlen]⟩
  · rw [ho]
    exact .inl ⟨hf, rfl⟩

/-- **C78.** `loadtest aggregate` on any finalized file, whichever reads fail: status 1 because the file could not be opened, or
status 0 with the output described by `Printed`. -/
theorem C78_loadtest {env : Env} {opts : List WriterOption} {log : Log} {file : Bytes}
    (h : Finalized B env opts log file) (henc : SymEnc (chosenEncoding opts)) (hn : (acked log).length ≤ maxBlocks)
    (opening : Nat → Bool) (aggregating scanning : UInt64 → Bool) (sched : Sched) (hs : sched.Fair) (skipCache : Bool) (parallel : Int)
    (hrep : skipCache = true ∨ StatsRepresentable (acked log)) :
    ((∃ n, opening n = true) ∧ LoadTest.runAggregateIO (B := B) opening aggregating scanning sched file skipCache parallel = .err .io) ∨
    ∃ rep, LoadTest.runAggregateIO (B := B) opening aggregating scanning sched file skipCache parallel = .ok rep ∧
      Printed (acked log) skipCache (fun i => aggregating (UInt64.ofNat i)) (fun i => scanning (UInt64.ofNat i)) rep := by
  obtain ⟨r, hr, hver, _⟩ := C29_accessors (B := B) h hn
  exact aggregate_reads (h.reads henc hn r hr) hver file hr opening aggregating scanning sched hs skipCache parallel hrep

/-- **C78.** The same on the file of a successful `loadtest import -n N`. -/
theorem C78_import {env : Env} (hsort : LawfulSort env.sort) {g : LoadTest.Rng} (hg : g.Lawful) {num bs mv : Int64} {mi : UInt64} {v i : Nat}
    {sw : SimpleWriter B} (h : LoadTest.runImport env g num bs mv mi = (.done v i, some sw))
    (hsize : sw.writer.file.bytes.length ≤ maxFileSize) (opening : Nat → Bool) (aggregating scanning : UInt64 → Bool) (sched : Sched)
    (hs : sched.Fair) (skipCache : Bool) (parallel : Int) (hmv : skipCache = true ∨ mv.toInt ≤ 2 ^ 35) :
    ∃ batches k blocks, LoadTest.Batches g mv mi num.toInt.toNat 0 batches 0 k ∧
      (pairsOf blocks).Perm (LoadTest.pairs batches).flatten ∧
      (valuesOf blocks).length = num.toInt.toNat ∧ (∀ b ∈ blocks, b.1.zip b.2 ≠ []) ∧
      (((∃ n, opening n = true) ∧
        LoadTest.runAggregateIO (B := B) opening aggregating scanning sched sw.writer.file.bytes skipCache parallel = .err .io) ∨
      ∃ rep, LoadTest.runAggregateIO (B := B) opening aggregating scanning sched sw.writer.file.bytes skipCache parallel = .ok rep ∧
        Printed blocks skipCache (fun i => aggregating (UInt64.ofNat i)) (fun i => scanning (UInt64.ofNat i)) rep) := by
  obtain ⟨batches, k, blocks, r, hb, hnew, hR, hpp, hver, _, hrep⟩ := LoadTest.import_reads hsort hg h hsize
  refine ⟨batches, k, blocks, hb, hpp, ?_, fun b hb => ?_, aggregate_reads hR hver _ hnew opening aggregating scanning sched hs skipCache
    parallel (hmv.imp id hrep)⟩
  · rw [show (valuesOf blocks).length = (pairsOf blocks).length by simp [valuesOf], hpp.length_eq]
    have := hb.split.1
    omega
  · obtain ⟨h1, h2, _⟩ := hR.ok b hb
    intro hc
    have := congrArg List.length hc
    rw [List.length_zip, ← h2, Nat.min_self] at this
    exact h1 (List.eq_nil_of_length_eq_zero this)

/-- **C78.** What the lines tell: if the blocks are read, the count printed never exceeds the number of values, and it is this
number exactly if no read failed; so a count that differs from the number found by the full scan shows that something is wrong. -/
theorem C78_detect {blocks : List Block} (hne : ∀ b ∈ blocks, (b.1.zip b.2) ≠ []) {aggregating scanning : Nat → Bool} {rep : LoadTest.ReportIO}
    (h : Printed blocks true aggregating scanning rep) :
    rep.result.count ≤ (valuesOf blocks).length ∧
    (rep.result.count = (valuesOf blocks).length ↔ ∀ i < blocks.length, aggregating i = false) ∧
    (∀ n, rep.scanned = some n → n = Int64.ofNat (valuesOf blocks).length) := by
  obtain ⟨h1, h2⟩ := unfailed_length aggregating blocks hne
  rw [(h.skipped rfl).count]
  refine ⟨h1, h2, fun n hx => ?_⟩
  have := h.scan
  rw [hx] at this
  split at this
  · cases this
  · exact Option.some.inj this

/-! ### The filter example -/

theorem mem_loop {lo hi step x : Nat} (hs : 0 < step) (hle : lo ≤ hi) :
    x ∈ FilterExample.loop lo hi step ↔ lo ≤ x ∧ x ≤ hi ∧ (x - lo) % step = 0 := by
  unfold FilterExample.loop
  simp only [List.mem_map, List.mem_range]
  constructor
  · rintro ⟨k, hk, rfl⟩
    have h1 : k * step ≤ (hi - lo) / step * step := Nat.mul_le_mul_right _ (by omega)
    have h2 := Nat.div_mul_le_self (hi - lo) step
    refine ⟨by omega, by omega, ?_⟩
    rw [Nat.add_sub_cancel_left, Nat.mul_mod_left]
  · rintro ⟨h1, h2, h3⟩
    refine ⟨(x - lo) / step, ?_, ?_⟩
    · have := Nat.div_le_div_right (c := step) (show x - lo ≤ hi - lo by omega)
      omega
    · rw [Nat.div_mul_cancel (Nat.dvd_of_mod_eq_zero h3)]
      omega

theorem selected_keep (allow deny : Option (List Nat)) (ha : FilterExample.Small allow) (hd : FilterExample.Small deny)
    (keep : Nat → Bool) (blocks : List Block)
    (hk : ∀ n : Nat, n < 2 ^ 64 → ((allow.all fun f => f.contains n) && (deny.all fun d => !d.contains n)) = keep n) :
    selectedValues (allow.map (FilterExample.bitmapWith (B := B))) (deny.map (FilterExample.bitmapWith (B := B))) blocks = valuesWith keep blocks := by
  unfold selectedValues valuesWith
  congr 1
  refine List.filter_congr fun p _ => ?_
  have hp : p.1 = UInt64.ofNat p.1.toNat := by simp
  have hlt : p.1.toNat < 2 ^ 64 := UInt64.toNat_lt p.1
  rw [← hk _ hlt]
  have h1 : ∀ f, allow = some f → Bitmap.contains (FilterExample.bitmapWith f : B) p.1 = f.contains p.1.toNat := fun f hf => by
    conv => lhs; rw [hp]
    exact FilterExample.contains_nat (ha f hf) hlt
  have h2 : ∀ f, deny = some f → Bitmap.contains (FilterExample.bitmapWith f : B) p.1 = f.contains p.1.toNat := fun f hf => by
    conv => lhs; rw [hp]
    exact FilterExample.contains_nat (hd f hf) hlt
  cases allow <;> cases deny <;> simp_all

theorem sample_blocks : FilterExample.sample = exampleBlocks := by
  have h : ∀ first, List.range' first 100 = (List.range 100).map fun i => i + first := by
    intro first
    rw [List.range'_eq_map_range]
    exact List.map_congr_left fun i _ => Nat.add_comm _ _
  unfold FilterExample.sample exampleBlocks exampleBlock FilterExample.blockIDs FilterExample.blockValues
  simp only [h, List.map_map]
  rfl

theorem keep2 (n : Nat) : (([10, 20, 30, 110, 120, 130, 210, 220, 230] : List Nat).contains n && true) = listed n := by
  rw [Bool.and_true]; rfl

theorem keep3 (n : Nat) : (!(FilterExample.loop 1 100 1).contains n) = notFirst n := by
  unfold notFirst
  congr 1
  rw [Bool.eq_iff_iff, List.contains_iff_mem, mem_loop (by decide) (by decide)]
  simp only [Bool.and_eq_true, decide_eq_true_eq]
  omega

theorem keep4 (n : Nat) : ((FilterExample.loop 1 200 1).contains n && !(FilterExample.loop 2 200 2).contains n) = oddTo200 n := by
  unfold oddTo200
  rw [Bool.eq_iff_iff]
  simp only [Bool.and_eq_true, Bool.not_eq_true', decide_eq_true_eq, beq_iff_eq]
  rw [← Bool.not_eq_true, List.contains_iff_mem, List.contains_iff_mem, mem_loop (by decide) (by decide), mem_loop (by decide) (by decide)]
  omega

theorem keep5 (n : Nat) : ((FilterExample.loop 50 75 1 ++ FilterExample.loop 150 175 1 ++ FilterExample.loop 250 275 1).contains n &&
    !(FilterExample.loop 5 300 5).contains n) = inRanges n := by
  unfold inRanges
  rw [Bool.eq_iff_iff]
  simp only [Bool.and_eq_true, Bool.or_eq_true, Bool.not_eq_true', decide_eq_true_eq, bne_iff_ne, ne_eq]
  rw [← Bool.not_eq_true, List.contains_iff_mem, List.contains_iff_mem, List.mem_append, List.mem_append, mem_loop (by decide) (by decide),
    mem_loop (by decide) (by decide), mem_loop (by decide) (by decide), mem_loop (by decide) (by decide)]
  omega

/-- The output of the filter example with these results. -/
def layout (fmtAvg : Avg → Bytes) (name : Bytes) (r1 r2 r3 r4 r5 : AggregateResult) : Bytes :=
  Cli.str "Creating column file at: " ++ name ++ Cli.str "\n" ++
  Cli.str "\n=== Example 1: No filters ===\n" ++ FilterExample.printResult fmtAvg "No filters" r1 ++
  Cli.str "\n=== Example 2: Only allow filter ===\n" ++ FilterExample.printResult fmtAvg "Allow specific IDs" r2 ++
  Cli.str "\n=== Example 3: Only deny filter ===\n" ++ FilterExample.printResult fmtAvg "Deny first block" r3 ++
  Cli.str "\n=== Example 4: Both allow and deny filters ===\n" ++ FilterExample.printResult fmtAvg "Allow IDs 1-200, deny even IDs" r4 ++
  Cli.str "\n=== Example 5: Complex filtering scenario ===\n" ++
    FilterExample.printResult fmtAvg "Allow specific ranges, deny IDs divisible by 5" r5

/-- **C78.** The filter example, whatever fails: it stops with an error, or prints five results, of which the first is exact, and each of the
others the exact aggregate of the selected values in the blocks whose read did not fail. An error occurs only if creating the file or
opening it failed. -/
theorem C78_filtered (env : Env) (opening : Nat → Bool) (reading : Nat → UInt64 → Bool) (sched : Sched) (hs : sched.Fair)
    (fmtAvg : Avg → Bytes) (name : Bytes)
    (hbm : ∀ L : List UInt64, L.length ≤ 300 → (Bitmap.toBuffer (L.foldl Bitmap.set (Bitmap.empty : B))).length < 2 ^ 32) :
    ((∃ e, FilterExample.mainIO (B := B) env opening reading sched fmtAvg name = .err e) ∧ (¬ env.NoFault ∨ ∃ n, opening n = true)) ∨
    ∃ r1 r2 r3 r4 r5, FilterExample.mainIO (B := B) env opening reading sched fmtAvg name = .ok (layout fmtAvg name r1 r2 r3 r4 r5) ∧
      IsAggregate r1 (valuesOf exampleBlocks) ∧
      IsAggregate r2 (valuesWith listed (unfailed (fun i => reading 2 (UInt64.ofNat i)) exampleBlocks)) ∧
      IsAggregate r3 (valuesWith notFirst (unfailed (fun i => reading 3 (UInt64.ofNat i)) exampleBlocks)) ∧
      IsAggregate r4 (valuesWith oddTo200 (unfailed (fun i => reading 4 (UInt64.ofNat i)) exampleBlocks)) ∧
      IsAggregate r5 (valuesWith inRanges (unfailed (fun i => reading 5 (UInt64.ofNat i)) exampleBlocks)) := by
  unfold FilterExample.mainIO
  cases hc : FilterExample.createSampleData (B := B) env with
  | error e =>
    refine .inl ⟨⟨e, rfl⟩, .inl fun hnf => ?_⟩
    obtain ⟨w, hw⟩ := FilterExample.created_noFault (B := B) hnf
    rw [hc] at hw
    cases hw
  | ok w =>
    dsimp only
    have hf := FilterExample.created hc hbm
    obtain ⟨_, _, _, _, hcon⟩ := hf.contents (.inl rfl)
    have hr := hcon.newReader (by decide)
    generalize okReader w.file.bytes _ _ _ = r at hr
    have H := hf.reads (.inl rfl) (by decide) r hr
    rw [FilterExample.sample_acked, sample_blocks] at H
    rcases C52_open (B := B) opening w.file.bytes with ho | ⟨hfail, ho⟩
    · right
      rw [ho, hr]
      obtain ⟨a1, h1, g1⟩ := C13_general hf (.inl rfl) (by decide) r hr sched hs {}
        (.inr (.inr (.inr FilterExample.sample_representable)))
      rw [FilterExample.sample_acked, sample_blocks] at g1
      obtain ⟨a2, h2, g2⟩ := H.unfailed_aggregate (reading 2) sched hs
        { filter := some (FilterExample.bitmapWith [10, 20, 30, 110, 120, 130, 210, 220, 230]) } (.inl rfl)
      obtain ⟨a3, h3, g3⟩ := H.unfailed_aggregate (reading 3) sched hs
        { denyFilter := some (FilterExample.bitmapWith (FilterExample.loop 1 100 1)) } (.inr (.inl rfl))
      obtain ⟨a4, h4, g4⟩ := H.unfailed_aggregate (reading 4) sched hs
        { filter := some (FilterExample.bitmapWith (FilterExample.loop 1 200 1)),
          denyFilter := some (FilterExample.bitmapWith (FilterExample.loop 2 200 2)) } (.inl rfl)
      obtain ⟨a5, h5, g5⟩ := H.unfailed_aggregate (reading 5) sched hs
        { filter := some (FilterExample.bitmapWith (FilterExample.loop 50 75 1 ++ FilterExample.loop 150 175 1 ++ FilterExample.loop 250 275 1)),
          denyFilter := some (FilterExample.bitmapWith (FilterExample.loop 5 300 5)), skipPreCalculated := true } (.inl rfl)
      refine ⟨a1, a2, a3, a4, a5, ?_, ?_, ?_, ?_, ?_, ?_⟩
      · simp only [Res.ok_bind]
        rw [aggregateIO_default, show aggregate sched r = _ from h1]
        simp only [Res.ok_bind]
        rw [h2]
        simp only [Res.ok_bind]
        rw [h3]
        simp only [Res.ok_bind]
        rw [h4]
        simp only [Res.ok_bind]
        rw [h5]
        rfl
      · rw [selectedValues_none'] at g1
        exact g1
      · have := selected_keep (B := B) (some [10, 20, 30, 110, 120, 130, 210, 220, 230]) none (FilterExample.small_some (by decide))
          FilterExample.small_none listed (unfailed (fun i => reading 2 (UInt64.ofNat i)) exampleBlocks) fun n _ => keep2 n
        rw [← this]
        exact g2
      · have := selected_keep (B := B) none (some (FilterExample.loop 1 100 1)) FilterExample.small_none
          (FilterExample.small_some (FilterExample.small_loop (by decide))) notFirst
          (unfailed (fun i => reading 3 (UInt64.ofNat i)) exampleBlocks) fun n _ => keep3 n
        rw [← this]
        exact g3
      · have := selected_keep (B := B) (some (FilterExample.loop 1 200 1)) (some (FilterExample.loop 2 200 2))
          (FilterExample.small_some (FilterExample.small_loop (by decide)))
          (FilterExample.small_some (FilterExample.small_loop (by decide))) oddTo200
          (unfailed (fun i => reading 4 (UInt64.ofNat i)) exampleBlocks) fun n _ => keep4 n
        rw [← this]
        exact g4
      · have := selected_keep (B := B)
          (some (FilterExample.loop 50 75 1 ++ FilterExample.loop 150 175 1 ++ FilterExample.loop 250 275 1)) (some (FilterExample.loop 5 300 5))
          (FilterExample.small_some (FilterExample.small_append (FilterExample.small_append (FilterExample.small_loop (by decide))
            (FilterExample.small_loop (by decide))) (FilterExample.small_loop (by decide))))
          (FilterExample.small_some (FilterExample.small_loop (by decide))) inRanges
          (unfailed (fun i => reading 5 (UInt64.ofNat i)) exampleBlocks) fun n _ => keep5 n
        rw [← this]
        exact g5
    · rw [ho]
      exact .inl ⟨⟨.io, rfl⟩, .inr hfail⟩

end Lawful

theorem layout_differs (fmtAvg : Avg → Bytes) (name : Bytes) (r1 r2 r3 r4 r5 s2 s3 s4 s5 : AggregateResult) (h0 : r2.count = 0)
    (h9 : s2.count = 9) : layout fmtAvg name r1 r2 r3 r4 r5 ≠ layout fmtAvg name r1 s2 s3 s4 s5 := by
  intro h
  unfold layout at h
  simp only [List.append_assoc] at h
  have h := List.append_cancel_left (List.append_cancel_left (List.append_cancel_left (List.append_cancel_left (List.append_cancel_left
    (List.append_cancel_left h)))))
  unfold FilterExample.printResult at h
  simp only [List.append_assoc] at h
  have h := List.append_cancel_left (List.append_cancel_left (List.append_cancel_left h))
  rw [h0, h9] at h
  have e0 : Cli.fmtNat 0 = [48] := by simp [Cli.fmtNat]
  have e9 : Cli.fmtNat 9 = [57] := by simp [Cli.fmtNat]
  rw [e0, e9] at h
  simp at h

/-- **C78, the silent case.** With the bitmaps modelled as sets, and nothing failing but the reads of one aggregation, the filter example
ends with status 0 and prints a wrong text. -/
theorem C78_filtered_refuted (fmtAvg : Avg → Bytes) (name : Bytes) :
    ∃ right wrong, FilterExample.mainIO (B := IdSet) quietEnv (fun _ => false) (fun _ _ => false) inOrder fmtAvg name = .ok right ∧
      FilterExample.mainIO (B := IdSet) quietEnv (fun _ => false) (fun k _ => k == 2) inOrder fmtAvg name = .ok wrong ∧ wrong ≠ right := by
  have key : ∀ reading, ∃ r1 r2 r3 r4 r5, FilterExample.mainIO (B := IdSet) quietEnv (fun _ => false) reading inOrder fmtAvg name =
      .ok (layout fmtAvg name r1 r2 r3 r4 r5) ∧ IsAggregate r1 (valuesOf exampleBlocks) ∧
      IsAggregate r2 (valuesWith listed (unfailed (fun i => reading 2 (UInt64.ofNat i)) exampleBlocks)) := by
    intro reading
    rcases C78_filtered (B := IdSet) quietEnv (fun _ => false) reading inOrder inOrder_fair fmtAvg name
      (fun L hL => Cli.idSet_small L (by omega)) with ⟨_, h | ⟨n, h⟩⟩ | ⟨r1, r2, r3, r4, r5, h, g1, g2, _⟩
    · exact absurd quietEnv_noFault h
    · cases h
    · exact ⟨r1, r2, r3, r4, r5, h, g1, g2⟩
  obtain ⟨s1, s2, s3, s4, s5, h1, g1, g2⟩ := key fun _ _ => false
  obtain ⟨r1, r2, r3, r4, r5, h2, k1, k2⟩ := key fun k _ => k == 2
  rw [unfailed_none exampleBlocks _ (fun _ _ => rfl)] at g2
  rw [unfailed_all exampleBlocks (fun _ => 2 == 2) (fun _ _ => rfl)] at k2
  have e1 : r1 = s1 := k1.unique g1 (by decide +kernel)
  subst e1
  refine ⟨_, _, h1, h2, layout_differs fmtAvg name r1 r2 r3 r4 r5 s2 s3 s4 s5 (by rw [k2.count]; rfl) ?_⟩
  rw [g2.count]
  decide +kernel

/-- **C78, the silent case.** `loadtest aggregate` with its default settings ends with status 0 and prints a wrong count when the read of a
block fails during the aggregation. -/
theorem C78_loadtest_refuted : ∃ file rep, Finalized IdSet quietEnv exampleOpts exampleLog file ∧ LoadTest.runAggregateIO (B := IdSet) (fun _ => false) (fun i => i == 0) (fun _ => false) inOrder
      file true 0 = .ok rep ∧ rep.result.count < (valuesOf (acked exampleLog)).length ∧
      rep.scanned = some (Int64.ofNat (valuesOf (acked exampleLog)).length) := by
  obtain ⟨file, hfin⟩ := example_finalized
  rcases C78_loadtest hfin (by unfold SymEnc; decide) (by decide) (fun _ => false) (fun i => i == 0) (fun _ => false) inOrder inOrder_fair true 0
    (.inl rfl) with ⟨⟨n, h⟩, _⟩ | ⟨rep, h1, h2⟩
  · cases h
  obtain ⟨h3, h4, _⟩ := C78_detect (by decide) h2
  refine ⟨file, rep, hfin, h1, Nat.lt_of_le_of_ne h3 fun hc => ?_, ?_⟩
  · have := h4.1 hc 0 (by decide)
    cases this
  · rw [h2.scan]
    rfl

end VibeCol.ProgramsIO
