/-
C91: a power failure while `vibecol write` runs, or after it ended.
-/
import Verif.Props.Killed
import Verif.Props.Power
import Verif.Props.Closing
namespace VibeCol.PowerCut
set_option linter.unusedSectionVars false
open VibeCol.Cmd VibeCol.Cli
variable {B : Type} [Bitmap B] [LawfulBitmap B]

/-- `fs'` is what a power failure after the end of a `vibecol write` command may leave of the files `fs`: the file it
wrote is any that may remain, the others are as they were. The creation or truncation of the file is taken to have reached the
disk (`os.Create` syncs nothing, and directories are not modelled). -/
inductive AfterPower (B : Type) [Bitmap B] (w : World) (fs : Files) (args : List Bytes) : Files → Prop where
  | mk {o a b f : Bytes} {wr : Writer B} (asks : AsksWrite args o a b) (creatable : w.creatable o = true)
      (output : (runWrite w.env o a b : WriteRun B).output = some wr) (remains : MayRemain wr.disk f) : AfterPower B w fs args (fs.put o f)

/-- The same when the power fails before the command creates its file, or at file operation number `n`, the `k`-th byte of
that write being the last to reach the file cache. -/
inductive PowerLeft (B : Type) [Bitmap B] (w : World) (fs : Files) (args : List Bytes) : Files → Prop where
  | before : PowerLeft B w fs args fs
  | during (n k : Nat) {fs' : Files} (h : AfterPower B { w with env := w.env.crashAt n k } fs args fs') : PowerLeft B w fs args fs'

omit [LawfulBitmap B] in
theorem fclose_disk (env : Env) (w : Writer B) : (fclose env w).2.disk = w.disk := (Closing.fclose_facts env w).2.2.1

omit [LawfulBitmap B] in
theorem finalizeAndClose_disk (env : Env) (w : Writer B) : (finalizeAndClose env w).2.disk = (finalize env w).2.disk := by
  unfold finalizeAndClose
  rw [WM.bind_def]
  rcases finalize env w with ⟨r, we⟩
  cases r with
  | error e => rfl
  | ok u => exact fclose_disk _ _

theorem run_output {env : Env} {name a b text : Bytes} {wr : Writer B} (h : (runWrite env name a b : WriteRun B) = ⟨.ok text, some wr⟩) :
    ∃ w1 w2 : Writer B, finalize env w1 = (.ok (), w2) ∧ wr.file = w2.file ∧ wr.disk = w2.disk := by
  obtain ⟨ids, vals, _, _, hm, _⟩ := C50_success h
  rw [runWrite_means hm] at h
  rcases h0 : newWriter (B := B) [] env with ⟨r0, w0⟩
  rw [h0] at h
  cases r0 with
  | error e => cases h
  | ok u =>
  dsimp only at h
  rcases h1 : writeBlock ids vals env w0 with ⟨r1, w1⟩
  rw [h1] at h
  cases r1 with
  | error e => cases h
  | ok u =>
  dsimp only at h
  have hd := finalizeAndClose_disk env w1
  rcases finalizeAndClose_spec env w1 with ⟨e, w', h3, h4⟩ | ⟨w', h3, h4, h5, h6⟩
  · rw [h4] at h; cases h
  · refine ⟨w1, w', h3, ?_⟩
    rw [h3] at hd
    rw [← h5]
    rcases hfc : finalizeAndClose env w1 with ⟨r, w''⟩
    rw [hfc] at h hd
    cases r with
    | error e => cases h
    | ok u => injection h with _ e2; injection e2 with e2; rw [← e2]; exact ⟨rfl, hd⟩

/-- **C91.** After `vibecol write` ended with status 0 - under any faults - a power failure leaves exactly the files it made. -/
theorem C91_durable {usage : Bytes} {w : World} {fs : Files} {args : List Bytes} {o a b : Bytes} (h : AsksWrite args o a b)
    (hs : (main B usage w fs args).stop = .success) {fs' : Files} (hk : AfterPower B w fs args fs') :
    fs' = (main B usage w fs args).files := by
  obtain ⟨h', hc, hout, hr⟩ := hk
  obtain ⟨rfl, rfl, rfl⟩ := asksWrite_unique h' h
  rename_i f wr
  rw [main_write h'] at hs ⊢
  split at hs
  · cases hs
  · rename_i hne
    rw [if_neg hne, Killed.write_files hout (by simp [hc])]
    unfold write at hs
    dsimp only at hs
    rcases hrun : (runWrite w.env _ _ _ : WriteRun B) with ⟨ex, out⟩
    rw [hrun] at hs hout
    dsimp only at hs hout
    subst hout
    dsimp only at hs
    rw [if_neg (by simp [hc])] at hs
    cases ex with
    | error e => cases hs
    | ok text =>
      obtain ⟨w1, w2, h2, hf, hd⟩ := run_output hrun
      rw [hd] at hr
      rw [(C45_finalize h2 f).1 hr, hf]

/-- What remains if the power fails while `vibecol write` writes. -/
theorem power_write {env : Env} (hq : env.NoFault) {name a b : Bytes} {ids : List UInt64} {vals : List Int64} (hm : Means a b ids vals)
    {w0 w1 : Writer B} (h0 : newWriter (B := B) [] env = (.ok (), w0)) (h1 : writeBlock ids vals env w0 = (.ok (), w1)) (n k : Nat)
    {wr : Writer B} (hout : (runWrite (env.crashAt n k) name a b : WriteRun B).output = some wr) {f : Bytes} (hf : MayRemain wr.disk f) :
    f.length ≤ w1.file.bytes.length ∨ MayRemain (finalize (env.crashAt n k) w1).2.disk f := by
  rw [runWrite_means hm] at hout
  have hgrow : w0.file.bytes.length ≤ w1.file.bytes.length := by
    have := (Crashable.writeBlock (B := B) ids vals).grow env w0
    rwa [h1] at this
  have hdn := SimpleCrash.newWriter_diskIn (B := B) (env.crashAt n k) []
  have hcr0 := fun (h : n < w0.opNo) => (Crashable.writeHeader (B := B)).crash env (startWriter []) n k
    (by rw [startWriter_eq]; exact Nat.zero_le _) (by change n < (newWriter (B := B) [] env).2.opNo; rw [h0]; exact h) hq
  have hag0 := fun (h : w0.opNo ≤ n) => newWriter_agree (B := B) env [] n k (by rw [h0]; exact h)
  change n < w0.opNo → (newWriter (B := B) [] (env.crashAt n k)).2.file.bytes.length ≤ (newWriter (B := B) [] env).2.file.bytes.length ∧
    n < (newWriter (B := B) [] (env.crashAt n k)).2.opNo at hcr0
  rw [h0] at hcr0
  rcases hnew : newWriter (B := B) [] (env.crashAt n k) with ⟨r, wc⟩
  rw [hnew] at hcr0 hag0 hdn hout
  dsimp only at hcr0 hdn
  cases r with
  | error e =>
    injection hout with hout
    subst hout
    by_cases hn0 : n < w0.opNo
    · exact .inl (Nat.le_trans (hdn.remains hf) (Nat.le_trans (hcr0 hn0).1 hgrow))
    · have := hag0 (Nat.le_of_not_lt hn0)
      rw [h0] at this
      cases this
  | ok u =>
    dsimp only at hout
    by_cases hn1 : n < w1.opNo
    · left
      have hdw := (Crashable.writeBlock (B := B) ids vals).disk (env.crashAt n k) wc hdn
      have hL : (writeBlock ids vals (env.crashAt n k) wc).2.file.bytes.length ≤ w1.file.bytes.length ∧
          Dead (env.crashAt n k) (writeBlock ids vals (env.crashAt n k) wc).2 := by
        by_cases hn0 : n < w0.opNo
        · have hd := dead_crashAt env n k wc (hcr0 hn0).2
          exact ⟨by rw [(Crashable.writeBlock (B := B) ids vals).dead _ _ hd]; exact Nat.le_trans (hcr0 hn0).1 hgrow,
            dead_mono hd ((Crashable.writeBlock (B := B) ids vals).count _ _)⟩
        · have hwc : wc = w0 := by
            have := hag0 (Nat.le_of_not_lt hn0)
            rw [h0] at this
            exact (Prod.mk.inj this).2
          subst hwc
          have := (Crashable.writeBlock (B := B) ids vals).crash env wc n k (Nat.le_of_not_lt hn0) (by rw [h1]; exact hn1) hq
          rw [h1] at this
          exact ⟨this.1, dead_crashAt env n k _ this.2⟩
      rcases hwb : writeBlock ids vals (env.crashAt n k) wc with ⟨r, wd⟩
      rw [hwb] at hdw hL hout
      dsimp only at hdw hL
      cases r with
      | error e =>
        injection hout with hout
        rw [← hout, fclose_disk] at hf
        exact Nat.le_trans (hdw.remains hf) hL.1
      | ok u =>
        dsimp only at hout
        have hx : wr = (finalizeAndClose (env.crashAt n k) wd).2 := by
          rcases hfc : finalizeAndClose (env.crashAt n k) wd with ⟨r, we⟩
          rw [hfc] at hout
          cases r <;> (injection hout with hout; exact hout.symm)
        rw [hx, finalizeAndClose_disk] at hf
        have := ((Crashable.finalize (B := B)).disk _ _ hdw).remains hf
        rw [(Crashable.finalize (B := B)).dead _ _ hL.2] at this
        exact Nat.le_trans this hL.1
    · right
      have hle : w0.opNo ≤ w1.opNo := by
        have := (Crashable.writeBlock (B := B) ids vals).count env w0
        rwa [h1] at this
      have hwc : wc = w0 := by
        have := hag0 (by omega)
        rw [h0] at this
        exact (Prod.mk.inj this).2
      subst hwc
      have hwb := (Crashable.writeBlock (B := B) ids vals).agree_crashAt env wc n k (by rw [h1]; exact Nat.le_of_not_lt hn1)
      rw [h1] at hwb
      rw [hwb] at hout
      dsimp only at hout
      have hx : wr = (finalizeAndClose (env.crashAt n k) w1).2 := by
        rcases hfc : finalizeAndClose (env.crashAt n k) w1 with ⟨r, we⟩
        rw [hfc] at hout
        cases r <;> (injection hout with hout; exact hout.symm)
      rw [hx, finalizeAndClose_disk] at hf
      exact hf

/-- A reader for a file with the given contents prints them. -/
theorem newReader_version {f : Bytes} {r : Reader B} (h : newReader f = .ok r) : r.version = 1 := by
  unfold newReader at h
  obtain ⟨hd, h1, h⟩ := Res.bind_ok h
  obtain ⟨x, h2, h⟩ := Res.bind_ok h
  obtain ⟨hd', fm, bi⟩ := x
  have hv : hd.version = 1 := by
    unfold readHeader at h1
    obtain ⟨buf, hb, h1⟩ := Res.bind_ok h1
    dsimp only at h1
    split at h1
    · cases h1
    split at h1
    · cases h1
    · rename_i hv
      cases h1
      exact Decidable.not_not.1 hv
  have hv' : hd'.version = hd.version := by
    unfold readFooter at h2
    dsimp only at h2
    split at h2
    · cases h2
    obtain ⟨b1, _, h2⟩ := Res.bind_ok h2
    split at h2
    · cases h2
    split at h2
    · cases h2
    obtain ⟨b2, _, h2⟩ := Res.bind_ok h2
    obtain ⟨b3, _, h2⟩ := Res.bind_ok h2
    cases h2
    split
    · split <;> rfl
    · rfl
  cases h
  show hd'.version = 1
  rw [hv', hv]

theorem read_blocks {f : Bytes} {blocks : List Block} (h : ReadsBack B f blocks) (hn : blocks.length < 2 ^ 32)
    (hl : ∀ b ∈ blocks, b.1.length = b.2.length) (fmtAvg : Avg → Bytes) (usage name : Bytes) (sched : Sched) :
    ∃ text, runRead (B := B) fmtAvg usage sched name f true false = (text, none) ∧ ReadText fmtAvg usage name blocks true false text := by
  obtain ⟨r, hr, hcnt, hget⟩ := h.opens
  obtain ⟨lines, hd1, hd2⟩ := dumpLoop_spec r blocks 0 (by omega) hl (fun i hi => by rw [Nat.zero_add]; exact hget i hi)
  have hfuel : r.blockCount.toUInt32.toNat = blocks.length := by
    rw [UInt64.toNat_toUInt32, hcnt, Nat.mod_eq_of_lt hn]
  have hd1 : dumpLoop r r.blockCount.toUInt32.toNat 0 = (lines.flatten, none) := by rw [hfuel]; exact hd1
  unfold runRead
  rw [hr]
  dsimp only
  rw [hd1]
  dsimp only
  refine ⟨str "File: " ++ name ++ str "\nVersion: " ++ fmtNat r.version.toNat ++ str "\nBlocks: " ++
    fmtNat r.blockCount.toNat ++ str "\n\n" ++ (str "ID\tValue\n--\t-----\n" ++ lines.flatten ++ str "\n"), ?_,
    ⟨fmtNat r.version.toNat, fmtNat r.blockCount.toNat, _, _, lines, ?_, ?_, hd2, rfl, ⟨_, _, _, _, _, accOf_isAggregate _,
        (fmtNat_decimal _).1, fmtInt_decimal _, fmtInt_decimal _, fmtInt_decimal _, rfl⟩, ?_⟩⟩
  rotate_left
  · rw [newReader_version hr]; exact (fmtNat_decimal 1).1
  · rw [hcnt]; exact (fmtNat_decimal _).1
  · simp
  · have e1 : str "\nVersion: " = str "\n" ++ str "Version: " := by rw [← str_append]; rfl
    have e2 : str "\nBlocks: " = str "\n" ++ str "Blocks: " := by rw [← str_append]; rfl
    have e3 : str "ID\tValue\n--\t-----\n" = str "ID\tValue\n" ++ str "--\t-----\n" := by rw [← str_append]; rfl
    rw [e1, e2, e3]
    simp [List.append_assoc]

/-- A `write` command that succeeds. -/
theorem succeeds {usage : Bytes} {w : World} {fs : Files} {args : List Bytes} {o a b : Bytes} (h : AsksWrite args o a b)
    (hq : w.env.NoFault) (hs : (main B usage w fs args).stop = .success)
    {ids : List UInt64} {vals : List Int64} (hm : Means a b ids vals) (hid : ids.length ≤ 2 ^ 27) {full : Bytes}
    (hfull : (main B usage w fs args).files o = some full) :
    ∃ w0 w1 w2 : Writer B, newWriter (B := B) [] w.env = (.ok (), w0) ∧ writeBlock ids vals w.env w0 = (.ok (), w1) ∧
      History B w.env [] [.write ids vals] [(.write ids vals, .ok ())] w1 ∧
      ReadyToFinalize B w.env [] [(.write ids vals, .ok ())] w1 ∧ finalize w.env w1 = (.ok (), w2) ∧ w2.file.bytes = full := by
  obtain ⟨w1, w2, hist, h2, h2f, _⟩ := Killed.write_during h hq hs hm hfull
  obtain ⟨w0, h0, hrun⟩ := hist.created
  have h1 : writeBlock ids vals w.env w0 = (.ok (), w1) := by
    simp only [runCalls, Call.run, Prod.mk.injEq, List.cons.injEq, and_true, true_and] at hrun
    exact Prod.ext hrun.1 hrun.2
  have hb : ∀ ev ∈ [((Call.write ids vals), (Except.ok () : Result))], ev.1.Bounded := by
    simpa [Call.Bounded] using hid
  have hno : NoIOError [((Call.write ids vals), (Except.ok () : Result))] := by
    intro ev hev
    rw [List.mem_singleton] at hev
    subst hev
    intro he; cases he
  exact ⟨w0, w1, w2, h0, h1, hist, ⟨⟨_, hist⟩, hno, hb, .inl rfl, by simp, by simp [acked, ackedBy], by simp [acked, ackedBy, maxBlocks]⟩, h2, h2f⟩

/-- A power failure changes only the file that `write` was asked to write. -/
theorem left_others {w : World} {fs : Files} {args : List Bytes} {o a b : Bytes} (h : AsksWrite args o a b)
    {fs' : Files} (hk : PowerLeft B w fs args fs') : ∀ name, name ≠ o → fs' name = fs name := by
  cases hk with
  | before => exact fun _ _ => rfl
  | during n k hk =>
    obtain ⟨h', _, _, _⟩ := hk
    obtain ⟨rfl, _, _⟩ := asksWrite_unique h' h
    exact fun name hne => if_neg hne

theorem during_power {usage : Bytes} {w : World} {fs : Files} {args : List Bytes} {o a b : Bytes} (h : AsksWrite args o a b)
    (hq : w.env.NoFault) (hs : (main B usage w fs args).stop = .success)
    {ids : List UInt64} {vals : List Int64} (hm : Means a b ids vals) (hid : ids.length ≤ 2 ^ 27) {full : Bytes}
    (hfull : (main B usage w fs args).files o = some full) (hsz : full.length < 2 ^ 63)
    {fs' : Files} {n k : Nat} (hk : AfterPower B { w with env := w.env.crashAt n k } fs args fs') :
    ∃ f, fs' o = some f ∧ (f.length = full.length → f.drop (f.length - 84) = full.drop (full.length - 84) →
      ∀ (w' : World) (rargs : List Bytes), AsksRead rargs o true false → w'.openable o = true →
        ∃ text, main B usage w' fs' rargs = ⟨text, .success, fs'⟩ ∧ ReadText printAvg usage o [(ids, vals)] true false text) := by
  obtain ⟨h', hc, hout, hr⟩ := hk
  obtain ⟨rfl, rfl, rfl⟩ := asksWrite_unique h' h
  rename_i f wr
  refine ⟨f, if_pos rfl, fun hlen htail w' rargs hr' hop => ?_⟩
  obtain ⟨w0, w1, w2, h0, h1, hist, H, h2, h2f⟩ := succeeds h hq hs hm hid hfull
  have hack : acked [((Call.write ids vals), (Except.ok () : Result))] = [(ids, vals)] := by
    simp [acked, ackedBy]
  have hlw : w1.file.bytes.length + 28 ≤ w2.file.bytes.length := by
    obtain ⟨blks, hi, hcl, _⟩ := history_clean hist (by simpa [Call.Bounded] using hid) H.symEnc H.noIOError
    obtain ⟨_, _, t, hs⟩ := wp_ok (finalize_spec w.env w1 hi.pos64 hi.posLe hi.near) h2
    have hl1 := phase1_length w1 hi.posLe
    have h4 : 4 ≤ (bitmapBytes w1).length := by simp [bitmapBytes]
    have h5 : 4 ≤ (footBytes w1).length := by simp [footBytes]
    rw [hs.file]; show _ ≤ (finalBytes t w1).length; rw [final_length hi t, hl1, hcl.atEnd]; omega
  have hback : ReadsBack B f [(ids, vals)] := by
    rcases power_write hq hm h0 h1 n k hout hr with hx | hx
    · exfalso
      rw [h2f] at hlw
      omega
    · rcases hfin : finalize (w.env.crashAt n k) w1 with ⟨r1, wf⟩
      rw [hfin] at hx
      have := C46_recovers H hfin h2 (by rw [h2f]; exact hsz) hx (by rw [h2f]; exact hlen) (by
        rw [hack, h2f]
        exact htail)
      rwa [hack] at this
  obtain ⟨text, ht1, ht2⟩ := read_blocks hback (by simp) (by simpa using hm.1) printAvg usage _ w'.sched
  refine ⟨text, ?_, ht2⟩
  rw [main_read hr']
  unfold Cmd.read
  rw [show fs.put _ f _ = some f from if_pos rfl]
  dsimp only
  rw [if_neg (by simp [hop]), ht1]

/-- **C91.** The power fails before or while a `vibecol write` command that would have succeeded writes its file. No other file is touched. If the output
file has then the length of the file the command would have made and ends with the same 84 bytes (the index of its one block, and the
footer), then every `read --dump` of it ends with status 0 and prints exactly the pairs of the command, in order - whatever
of the other writes arrived. -/
theorem C91_write {usage : Bytes} {w : World} {fs : Files} {args : List Bytes} {o a b : Bytes} (h : AsksWrite args o a b)
    (hq : w.env.NoFault) (hs : (main B usage w fs args).stop = .success)
    {ids : List UInt64} {vals : List Int64} (hm : Means a b ids vals) (hid : ids.length ≤ 2 ^ 27) {full : Bytes}
    (hfull : (main B usage w fs args).files o = some full) (hsz : full.length < 2 ^ 63)
    {fs' : Files} (hk : PowerLeft B w fs args fs') :
    (∀ name, name ≠ o → fs' name = fs name) ∧
    (fs' = fs ∨ ∃ f, fs' o = some f ∧ (f.length = full.length → f.drop (f.length - 84) = full.drop (full.length - 84) →
      ∀ (w' : World) (rargs : List Bytes), AsksRead rargs o true false → w'.openable o = true →
        ∃ text, main B usage w' fs' rargs = ⟨text, .success, fs'⟩ ∧ ReadText printAvg usage o [(ids, vals)] true false text)) := by
  refine ⟨left_others h hk, ?_⟩
  cases hk with
  | before => exact .inl rfl
  | during n k hk => exact .inr (during_power h hq hs hm hid hfull hsz hk)

/-- The power fails at the last operation of `Finalize`. -/
theorem last_op {env : Env} {name a b : Bytes} {ids : List UInt64} {vals : List Int64} (hm : Means a b ids vals) {w0 w1 w2 wf : Writer B}
    (h0 : newWriter (B := B) [] env = (.ok (), w0)) (h1 : writeBlock ids vals env w0 = (.ok (), w1)) (h2 : finalize env w1 = (.ok (), w2))
    (hfin : finalize (env.crashAt (w2.opNo - 1) 0) w1 = (.error .io, wf)) :
    (runWrite (env.crashAt (w2.opNo - 1) 0) name a b : WriteRun B).output = some wf := by
  have hlt := (EndsInSync.finalize env w1 w2 h2).1
  have hle : w0.opNo ≤ w1.opNo := by
    have := (Crashable.writeBlock (B := B) ids vals).count env w0
    rwa [h1] at this
  have hnew := newWriter_agree (B := B) env [] (w2.opNo - 1) 0 (by rw [h0]; show w0.opNo ≤ _; omega)
  have hwb := (Crashable.writeBlock (B := B) ids vals).agree_crashAt env w0 (w2.opNo - 1) 0 (by rw [h1]; show w1.opNo ≤ _; omega)
  rw [h0] at hnew
  rw [h1] at hwb
  have hfc : finalizeAndClose (env.crashAt (w2.opNo - 1) 0) w1 = (.error .io, wf) := by
    unfold finalizeAndClose
    rw [WM.bind_def, hfin]
  rw [runWrite_means hm, hnew]
  dsimp only
  rw [hwb]
  dsimp only
  rw [hfc]

/-- **C91, what is not guaranteed.** For every `write` command that would have succeeded there is a moment - its last file operation - such
that a power failure then may leave a file for which `read --dump` ends with status 0 and prints that there are no pairs. -/
theorem C91_refuted {usage : Bytes} {w : World} {fs : Files} {args : List Bytes} {o a b : Bytes} (h : AsksWrite args o a b)
    (hc : w.creatable o = true) (hq : w.env.NoFault) (hs : (main B usage w fs args).stop = .success)
    {ids : List UInt64} {vals : List Int64} (hm : Means a b ids vals) (hid : ids.length ≤ 2 ^ 27) {full : Bytes}
    (hfull : (main B usage w fs args).files o = some full) (hsz : full.length < 2 ^ 63) :
    ∃ fs', PowerLeft B w fs args fs' ∧ ∀ (w' : World) (rargs : List Bytes), AsksRead rargs o true false → w'.openable o = true →
      ∃ text, main B usage w' fs' rargs = ⟨text, .success, fs'⟩ ∧ ReadText printAvg usage o [] true false text := by
  obtain ⟨w0, w1, w2, h0, h1, hist, H, h2, h2f⟩ := succeeds h hq hs hm hid hfull
  obtain ⟨wf, f, hfin, hrem, hback⟩ := refuted_empty_at H h2 (by rw [h2f]; exact hsz)
  have hout := last_op (name := o) hm h0 h1 h2 hfin
  refine ⟨fs.put o f, .during (w2.opNo - 1) 0 (.mk h hc hout hrem), fun w' rargs hr' hop => ?_⟩
  obtain ⟨text, ht1, ht2⟩ := read_blocks hback (by simp) (by simp) printAvg usage o w'.sched
  refine ⟨text, ?_, ht2⟩
  rw [main_read hr']
  unfold Cmd.read
  rw [show fs.put o f o = some f from if_pos rfl]
  dsimp only
  rw [if_neg (by simp [hop]), ht1]

/-- A file that meets the conditions of `C91_write` may be left by a power failure: the complete one. -/
theorem may_be_complete {usage : Bytes} {w : World} {fs : Files} {args : List Bytes} {o a b : Bytes} (h : AsksWrite args o a b)
    (hc : w.creatable o = true) (hq : w.env.NoFault) (hs : (main B usage w fs args).stop = .success)
    {ids : List UInt64} {vals : List Int64} (hm : Means a b ids vals) (hid : ids.length ≤ 2 ^ 27) {full : Bytes}
    (hfull : (main B usage w fs args).files o = some full) :
    ∃ n k, AfterPower B { w with env := w.env.crashAt n k } fs args (fs.put o full) := by
  obtain ⟨w0, w1, w2, h0, h1, hist, H, h2, h2f⟩ := succeeds h hq hs hm hid hfull
  obtain ⟨blks, t0, hi, _, _, _, hsy, _⟩ := H.facts
  obtain ⟨wf, hfin, _, _, hrem⟩ := sync_crash_at h2 hsy hi.pos64 hi.posLe
  rw [h2f] at hrem
  exact ⟨w2.opNo - 1, 0, .mk h hc (last_op hm h0 h1 h2 hfin) hrem⟩

/-- Non-vacuity of C91: the command of the README. After a power failure it may be complete, and it may be empty. -/
theorem C91_writeExample (usage : Bytes) (fs : Files) :
    ∃ fs1 fs2, PowerLeft IdSet Cmd.quietWorld fs [str "write", str "-o", str "output.col", str "-ids", str "1,2,3", str "-values", str "100,200,300"] fs1 ∧
      PowerLeft IdSet Cmd.quietWorld fs [str "write", str "-o", str "output.col", str "-ids", str "1,2,3", str "-values", str "100,200,300"] fs2 ∧
      ∀ (w' : World) (rargs : List Bytes), AsksRead rargs (str "output.col") true false → w'.openable (str "output.col") = true →
        (∃ text, main IdSet usage w' fs1 rargs = ⟨text, .success, fs1⟩ ∧
          ReadText printAvg usage (str "output.col") [([1, 2, 3], [100, 200, 300])] true false text) ∧
        (∃ text, main IdSet usage w' fs2 rargs = ⟨text, .success, fs2⟩ ∧ ReadText printAvg usage (str "output.col") [] true false text) := by
  have hm : Means (str "1,2,3") (str "100,200,300") [1, 2, 3] [100, 200, 300] := by
    rw [means_iff]
    decide +kernel
  obtain ⟨h1, h2⟩ := (C68_capacity (B := IdSet) (usage := usage) (w := Cmd.quietWorld) (fs := fs) C68_usageWrite.1 quietEnv_noFault rfl hm
    (by decide) idSet_small).1 (by decide) (by decide) (by decide)
  have hex : ∃ full, (main IdSet usage Cmd.quietWorld fs
      [str "write", str "-o", str "output.col", str "-ids", str "1,2,3", str "-values", str "100,200,300"]).files (str "output.col") = some full := by
    obtain ⟨wk, hout⟩ := Option.isSome_iff_exists.1 ((C50_arguments (B := IdSet) quietEnv (str "output.col") (str "1,2,3") (str "100,200,300")).1.2 ⟨_, _, hm⟩)
    rw [main_write C68_usageWrite.1, if_neg (by decide), Killed.write_files (w := Cmd.quietWorld) hout (by simp [Cmd.quietWorld])]
    exact ⟨_, if_pos rfl⟩
  obtain ⟨full, hf⟩ := hex
  have hsz := h2 _ hf
  obtain ⟨n, k, hk⟩ := may_be_complete C68_usageWrite.1 rfl quietEnv_noFault h1 hm (by decide) hf
  obtain ⟨fs2, hk2, hr2⟩ := C91_refuted C68_usageWrite.1 rfl quietEnv_noFault h1 hm (by decide) hf hsz
  obtain ⟨f, hf1, hx⟩ := during_power C68_usageWrite.1 quietEnv_noFault h1 hm (by decide) hf hsz hk
  rw [show fs.put (str "output.col") full (str "output.col") = some full from if_pos rfl] at hf1
  cases hf1
  exact ⟨_, fs2, .during n k hk, hk2, fun w' rargs hr hop => ⟨hx rfl rfl w' rargs hr hop, hr2 w' rargs hr hop⟩⟩

/-- Non-vacuity of `C91_durable`: every file that a power failure after the end of a successful command may leave, and there is one. -/
theorem C91_durableExample (usage : Bytes) (fs : Files) :
    (main IdSet usage Cmd.quietWorld fs [str "write", str "-o", str "output.col", str "-ids", str "1,2,3", str "-values", str "100,200,300"]).stop = .success ∧
    ∃ fs', AfterPower IdSet Cmd.quietWorld fs [str "write", str "-o", str "output.col", str "-ids", str "1,2,3", str "-values", str "100,200,300"] fs' := by
  have hm : Means (str "1,2,3") (str "100,200,300") [1, 2, 3] [100, 200, 300] := by
    rw [means_iff]
    decide +kernel
  obtain ⟨h1, h2⟩ := (C68_capacity (B := IdSet) (usage := usage) (w := Cmd.quietWorld) (fs := fs) C68_usageWrite.1 quietEnv_noFault rfl hm
    (by decide) idSet_small).1 (by decide) (by decide) (by decide)
  refine ⟨h1, ?_⟩
  obtain ⟨wk, hout⟩ := Option.isSome_iff_exists.1 ((C50_arguments (B := IdSet) quietEnv (str "output.col") (str "1,2,3") (str "100,200,300")).1.2 ⟨_, _, hm⟩)
  have hs := h1
  rw [main_write C68_usageWrite.1, if_neg (by decide)] at hs
  unfold write at hs
  dsimp only at hs
  rcases hrun : (runWrite Cmd.quietWorld.env (str "output.col") (str "1,2,3") (str "100,200,300") : WriteRun IdSet) with ⟨ex, out⟩
  have hout' := hout
  change (runWrite Cmd.quietWorld.env (str "output.col") (str "1,2,3") (str "100,200,300") : WriteRun IdSet).output = _ at hout'
  rw [hrun] at hs hout'
  dsimp only at hs hout'
  subst hout'
  dsimp only at hs
  rw [if_neg (by simp [Cmd.quietWorld])] at hs
  cases ex with
  | error e => cases hs
  | ok text =>
    obtain ⟨w1, w2, h2, hf, hd⟩ := run_output hrun
    exact ⟨_, .mk C68_usageWrite.1 rfl (by rw [hrun]) (by rw [hd]; exact (C45_finalize h2 _).2 rfl)⟩

section LoadTest
open VibeCol.LoadCmd VibeCol.LoadTest

/-- What a power failure after the end of a `loadtest import` command may leave. -/
inductive AfterPowerLoad (B : Type) [Bitmap B] (w : LoadCmd.World) (fs : Files) (args : List Bytes) : Files → Prop where
  | mk {a : ImportArgs} {f : Bytes} {sw : SimpleWriter B} {e : LoadTest.Exit} (asks : AsksImport w.now args a)
      (run : LoadTest.runImport (B := B) w.env (w.rng a.seed) a.num a.blockSize a.maxValue a.maxID = (e, some sw))
      (remains : MayRemain sw.writer.disk f) : AfterPowerLoad B w fs args (fs.put a.file f)

/-- **C91.** The same for `loadtest import`. -/
theorem C91_importDurable {w : LoadCmd.World} {fs : Files} {args : List Bytes} {a : ImportArgs} (h : AsksImport w.now args a)
    (hs : (LoadCmd.main B w fs args).stop.status = 0) {fs' : Files} (hk : AfterPowerLoad B w fs args fs') :
    fs' = (LoadCmd.main B w fs args).files := by
  obtain ⟨h', hrun, hr⟩ := hk
  obtain rfl := asksImport_unique h' h
  rename_i f sw e
  rw [main_import h'] at hs ⊢
  unfold LoadCmd.runImport at hs ⊢
  split at hs
  · cases hs
  · rename_i hd
    rw [if_neg hd]
    split at hs
    · cases hs
    · rename_i hc
      rw [if_neg hc]
      rw [hrun] at hs ⊢
      dsimp only at hs ⊢
      cases e with
      | failed e => cases hs
      | panicked => cases hs
      | done v i =>
        obtain ⟨sw0, h0, h1⟩ := runImport_eq hrun
        obtain ⟨batches, k1, hb, hv, hi, hr'⟩ := importLoop_done w.env _ _ _ _ _ _ _ h1
        have := (C45_close (B := B) ⟨sw0, h0, hr'⟩ (by simp [succeeded]) f).1 hr
        rw [this]

/-- After every successful `import` command something may remain. -/
theorem something_remains {w : LoadCmd.World} {fs : Files} {args : List Bytes} {a : ImportArgs} (h : AsksImport w.now args a)
    (hs : (LoadCmd.main B w fs args).stop.status = 0) : ∃ fs', AfterPowerLoad B w fs args fs' := by
  rw [main_import h] at hs
  unfold LoadCmd.runImport at hs
  split at hs
  · cases hs
  · split at hs
    · cases hs
    · cases hrun : LoadTest.runImport (B := B) w.env (w.rng a.seed) a.num a.blockSize a.maxValue a.maxID with
      | mk e out =>
        rw [hrun] at hs
        cases out with
        | none =>
          exfalso
          unfold LoadTest.runImport at hrun
          split at hrun
          · cases hrun; cases hs
          · cases hrun
        | some sw =>
          dsimp only at hs
          cases e with
          | failed e => cases hs
          | panicked => cases hs
          | done v i =>
            obtain ⟨sw0, h0, h1⟩ := runImport_eq hrun
            obtain ⟨batches, k1, hb, hv, hi, hr'⟩ := importLoop_done w.env _ _ _ _ _ _ _ h1
            exact ⟨_, .mk h hrun ((C45_close (B := B) ⟨sw0, h0, hr'⟩ (by simp [succeeded]) _).2 rfl)⟩

/-- Non-vacuity of `C91_importDurable`. -/
example (fs : Files) : ∃ args a fs', AsksImport LoadCmd.quietWorld.now args a ∧ (LoadCmd.main IdSet LoadCmd.quietWorld fs args).stop.status = 0 ∧
    AfterPowerLoad IdSet LoadCmd.quietWorld fs args fs' := by
  have hask := (C73_usage 0).2.1
  have hs : LawfulSort LoadCmd.quietWorld.env.sort := sortByInsertion_lawful
  obtain ⟨h1, _⟩ := C73_succeeds (B := IdSet) (w := LoadCmd.quietWorld) (fs := fs) hask hs quietEnv_noFault rfl rfl (by decide) (by decide)
  obtain ⟨fs', hf⟩ := something_remains (B := IdSet) (w := LoadCmd.quietWorld) (fs := fs) hask h1
  exact ⟨_, _, fs', hask, h1, hf⟩

end LoadTest

end VibeCol.PowerCut
