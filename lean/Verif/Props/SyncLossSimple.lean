/-
C90 for `SimpleWriter`.
-/
import Verif.Props.SyncLoss
import Verif.Props.SimpleFaults
namespace VibeCol.SyncLossSimple
open VibeCol SyncLoss
set_option linter.unusedSectionVars false
variable {B : Type} [Bitmap B] [LawfulBitmap B]

/-- The pairs of some blocks, one after the other. -/
def flat (bs : List Block) : List Pair := bs.flatMap fun b => b.1.zip b.2

theorem flat_append (a b : List Block) : flat (a ++ b) = flat a ++ flat b := List.flatMap_append

omit [LawfulBitmap B] in
/-- What the operating system may drop at any moment does not matter to the blocks that are held. -/
theorem held_drop {e : UInt32} {w : Writer B} {blks : List Blk} {idx : List Nat} {acks : List Block} (h : Held e w blks idx acks) {f : Bytes}
    (hf : MayRemain w.disk f) (hl : f.length = w.file.bytes.length) :
    Held e { w with file := { bytes := f, pos := w.file.pos } } blks idx acks := by
  obtain ⟨s, extra, ht, hi⟩ := h.twin
  refine ⟨⟨s, extra, ht.put f w.disk hl, hi⟩, h.enc, h.increasing, h.bound, h.safe.imp fun i p hip => ?_⟩
  obtain ⟨b, hb, hs⟩ := hip
  obtain ⟨ref, hk, himg⟩ := hs.kept
  have h2 := hk.1
  exact ⟨b, hb, hs.pairs, hs.low, ref, ⟨⟨by show _ ≤ f.length; rw [hl]; exact h2.len, fun i hi1 hi2 => h2.remains trivial hf i hi1 hi2,
    h2.slen, h2.synced, h2.away⟩, hk.2⟩, himg⟩

omit [LawfulBitmap B] in
/-- The block size target does not matter. -/
theorem held_target {e : UInt32} {w : Writer B} {blks : List Blk} {idx : List Nat} {acks : List Block} (h : Held e w blks idx acks) (n : UInt32) :
    Held e { w with blockSizeTarget := n } blks idx acks := by
  obtain ⟨_, extra, ⟨g, d, rfl, hg⟩, h3⟩ := h.twin
  refine ⟨⟨{ w.put g d with blockSizeTarget := n }, extra, ⟨g, d, rfl, hg⟩, ⟨h3.pos64, h3.posLe, h3.near, h3.cnt, h3.sizes, h3.stats, h3.bitmap, h3.ok,
      h3.tracked.imp (fun h4 => ⟨h4.positions, h4.atEnd, h4.laid, h4.img⟩) id⟩⟩, h.enc, h.increasing, h.bound, h.safe.imp fun i p hip => ?_⟩
  obtain ⟨b, hb, hs⟩ := hip
  obtain ⟨ref, hk, himg⟩ := hs.kept
  have h2 := hk.1
  exact ⟨b, hb, hs.pairs, hs.low, ref, ⟨⟨h2.len, h2.file, h2.slen, h2.synced, h2.away⟩, hk.2⟩, himg⟩

/-- What a flush does. -/
structure Flushed (e : UInt32) (force : Bool) (sw : SimpleWriter B) (blks : List Blk) (idx : List Nat) (acks : List Block)
    (res : Result × SimpleWriter B) (new : List Blk) (idx' : List Nat) (acks' : List Block) : Prop where
  held : Held e res.2.writer (blks ++ new) (idx ++ idx') (acks ++ acks')
  stream : flat acks' ++ res.2.pending = sw.pending
  only : ∀ b ∈ new, ∀ p ∈ b.ids.zip b.vals, p ∈ sw.pending
  lens : res.2.pendingIDs.length = res.2.pendingValues.length
  total : res.2.totalItems = sw.totalItems + (flat acks').length
  closed : res.2.closed = sw.closed
  outcome : res.1 = .ok () ∨ res.1 = .error .io
  done : res.1 = .ok () → force = true → res.2.pendingIDs = []

theorem flush_held {e : UInt32} (he : SymEnc e) (env : Env) (force : Bool) (sw : SimpleWriter B) (blks : List Blk) (idx : List Nat) (acks : List Block)
    (h : Held e sw.writer blks idx acks) (hlen : sw.pendingIDs.length = sw.pendingValues.length) (hb : sw.pendingIDs.length ≤ 2 ^ 27) :
    ∃ new idx' acks', Flushed e force sw blks idx acks (flushIfNeeded env force sw) new idx' acks' := by
  have idle : (force = true → sw.pendingIDs = []) → Flushed e force sw blks idx acks (.ok (), sw) [] [] [] := by
    intro h2
    exact ⟨by simpa using h, rfl, by simp, hlen, rfl, rfl, .inl rfl, fun _ => h2⟩
  rw [flushIfNeeded_eq]
  split
  · rename_i h0
    exact ⟨[], [], [], idle fun _ => List.eq_nil_of_length_eq_zero h0⟩
  rename_i h0
  split
  · obtain ⟨s, extra, ht, hi⟩ := h.twin
    obtain ⟨hr, _⟩ := Blind.writeBlock sw.pendingIDs sw.pendingValues env _ _ ht
    have hse : s.encodingType = e := by rw [← h.enc]; obtain ⟨g, d, rfl, _⟩ := ht; rfl
    obtain ⟨_, _, hadd, _⟩ := writeBlock_inv env s blks extra hi (by rw [hse]; exact he.known) sw.pendingIDs sw.pendingValues hlen (by omega) hb
    rw [hr] at hadd
    obtain ⟨new, idx', hleft, hheld⟩ := h.call he (env := env) (c := .write sw.pendingIDs sw.pendingValues) hb .all (fun h => by cases h)
    simp only [Call.run] at hleft hheld
    have honly : ∀ b ∈ new, ∀ p ∈ b.ids.zip b.vals, p ∈ sw.pending := by
      have key : ∀ bs : List Block, ∀ r, Left (.write sw.pendingIDs sw.pendingValues) r bs → ∀ b ∈ bs, ∀ p ∈ b.1.zip b.2, p ∈ sw.pending := by
        intro bs r hL b hb p hp
        have pre : ∀ k, p ∈ (sw.pendingIDs.take k).zip (sw.pendingValues.take k) → p ∈ sw.pending := by
          intro k hk
          unfold SimpleWriter.pending
          rw [zip_split _ _ k]
          exact List.mem_append_left _ hk
        generalize hc : Call.write sw.pendingIDs sw.pendingValues = c at hL
        cases hL with
        | acked =>
          subst hc
          unfold ackedBy at hb
          split at hb
          · rename_i e1; cases e1
            rw [List.mem_singleton] at hb; subst hb; exact hp
          · rename_i e1; cases e1
            rw [List.mem_singleton] at hb; subst hb; exact pre _ hp
          · cases hb
        | torn ids vals k hk1 hk2 =>
          cases hc
          rw [List.mem_singleton] at hb; subst hb; exact pre _ hp
      intro b hbm p hp
      exact key _ _ hleft b.pairs (List.mem_map_of_mem hbm) p hp
    rcases hw : writeBlock sw.pendingIDs sw.pendingValues env sw.writer with ⟨res, w'⟩
    rw [hw] at hadd hleft hheld
    dsimp only at hadd hleft hheld
    cases hadd with
    | part k hk1 hk2 =>
      have hlt : (sw.pendingIDs.drop k).length < sw.pendingIDs.length := by
        rw [List.length_drop]; omega
      obtain ⟨new2, idx2, acks2, F⟩ := flush_held he env force
        { sw with writer := w', totalItems := sw.totalItems + k, pendingIDs := sw.pendingIDs.drop k,
                  pendingValues := sw.pendingValues.drop k }
        _ _ _ hheld (by simp only [List.length_drop]; omega) (by simp only [List.length_drop]; omega)
      have hz := zip_split sw.pendingIDs sw.pendingValues k
      refine ⟨new ++ new2, idx' ++ idx2, (sw.pendingIDs.take k, sw.pendingValues.take k) :: acks2, ?_, ?_, ?_, F.lens, ?_, F.closed, F.outcome, F.done⟩
      · have := F.held
        simp only [ackedBy, List.append_assoc] at this
        exact this
      · show (_ ++ flat acks2) ++ _ = sw.pendingIDs.zip sw.pendingValues
        rw [List.append_assoc, F.stream, hz]
        rfl
      · intro b hb p hp
        rcases List.mem_append.1 hb with hb | hb
        · exact honly b hb p hp
        · exact mem_zip_drop (F.only b hb p hp)
      · rw [F.total]
        show sw.totalItems + k + _ = sw.totalItems + ((sw.pendingIDs.take k).zip (sw.pendingValues.take k) ++ flat acks2).length
        rw [List.length_append, List.length_zip, List.length_take, List.length_take]
        omega
    | none e' he' =>
      rcases he' with ⟨rfl, hF⟩ | ⟨_, he'⟩
      · exact ⟨new, idx', [], by simpa [ackedBy] using hheld, rfl, honly, hlen, rfl, rfl, .inr rfl, fun h => by cases h⟩
      · exact absurd (hse ▸ he.allMatch) he'
    | torn k hk1 hk2 hF =>
      exact ⟨new, idx', [], by simpa [ackedBy] using hheld, rfl, honly, hlen, rfl, rfl, .inr rfl, fun h => by cases h⟩
    | all =>
      refine ⟨new, idx', [(sw.pendingIDs, sw.pendingValues)], by simpa [ackedBy] using hheld, ?_, honly, rfl, ?_, rfl, .inl rfl, fun _ _ => rfl⟩
      · simp [flat, SimpleWriter.pending]
      · simp [flat, hlen]
  · rename_i hsw
    exact ⟨[], [], [], idle fun hf => absurd (.inl hf) hsw⟩
termination_by sw.pendingIDs.length

/-- An open `SimpleWriter` to which the pairs `S` were handed over: the acknowledged blocks hold a part of them, the rest is in the buffer. -/
structure SWHeld (e : UInt32) (sw : SimpleWriter B) (S : List Pair) (blks : List Blk) (idx : List Nat) (acks : List Block) : Prop where
  isOpen : sw.closed = false
  held : Held e sw.writer blks idx acks
  lens : sw.pendingIDs.length = sw.pendingValues.length
  stream : flat acks ++ sw.pending = S
  total : sw.totalItems = (flat acks).length
  only : ∀ b ∈ blks, ∀ p ∈ b.ids.zip b.vals, p ∈ S

/-- A closed one: the file is on the device, and what it says. -/
structure SWSafe (sw : SimpleWriter B) (S : List Pair) : Prop where
  isClosed : sw.closed = true
  synced : ∀ f, MayRemain sw.writer.disk f → f = sw.writer.file.bytes
  opens : sw.writer.file.bytes.length ≤ maxFileSize → ∃ (r : Reader B) (blocks : List Block) (idx : List Nat) (parts : List Block),
    newReader sw.writer.file.bytes = .ok r ∧ r.header.blockCount.toNat = blocks.length ∧ (∀ b ∈ blocks, ∀ p ∈ b.1.zip b.2, p ∈ S) ∧
      idx.Pairwise (· < ·) ∧ Each (fun i b => blocks[i]? = some b ∧ getPairs r (UInt64.ofNat i) = .ok b) idx parts ∧ flat parts = S ∧
      (StatsRepresentable blocks → ∀ (sched : Sched) (_ : sched.Fair) (workers : Int),
        ∃ res, aggregateWithOptions sched r { parallel := workers } = .ok res ∧ IsAggregate res (valuesOf blocks))

theorem pending_le {e : UInt32} {sw : SimpleWriter B} {S : List Pair} {blks : List Blk} {idx : List Nat} {acks : List Block}
    (h : SWHeld e sw S blks idx acks) : sw.pendingIDs.length ≤ S.length := by
  rw [← h.stream, List.length_append, SimpleWriter.pending, List.length_zip, ← h.lens]
  omega

/-- A flush after some pairs were added to the buffer. -/
theorem SWHeld.flush {e : UInt32} (he : SymEnc e) {env : Env} {sw : SimpleWriter B} {S : List Pair} {blks : List Blk} {idx : List Nat}
    {acks : List Block} (h : SWHeld e sw S blks idx acks) (force : Bool) (ids : List UInt64) (vals : List Int64) (hl : ids.length = vals.length)
    (hb : S.length + ids.length ≤ 2 ^ 27) {q : Result × SimpleWriter B}
    (hq : flushIfNeeded env force { sw with pendingIDs := sw.pendingIDs ++ ids, pendingValues := sw.pendingValues ++ vals } = q) :
    ∃ blks' idx' acks', SWHeld e q.2 (S ++ ids.zip vals) blks' idx' acks' ∧ (q.1 = .ok () ∨ q.1 = .error .io) ∧
      (q.1 = .ok () → force = true → q.2.pendingIDs = []) := by
  have hle := pending_le h
  obtain ⟨new, idx', acks', F⟩ := flush_held he env force
    { sw with pendingIDs := sw.pendingIDs ++ ids, pendingValues := sw.pendingValues ++ vals } blks idx acks h.held
    (by simp only [List.length_append, h.lens]; omega) (by simp only [List.length_append]; omega)
  rw [hq] at F
  have hp : SimpleWriter.pending { sw with pendingIDs := sw.pendingIDs ++ ids, pendingValues := sw.pendingValues ++ vals } =
      sw.pending ++ ids.zip vals := by
    show (sw.pendingIDs ++ ids).zip (sw.pendingValues ++ vals) = _
    rw [List.zip_append h.lens]
    rfl
  have hst := F.stream
  have hon := F.only
  rw [hp] at hst hon
  refine ⟨_, _, _, ⟨F.closed.trans h.isOpen, F.held, F.lens, ?_, ?_, ?_⟩, F.outcome, F.done⟩
  · rw [flat_append, List.append_assoc, hst, ← List.append_assoc, h.stream]
  · rw [F.total, flat_append, List.length_append, ← h.total]
  · intro b hb p hp
    rcases List.mem_append.1 hb with hb | hb
    · exact List.mem_append_left _ (h.only b hb p hp)
    · rcases List.mem_append.1 (hon b hb p hp) with h1 | h1
      · refine List.mem_append_left _ ?_
        rw [← h.stream]
        exact List.mem_append_right _ h1
      · exact List.mem_append_right _ h1

theorem SWHeld.drop {e : UInt32} {sw : SimpleWriter B} {S : List Pair} {blks : List Blk} {idx : List Nat} {acks : List Block}
    (h : SWHeld e sw S blks idx acks) {f : Bytes} (hf : MayRemain sw.writer.disk f) (hl : f.length = sw.writer.file.bytes.length) :
    SWHeld e { sw with writer := { sw.writer with file := { bytes := f, pos := sw.writer.file.pos } } } S blks idx acks :=
  ⟨h.isOpen, held_drop h.held hf hl, h.lens, h.stream, h.total, h.only⟩

/-- One call, after which nothing is dropped. -/
theorem SWHeld.call {e : UInt32} (he : SymEnc e) {env : Env} (hs : LawfulSort env.sort) {sw : SimpleWriter B} {S : List Pair} {blks : List Blk}
    {idx : List Nat} {acks : List Block} (h : SWHeld e sw S blks idx acks) (c : SWCall) (hb : S.length + c.pairs ≤ 2 ^ 27)
    (hno : c = .close → (c.run env sw).1 = .error .io → (c.run env sw).2.totalItems < S.length) :
    ∃ stored, Each SortedBatch (handedBy c (c.run env sw).1) stored ∧
      ((∃ blks' idx' acks', SWHeld e (c.run env sw).2 (S ++ stored.flatten) blks' idx' acks') ∨
        ((c.run env sw).1 = .ok () ∧ SWSafe (c.run env sw).2 (S ++ stored.flatten))) := by
  cases c with
  | setTarget size =>
    refine ⟨[], .nil, .inl ⟨blks, idx, acks, ?_⟩⟩
    simp only [SWCall.run, setTargetBlockSize, h.isOpen, Bool.false_eq_true, if_false, List.flatten_nil, List.append_nil]
    exact ⟨rfl, held_target h.held _, h.lens, h.stream, h.total, h.only⟩
  | write ids vals =>
    by_cases hl : ids.length = vals.length
    · by_cases hne : ids.length = 0
      · have e1 : ids = [] := List.eq_nil_of_length_eq_zero hne
        have e2 : vals = [] := List.eq_nil_of_length_eq_zero (by omega)
        subst e1 e2
        have : SWCall.run env (.write [] []) sw = (.ok (), sw) := by
          simp [SWCall.run, SimpleWriter.write, h.isOpen]
        rw [this]
        exact ⟨[[]], .cons ⟨.refl _, .nil, fun _ => rfl⟩ .nil, .inl ⟨blks, idx, acks, by simpa using h⟩⟩
      · obtain ⟨h1, h2, h3⟩ := storedBatch_spec env hs ids vals hl
        have hw := write_eq env ids vals sw h.isOpen hl hne
        simp only [SWCall.run, SWCall.pairs] at hb ⊢
        rw [hw]
        generalize hq : flushIfNeeded env false { sw with pendingIDs := sw.pendingIDs ++ (storedBatch env ids vals).1, pendingValues := sw.pendingValues ++ (storedBatch env ids vals).2 } = q
        obtain ⟨blks', idx', acks', ho, hout, _⟩ := h.flush he false _ _ (h2.trans h3.symm) (by omega) hq
        refine ⟨[(storedBatch env ids vals).1.zip (storedBatch env ids vals).2], ?_, .inl ⟨blks', idx', acks', by simpa using ho⟩⟩
        have hh : handedBy (.write ids vals) q.1 = [ids.zip vals] := by
          rcases hout with h | h <;> rw [h] <;> rfl
        rw [hh]
        exact .cons h1 .nil
    · have : SWCall.run env (.write ids vals) sw = (.error .lengthMismatch, sw) := by
        simp [SWCall.run, SimpleWriter.write, h.isOpen, hl]
      rw [this]
      exact ⟨[], .nil, .inl ⟨blks, idx, acks, by simpa using h⟩⟩
  | close =>
    have hno := hno rfl
    rcases hf : flushIfNeeded env true sw with ⟨r, sw1⟩
    obtain ⟨blks', idx', acks', ho, hout, hp⟩ := h.flush he true [] [] rfl (by simpa [SWCall.pairs] using hb) (q := (r, sw1)) (by
      rw [List.append_nil, List.append_nil]; exact hf)
    simp only [SWCall.run, SimpleWriter.close, h.isOpen, Bool.false_eq_true, if_false] at hno ⊢
    rw [hf] at hno ⊢
    rw [show ([] : List UInt64).zip ([] : List Int64) = [] from rfl, List.append_nil] at ho
    refine ⟨[], ?_, ?_⟩
    · exact .nil
    rw [List.flatten_nil, List.append_nil]
    rcases hout with hr | hr
    · simp only at hr
      subst hr
      have hp := hp rfl rfl
      simp only at hno hp ho ⊢
      have hpend : sw1.pending = [] := by unfold SimpleWriter.pending; rw [hp]; rfl
      have hst := ho.stream
      rw [hpend, List.append_nil] at hst
      unfold finalizeAndClose at hno ⊢
      rw [WM.bind_def] at hno ⊢
      have hcall := ho.held.call he (env := env) (c := .finalize) trivial .all
      simp only [Call.run] at hcall
      rcases hff : finalize env sw1.writer with ⟨r2, w2⟩
      rw [hff] at hno hcall
      cases r2 with
      | error e2 =>
        dsimp only at hno hcall ⊢
        have hne : e2 ≠ .io := fun h => by
          have := hno (by rw [h])
          rw [← hst, ho.total] at this
          omega
        obtain ⟨new, idx2, hleft, hheld⟩ := hcall (fun _ h => hne (by injection h))
        have hnil : new = [] := by
          have key : ∀ bs, Left .finalize (.error e2) bs → bs = [] := by
            intro bs h; cases h; rfl
          simpa using key _ hleft
        subst hnil
        exact .inl ⟨_, _, _, ho.isOpen, hheld, ho.lens, by rw [show ackedBy .finalize (.error e2) = [] from rfl, List.append_nil]; exact ho.stream,
          by rw [show ackedBy .finalize (.error e2) = [] from rfl, List.append_nil]; exact ho.total,
          by rw [List.append_nil]; exact ho.only⟩
      | ok u =>
        dsimp only at hno ⊢
        have hfc := fclose_spec env w2
        have hdisk : (fclose env w2).2.disk = w2.disk := by
          unfold fclose
          dsimp only
          split
          · rfl
          · split <;> rfl
        rcases hcl : fclose env w2 with ⟨r3, w3⟩
        rw [hcl] at hno hfc hdisk
        obtain ⟨hres, hf1, _⟩ := hfc
        dsimp only at hres hf1 hdisk hno ⊢
        rcases hres with rfl | rfl
        · have := hno rfl
          dsimp only at this
          rw [← hst, ho.total] at this
          omega
        · refine .inr ⟨rfl, rfl, fun f hr => ?_, fun hsize => ?_⟩
          · show f = w3.file.bytes
            rw [hf1]
            exact (AllSynced.remains (wp_ok (Syncs.finalize env sw1.writer) hff) f).mp (by rw [← hdisk]; exact hr)
          · have hsize : w3.file.bytes.length ≤ maxFileSize := hsize
            show ∃ r blocks idx parts, newReader w3.file.bytes = .ok r ∧ _
            rw [hf1] at hsize ⊢
            obtain ⟨s, extra, hT, hI⟩ := ho.held.twin
            obtain ⟨r, hr1, hr2, hr3⟩ := finalize_twin he hT hI ho.held.enc (.inr hsize) hff
              (by unfold maxFileSize maxBlocks at hsize; omega)
            refine ⟨r, _, idx', acks', hr1, hr2.count_toNat, ?_, ho.held.increasing, ho.held.safe.imp fun i p hip => ?_, hst,
              fun hrep sched hs workers => ⟨_, by rw [hr2.parallel_eq sched hs, hr2.footer _ rfl rfl rfl hrep], accOf_isAggregate _⟩⟩
            · intro b hb p hpb
              obtain ⟨b', hb', rfl⟩ := List.mem_map.mp hb
              exact ho.only b' hb' p hpb
            obtain ⟨b, hb, hs⟩ := hip
            obtain ⟨ref, hk, himg⟩ := hs.kept
            refine ⟨by rw [List.getElem?_map, hb]; exact congrArg some hs.pairs, ?_⟩
            rw [hr3 i b b hb ?_ ⟨rfl, rfl, rfl, rfl⟩ hk.2 hs.low ?_, hs.pairs]
            · have := hI.ok b (List.mem_of_getElem? hb)
              rwa [show s.encodingType = e by rw [← ho.held.enc]; obtain ⟨g, d, rfl, _⟩ := hT; rfl] at this
            exact (slice_congr fun q h1 h2 => hk.1.file q h1 h2).trans himg
    · simp only at hr
      subst hr
      exact .inl ⟨_, _, _, ho⟩

omit [LawfulBitmap B] in
theorem closed_lossy {env : Env} {cs : List SWCall} {sw sw' : SimpleWriter B} {log : SWLog} {items : List Nat} (h : SWLossy env cs sw log items sw') (hc : sw.closed = true) :
    sw' = sw ∧ handed log = [] := by
  induction h with
  | nil => exact ⟨rfl, rfl⟩
  | @cons c cs sw sw1 sw2 log items hl t ih =>
    obtain ⟨h1, h2⟩ := closed_call env c sw hc
    have : sw1 = sw := by
      cases hl with
      | all => exact h1
      | some f hio =>
        rw [h2] at hio
        cases c <;> cases hio
    subst this
    obtain ⟨h3, h4⟩ := ih hc
    refine ⟨h3, ?_⟩
    show handedBy _ _ ++ handed log = []
    rw [h4, h2]
    cases c <;> rfl

theorem SWHeld.run {e : UInt32} (he : SymEnc e) {env : Env} (hs : LawfulSort env.sort) {cs : List SWCall} {sw sw' : SimpleWriter B} {log : SWLog}
    {items : List Nat} (hrun : SWLossy env cs sw log items sw') {S : List Pair} {blks : List Blk} {idx : List Nat} {acks : List Block} (h : SWHeld e sw S blks idx acks)
    (hb : S.length + (cs.map SWCall.pairs).sum ≤ 2 ^ 27) (hno : CloseFailsEarly S.length log items) (hclose : (SWCall.close, Except.ok ()) ∈ log) :
    ∃ stored, Each SortedBatch (handed log) stored ∧ SWSafe sw' (S ++ stored.flatten) := by
  induction hrun generalizing S blks idx acks with
  | nil => cases hclose
  | @cons c cs sw sw1 sw2 log items hl t ih =>
    rw [List.map_cons, List.sum_cons] at hb
    obtain ⟨hno1, hno2⟩ := hno
    obtain ⟨st1, hf1, hcase⟩ := h.call he hs c (by omega) hno1
    show ∃ stored, Each SortedBatch (handedBy c (c.run env sw).1 ++ handed log) stored ∧ _
    have hlen := hf1.flatten_length
    have hlen2 := handedBy_pairs c (c.run env sw).1
    rcases hcase with ⟨blks', idx', acks', ho⟩ | ⟨hok, hsafe⟩
    · have hlog : (SWCall.close, Except.ok ()) ∈ log := by
        rcases List.mem_cons.1 hclose with h1 | h1
        · exfalso
          have hc : c = .close := (Prod.mk.inj h1).1.symm
          have hr : (c.run env sw).1 = .ok () := (Prod.mk.inj h1).2.symm
          subst hc
          have hcl := closed_of_log env [SWCall.close] sw (by rw [runSW_cons, hr]; exact List.mem_cons_self)
          rw [runSW_cons] at hcl
          have := ho.isOpen
          change (SWCall.run env SWCall.close sw).2.closed = true at hcl
          rw [hcl] at this
          cases this
        · exact h1
      have ho1 : SWHeld e sw1 (S ++ st1.flatten) blks' idx' acks' := by
        cases hl with
        | all => exact ho
        | some f hio hf hlf => exact ho.drop hf hlf
      obtain ⟨st2, hf2, h2⟩ := ih ho1 (by rw [List.length_append]; omega) (by rw [List.length_append, hlen]; exact hno2) hlog
      refine ⟨st1 ++ st2, forall2_append hf1 hf2, ?_⟩
      rw [List.flatten_append, ← List.append_assoc]
      exact h2
    · have : sw1 = (c.run env sw).2 := by
        cases hl with
        | all => rfl
        | some f hio => rw [hok] at hio; cases hio
      subst this
      obtain ⟨h1, h2⟩ := closed_lossy t hsafe.isClosed
      refine ⟨st1, ?_, ?_⟩
      · rw [h2, List.append_nil]; exact hf1
      · rw [h1]; exact hsafe

/-- **C90 for `SimpleWriter`.** Whatever the operating system drops after calls that reported an I/O error: if some `Close` returned nil and every
`Close` that reported one did so before all pairs were written (`TotalItems` shows it), then the file, also as a power failure leaves it, opens, and some of its blocks, at strictly increasing block numbers, hold
together exactly the batches handed over, each sorted, in order. The other blocks belong to flushes that failed; the index says of them, too, that
they hold pairs that were handed over, and `Aggregate` without filters counts them. -/
theorem C90_simple {env : Env} (hs : LawfulSort env.sort) {opts : List WriterOption} (henc : SymEnc (chosenEncoding opts)) {calls : List SWCall}
    {log : SWLog} {sw0 sw : SimpleWriter B} (hnew : newSimpleWriter opts env = .ok sw0) {items : List Nat}
    (hrun : SWLossy env calls sw0 log items sw) (hb : (calls.map SWCall.pairs).sum ≤ 2 ^ 27) (hno : CloseFailsEarly 0 log items) (hclose : (SWCall.close, Except.ok ()) ∈ log)
    (hsize : sw.writer.file.bytes.length ≤ maxFileSize) {f : Bytes} (hr : MayRemain sw.writer.disk f) :
    ∃ (r : Reader B) (stored : List (List Pair)) (blocks : List Block) (idx : List Nat) (parts : List Block),
      newReader f = .ok r ∧ Each SortedBatch (handed log) stored ∧
      idx.Pairwise (· < ·) ∧ Each (fun i b => getPairs r (UInt64.ofNat i) = .ok b) idx parts ∧
      (parts.flatMap fun b => b.1.zip b.2) = stored.flatten ∧
      r.header.blockCount.toNat = blocks.length ∧ Each (fun i b => blocks[i]? = some b) idx parts ∧
      (∀ b ∈ blocks, ∀ p ∈ b.1.zip b.2, p ∈ stored.flatten) ∧
      (StatsRepresentable blocks → ∀ (sched : Sched) (_ : sched.Fair) (workers : Int),
        ∃ res, aggregateWithOptions sched r { parallel := workers } = .ok res ∧ IsAggregate res (valuesOf blocks)) := by
  have ho := newSimpleWriter_open hnew
  have hst := ho.stream
  simp only [blkPairs, List.flatMap_nil, List.nil_append] at hst
  have h0 : SWHeld (chosenEncoding opts) sw0 [] [] [] [] := ⟨ho.isOpen, ⟨⟨_, _, .refl _, ho.inv⟩, ho.enc, .nil, fun _ h => (by cases h), .nil⟩,
    ho.lens, hst.symm, ho.total, fun _ h => (by cases h)⟩
  obtain ⟨stored, h1, h2⟩ := h0.run henc hs hrun (by simpa using hb) hno hclose
  rw [List.nil_append] at h2
  rw [h2.synced f hr]
  obtain ⟨r, blocks, idx, parts, g1, g2, g3, g4, g5, g6, g7⟩ := h2.opens hsize
  exact ⟨r, stored, blocks, idx, parts, g1, h1, g4, g5.imp fun _ _ h => h.2, g6, g2, g5.imp fun _ _ h => h.1, g3, g7⟩

/-! ### Without losses -/

/-- What `TotalItems` returns after each call. -/
def itemsAfter (env : Env) : List SWCall → SimpleWriter B → List Nat
  | [], _ => []
  | c :: cs, sw => (c.run env sw).2.totalItems :: itemsAfter env cs (c.run env sw).2

omit [LawfulBitmap B] in
theorem lossy_all (env : Env) (cs : List SWCall) (sw : SimpleWriter B) :
    SWLossy env cs sw (runSW env cs sw).1 (itemsAfter env cs sw) (runSW env cs sw).2 := by
  induction cs generalizing sw with
  | nil => exact .nil sw
  | cons c cs ih => exact .cons .all (ih _)

/-- **C44, also if `Close` failed before all pairs were written** (as `TotalItems` shows) and was called again: some blocks of the file hold together
exactly the batches handed over, each sorted, in order; the other blocks, left by failed flushes, hold only pairs that were handed over. -/
theorem C44_early {env : Env} (hs : LawfulSort env.sort) {opts : List WriterOption} (henc : SymEnc (chosenEncoding opts)) {calls : List SWCall}
    {log : SWLog} {sw0 sw : SimpleWriter B} (hnew : newSimpleWriter opts env = .ok sw0) (hrun : runSW env calls sw0 = (log, sw))
    (hb : (calls.map SWCall.pairs).sum ≤ 2 ^ 27) (hno : CloseFailsEarly 0 log (itemsAfter env calls sw0))
    (hclose : (SWCall.close, Except.ok ()) ∈ log) (hsize : sw.writer.file.bytes.length ≤ maxFileSize) :
    ∃ (r : Reader B) (stored : List (List Pair)) (blocks : List Block) (idx : List Nat) (parts : List Block),
      newReader sw.writer.file.bytes = .ok r ∧ Each SortedBatch (handed log) stored ∧
      idx.Pairwise (· < ·) ∧ Each (fun i b => getPairs r (UInt64.ofNat i) = .ok b) idx parts ∧
      (parts.flatMap fun b => b.1.zip b.2) = stored.flatten ∧
      r.header.blockCount.toNat = blocks.length ∧ Each (fun i b => blocks[i]? = some b) idx parts ∧
      (∀ b ∈ blocks, ∀ p ∈ b.1.zip b.2, p ∈ stored.flatten) := by
  have hl := lossy_all env calls sw0
  rw [hrun] at hl
  have hs2 := (C45_close ⟨sw0, hnew, hrun⟩ hclose sw.writer.file.bytes).mpr rfl
  obtain ⟨r, stored, blocks, idx, parts, h1, h2, h3, h4, h5, h6, h7, h8, _⟩ := C90_simple hs henc hnew hl hb hno hclose hsize hs2
  exact ⟨r, stored, blocks, idx, parts, h1, h2, h3, h4, h5, h6, h7, h8⟩

/-! ### What does not hold of the other blocks -/

omit [LawfulBitmap B] in
theorem leaves_twin {env : Env} {c : Call} {w w1 s : Writer B} (h : Leaves env c w w1) (ht : Twin w s) :
    (c.run env s).1 = (c.run env w).1 ∧ Twin w1 (c.run env s).2 := by
  obtain ⟨h1, h2⟩ := ht.call env c
  refine ⟨h1, ?_⟩
  cases h with
  | all => exact h2
  | some f hio hf hl => exact h2.put f _ hl

omit [LawfulBitmap B] in
theorem fclose_twin {env : Env} {w s : Writer B} (h : Twin w s) : (fclose env s).1 = (fclose env w).1 := by
  obtain ⟨g, d, rfl, _⟩ := h
  unfold fclose
  show (if w.fileOpen = false then _ else _ : Result × Writer B).1 = (if w.fileOpen = false then _ else _ : Result × Writer B).1
  by_cases h : w.fileOpen = false
  · rw [if_pos h, if_pos h]
  · rw [if_neg h, if_neg h]
    show (match env.fault w.opNo with | some _ => _ | none => _ : Result × Writer B).1 = _
    cases env.fault w.opNo <;> rfl

omit [LawfulBitmap B] in
theorem lossy_two {env : Env} {c1 c2 : Call} {w0 w : Writer B} {r1 r2 : Result} (h : Lossy env [c1, c2] w0 [(c1, r1), (c2, r2)] w) :
    ∃ w1, Leaves env c1 w0 w1 ∧ (c1.run env w0).1 = r1 ∧ Leaves env c2 w1 w ∧ (c2.run env w1).1 = r2 := by
  cases h with
  | cons h1 t1 =>
    cases t1 with
    | cons h2 t2 =>
      cases t2
      exact ⟨_, h1, rfl, h2, rfl⟩

omit [LawfulBitmap B] in
/-- The calls `Write`, `Close`, `Close`, of which the first `Close` fails in its only `WriteBlock`. -/
theorem simple_again {env : Env} {w0 w1 w2 w3 : Writer B} (h0 : newWriter [] env = (.ok (), w0))
    (hl : Leaves env (.write [1] [1]) w0 w1) (hr : (Call.run env (.write [1] [1]) w0).1 = .error .io)
    (h1 : writeBlock [1] [1] env w1 = (.ok (), w2)) (h2 : finalizeAndClose env w2 = (.ok (), w3)) :
    ∃ sw0 sw : SimpleWriter B, newSimpleWriter [] env = .ok sw0 ∧ SWLossy env [.write [1] [1], .close, .close] sw0
      [(.write [1] [1], .ok ()), (.close, .error .io), (.close, .ok ())] [0, 0, 1] sw ∧ sw.writer = w3 := by
  let sw0 : SimpleWriter B := { writer := w0, pendingIDs := [], pendingValues := [], targetBlockSize := 128 * 1024, closed := false, totalItems := 0 }
  let sw1 : SimpleWriter B := { sw0 with pendingIDs := [1], pendingValues := [1] }
  have e0 : newSimpleWriter (B := B) [] env = .ok sw0 := by
    unfold newSimpleWriter
    rw [h0]
  have e1 : SWCall.run env (.write [1] [1]) sw0 = (.ok (), sw1) := by
    show SimpleWriter.write env [1] [1] sw0 = _
    rw [write_eq env [1] [1] sw0 rfl rfl (by decide), flushIfNeeded_eq]
    rfl
  have flush : ∀ w : Writer B, flushIfNeeded env true { sw1 with writer := w } =
      match writeBlock [1] [1] env w with
      | (.error (.blockFull n), w') => flushIfNeeded env true { sw1 with
          writer := w', totalItems := 0 + n, pendingIDs := [1].drop n, pendingValues := [1].drop n }
      | (.error e, w') => (.error e, { sw1 with writer := w' })
      | (.ok _, w') => (.ok (), { sw1 with writer := w', totalItems := 1, pendingIDs := [], pendingValues := [] }) := by
    intro w
    rw [flushIfNeeded_eq]
    rfl
  have e2 : SWCall.run env .close sw1 = (.error .io, { sw1 with writer := (writeBlock [1] [1] env w0).2 }) := by
    show SimpleWriter.close env sw1 = _
    have hf := flush w0
    have hr : (writeBlock [1] [1] env w0).1 = .error .io := hr
    generalize writeBlock [1] [1] env w0 = q at hr hf ⊢
    obtain ⟨r, a⟩ := q
    dsimp only at hr
    subst hr
    unfold SimpleWriter.close
    have : ({ sw1 with writer := w0 } : SimpleWriter B) = sw1 := rfl
    rw [this] at hf
    rw [hf]
    rfl
  have e3 : SWCall.run env .close { sw1 with writer := w1 } =
      (.ok (), { sw1 with writer := w3, totalItems := 1, pendingIDs := [], pendingValues := [], closed := true }) := by
    show SimpleWriter.close env _ = _
    have hf := flush w1
    rw [h1] at hf
    unfold SimpleWriter.close
    rw [hf]
    dsimp only
    rw [h2]
    rfl
  refine ⟨sw0, { sw1 with writer := w3, totalItems := 1, pendingIDs := [], pendingValues := [], closed := true }, e0, ?_, rfl⟩
  have s3 : SWLossy env [.close] { sw1 with writer := w1 } [(.close, .ok ())] [1]
      { sw1 with writer := w3, totalItems := 1, pendingIDs := [], pendingValues := [], closed := true } := by
    have := SWLossy.cons (env := env) (SWLeaves.all (c := .close) (sw := { sw1 with writer := w1 })) (.nil _)
    rw [e3] at this
    exact this
  have l2 : SWLeaves env .close sw1 { sw1 with writer := w1 } := by
    cases hl with
    | all =>
      have := SWLeaves.all (env := env) (c := .close) (sw := sw1)
      rw [e2] at this
      exact this
    | some f hio hf hlen =>
      have := SWLeaves.some (env := env) (c := .close) (sw := sw1) f (by rw [e2]) (by rw [e2]; exact hf) (by rw [e2]; exact hlen)
      rw [e2] at this
      exact this
  have s2 := SWLossy.cons l2 s3
  rw [e2] at s2
  have l1 : SWLeaves env (.write [1] [1]) sw0 sw1 := by
    have := SWLeaves.all (env := env) (c := .write [1] [1]) (sw := sw0)
    rw [e1] at this
    exact this
  have s1 := SWLossy.cons l1 s2
  rw [e1] at s1
  exact s1

theorem againCloses_eq : (finalizeAndClose (faultAt 36) (runCalls (faultAt 36) againCalls (newWriter (B := IdSet) [] (faultAt 36)).2).2).1 = .ok () := by
  decide +kernel

/-- **C90 for `SimpleWriter`, the limit.** The first `Close` fails because the `Sync` of the block fails, the second returns nil. The file has two
blocks, of which the first reads back, without an error, as a pair that was never written. This run meets the hypotheses of `C90_simple`. -/
theorem C90_simple_refuted : ∃ (env : Env) (sw0 sw : SimpleWriter IdSet) (r : Reader IdSet), LawfulSort env.sort ∧
    newSimpleWriter [] env = .ok sw0 ∧ SWLossy env [.write [1] [1], .close, .close] sw0
      [(.write [1] [1], .ok ()), (.close, .error .io), (.close, .ok ())] [0, 0, 1] sw ∧
    CloseFailsEarly 0 [(.write [1] [1], .ok ()), (.close, .error .io), (.close, .ok ())] [0, 0, 1] ∧
    sw.writer.file.bytes.length ≤ maxFileSize ∧ newReader sw.writer.file.bytes = .ok r ∧ r.header.blockCount.toNat = 2 ∧
    getPairs r 0 = .ok ([1], [0]) := by
  obtain ⟨h0, h1, h2, h3, h4⟩ := brokenCall_eq
  have ho := againOutcome_eq
  have hcl := againCloses_eq
  have hsort : LawfulSort (faultAt 36).sort := sortByInsertion_lawful
  generalize faultAt 36 = env at *
  generalize hq : newWriter (B := IdSet) [] env = q at *
  obtain ⟨r0, w0⟩ := q
  dsimp only at h0 h1 h2 h3 h4 hcl
  subst h0
  obtain ⟨w, w', r, g1, g2, g3, g4, g5, g6⟩ := failedBlock hq h1 h2 h3 h4 ho
  obtain ⟨w1, hl1, hr1, hl2, hr2⟩ := lossy_two g1
  have hw : w = (writeBlock [1] [1] env w1).2 := by
    cases hl2 with
    | all => rfl
    | some f hio => rw [hr2] at hio; cases hio
  obtain ⟨e1, t1⟩ := leaves_twin hl1 (.refl w0)
  obtain ⟨e2, t2⟩ := leaves_twin hl2 t1
  obtain ⟨e3, t3⟩ := Blind.finalize env _ _ t2
  have hrun : (runCalls env againCalls w0).2 = (Call.run env (.write [1] [1]) (Call.run env (.write [1] [1]) w0).2).2 := rfl
  rw [hrun] at hcl
  generalize hs : (Call.run env (.write [1] [1]) (Call.run env (.write [1] [1]) w0).2).2 = s at *
  rw [g2] at e3 t3
  have hfc : (fclose env w').1 = .ok () := by
    rw [← fclose_twin t3]
    unfold finalizeAndClose at hcl
    rw [WM.bind_def] at hcl
    generalize finalize env s = q at hcl e3 ⊢
    obtain ⟨r, s'⟩ := q
    dsimp only at e3
    subst e3
    exact hcl
  have hfile := (fclose_spec env w').2.1
  have hfin : finalizeAndClose env w = (.ok (), (fclose env w').2) := by
    unfold finalizeAndClose
    rw [WM.bind_def, g2]
    exact Prod.ext hfc rfl
  obtain ⟨sw0, sw, k1, k2, k3⟩ := simple_again hq hl1 hr1 (w2 := w) (Prod.ext hr2 hw.symm) hfin
  refine ⟨env, sw0, sw, r, hsort, k1, k2, by simp [CloseFailsEarly, handedBy], ?_, ?_, g4, g5⟩
  · rw [k3, hfile]
    unfold maxFileSize maxBlocks
    omega
  · rw [k3, hfile]
    exact g3

end VibeCol.SyncLossSimple
