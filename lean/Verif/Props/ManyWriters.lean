/-
C88: several writers at a time, on different files and on the same file.
-/
import Verif.Spec.ManyWriters
import Verif.Props.Closing
import Verif.Props.Damage
import Verif.Props.Format
import Verif.Props.Example

namespace VibeCol.ManyWriters

variable {B : Type} [Bitmap B]

omit [Bitmap B] in
theorem changed_same {α β : Type} [DecidableEq α] (f : α → β) (a : α) (b : β) : changed f a b a = b := if_pos rfl

omit [Bitmap B] in
theorem changed_other {α β : Type} [DecidableEq α] (f : α → β) {a x : α} (b : β) (h : x ≠ a) : changed f a b x = f x := if_neg h

theorem run_cons (envs : Nat → Env) (k : Nat) (a : Act) (es : List (Nat × Act)) (s : Shop B) :
    Shop.run envs ((k, a) :: es) s = ((k, a, (s.step envs k a).1) :: (Shop.run envs es (s.step envs k a).2).1,
      (Shop.run envs es (s.step envs k a).2).2) := rfl

theorem run_append (envs : Nat → Env) (as bs : List (Nat × Act)) (s : Shop B) :
    Shop.run envs (as ++ bs) s = ((Shop.run envs as s).1 ++ (Shop.run envs bs (Shop.run envs as s).2).1,
      (Shop.run envs bs (Shop.run envs as s).2).2) := by
  induction as generalizing s with
  | nil => rfl
  | cons e es ih =>
    obtain ⟨k, a⟩ := e
    rw [List.cons_append, run_cons, run_cons, ih]
    rfl

theorem run_length (envs : Nat → Env) (es : List (Nat × Act)) (s : Shop B) : (Shop.run envs es s).1.length = es.length := by
  induction es generalizing s with
  | nil => rfl
  | cons e es ih =>
    obtain ⟨i, a⟩ := e
    rw [run_cons, List.length_cons, List.length_cons, ih]

/-- A harmless call leaves the file alone. -/
theorem harmless_call {c : WCall} (hc : c.Harmless) (env : Env) (w : Writer B) : (c.run env w).2.file = w.file := by
  cases c with
  | close =>
    show (fclose env w).2.file = w.file
    unfold fclose
    dsimp only
    split
    · rfl
    · split <;> rfl
  | finalizeAndClose => cases hc
  | call c =>
    cases c with
    | write ids vals => cases hc
    | finalize => cases hc
    | estimate ids vals =>
      obtain ⟨o, ho⟩ := C06_noEffect env w ids vals
      show (match estimateBlockSize ids vals env w with
        | (.ok _, w') => (.ok (), w')
        | (.error e, w') => (.error e, w') : Result × Writer B).2.file = w.file
      generalize estimateBlockSize ids vals env w = x at ho
      obtain ⟨r, w'⟩ := x
      cases r
      · exact (congrArg Writer.file ho : w'.file = _)
      · exact (congrArg Writer.file ho : w'.file = _)

/-- A call on a writer whose file is closed leaves it closed, and the file alone. -/
theorem closed_call' (c : WCall) (env : Env) (w : Writer B) (hw : w.fileOpen = false) :
    (c.run env w).2.file = w.file ∧ (c.run env w).2.fileOpen = false := by
  obtain ⟨e, n, h1, _⟩ := Closing.dead_call c env w hw
  dsimp only at h1
  rw [h1]
  exact ⟨rfl, hw⟩

/-- The state of writer `k` and its file among the others is the state of a writer that is alone. -/
theorem alone_run (envs : Nat → Env) (k : Nat) (path : Bytes) (es : List (Nat × Act)) (s : Shop B) (w : Writer B)
    (hk : s.writers k = some (path, w)) (hf : s.files path = w.file.bytes) (ha : LeftAlone k path s es) :
    (Shop.run envs es s).2.files path = (runW (envs k) (callsOf k es) w).2.file.bytes ∧
    (Shop.run envs es s).2.writers k = some (path, (runW (envs k) (callsOf k es) w).2) ∧
    logOf k (Shop.run envs es s).1 = (runW (envs k) (callsOf k es) w).1 := by
  induction es generalizing s w with
  | nil => exact ⟨hf, hk, rfl⟩
  | cons e es ih =>
    obtain ⟨j, a⟩ := e
    rw [run_cons]
    have hsub : ∀ e, e ∈ es → e ∈ (j, a) :: es := fun e h => List.mem_cons_of_mem _ h
    by_cases hj : j = k
    · subst hj
      cases a with
      | create p opts => exact absurd (List.mem_cons_self ..) (ha.same p opts)
      | call c =>
        have hw : ({ w with file := { w.file with bytes := s.files path } } : Writer B) = w := by rw [hf]
        have hstep : s.step envs j (.call c) = (some (c.run (envs j) w).1,
            ⟨changed s.files path (c.run (envs j) w).2.file.bytes, changed s.writers j (some (path, (c.run (envs j) w).2))⟩) := by
          unfold Shop.step
          dsimp only
          rw [hk]
          dsimp only
          rw [hw]
        have hcalls : callsOf j ((j, .call c) :: es) = c :: callsOf j es := by
          unfold callsOf
          rw [List.filterMap_cons]
          dsimp only
          rw [if_pos rfl]
        have hrun : runW (envs j) (c :: callsOf j es) w =
            ((c, (c.run (envs j) w).1) :: (runW (envs j) (callsOf j es) (c.run (envs j) w).2).1,
              (runW (envs j) (callsOf j es) (c.run (envs j) w).2).2) := rfl
        rw [hcalls, hrun, hstep]
        obtain ⟨i1, i2, i3⟩ := ih ⟨changed s.files path (c.run (envs j) w).2.file.bytes,
            changed s.writers j (some (path, (c.run (envs j) w).2))⟩ (c.run (envs j) w).2
          (changed_same _ _ _) (changed_same _ _ _)
          ⟨fun p o h => ha.same p o (hsub _ h), fun i o hi h => ha.newcomers i o hi (hsub _ h), fun i w' hi h => by
            have h := (changed_other s.writers (some (path, (c.run (envs j) w).2)) hi).symm.trans h
            exact (ha.others i w' hi h).imp id fun h' c hc => h' c (hsub _ hc)⟩
        refine ⟨i1, i2, ?_⟩
        rw [← i3]
        unfold logOf
        rw [List.filterMap_cons]
        dsimp only
        rw [if_pos rfl]
    · have hkj : k ≠ j := fun h => hj h.symm
      have hcalls : callsOf k ((j, a) :: es) = callsOf k es := by
        unfold callsOf
        rw [List.filterMap_cons]
        cases a with
        | create p opts => rfl
        | call c =>
          dsimp only
          rw [if_neg hj]
      have hlog : ∀ r l, logOf k ((j, a, r) :: l) = logOf k l := by
        intro r l
        unfold logOf
        rw [List.filterMap_cons]
        cases a with
        | create p opts => rfl
        | call c =>
          cases r with
          | none => rfl
          | some r =>
            dsimp only
            rw [if_neg hj]
      rw [hcalls]
      dsimp only
      rw [hlog]
      -- the step of another writer
      suffices h : (s.step envs j a).2.writers k = some (path, w) ∧ (s.step envs j a).2.files path = w.file.bytes ∧
          ∀ i w', i ≠ k → (s.step envs j a).2.writers i = some (path, w') → w'.fileOpen = false ∨ ∀ c, (i, .call c) ∈ es → c.Harmless by
        exact ih _ w h.1 h.2.1 ⟨fun p o h => ha.same p o (hsub _ h), fun i o hi h => ha.newcomers i o hi (hsub _ h), h.2.2⟩
      have hold : ∀ i w', i ≠ k → s.writers i = some (path, w') → w'.fileOpen = false ∨ ∀ c, (i, .call c) ∈ es → c.Harmless :=
        fun i w' hi h => (ha.others i w' hi h).imp id fun h' c hc => h' c (hsub _ hc)
      cases a with
      | create p opts =>
        have hp : path ≠ p := fun h => ha.newcomers j opts hj (by rw [h]; exact List.mem_cons_self ..)
        have key : ∀ (b : Bytes) (x : Option (Bytes × Writer B)), (∀ w', x ≠ some (path, w')) →
            changed s.writers j x k = some (path, w) ∧ changed s.files p b path = w.file.bytes ∧
            ∀ i w', i ≠ k → changed s.writers j x i = some (path, w') → w'.fileOpen = false ∨ ∀ c, (i, .call c) ∈ es → c.Harmless := by
          intro b x hx
          refine ⟨(changed_other _ _ hkj).trans hk, (changed_other _ _ hp).trans hf, fun i w' hi h => ?_⟩
          by_cases hij : i = j
          · subst hij
            rw [changed_same] at h
            exact absurd h (hx w')
          · rw [changed_other _ _ hij] at h
            exact hold i w' hi h
        unfold Shop.step
        dsimp only
        generalize newWriter (B := B) opts (envs j) = x
        obtain ⟨r, w1⟩ := x
        cases r with
        | ok u =>
          exact key w1.file.bytes (some (p, w1)) fun w' h => hp (Prod.mk.inj (Option.some.inj h)).1.symm
        | error e => exact key w1.file.bytes none fun w' h => by cases h
      | call c =>
        unfold Shop.step
        dsimp only
        rcases hw : s.writers j with _ | ⟨p, wj⟩
        · exact ⟨hk, hf, hold⟩
        · dsimp only
          by_cases hp : path = p
          · subst hp
            have hfile : (c.run (envs j) { wj with file := { wj.file with bytes := s.files path } }).2.file.bytes = s.files path ∧
                (wj.fileOpen = false → (c.run (envs j) { wj with file := { wj.file with bytes := s.files path } }).2.fileOpen = false) := by
              refine ⟨?_, fun h => (closed_call' c (envs j) { wj with file := { wj.file with bytes := s.files path } } h).2⟩
              rcases ha.others j wj hj hw with h | h
              · rw [(closed_call' c (envs j) { wj with file := { wj.file with bytes := s.files path } } h).1]
              · rw [harmless_call (h c (List.mem_cons_self ..))]
            refine ⟨(changed_other _ _ hkj).trans hk, (changed_same _ _ _).trans (hfile.1.trans hf), fun i w' hi h => ?_⟩
            by_cases hij : i = j
            · subst hij
              rw [changed_same] at h
              have hw' := (Prod.mk.inj (Option.some.inj h)).2
              refine (hold i wj hi hw).imp (fun h => ?_) id
              rw [← hw']
              exact hfile.2 h
            · rw [changed_other _ _ hij] at h
              exact hold i w' hi h
          · refine ⟨(changed_other _ _ hkj).trans hk, (changed_other _ _ hp).trans hf, fun i w' hi h => ?_⟩
            by_cases hij : i = j
            · subst hij
              rw [changed_same] at h
              exact absurd (Prod.mk.inj (Option.some.inj h)).1.symm hp
            · rw [changed_other _ _ hij] at h
              exact hold i w' hi h

/-- **C88.** Whatever happened before, and whatever other writers do to other files: a writer on whose file nobody else works
after its creation behaves as if it were alone in the world. All its calls return what they would return then, and its file
becomes, byte for byte, what it would become then. In particular the last writer created on a path replaces all earlier ones. -/
theorem C88_alone (envs : Nat → Env) (before after : List (Nat × Act)) (k : Nat) (path : Bytes) (opts : List WriterOption)
    (s : Shop B) {w0 : Writer B} (h0 : newWriter opts (envs k) = (.ok (), w0))
    (ha : LeftAlone k path (Shop.run envs before s).2 after) :
    ∃ log : List (Nat × Act × Option Result),
      (Shop.run envs (before ++ (k, .create path opts) :: after) s).1 =
        (Shop.run envs before s).1 ++ (k, .create path opts, some (.ok ())) :: log ∧
      logOf k log = (runW (envs k) (callsOf k after) w0).1 ∧
      (Shop.run envs (before ++ (k, .create path opts) :: after) s).2.files path =
        (runW (envs k) (callsOf k after) w0).2.file.bytes := by
  rw [run_append, run_cons]
  generalize Shop.run envs before s = x at ha
  obtain ⟨blog, s1⟩ := x
  have hstep : s1.step envs k (.create path opts) =
      (some (.ok ()), ⟨changed s1.files path w0.file.bytes, changed s1.writers k (some (path, w0))⟩) := by
    unfold Shop.step
    dsimp only
    rw [h0]
  dsimp only
  rw [hstep]
  obtain ⟨h1, _, h3⟩ := alone_run envs k path after
    ⟨changed s1.files path w0.file.bytes, changed s1.writers k (some (path, w0))⟩ w0 (changed_same _ _ _) (changed_same _ _ _)
    ⟨ha.same, ha.newcomers, fun i w' hi h => by
      exact ha.others i w' hi ((changed_other s1.writers (some (path, w0)) hi).symm.trans h)⟩
  exact ⟨_, rfl, h3, h1⟩

/-! ### Two writers on one file -/

/-- A writer that makes calls while nobody else does. -/
theorem solo_run (envs : Nat → Env) (k : Nat) (path : Bytes) (calls : List Call) (s : Shop B) (w : Writer B)
    (hk : s.writers k = some (path, w)) (hf : s.files path = w.file.bytes) {log : Log} {w' : Writer B}
    (hr : runCalls (envs k) calls w = (log, w')) :
    (Shop.run envs (calls.map fun c => (k, .call (.call c))) s).1 = log.map (fun ev => (k, .call (.call ev.1), some ev.2)) ∧
    (Shop.run envs (calls.map fun c => (k, .call (.call c))) s).2.files path = w'.file.bytes ∧
    (Shop.run envs (calls.map fun c => (k, .call (.call c))) s).2.writers k = some (path, w') ∧
    ∀ j, j ≠ k → (Shop.run envs (calls.map fun c => (k, .call (.call c))) s).2.writers j = s.writers j := by
  induction calls generalizing s w log with
  | nil =>
    cases hr
    exact ⟨rfl, hf, hk, fun _ _ => rfl⟩
  | cons c cs ih =>
    have hstep : s.step envs k (.call (.call c)) = (some (c.run (envs k) w).1,
        ⟨changed s.files path (c.run (envs k) w).2.file.bytes, changed s.writers k (some (path, (c.run (envs k) w).2))⟩) := by
      unfold Shop.step
      dsimp only
      rw [hk]
      dsimp only
      rw [hf]
      rfl
    have hr' : runCalls (envs k) (c :: cs) w = ((c, (c.run (envs k) w).1) :: (runCalls (envs k) cs (c.run (envs k) w).2).1,
        (runCalls (envs k) cs (c.run (envs k) w).2).2) := rfl
    rw [hr'] at hr
    obtain ⟨hl, hw⟩ := Prod.mk.inj hr
    rw [List.map_cons, run_cons, hstep, ← hl]
    obtain ⟨i1, i2, i3, i4⟩ := ih ⟨changed s.files path (c.run (envs k) w).2.file.bytes,
        changed s.writers k (some (path, (c.run (envs k) w).2))⟩ (c.run (envs k) w).2 (changed_same _ _ _) (changed_same _ _ _)
      (Prod.ext rfl hw)
    refine ⟨?_, i2, i3, fun j hj => (i4 j hj).trans (changed_other _ _ hj)⟩
    rw [List.map_cons]
    exact congrArg _ i1

/-- What both writers have in common before `Finalize`. -/
structure Ready (w : Writer B) (e : UInt32) (blks : List Blk) : Prop where
  inv : Inv w blks []
  clean : Clean w blks
  isOpen : w.fileOpen = true
  enc : w.encodingType = e
  chain : Chain e 64 blks w.file.pos
  reserved : slice w.file.bytes 60 4 = [0, 0, 0, 0]

variable [LawfulBitmap B]

theorem ready {env : Env} {opts : List WriterOption} {calls : List Call} {log : Log} {w : Writer B}
    (h : History B env opts calls log w) (hb : ∀ c ∈ calls, c.Bounded) (henc : SymEnc (chosenEncoding opts))
    (hno : NoIOError log) (hnf : Call.finalize ∉ calls) :
    ∃ blks, Ready w (chosenEncoding opts) blks ∧ blks.map Blk.pairs = acked log := by
  have hmis : NoMismatch log := history_noMismatch h hb henc.allMatch hno.finalize
  obtain ⟨blks, hi, hc, hp, ho, he, _, _, hchain, _⟩ := history_clean' h hb hmis hno
  refine ⟨blks, ⟨hi, hc, ho, he, he ▸ hchain hnf, ?_⟩, hp⟩
  obtain ⟨w0, hnew, hrun⟩ := h.created
  obtain ⟨hi0, hc0, _, he0, _, hp0, _⟩ := newWriter_inv hnew
  obtain ⟨j, hs0⟩ := wp_ok (writeHeader_spec env opts) hnew
  have hb0 : w0.file.bytes = startBytes (env.clock j) opts := by rw [hs0.file]
  have hbytes := runCalls_bytes calls hb hi0 hc0 (by rw [he0]; exact henc.regular) (by rw [hrun]; exact hno)
    (by rw [hrun]; exact hmis) hnf
  rw [hrun] at hbytes
  dsimp only at hbytes
  rw [hbytes, hb0, slice_append_left _ _ _ _ (by rw [startBytes_length]; omega)]
  unfold startBytes slice
  rw [List.drop_append_of_le_length (by rw [headerFields_length]; exact Nat.le_refl _), List.drop_eq_nil_of_le (by rw [headerFields_length]; exact Nat.le_refl _)]
  rfl

/-- Two blocks of the same shape. -/
structure Alike (e : UInt32) (a b : Blk) : Prop where
  off : a.off = b.off
  len : a.ids.length = b.ids.length
  idSize : idSize e a.ids = idSize e b.ids
  valSize : valSize e a.vals = valSize e b.vals

theorem alike_chain {e : UInt32} (he : RegularEnc e) {lo hi hi' : Nat} {as bs : List Blk} (ha : Chain e lo as hi) (hb : Chain e lo bs hi')
    (hoka : ∀ b ∈ as, b.OK e) (hokb : ∀ b ∈ bs, b.OK e)
    (hr : Each (SameRoom e) (as.map Blk.pairs) (bs.map Blk.pairs)) : Each (Alike e) as bs ∧ hi = hi' := by
  induction as generalizing bs lo with
  | nil =>
    cases bs with
    | nil => exact ⟨.nil, ha.symm.trans hb⟩
    | cons b bs => cases hr
  | cons a as ih =>
    cases bs with
    | nil => cases hr
    | cons b bs =>
      obtain ⟨ha1, ha2⟩ := ha
      obtain ⟨hb1, hb2⟩ := hb
      cases hr with
      | cons hab hr =>
        obtain ⟨h1, h2, h3⟩ := hab
        have oka := hoka a (List.mem_cons_self ..)
        have okb := hokb b (List.mem_cons_self ..)
        have hal : Alike e a b := by
          refine ⟨ha1.trans hb1.symm, h1, ?_, ?_⟩
          · rw [← oka.sec.1, ← okb.sec.1, idSection_doc he, idSection_doc he]; exact h2
          · rw [← oka.sec.2, ← okb.sec.2, valSection_doc he, valSection_doc he]; exact h3
        have hstop : a.stop e = b.stop e := by
          unfold Blk.stop
          rw [Blk.size_eq, Blk.size_eq, Blk.img_length e a oka, Blk.img_length e b okb, hal.off, hal.idSize, hal.valSize]
        rw [hstop] at ha2
        obtain ⟨i1, i2⟩ := ih ha2 hb2 (fun b h => hoka b (List.mem_cons_of_mem _ h)) (fun b h => hokb b (List.mem_cons_of_mem _ h)) hr
        exact ⟨.cons hal i1, i2⟩

omit [Bitmap B] [LawfulBitmap B] in
theorem _root_.VibeCol.Each.get {α β : Type} {R : α → β → Prop} {as : List α} {bs : List β} (h : Each R as bs) :
    as.length = bs.length ∧ ∀ i (ha : i < as.length) (hb : i < bs.length), R as[i] bs[i] := by
  induction h with
  | nil => exact ⟨rfl, fun i h => absurd h (Nat.not_lt_zero i)⟩
  | cons h t ih =>
    refine ⟨congrArg (· + 1) ih.1, fun i ha hb => ?_⟩
    cases i with
    | zero => exact h
    | succ i => exact ih.2 i (Nat.lt_of_succ_lt_succ ha) (Nat.lt_of_succ_lt_succ hb)

omit [LawfulBitmap B] in
/-- What becomes of the file if writer `a` finalizes it after writer `b` has put blocks of the same shape into it. -/
theorem finalize_over {env : Env} {a b : Writer B} {e : UInt32} {as bs : List Blk} (he : SymEnc e) (ha : Ready a e as) (hb : Ready b e bs)
    (hall : Each (Alike e) as bs) (hpos : a.file.pos = b.file.pos) (hfew : as.length ≤ maxBlocks) {w' : Writer B}
    (hf : finalize env { a with file := { a.file with bytes := b.file.bytes } } = (.ok (), w')) (hsz : w'.file.bytes.length < 2 ^ 63) :
    ∃ r : Reader B, newReader w'.file.bytes = .ok r ∧ Indexed r (as.map Blk.pairs) ∧
      ∀ i (hi : i < bs.length), getPairs r (UInt64.ofNat i) = .ok bs[i].pairs := by
  generalize hx : ({ a with file := { a.file with bytes := b.file.bytes } } : Writer B) = x at hf
  have hxb : x.file.bytes = b.file.bytes := by rw [← hx]
  have hxp : x.file.pos = a.file.pos := by rw [← hx]
  have hxl : x.file.bytes.length = b.file.bytes.length := by rw [hxb]
  have hapos := ha.clean.atEnd
  have hbpos := hb.clean.atEnd
  have h64 := ha.inv.pos64
  obtain ⟨_, hcnt, t, hs⟩ := wp_ok (finalize_spec env x (by omega) (by omega) (by omega)) hf
  have hbm : bitmapBytes x = bitmapBytes a := by rw [← hx]; rfl
  have htail : tailBytes x = tailBytes a := by
    have hl : (phase1 x).length = (phase1 a).length := by
      rw [phase1_length x (by omega), phase1_length a (by omega), hxp, hbm]
    unfold tailBytes footPad
    rw [hl, ← hx]
    rfl
  have hhead : finHeader t x = finHeader t a := by
    rw [← hx]; rfl
  have hfile : w'.file.bytes = finalBytes t x := by rw [hs.file]
  -- the file that writer `a` would have left alone
  obtain ⟨hlen2x, hlen2a⟩ := And.intro (phase2_length t x (by omega) (by omega)) (phase2_length t a h64 ha.inv.posLe)
  have hl1x := phase1_length x (by omega)
  have hl1a := phase1_length a ha.inv.posLe
  have hlen : (finalBytes t x).length = (finalBytes t a).length := by
    unfold finalBytes
    rw [List.length_append, List.length_append, hlen2x, hlen2a, hl1x, hl1a, htail, hxp, hbm]
  have hcnt' : a.blockCount = 0 ∨ a.blockPositions.length = a.blockCount := by rw [← hx] at hcnt; exact hcnt
  obtain ⟨_, _, _, _, hok, _⟩ := final_inv a { a with file := { bytes := finalBytes t a, pos := (finalBytes t a).length } } as []
    ha.inv hcnt' t ⟨_, _, rfl⟩
  obtain ⟨hd, bo, fs, H, _, hbo⟩ := hok (by show (finalBytes t a).length < _; rw [← hlen, ← hfile]; exact hsz)
  rw [ha.enc] at H
  change FileOK (finalBytes t a) hd e as _ bo fs at H
  -- both files agree outside the blocks
  have hsame : ∀ p, p < 64 ∨ bo ≤ p → (finalBytes t x)[p]? = (finalBytes t a)[p]? := by
    intro p hp
    rcases Nat.lt_or_ge p 60 with h60 | h60
    · unfold finalBytes phase2
      have hfl := headerFields_length (finHeader t a)
      rw [List.append_assoc, List.append_assoc, List.getElem?_append_left (by rw [hhead]; omega), List.getElem?_append_left (by omega), hhead]
    · rcases Nat.lt_or_ge p 64 with h4 | h4
      · have e1 := finalBytes_slice_old t x (by omega) (by omega) 60 4 (by omega) (by omega)
        have e2 := finalBytes_slice_old t a h64 ha.inv.posLe 60 4 (by omega) (by omega)
        rw [hxb, hb.reserved] at e1
        rw [ha.reserved] at e2
        have := congrArg (fun l : Bytes => l[p - 60]?) (e1.trans e2.symm)
        simp only [slice_getElem? _ _ _ (p - 60) (show p - 60 < 4 by omega)] at this
        rwa [show 60 + (p - 60) = p by omega] at this
      · have hp : bo ≤ p := by omega
        rw [hbo] at hp
        have key : ∀ y : Writer B, y.file.pos = a.file.pos → a.file.pos ≤ y.file.bytes.length → bitmapBytes y = bitmapBytes a → tailBytes y = tailBytes a →
            (finalBytes t y)[p]? = (bitmapBytes a ++ tailBytes a)[p - a.file.pos]? := by
          intro y h1 h2 h3 h4
          have hfl := headerFields_length (finHeader t y)
          unfold finalBytes phase2 phase1
          rw [h1, h3, h4, List.drop_append_of_le_length (by rw [List.length_take]; omega), List.append_assoc, List.append_assoc,
            List.getElem?_append_right (by omega), List.getElem?_append_right (by rw [List.length_drop, List.length_take]; omega)]
          congr 1
          rw [List.length_drop, List.length_take]
          omega
        rw [key x hxp (by omega) hbm htail, key a rfl (by omega) rfl rfl]
  have hmax := hfew
  unfold maxBlocks at hmax
  have hopen := H.damaged (B := B) (bytes' := finalBytes t x) (by omega) hlen hsame
  rw [hfile]
  have hI := H.indexed (B := B) hfew
  refine ⟨_, hopen, ⟨hI.few, hI.count, hI.index, hI.entry, hI.ok⟩, fun i hi => ?_⟩
  obtain ⟨hl, hget⟩ := hall.get
  have hia : i < as.length := by omega
  have hal := hget i hia hi
  have oka := H.ok _ (List.getElem_mem hia)
  have hoka : as[i].OK e := oka
  have hmb : bs[i] ∈ bs := List.getElem_mem hi
  have okb : bs[i].OK e := by have := hb.inv.ok _ hmb; rwa [hb.enc] at this
  have himgb := hb.clean.img _ hmb
  rw [hb.enc] at himgb
  have hlaidb : Laid e 64 bs b.file.pos := by have := hb.clean.laid; rwa [hb.enc] at this
  have hmem := hlaidb.mem _ hmb
  have hil := Blk.img_length e _ okb
  have hszb := Blk.img_le_size e bs[i]
  have hst : bs[i].stop e = bs[i].off + bs[i].size e := rfl
  -- the image of block `i` of writer `b` is in the file
  have himg : slice (finalBytes t x) bs[i].off (bs[i].img e).length = bs[i].img e := by
    rw [finalBytes_slice_old t x (by omega) (by omega) _ _ (by omega) (by omega), hxb]
    exact himgb
  have hidl := okb.sec.1
  have hvall := okb.sec.2
  unfold getPairs
  rw [uint64_ofNat_toInt64 i, H.readBlock_damaged (B := B) hlen i hia ?_ { okReader (finalBytes t a) hd e as with bytes := finalBytes t x } rfl
    H.enc (by simp [okReader, hia]) (by omega), hal.off, hal.idSize, hal.valSize, hal.len]
  · have s1 := slice_of_slice himg 80 (idSize e bs[i].ids) (by omega)
    have s2 := slice_of_slice himg (80 + idSize e bs[i].ids) (valSize e bs[i].vals) (by omega)
    rw [Nat.add_assoc, s1, s2]
    have d1 : slice (bs[i].img e) 80 (idSize e bs[i].ids) = idSection e bs[i].ids := by
      have hl := layoutBytes_length e bs[i].ids bs[i].vals
      have h52 := header52_length e bs[i].ids bs[i].vals
      show slice (image e bs[i].ids bs[i].vals) _ _ = _
      unfold image
      rw [slice_append_left _ _ _ _ (by simp only [List.length_append, h52, hl, hidl, le32_length]; omega),
        slice_append_right _ _ _ _ (by simp [h52, hl])]
      simp only [List.length_append, h52, hl, le32_length]
      simp [slice, ← hidl]
    have d2 : slice (bs[i].img e) (80 + idSize e bs[i].ids) (valSize e bs[i].vals) = valSection e bs[i].vals := by
      have hl := layoutBytes_length e bs[i].ids bs[i].vals
      have h52 := header52_length e bs[i].ids bs[i].vals
      show slice (image e bs[i].ids bs[i].vals) _ _ = _
      unfold image
      rw [slice_append_right _ _ _ _ (by simp only [List.length_append, h52, hl, hidl, le32_length]; omega)]
      simp only [List.length_append, h52, hl, le32_length, hidl]
      simp [slice, ← hvall]
    rw [d1, d2]
    exact decodeBlockData_sections _ he _ _ okb.len
  · have e1 := slice_of_slice himg 64 16 (by omega)
    have e2 := slice_of_slice (H.img _ (List.getElem_mem hia)) 64 16 (by rw [Blk.img_length e _ hoka]; omega)
    rw [hal.off] at e2 ⊢
    rw [e1, e2]
    have lay : ∀ b : Blk, slice (b.img e) 64 16 = layoutBytes e b.ids b.vals := by
      intro b
      have hl := layoutBytes_length e b.ids b.vals
      have h52 := header52_length e b.ids b.vals
      show slice (image e b.ids b.vals) _ _ = _
      simp [slice, image, List.drop_append, List.drop_eq_nil_of_le, h52, hl]
    rw [lay, lay]
    unfold layoutBytes
    rw [hal.idSize, hal.valSize]

omit [LawfulBitmap B] in
/-- Without faults `a.Finalize` goes through, and the file has the length of the file that `a` would have written alone. -/
theorem finalize_over_ok {env : Env} (hn : env.NoFault) {a b : Writer B} {e : UInt32} {as bs : List Blk} (ha : Ready a e as) (hb : Ready b e bs)
    (hpos : a.file.pos = b.file.pos) :
    ∃ w' wa, finalize env { a with file := { a.file with bytes := b.file.bytes } } = (.ok (), w') ∧ finalize env a = (.ok (), wa) ∧
      w'.file.bytes.length = wa.file.bytes.length := by
  have hapos := ha.clean.atEnd
  have hbpos := hb.clean.atEnd
  have h64 := ha.inv.pos64
  obtain ⟨wa, hfa⟩ := finalize_noFault hn ha.inv ha.clean ha.isOpen
  obtain ⟨_, hcnta, t, hs⟩ := wp_ok (finalize_spec env a h64 ha.inv.posLe ha.inv.near) hfa
  generalize hx : ({ a with file := { a.file with bytes := b.file.bytes } } : Writer B) = x
  have hxp : x.file.pos = a.file.pos := by rw [← hx]
  have hxl : x.file.bytes.length = b.file.bytes.length := by rw [← hx]
  have hspec := finalize_spec env x (by omega) (by omega) (by omega)
  rcases hf : finalize env x with ⟨r, w'⟩
  cases r with
  | error er =>
    obtain ⟨f, hfe, _⟩ := wp_error hspec hf
    have ho : x.fileOpen = true := by rw [← hx]; exact ha.isOpen
    have hnf := NoFault.not_faulty hn ho
    cases hfe with
    | bitmap k hF => exact absurd hF hnf
    | header t k hF => exact absurd hF hnf
    | foot t k hF _ => exact absurd hF hnf
    | tracking t hc =>
      rw [← hx] at hc
      have hc1 : 0 < a.blockCount := hc.1
      have hc2 : a.blockPositions.length ≠ a.blockCount := hc.2
      omega
  | ok u =>
    refine ⟨w', wa, rfl, hfa, ?_⟩
    obtain ⟨_, _, t', hs'⟩ := wp_ok hspec hf
    have hbm : bitmapBytes x = bitmapBytes a := by rw [← hx]; rfl
    have hl : (phase1 x).length = (phase1 a).length := by
      rw [phase1_length x (by omega), phase1_length a (by omega), hxp, hbm]
    have htail : tailBytes x = tailBytes a := by
      unfold tailBytes footPad
      rw [hl, ← hx]
      rfl
    rw [hs.file, hs'.file]
    show (finalBytes t' x).length = (finalBytes t a).length
    unfold finalBytes
    rw [List.length_append, List.length_append, phase2_length t' x (by omega) (by omega), phase2_length t a h64 ha.inv.posLe, hl, htail]

omit [LawfulBitmap B] in
theorem step_create {envs : Nat → Env} {k : Nat} {path : Bytes} {opts : List WriterOption} {w : Writer B} (s : Shop B)
    (h : newWriter (B := B) opts (envs k) = (.ok (), w)) :
    s.step envs k (.create path opts) = (some (.ok ()), ⟨changed s.files path w.file.bytes, changed s.writers k (some (path, w))⟩) := by
  unfold Shop.step
  dsimp only
  rw [h]

omit [LawfulBitmap B] in
theorem logOf_append (k : Nat) (a b : List (Nat × Act × Option Result)) : logOf k (a ++ b) = logOf k a ++ logOf k b := List.filterMap_append ..

theorem logOf_calls (k : Nat) (log : Log) :
    logOf k (log.map fun ev => (k, Act.call (.call ev.1), some ev.2)) = log.map fun ev => (WCall.call ev.1, ev.2) := by
  induction log with
  | nil => rfl
  | cons ev log ih =>
    rw [List.map_cons, List.map_cons, ← ih]
    unfold logOf
    rw [List.filterMap_cons]
    simp

theorem logOf_others {j k : Nat} (h : j ≠ k) (log : Log) :
    logOf k (log.map fun ev => (j, Act.call (.call ev.1), some ev.2)) = [] := by
  induction log with
  | nil => rfl
  | cons ev log ih =>
    rw [List.map_cons, ← ih]
    unfold logOf
    rw [List.filterMap_cons]
    simp [h]

omit [LawfulBitmap B] in
theorem opened_run {envs : Nat → Env} {k : Nat} {opts : List WriterOption} {calls : List Call} {log : Log} {w0 w : Writer B} (s : Shop B) (path : Bytes)
    (hc : newWriter (B := B) opts (envs k) = (.ok (), w0)) (hr : runCalls (envs k) calls w0 = (log, w)) :
    ∃ S : Shop B, Shop.run envs ((k, Act.create path opts) :: calls.map fun c => (k, Act.call (.call c))) s =
        ((k, .create path opts, some (.ok ())) :: log.map (fun ev => (k, .call (.call ev.1), some ev.2)), S) ∧
      S.files path = w.file.bytes ∧ S.writers k = some (path, w) ∧ ∀ j, j ≠ k → S.writers j = s.writers j := by
  obtain ⟨a1, a2, a3, a4⟩ := solo_run envs k path calls ⟨changed s.files path w0.file.bytes, changed s.writers k (some (path, w0))⟩ w0
    (changed_same _ _ _) (changed_same _ _ _) hr
  refine ⟨_, ?_, a2, a3, fun j hj => (a4 j hj).trans (changed_other _ _ hj)⟩
  rw [run_cons, step_create s hc, a1]

/-- **C88.** Nothing protects a file against a second writer. Writer `j` writes its blocks; then writer `k` is created on the
same file and writes as many blocks of the same sizes; then `j` calls `Finalize`. Both see what they would have seen alone, all
blocks were acknowledged and `Finalize` returns nil. The file opens: `GetPairs` delivers the blocks of `k`, and the
statistics of `Aggregate()` are those of the blocks of `j`. -/
theorem C88_mixed {envs : Nat → Env} {j k : Nat} (hjk : j ≠ k) {path : Bytes} {optsA optsB : List WriterOption} {callsA callsB : List Call}
    {logA logB : Log} {wA wB : Writer B} (hA : History B (envs j) optsA callsA logA wA) (hB : History B (envs k) optsB callsB logB wB)
    (hbA : ∀ c ∈ callsA, c.Bounded) (hbB : ∀ c ∈ callsB, c.Bounded) (hioA : NoIOError logA) (hioB : NoIOError logB)
    (hfA : Call.finalize ∉ callsA) (hfB : Call.finalize ∉ callsB) (hn : (envs j).NoFault) (henc : SymEnc (chosenEncoding optsA))
    (hsame : chosenEncoding optsB = chosenEncoding optsA) (hroom : Each (SameRoom (chosenEncoding optsA)) (acked logA) (acked logB))
    (hfew : (acked logA).length ≤ maxBlocks) (hrep : StatsRepresentable (acked logA))
    (hsize : ∀ wA', finalize (envs j) wA = (.ok (), wA') → wA'.file.bytes.length < 2 ^ 63) (s : Shop B) :
    let es := ((j, Act.create path optsA) :: callsA.map fun c => (j, Act.call (.call c))) ++
      ((k, Act.create path optsB) :: callsB.map fun c => (k, Act.call (.call c))) ++ [(j, Act.call (.call .finalize))]
    let out := Shop.run envs es s
    logOf j out.1 = logA.map (fun ev => (WCall.call ev.1, ev.2)) ++ [(.call .finalize, .ok ())] ∧
      logOf k out.1 = logB.map (fun ev => (WCall.call ev.1, ev.2)) ∧
      ∃ r : Reader B, newReader (out.2.files path) = .ok r ∧ (acked logB).length = (acked logA).length ∧
        (∀ i (hi : i < (acked logB).length), getPairs r (UInt64.ofNat i) = .ok (acked logB)[i]) ∧
        ∀ sched, ∃ res, aggregate sched r = .ok res ∧ IsAggregate res (valuesOf (acked logA)) := by
  intro es out
  obtain ⟨as, hra, hpa⟩ := ready hA hbA henc hioA hfA
  obtain ⟨bs, hrb, hpb⟩ := ready hB hbB (hsame ▸ henc) hioB hfB
  rw [hsame] at hrb
  have hoka : ∀ b ∈ as, b.OK (chosenEncoding optsA) := by have := hra.inv.ok; rwa [hra.enc] at this
  have hokb : ∀ b ∈ bs, b.OK (chosenEncoding optsA) := by have := hrb.inv.ok; rwa [hrb.enc] at this
  obtain ⟨hall, hpos⟩ := alike_chain henc.regular hra.chain hrb.chain hoka hokb (by rw [hpa, hpb]; exact hroom)
  obtain ⟨w', wa, hf, hfa, hlen'⟩ := finalize_over_ok hn hra hrb hpos
  have hsz : w'.file.bytes.length < 2 ^ 63 := hlen' ▸ hsize wa hfa
  obtain ⟨a0, hca, hrunA⟩ := hA.created
  obtain ⟨b0, hcb, hrunB⟩ := hB.created
  -- the run
  obtain ⟨S, hs1, a2, a3, _⟩ := opened_run s path hca hrunA
  obtain ⟨T, hs2, b2, b3, b4⟩ := opened_run S path hcb hrunB
  have hTj : T.writers j = some (path, wA) := (b4 j hjk).trans a3
  have hstep : T.step envs j (.call (.call .finalize)) = (some (.ok ()), ⟨changed T.files path w'.file.bytes, changed T.writers j (some (path, w'))⟩) := by
    unfold Shop.step
    dsimp only
    rw [hTj]
    dsimp only
    rw [b2]
    show (some (finalize (envs j) _).1, _) = _
    rw [show (WCall.call .finalize).run (B := B) (envs j) { wA with file := { wA.file with bytes := wB.file.bytes } } = finalize (envs j) _ from rfl, hf]
  have hout : out = ((((j, .create path optsA, some (.ok ())) :: logA.map fun ev => (j, .call (.call ev.1), some ev.2)) ++
      ((k, .create path optsB, some (.ok ())) :: logB.map fun ev => (k, .call (.call ev.1), some ev.2))) ++ [(j, .call (.call .finalize), some (.ok ()))],
      ⟨changed T.files path w'.file.bytes, changed T.writers j (some (path, w'))⟩) := by
    show Shop.run envs es s = _
    unfold es
    rw [run_append, run_append, hs1]
    dsimp only
    rw [hs2]
    dsimp only
    rw [run_cons, hstep]
    rfl
  have hfile : out.2.files path = w'.file.bytes := by rw [hout]; exact changed_same _ _ _
  rw [hfile]
  obtain ⟨r, ho, hI, hget⟩ := finalize_over henc hra hrb hall hpos (by rw [← List.length_map (as := as) (f := Blk.pairs), hpa]; exact hfew) hf hsz
  have hlenb : (acked logB).length = bs.length := by rw [← hpb, List.length_map]
  refine ⟨?_, ?_, r, ho, ?_, ?_, fun sched => ⟨_, ?_, accOf_isAggregate _⟩⟩
  · rw [hout]
    dsimp only
    rw [logOf_append, logOf_append]
    show logOf j (logA.map _) ++ logOf j (logB.map _) ++ _ = _
    rw [logOf_calls, logOf_others hjk.symm, List.append_nil]
    simp [logOf]
  · rw [hout]
    dsimp only
    rw [logOf_append, logOf_append]
    show logOf k (logA.map _) ++ logOf k (logB.map _) ++ _ = _
    rw [logOf_calls, logOf_others hjk, List.nil_append]
    simp [logOf, hjk]
  · exact hroom.get.1.symm
  · intro i hi
    have := hget i (by omega)
    rw [this]
    simp [← hpb]
  · rw [hpa] at hI
    exact hI.footer {} rfl rfl rfl hrep

/-- **C88.** So the writer created last on a path, if those before it keep still from then on, has its file: after its
`FinalizeAndClose` returned nil, a reader finds exactly the blocks acknowledged to it. -/
theorem C88_last (envs : Nat → Env) (before after : List (Nat × Act)) (k : Nat) (path : Bytes) (opts : List WriterOption)
    (s : Shop B) {w0 : Writer B} (h0 : newWriter opts (envs k) = (.ok (), w0))
    (ha : LeftAlone k path (Shop.run envs before s).2 after) {log rest : List (WCall × Result)}
    (hlog : logOf k ((Shop.run envs (before ++ (k, .create path opts) :: after) s).1.drop (before.length + 1)) =
      log ++ (.finalizeAndClose, .ok ()) :: rest)
    (hno : ∀ ev ∈ log, ev.2 ≠ .error .io) (hb : ∀ c ∈ callsOf k after, ∀ d, c = .call d → d.Bounded)
    (henc : SymEnc (chosenEncoding opts)) (hn : (ackedW log).length ≤ maxBlocks)
    (hsz : ((Shop.run envs (before ++ (k, .create path opts) :: after) s).2.files path).length < 2 ^ 63) :
    ReadsBack B ((Shop.run envs (before ++ (k, .create path opts) :: after) s).2.files path) (ackedW log) ∧ ackedW rest = [] := by
  obtain ⟨tail, e1, e2, e3⟩ := C88_alone envs before after k path opts s h0 ha
  rw [e1, List.drop_append, run_length, List.drop_eq_nil_of_le (by rw [run_length]; omega), List.nil_append,
    show before.length + 1 - before.length = 1 by omega, List.drop_succ_cons, List.drop_zero, e2] at hlog
  rw [e3] at hsz ⊢
  obtain ⟨h1, h2, _⟩ := Closing.C66_complete h0 (w := (runW (envs k) (callsOf k after) w0).2) (Prod.ext hlog rfl) hno hb henc hn hsz
  exact ⟨h1, h2⟩

/-- What a quiet writer does with one block. -/
theorem one_block (ids : List UInt64) (vals : List Int64)
    (h : (runCalls quietEnv [.write ids vals] (newWriter (B := IdSet) [] quietEnv).2).1 = [(.write ids vals, .ok ())]) :
    ∃ w, History IdSet quietEnv [] [.write ids vals] [(.write ids vals, .ok ())] w := by
  obtain ⟨w0, h0⟩ := newWriter_ok (B := IdSet) quietEnv quietEnv_noFault []
  refine ⟨(runCalls quietEnv [.write ids vals] w0).2, w0, h0, ?_⟩
  rw [h0] at h
  rw [← h]

/-- **C88.** Not guaranteed: that an acknowledged block is in the file, or that the statistics in a file are those of its
blocks. Two writers on the file "x", one block each: all calls return nil, `GetPairs` reads the pair (2, 20), `Aggregate()` says the sum is 10. -/
theorem C88_refuted : ∃ (log : List (Nat × Act × Option Result)) (s : Shop IdSet) (r : Reader IdSet) (res : AggregateResult),
    Shop.run (fun _ => quietEnv) [(0, .create [120] []), (0, .call (.call (.write [1] [10]))), (1, .create [120] []),
      (1, .call (.call (.write [2] [20]))), (0, .call (.call .finalize))] ⟨fun _ => [], fun _ => none⟩ = (log, s) ∧
    logOf 0 log = [(.call (.write [1] [10]), .ok ()), (.call .finalize, .ok ())] ∧ logOf 1 log = [(.call (.write [2] [20]), .ok ())] ∧
    newReader (s.files [120]) = .ok r ∧ getPairs r 0 = .ok ([2], [20]) ∧ aggregate inOrder r = .ok res ∧ res.count = 1 ∧ res.sum = 10 := by
  obtain ⟨wA, hA⟩ := one_block [1] [10] (by decide +kernel)
  obtain ⟨wB, hB⟩ := one_block [2] [20] (by decide +kernel)
  have hbA : ∀ c ∈ [Call.write [1] [10]], c.Bounded := by decide
  have hbB : ∀ c ∈ [Call.write [2] [20]], c.Bounded := by decide
  have henc : SymEnc (chosenEncoding []) := by unfold SymEnc; decide
  have hioA : NoIOError [(Call.write [1] [10], .ok ())] := by unfold NoIOError; decide
  have hioB : NoIOError [(Call.write [2] [20], .ok ())] := by unfold NoIOError; decide
  have hroom : Each (SameRoom (chosenEncoding [])) (acked [(Call.write [1] [10], .ok ())]) (acked [(Call.write [2] [20], .ok ())]) :=
    .cons ⟨rfl, by decide +kernel, by decide +kernel⟩ .nil
  obtain ⟨h1, h2, r, h3, _, h4, h5⟩ := C88_mixed (envs := fun _ => quietEnv) (j := 0) (k := 1) (by decide) (path := [120]) hA hB hbA hbB hioA hioB
    (by decide) (by decide) quietEnv_noFault henc rfl hroom (by decide) (by unfold StatsRepresentable; decide)
    (fun wA' hf => Nat.lt_of_le_of_lt (finalized_length hA hbA (by unfold NoMismatch; decide) hioA hf _ (idSet_buffer _)) (by decide))
    ⟨fun _ => [], fun _ => none⟩
  obtain ⟨res, h6, h7⟩ := h5 inOrder
  have h8 := h4 0 (Nat.zero_lt_one)
  rw [show UInt64.ofNat 0 = 0 from rfl] at h8
  have hsum : res.sum = 10 := h7.sum.trans (by decide)
  have hcount : res.count = 1 := h7.count
  dsimp only [List.map_cons, List.map_nil, List.cons_append, List.nil_append] at h1 h2 h3
  generalize hout : Shop.run (fun _ => quietEnv) _ (⟨fun _ => [], fun _ => none⟩ : Shop IdSet) = out at h1 h2 h3
  exact ⟨out.1, out.2, r, res, hout, h1, h2, h3, h8, h6, hcount, hsum⟩

/-- The schedule of the example below before and after writer 1 is created: it replaces writer 0, which still makes an
estimate and closes; writer 2 works on another file. -/
def exampleBefore : List (Nat × Act) := [(0, .create [120] []), (0, .call (.call (.write [1] [10])))]

def exampleAfter : List (Nat × Act) :=
  [(1, .call (.call (.write [2, 3] [20, 30]))), (0, .call (.call (.estimate [7] [7]))), (2, .create [121] []), (0, .call .close),
   (2, .call (.call (.write [4] [40]))), (1, .call .finalizeAndClose)]

deriving instance DecidableEq for WCall

theorem exampleW (w0 : Writer IdSet) (h0 : newWriter [] quietEnv = (.ok (), w0)) :
    (runW quietEnv [.call (.write [2, 3] [20, 30]), .finalizeAndClose] w0).1 =
      [(.call (.write [2, 3] [20, 30]), .ok ()), (.finalizeAndClose, .ok ())] := by
  have h : (runW quietEnv [.call (.write [2, 3] [20, 30]), .finalizeAndClose] (newWriter (B := IdSet) [] quietEnv).2).1 =
      [(.call (.write [2, 3] [20, 30]), .ok ()), (.finalizeAndClose, .ok ())] := by decide +kernel
  rw [h0] at h
  exact h

/-- A case that meets the hypotheses of `C88_alone` and `C88_last`. -/
theorem C88_example : ∃ w0 : Writer IdSet, newWriter [] quietEnv = (.ok (), w0) ∧
    LeftAlone 1 [120] (Shop.run (fun _ => quietEnv) exampleBefore (⟨fun _ => [], fun _ => none⟩ : Shop IdSet)).2 exampleAfter ∧
    logOf 1 ((Shop.run (fun _ => quietEnv) (exampleBefore ++ (1, .create [120] []) :: exampleAfter)
      (⟨fun _ => [], fun _ => none⟩ : Shop IdSet)).1.drop 3) = [(.call (.write [2, 3] [20, 30]), .ok ()), (.finalizeAndClose, .ok ())] := by
  obtain ⟨w0, h0⟩ := newWriter_ok (B := IdSet) quietEnv quietEnv_noFault []
  have hla : LeftAlone 1 [120] (Shop.run (fun _ => quietEnv) exampleBefore (⟨fun _ => [], fun _ => none⟩ : Shop IdSet)).2 exampleAfter := by
    obtain ⟨S, hS, _, _, hS4⟩ := opened_run (envs := fun _ => quietEnv) (k := 0) (calls := [.write [1] [10]]) (opts := [])
      (⟨fun _ => [], fun _ => none⟩ : Shop IdSet) [120] h0 (Prod.eta _).symm
    have hS2 : (Shop.run (fun _ => quietEnv) exampleBefore (⟨fun _ => [], fun _ => none⟩ : Shop IdSet)).2 = S := congrArg Prod.snd hS
    rw [hS2]
    refine ⟨by simp [exampleAfter], by simp [exampleAfter], fun j w hj hw => .inr fun c hc => ?_⟩
    by_cases h : j = 0
    · subst h
      simp only [exampleAfter, List.mem_cons, Prod.mk.injEq, Act.call.injEq, List.not_mem_nil, or_false] at hc
      rcases hc with ⟨h, _⟩ | ⟨_, h⟩ | ⟨h, _⟩ | ⟨_, h⟩ | ⟨h, _⟩ | ⟨h, _⟩
      all_goals first | (exact absurd h (by decide)) | (subst h; trivial)
    · have := (hS4 j h).symm.trans hw
      cases this
  refine ⟨w0, h0, hla, ?_⟩
  obtain ⟨tail, e1, e2, _⟩ := C88_alone (fun _ => quietEnv) exampleBefore exampleAfter 1 [120] [] ⟨fun _ => [], fun _ => none⟩ h0 hla
  have hl : (Shop.run (fun _ => quietEnv) exampleBefore (⟨fun _ => [], fun _ => none⟩ : Shop IdSet)).1.length = 2 := run_length _ _ _
  rw [show callsOf 1 exampleAfter = [.call (.write [2, 3] [20, 30]), .finalizeAndClose] from rfl, exampleW w0 h0] at e2
  rw [e1]
  generalize (Shop.run (fun _ => quietEnv) exampleBefore (⟨fun _ => [], fun _ => none⟩ : Shop IdSet)).1 = pre at hl ⊢
  rw [List.drop_append, hl, List.drop_eq_nil_of_le (by omega), List.nil_append, List.drop_succ_cons, List.drop_zero]
  exact e2

end VibeCol.ManyWriters
