/-
Power failures: what is synced after a history, and what a `Finalize` can leave of the header.
-/
import Verif.Lemmas.PowerRemain
import Verif.Lemmas.Mixed
namespace VibeCol
set_option linter.unusedSectionVars false
variable {B : Type} [Bitmap B] [LawfulBitmap B]

theorem acked_cons (c : Call) (r : Result) (log : Log) : acked ((c, r) :: log) = ackedBy c r ++ acked log := rfl

/-- The cursor is at the end after an acknowledged block. -/
theorem writeBlock_atEnd {env : Env} {w w' : Writer B} {blks extra} (hi : Inv w blks extra) {ids vals} {r : Result}
    (hb : ids.length ≤ 2 ^ 27) (h : writeBlock ids vals env w = (r, w')) (hr : Acknowledges r) :
    w'.file.pos = w'.file.bytes.length ∧ 64 ≤ w'.file.pos := by
  by_cases hl : ids.length = vals.length
  · by_cases hne : ids.length = 0
    · have h1 : ids = [] := List.eq_nil_of_length_eq_zero hne
      have h2 : vals = [] := List.eq_nil_of_length_eq_zero (by omega)
      subst h1 h2
      rw [writeBlock_empty] at h
      cases h
      rcases hr with hr | ⟨_, hr⟩ <;> cases hr
    · by_cases hk : KnownEnc w.encodingType
      · have hout := writeBlock_out env w ids vals hk hl (by omega) hb hi.posLe hi.near
        rw [h] at hout
        have key : ∀ ids vals, Committed w ids vals w' → w'.file.pos = w'.file.bytes.length ∧ 64 ≤ w'.file.pos := by
          intro ids vals hc
          have := hi.posLe
          have := hi.pos64
          rw [show w'.file = _ from St.file hc]
          simp only [committedFile, List.length_append, List.length_take]
          omega
        dsimp only at hout
        cases hout with
        | full _ _ _ _ hc => exact key _ _ hc
        | part _ k _ _ _ _ _ _ _ hc => exact key _ _ hc
        | noop => rcases hr with hr | ⟨_, hr⟩ <;> cases hr
        | fail e _ k _ _ _ hw =>
          cases hw <;> rcases hr with hr | ⟨_, hr⟩ <;> cases hr
      · rw [writeBlock_unknown env w ids vals hl hne hk] at h
        cases h
        rcases hr with hr | ⟨_, hr⟩ <;> cases hr
  · rw [writeBlock_lengthMismatch env w ids vals hl] at h
    cases h
    rcases hr with hr | ⟨_, hr⟩ <;> cases hr

/-- `estimateBlockSize` touches neither the file contents nor the disk. -/
theorem estimate_quiet (ids : List UInt64) (vals : List Int64) (env : Env) (w : Writer B) :
    (estimateBlockSize ids vals env w).2.file.bytes = w.file.bytes ∧ (estimateBlockSize ids vals env w).2.disk = w.disk := by
  have key : wp (estimateBlockSize ids vals) (fun _ w' => w'.file.bytes = w.file.bytes ∧ w'.disk = w.disk)
      (fun _ w' => w'.file.bytes = w.file.bytes ∧ w'.disk = w.disk) env w := by
    unfold estimateBlockSize
    refine wp_ite (fun _ => wp_throw ⟨rfl, rfl⟩) fun _ => wp_ite (fun _ => wp_throw ⟨rfl, rfl⟩) fun _ => ?_
    refine wp_bind (wp_get (wp_bind (lift_keep (fun _ => wp_bind (lift_keep (fun _ => ?_) (fun _ => ⟨rfl, rfl⟩))) (fun _ => ⟨rfl, rfl⟩))))
    exact wp_bind (wp_seekCur (fun _ _ => wp_pure ⟨rfl, rfl⟩) (fun _ _ => ⟨rfl, rfl⟩))
  unfold wp at key
  generalize estimateBlockSize ids vals env w = res at key ⊢
  obtain ⟨r, w'⟩ := res
  cases r <;> exact key

/-- A call that reports neither an I/O error nor a mismatch either syncs everything or changes nothing. -/
theorem call_synced {env : Env} (c : Call) (hb : c.Bounded) {w : Writer B} {blks extra} (hi : Inv w blks extra)
    (h1 : (c.run env w).1 ≠ .error .io) (h2 : (c.run env w).1 ≠ .error .sectionSizeMismatch) (hnf : c ≠ .finalize) :
    AllSynced (c.run env w).2 ∨ ((c.run env w).2.file.bytes = w.file.bytes ∧ (c.run env w).2.disk = w.disk ∧
      ackedBy c (c.run env w).1 = []) := by
  cases c with
  | finalize => exact absurd rfl hnf
  | estimate ids vals =>
    right
    have := estimate_quiet ids vals env w
    simp only [Call.run]
    generalize estimateBlockSize ids vals env w = res at this ⊢
    obtain ⟨r, w'⟩ := res
    cases r <;> exact ⟨this.1, this.2, rfl⟩
  | write ids vals =>
    simp only [Call.run] at h1 h2 ⊢
    rcases hr : writeBlock ids vals env w with ⟨r, w'⟩
    rw [hr] at h1 h2
    dsimp only at h1 h2 ⊢
    by_cases hack : Acknowledges r
    · exact .inl (writeBlock_synced hr hack)
    · right
      have hno : ackedBy (.write ids vals) r = [] := by
        unfold ackedBy
        split
        · exact absurd (.inl rfl) hack
        · exact absurd (.inr ⟨_, rfl⟩) hack
        · rfl
      by_cases hl : ids.length = vals.length
      · by_cases hne : ids.length = 0
        · have e1 : ids = [] := List.eq_nil_of_length_eq_zero hne
          have e2 : vals = [] := List.eq_nil_of_length_eq_zero (by omega)
          subst e1 e2
          rw [writeBlock_empty] at hr
          cases hr
          exact ⟨rfl, rfl, rfl⟩
        · by_cases hk : KnownEnc w.encodingType
          · have hout := writeBlock_out env w ids vals hk hl (by omega) hb hi.posLe hi.near
            rw [hr] at hout
            dsimp only at hout
            cases hout with
            | full => exact absurd (.inl rfl) hack
            | part => exact absurd (.inr ⟨_, rfl⟩) hack
            | noop => exact absurd rfl h1
            | fail e _ k _ _ _ hw =>
              cases hw <;> first | exact absurd rfl h1 | exact absurd rfl h2
          · rw [writeBlock_unknown env w ids vals hl hne hk] at hr
            cases hr
            exact ⟨rfl, rfl, hno⟩
      · rw [writeBlock_lengthMismatch env w ids vals hl] at hr
        cases hr
        exact ⟨rfl, rfl, hno⟩

/-- As long as no call reports an I/O error, everything is synced once a block is acknowledged. -/
theorem runCalls_synced {env : Env} (calls : List Call) (hb : ∀ c ∈ calls, c.Bounded) {w : Writer B} {blks extra}
    (hi : Inv w blks extra) (hno : NoIOError (runCalls env calls w).1) (hmis : NoMismatch (runCalls env calls w).1)
    (hfirst : .finalize ∉ calls) (h : AllSynced w ∨ acked (runCalls env calls w).1 ≠ []) :
    AllSynced (runCalls env calls w).2 := by
  induction calls generalizing w blks extra with
  | nil =>
    rcases h with h | h
    · exact h
    · exact absurd rfl h
  | cons c cs ih =>
    have hrun : runCalls env (c :: cs) w =
      ((c, (c.run env w).1) :: (runCalls env cs (c.run env w).2).1, (runCalls env cs (c.run env w).2).2) := rfl
    rw [hrun] at hno hmis h ⊢
    have hbc := hb c (List.mem_cons_self ..)
    have h1 : (c.run env w).1 ≠ .error .io := hno _ (List.mem_cons_self ..)
    have h2 : (c.run env w).1 ≠ .error .sectionSizeMismatch := hmis _ (List.mem_cons_self ..)
    have hnf : c ≠ .finalize := fun hc => hfirst (hc ▸ List.mem_cons_self ..)
    obtain ⟨new, extra', _, hi', _⟩ := call_inv env c hbc w blks extra hi (fun _ => h1)
    refine ih (fun x hx => hb x (List.mem_cons_of_mem _ hx)) hi' (fun ev hev => hno ev (List.mem_cons_of_mem _ hev))
      (fun ev hev => hmis ev (List.mem_cons_of_mem _ hev)) (fun hc => hfirst (List.mem_cons_of_mem _ hc)) ?_
    rcases call_synced c hbc hi h1 h2 hnf with hs | ⟨h3, h4, h5⟩
    · exact .inl hs
    · rcases h with h | h
      · left; unfold AllSynced; rw [h3, h4]; exact h
      · right
        rw [acked_cons, h5, List.nil_append] at h
        exact h

/-- The first 64 bytes stay those of the fresh file until the first `Finalize`. -/
theorem history_start {env : Env} {opts : List WriterOption} {calls : List Call} {log : Log} {w : Writer B}
    (h : History B env opts calls log w) (hno : NoIOError log) (hfirst : .finalize ∉ calls) :
    ∃ t, ∀ i, i < 64 → w.file.bytes[i]? = (startBytes t opts)[i]? := by
  obtain ⟨w0, hnew, hrun⟩ := h.created
  obtain ⟨i, o, d, rfl⟩ := wp_ok (writeHeader_spec env opts) hnew
  have hl := startBytes_length (env.clock i) opts
  refine ⟨env.clock i, ?_⟩
  have hk := runCalls_keep (B := B) (env := env) (dk := False) (lo := 0) (hi := 64) (ref := startBytes (env.clock i) opts) calls
    (w := { (startWriter opts : Writer B) with
      opNo := o, disk := d,
      file := { bytes := startBytes (env.clock i) opts, pos := (startBytes (env.clock i) opts).length } })
    (fun hc => absurd hc hfirst) ⟨⟨by show 64 ≤ (startBytes _ _).length; omega, fun _ _ _ => rfl, fun h => h.elim, fun h => h.elim, fun h => h.elim⟩,
      by show 64 ≤ (startBytes _ _).length; omega⟩
    (by rw [hrun]; exact fun ev hev _ => hno ev ((List.dropLast_sublist _).subset hev))
  rw [hrun] at hk
  exact fun i hi => hk.file i (Nat.zero_le _) hi

theorem phase1_low (w : Writer B) (hpos : 64 ≤ w.file.pos) (hle : w.file.pos ≤ w.file.bytes.length) (i : Nat) (hi : i < 64) :
    (phase1 w)[i]? = w.file.bytes[i]? := by
  unfold phase1
  rw [List.getElem?_append_left (by rw [List.length_take]; omega), List.getElem?_take_of_lt (by omega)]

theorem phase2_low (t : UInt64) (w : Writer B) (i : Nat) (hi : i < 60) :
    (phase2 t w)[i]? = (finHeader t w).fields.flatten[i]? := by
  unfold phase2
  rw [List.getElem?_append_left (by rw [headerFields_length]; omega)]

/-- Whatever happens in `Finalize`, each of the first 60 bytes is the old or the new one. -/
theorem finalize_header {env : Env} {w w' : Writer B} {r : Result} (hpos : 64 ≤ w.file.pos)
    (hle : w.file.pos ≤ w.file.bytes.length) (hnear : w.file.bytes.length ≤ w.file.pos + 4)
    (h : finalize env w = (r, w')) :
    ∃ t, ∀ i, i < 60 → w'.file.bytes[i]? = w.file.bytes[i]? ∨ w'.file.bytes[i]? = (finHeader t w).fields.flatten[i]? := by
  have hhl := fun t => headerFields_length (finHeader t w)
  have hl1 := phase1_length w hle
  cases r with
  | ok u =>
    obtain ⟨_, _, t, hs⟩ := wp_ok (finalize_spec env w hpos hle hnear) h
    refine ⟨t, fun i hi => .inr ?_⟩
    rw [hs.file]
    show (finalBytes t w)[i]? = _
    rw [finalBytes, List.getElem?_append_left (by rw [phase2_length t w hpos hle]; omega), phase2_low t w i hi]
  | error e =>
    obtain ⟨f, hfe, hs⟩ := wp_error (finalize_spec env w hpos hle hnear) h
    cases hfe
    case bitmap k hF =>
      refine ⟨0, fun i hi => .inl ?_⟩
      rw [hs.file]
      exact writeAt_below _ _ _ _ (by omega) (by omega)
    case header t k hF =>
      refine ⟨t, fun i hi => ?_⟩
      rw [hs.file]
      show (writeAt (phase1 w) 0 _)[i]? = _ ∨ (writeAt (phase1 w) 0 _)[i]? = _
      have hk : ((finHeader t w).fields.flatten.take k).length ≤ 60 := by rw [List.length_take, hhl]; omega
      rw [writeAt_zero_take _ _ (by omega)]
      by_cases hik : i < ((finHeader t w).fields.flatten.take k).length
      · right
        rw [List.getElem?_append_left hik, List.getElem?_take_of_lt (by rw [List.length_take] at hik; omega)]
      · left
        rw [List.getElem?_append_right (by omega), List.getElem?_drop,
          show ((finHeader t w).fields.flatten.take k).length + (i - ((finHeader t w).fields.flatten.take k).length) = i by omega]
        exact phase1_low w hpos hle i (by omega)
    case foot t k hF hx =>
      refine ⟨t, fun i hi => .inr ?_⟩
      rw [hs.file]
      show (phase2 t w ++ _)[i]? = _
      rw [List.getElem?_append_left (by rw [phase2_length t w hpos hle]; omega), phase2_low t w i hi]
    case tracking t hx =>
      refine ⟨t, fun i hi => .inr ?_⟩
      rw [hs.file]
      show (phase2 t w ++ footPad w ++ _)[i]? = _
      rw [List.append_assoc, List.getElem?_append_left (by rw [phase2_length t w hpos hle]; omega), phase2_low t w i hi]

end VibeCol
