/-
C83: how much work writing is.
-/
import Verif.Model.Work
import Verif.Lemmas.Simple
import Verif.Props.Split
import Verif.Props.SimpleProgress
namespace VibeCol.Work
set_option linter.unusedSectionVars false
variable {B : Type} [Bitmap B]

/-! ### File operations -/

/-- `m` leaves the options alone and makes at most `hi` file operations, and if it succeeds at least `lo`. -/
def Does {α : Type} (m : WM B α) (lo hi : Nat) : Prop :=
  ∀ env w, (m env w).2.encodingType = w.encodingType ∧ (m env w).2.blockSizeTarget = w.blockSizeTarget ∧
    (w.opNo ≤ (m env w).2.opNo ∧ (m env w).2.opNo ≤ w.opNo + hi) ∧ ∀ a, (m env w).1 = .ok a → w.opNo + lo ≤ (m env w).2.opNo

namespace Does
variable {α β : Type}

theorem pure (a : α) : Does (Pure.pure a : WM B α) 0 0 := fun _ _ => ⟨rfl, rfl, ⟨Nat.le_refl _, Nat.le_refl _⟩, fun _ _ => Nat.le_refl _⟩
theorem throw (e : Err) (lo hi : Nat) : Does (WM.throw e : WM B α) lo hi := fun _ _ => ⟨rfl, rfl, ⟨Nat.le_refl _, Nat.le_add_right _ _⟩, nofun⟩

theorem bind {m : WM B α} {f : α → WM B β} {l1 h1 l2 h2 : Nat} (hm : Does m l1 h1) (hf : ∀ a, Does (f a) l2 h2) :
    Does (m >>= f) (l1 + l2) (h1 + h2) := by
  intro env w
  obtain ⟨a1, a2, a3, a4⟩ := hm env w
  rw [WM.bind_def]
  rcases e : m env w with ⟨r, w1⟩
  rw [e] at a1 a2 a3 a4
  cases r with
  | error e => exact ⟨a1, a2, by dsimp only at a3 ⊢; omega, nofun⟩
  | ok a =>
    obtain ⟨b1, b2, b3, b4⟩ := hf a env w1
    have c1 := a4 a rfl
    refine ⟨b1.trans a1, b2.trans a2, by dsimp only at a3 b3 ⊢; omega, fun x hx => ?_⟩
    have c2 := b4 x hx
    dsimp only at c1 c2 ⊢
    omega

theorem get_bind {f : Writer B → WM B β} {lo hi : Nat} (hf : ∀ w, Does (f w) lo hi) : Does (WM.get >>= f) lo hi :=
  fun env w => hf w env w

theorem modify_bind {g : Writer B → Writer B} {f : Unit → WM B β} {lo hi : Nat}
    (hg : ∀ w, (g w).encodingType = w.encodingType ∧ (g w).blockSizeTarget = w.blockSizeTarget ∧ (g w).opNo = w.opNo)
    (hf : Does (f ()) lo hi) : Does (WM.modify g >>= f) lo hi := by
  intro env w
  obtain ⟨a1, a2, a3, a4⟩ := hf env (g w)
  obtain ⟨g1, g2, g3⟩ := hg w
  rw [WM.bind_def]
  show (f () env (g w)).2.encodingType = _ ∧ (f () env (g w)).2.blockSizeTarget = _ ∧ _
  rw [g3] at a3 a4
  exact ⟨a1.trans g1, a2.trans g2, a3, a4⟩

theorem lift_bind {r : Except Err α} {f : α → WM B β} {lo hi : Nat} (hf : ∀ a, r = .ok a → Does (f a) lo hi) :
    Does (WM.lift r >>= f) lo hi := by
  intro env w
  rw [WM.bind_def]
  cases r with
  | error e => exact ⟨rfl, rfl, ⟨Nat.le_refl _, Nat.le_add_right _ _⟩, nofun⟩
  | ok a => exact hf a rfl env w

theorem ite {c : Prop} [Decidable c] {m1 m2 : WM B α} {lo hi : Nat} (h1 : c → Does m1 lo hi) (h2 : ¬ c → Does m2 lo hi) :
    Does (if c then m1 else m2) lo hi := by
  split
  · next h => exact h1 h
  · next h => exact h2 h

theorem weaken {m : WM B α} {lo hi lo' hi' : Nat} (h : Does m lo hi) (h1 : lo' ≤ lo) (h2 : hi ≤ hi') : Does m lo' hi' := by
  intro env w
  obtain ⟨a1, a2, a3, a4⟩ := h env w
  refine ⟨a1, a2, by omega, fun a ha => ?_⟩
  have := a4 a ha
  omega

theorem fileOp (f : File → Except Err (α × File)) : Does (WM.fileOp f : WM B α) 1 1 := by
  intro env w
  unfold WM.fileOp
  dsimp only
  split
  · exact ⟨rfl, rfl, ⟨Nat.le_add_right _ _, Nat.le_refl _⟩, nofun⟩
  · split
    · exact ⟨rfl, rfl, ⟨Nat.le_add_right _ _, Nat.le_refl _⟩, nofun⟩
    · split
      · exact ⟨rfl, rfl, ⟨by simp, by simp⟩, fun _ _ => by simp⟩
      · exact ⟨rfl, rfl, ⟨Nat.le_add_right _ _, Nat.le_refl _⟩, nofun⟩

theorem fsync : Does (VibeCol.fsync : WM B Unit) 1 1 := by
  intro env w
  unfold VibeCol.fsync
  dsimp only
  split
  · exact ⟨rfl, rfl, ⟨Nat.le_add_right _ _, Nat.le_refl _⟩, nofun⟩
  · split
    · exact ⟨rfl, rfl, ⟨Nat.le_add_right _ _, Nat.le_refl _⟩, nofun⟩
    · exact ⟨rfl, rfl, ⟨by simp, by simp⟩, fun _ _ => by simp⟩

theorem fwrite (d : Bytes) : Does (VibeCol.fwrite d : WM B Nat) 1 1 := by
  intro env w
  unfold VibeCol.fwrite
  dsimp only
  split
  · exact ⟨rfl, rfl, ⟨Nat.le_add_right _ _, Nat.le_refl _⟩, nofun⟩
  · split
    · exact ⟨rfl, rfl, ⟨Nat.le_add_right _ _, Nat.le_refl _⟩, nofun⟩
    · exact ⟨rfl, rfl, ⟨by simp, by simp⟩, fun _ _ => by simp⟩

theorem seekCur : Does (VibeCol.seekCur : WM B Nat) 1 1 := fileOp _
theorem seekRel (o : Int) : Does (VibeCol.seekRel o : WM B Nat) 1 1 := fileOp _

theorem fwriteAll (l : List Bytes) : Does (VibeCol.fwriteAll l : WM B Nat) l.length l.length := by
  induction l with
  | nil => exact pure 0
  | cons d ds ih =>
    exact ((fwrite d).bind fun n => ih.bind fun m => pure (n + m)).weaken (by simp only [List.length_cons]; omega)
      (by simp only [List.length_cons]; omega)

theorem estimateBlockSize (ids : List UInt64) (values : List Int64) :
    Does (VibeCol.estimateBlockSize ids values : WM B Nat) 1 1 := by
  unfold VibeCol.estimateBlockSize
  refine ite (fun _ => throw _ _ _) fun _ => ite (fun _ => throw _ _ _) fun _ => get_bind fun w => lift_bind fun x _ => ?_
  obtain ⟨x1, x2, x3⟩ := x
  refine lift_bind fun y _ => ?_
  obtain ⟨y1, y2, y3⟩ := y
  exact seekCur.bind fun _ => pure _

theorem writeBlockHeader (a b c d e : UInt64) (f : UInt32) : Does (VibeCol.writeBlockHeader a b c d e f : WM B Nat) 10 10 := by
  unfold VibeCol.writeBlockHeader
  refine Does.bind (l1 := 1) (h1 := 1) (l2 := 9) (h2 := 9) seekCur fun s => get_bind fun w =>
    Does.bind (l1 := 8) (h1 := 8) (l2 := 1) (h2 := 1) (fwriteAll _) fun _ =>
    Does.bind (l1 := 1) (h1 := 1) (l2 := 0) (h2 := 0) seekCur fun p => ?_
  dsimp only
  exact ite (fun _ => throw _ 0 0) fun _ => pure _

end Does

theorem encodeVarLoop_length {T : Type} (enc : T → Bytes) (l : List T) (s : UInt32) (bs : List Bytes) (t : UInt32)
    (h : encodeVarLoop enc l s = .ok (bs, t)) : bs.length = l.length := by
  induction l generalizing s bs t with
  | nil => cases h; rfl
  | cons d ds ih =>
    simp only [encodeVarLoop] at h
    split at h
    · cases h
    · split at h
      · next rest total e => cases h; simp only [List.length_cons, ih _ _ _ e]
      · cases h

/-- As many numbers as were given come out of the encoder, in one form or the other. -/
theorem encodeData_length {T : Type} {e : UInt32} {l : List T} {f : List T → List T} (hf : ∀ l, (f l).length = l.length)
    {g : T → Bytes} {x : List T × List Bytes × UInt32} (h : encodeData e l f g = .ok x) :
    x.1.length = l.length ∧ (e = encVarInt ∨ e = encVarIntID ∨ e = encVarIntValue ∨ e = encVarIntBoth → x.2.1.length = l.length) := by
  unfold encodeData at h
  simp only at h
  split at h
  · cases h
  · next d hd =>
    have hl : d.length = l.length := by
      split at hd
      · cases hd; rfl
      · split at hd
        · cases hd; exact hf l
        · cases hd
    split at h
    · next hc =>
      cases h
      refine ⟨hl, fun he => ?_⟩
      exfalso
      revert hc
      rcases he with rfl | rfl | rfl | rfl <;> decide
    · split at h
      · cases h
      · next bs t hb =>
        split at h
        · cases h
        · cases h
          exact ⟨hl, fun _ => (encodeVarLoop_length _ _ _ _ _ hb).trans hl⟩

theorem Does.writeBlockInternal (ids : List UInt64) (values : List Int64) :
    Does (VibeCol.writeBlockInternal ids values : WM B Unit) (ids.length + values.length + 20) (ids.length + values.length + 21) := by
  unfold VibeCol.writeBlockInternal
  refine modify_bind (fun _ => ⟨rfl, rfl, rfl⟩) (get_bind fun w => lift_bind fun x hx => ?_)
  obtain ⟨x1, x2, x3⟩ := x
  refine lift_bind fun y hy => ?_
  obtain ⟨y1, y2, y3⟩ := y
  obtain ⟨hx1, hx2⟩ := encodeData_length deltaEncode_length hx
  obtain ⟨hy1, hy2⟩ := encodeData_length deltaEncodeInt64_length hy
  dsimp only at hx1 hx2 hy1 hy2 ⊢
  have tail : ∀ (bs : Nat) (st : BlockStats) (c : Prop) [Decidable c], Does (
      if c then WM.throw .blockSizeMismatch else do
        WM.modify fun (w : Writer B) => { w with
          blockSizes := w.blockSizes ++ [UInt32.ofNat bs]
          blockStats := w.blockStats ++ [st]
          blockCount := w.blockCount + 1 }
        VibeCol.fsync) 1 1 := fun bs st c _ =>
    ite (fun _ => throw _ _ _) fun _ => modify_bind (fun _ => ⟨rfl, rfl, rfl⟩) fsync
  have hids : (if useVarIntForIDs w.encodingType then x2 else x1.map le64).length = ids.length := by
    split
    · next h =>
      refine hx2 ?_
      unfold useVarIntForIDs at h
      simp only [Bool.or_eq_true, beq_iff_eq] at h
      rcases h with (h | h) | h
      · exact .inl h
      · exact .inr (.inl h)
      · exact .inr (.inr (.inr h))
    · rw [List.length_map]; exact hx1
  have hvals : (if useVarIntForValues w.encodingType then y2 else y1.map leI64).length = values.length := by
    split
    · next h =>
      refine hy2 ?_
      unfold useVarIntForValues at h
      simp only [Bool.or_eq_true, beq_iff_eq] at h
      rcases h with (h | h) | h
      · exact .inl h
      · exact .inr (.inr (.inl h))
      · exact .inr (.inr (.inr h))
    · rw [List.length_map]; exact hy1
  refine Does.weaken (lo := 1 + (10 + (1 + (1 + (1 + (1 + (1 + (1 + (1 + (ids.length + (values.length + (1 + 1))))))))))))
    (hi := 1 + (10 + (1 + (1 + (1 + (1 + (1 + (1 + (1 + (ids.length + (values.length + (1 + 2)))))))))))) ?_ (by omega) (by omega)
  refine seekCur.bind fun _ => modify_bind (fun _ => ⟨rfl, rfl, rfl⟩) ?_
  refine Does.bind (writeBlockHeader _ _ _ _ _ _) fun _ => Does.bind (fwrite _) fun _ => Does.bind (fwrite _) fun _ => Does.bind seekCur fun _ =>
    Does.bind (fwrite _) fun _ => Does.bind (seekRel _) fun _ => ?_
  refine ite (fun _ => throw _ _ _) fun _ => ite (fun _ => throw _ _ _) fun _ => ite (fun _ => throw _ _ _) fun _ => ?_
  refine Does.bind (fwrite _) fun _ => Does.bind seekCur fun _ => Does.bind (by rw [← hids]; exact fwriteAll _) fun _ => ?_
  refine ite (fun _ => throw _ _ _) fun _ => Does.bind (by rw [← hvals]; exact fwriteAll _) fun _ => ?_
  refine ite (fun _ => throw _ _ _) fun _ => seekCur.bind fun _ => ?_
  split
  · exact (Does.bind (fwrite _) fun _ => tail _ _ _).weaken (by omega) (by omega)
  · exact (tail _ _ _).weaken (by omega) (by omega)

/-! ### The search -/

/-- `2 + 4 + ... + 2 m`. -/
def T : Nat → Nat
  | 0 => 0
  | m + 1 => T m + 2 * (m + 1)

theorem T_eq (m : Nat) : T m = m * (m + 1) := by
  induction m with
  | zero => rfl
  | succ m ih =>
    rw [T, ih]
    simp only [Nat.add_mul, Nat.mul_add, Nat.one_mul, Nat.mul_one]
    generalize m * m = q
    omega

theorem encodings_le (e : UInt32) (ids : List UInt64) (vals : List Int64) : encodings e ids vals ≤ ids.length + vals.length := by
  unfold encodings
  split <;> omega

theorem encodings_ok {e : UInt32} {ids : List UInt64} {x} (h : encodeIDs e ids = .ok x) (vals : List Int64) :
    encodings e ids vals = ids.length + vals.length := by
  unfold encodings
  rw [h]

theorem estimate_ok {ids : List UInt64} {vals : List Int64} {env : Env} {w w' : Writer B} {s : Nat}
    (h : estimateBlockSize ids vals env w = (.ok s, w')) : ids.length = vals.length ∧ ids.length ≠ 0 ∧
      (∃ x, encodeIDs w.encodingType ids = .ok x) ∧ ∃ y, encodeValues w.encodingType vals = .ok y := by
  unfold estimateBlockSize at h
  split at h
  · cases h
  · next h1 =>
    split at h
    · cases h
    · next h2 =>
      simp only [WM.bind_def, WM.get] at h
      refine ⟨Classical.byContradiction h1, h2, ?_⟩
      cases h3 : encodeIDs w.encodingType ids with
      | error e => rw [h3] at h; cases h
      | ok x =>
        rw [h3] at h
        obtain ⟨x1, x2, x3⟩ := x
        simp only [WM.lift] at h
        refine ⟨⟨_, rfl⟩, ?_⟩
        cases h4 : encodeValues w.encodingType vals with
        | error e => rw [h4] at h; cases h
        | ok y => exact ⟨y, rfl⟩

/-- If both sections can be encoded, the estimate goes on to its file operation. -/
theorem estimate_op {ids : List UInt64} {vals : List Int64} (env : Env) (w : Writer B) (h1 : ids.length = vals.length)
    (h2 : ids.length ≠ 0) (h3 : ∃ x, encodeIDs w.encodingType ids = .ok x) (h4 : ∃ y, encodeValues w.encodingType vals = .ok y) :
    (estimateBlockSize ids vals env w).2.opNo = w.opNo + 1 := by
  obtain ⟨⟨x1, x2, x3⟩, h3⟩ := h3
  obtain ⟨⟨y1, y2, y3⟩, h4⟩ := h4
  unfold estimateBlockSize
  rw [if_neg (fun h => h h1), if_neg h2]
  simp only [WM.bind_def, WM.get, h3, WM.lift, h4]
  have hd := Does.seekCur (B := B) env w
  have key : (seekCur env w : Except Err Nat × Writer B).2.opNo = w.opNo + 1 := by
    unfold seekCur WM.fileOp
    dsimp only
    split
    · rfl
    · split <;> rfl
  rcases e : (seekCur env w : Except Err Nat × Writer B) with ⟨r, w1⟩
  rw [e] at key
  cases r <;> exact key

/-- A single number can always be encoded. -/
theorem encodeData_one {T' : Type} {e : UInt32} (hk : KnownEnc e) (x : T') (f : List T' → List T') (hf : (f [x]).length = 1)
    (g : T' → Bytes) (hg : ∀ x, 1 ≤ (g x).length ∧ (g x).length ≤ 10) : ∃ y, encodeData e [x] f g = .ok y := by
  have one : ∀ z, ∃ y, (match encodeVarLoop g [z] 0 with
        | .error e => Except.error e
        | .ok (bytes, sectionSize) =>
          if sectionSize = 0 ∧ [z].length > 0 then .error .zeroSection
          else .ok ([z], bytes, sectionSize)) = .ok y := by
    intro z
    have hz := hg z
    have hne : UInt32.ofNat (g z).length ≠ 0 := by
      intro h
      have := congrArg UInt32.toNat h
      rw [UInt32.toNat_ofNat', show (0 : UInt32).toNat = 0 from rfl] at this
      omega
    simp only [encodeVarLoop]
    rw [if_neg hne]
    dsimp only
    rw [UInt32.zero_add, if_neg (fun h => hne h.1)]
    exact ⟨_, rfl⟩
  obtain ⟨z, hz⟩ : ∃ z, f [x] = [z] := by
    cases h : f [x] with
    | nil => rw [h] at hf; cases hf
    | cons z l =>
      cases l with
      | nil => exact ⟨z, rfl⟩
      | cons _ _ => rw [h] at hf; cases hf
  unfold encodeData
  simp only [hz]
  by_cases c1 : e = encRaw ∨ e = encVarInt ∨ e = encVarIntID
  · rw [if_pos c1]
    dsimp only
    split
    · exact ⟨_, rfl⟩
    · exact one x
  · rw [if_neg c1]
    by_cases c2 : e = encDeltaID ∨ e = encDeltaValue ∨ e = encDeltaBoth ∨ e = encVarIntValue ∨ e = encVarIntBoth
    · rw [if_pos c2]
      dsimp only
      split
      · exact ⟨_, rfl⟩
      · exact one z
    · exfalso
      have h8 : e.toNat = 0 ∨ e.toNat = 1 ∨ e.toNat = 2 ∨ e.toNat = 3 ∨ e.toNat = 4 ∨ e.toNat = 5 ∨ e.toNat = 6 ∨ e.toNat = 7 := by
        unfold KnownEnc at hk; omega
      have eq : ∀ c : UInt32, e.toNat = c.toNat → e = c := fun c h => UInt32.toNat_inj.1 h
      rcases h8 with h | h | h | h | h | h | h | h
      · exact c1 (.inl (eq encRaw h))
      · exact c2 (.inl (eq encDeltaID h))
      · exact c2 (.inr (.inl (eq encDeltaValue h)))
      · exact c2 (.inr (.inr (.inl (eq encDeltaBoth h))))
      · exact c1 (.inr (.inl (eq encVarInt h)))
      · exact c1 (.inr (.inr (eq encVarIntID h)))
      · exact c2 (.inr (.inr (.inr (.inl (eq encVarIntValue h)))))
      · exact c2 (.inr (.inr (.inr (.inr (eq encVarIntBoth h)))))

/-- The search: it stops at once, or tries all numbers of pairs up to the one after its result. -/
theorem search (ids : List UInt64) (vals : List Int64) (env : Env) (hl : ids.length = vals.length) (fuel i opt : Nat) (w : Writer B)
    (hi : 1 ≤ i) (hfuel : i + fuel ≤ ids.length) :
    ∃ k w' c, findOptimalC ids vals env fuel i opt w = ((.ok k, w'), c) ∧ w'.encodingType = w.encodingType ∧
      w'.blockSizeTarget = w.blockSizeTarget ∧
      ((k = opt ∧ c ≤ 2 * i ∧ (w.opNo ≤ w'.opNo ∧ w'.opNo ≤ w.opNo + 1) ∧
        (0 < fuel → (∃ x, encodeIDs w.encodingType (ids.take i) = .ok x) → (∃ y, encodeValues w.encodingType (vals.take i) = .ok y) →
          c = 2 * i ∧ w'.opNo = w.opNo + 1)) ∨
      (i ≤ k ∧ k < i + fuel ∧ T k ≤ c + T (i - 1) ∧ c + T (i - 1) ≤ T (k + 1) ∧
        w.opNo + (k + 1) ≤ w'.opNo + i ∧ w'.opNo + i ≤ w.opNo + (k + 2) ∧
        ∃ (s : Nat) (w1 w2 : Writer B), estimateBlockSize (ids.take k) (vals.take k) env w1 = (.ok s, w2) ∧ s ≤ w1.blockSizeTarget.toNat ∧
          w1.encodingType = w.encodingType ∧ w1.blockSizeTarget = w.blockSizeTarget)) := by
  induction fuel generalizing i opt w with
  | zero => exact ⟨opt, w, 0, rfl, rfl, rfl, .inl ⟨rfl, by omega, by omega, fun h => absurd h (by omega)⟩⟩
  | succ fuel ih =>
    have hti : (ids.take i).length = i := by rw [List.length_take]; omega
    have htv : (vals.take i).length = i := by rw [List.length_take]; omega
    have hle := encodings_le w.encodingType (ids.take i) (vals.take i)
    rw [hti, htv] at hle
    obtain ⟨d1, d2, d3, d4⟩ := Does.estimateBlockSize (B := B) (ids.take i) (vals.take i) env w
    unfold findOptimalC estimateBlockSizeC
    rw [if_neg (show ¬ ((ids.take i).length ≠ (vals.take i).length ∨ (ids.take i).length = 0) from by rw [hti, htv]; omega)]
    have hop := estimate_op (B := B) (ids := ids.take i) (vals := vals.take i) env w (by rw [hti, htv]) (by rw [hti]; omega)
    rcases he : estimateBlockSize (ids.take i) (vals.take i) env w with ⟨r, w1⟩
    rw [he] at d1 d2 d3 d4 hop
    dsimp only at d1 d2 d3 d4 hop ⊢
    cases r with
    | error e =>
      refine ⟨opt, w1, _, rfl, d1, d2, .inl ⟨rfl, by omega, d3, fun _ hx hy => ⟨?_, hop hx hy⟩⟩⟩
      obtain ⟨x, hx⟩ := hx
      rw [encodings_ok hx, hti, htv]
      omega
    | ok size =>
      obtain ⟨_, _, ⟨x, hx⟩, _⟩ := estimate_ok he
      rw [encodings_ok hx, hti, htv]
      have d4 := d4 size rfl
      dsimp only
      by_cases hc : size ≤ w.blockSizeTarget.toNat
      · rw [if_pos hc]
        obtain ⟨k, w', c, h1, h2, h3, h4⟩ := ih (i + 1) i w1 (by omega) (by omega)
        rw [h1]
        refine ⟨k, w', i + i + c, rfl, h2.trans d1, h3.trans d2, .inr ?_⟩
        obtain ⟨j, rfl⟩ : ∃ j, i = j + 1 := ⟨i - 1, by omega⟩
        rw [show j + 1 - 1 = j from by omega]
        rw [show j + 1 + 1 - 1 = j + 1 from by omega] at h4
        have hT : T (j + 1) = T j + 2 * (j + 1) := rfl
        rcases h4 with ⟨rfl, h5, h6, h7⟩ | ⟨h5, h6, h7, h8, h9, h10, s, w2, w3, h11, h12, h13, h14⟩
        · have hT2 : T (j + 1 + 1) = T (j + 1) + 2 * (j + 1 + 1) := rfl
          exact ⟨Nat.le_refl _, by omega, by omega, by omega, by omega, by omega, size, w, w1, he, hc, rfl, rfl⟩
        · exact ⟨by omega, by omega, by omega, by omega, by omega, by omega, s, w2, w3, h11, h12, h13.trans d1, h14.trans d2⟩
      · rw [if_neg hc]
        exact ⟨opt, w1, i + i, rfl, d1, d2, .inl ⟨rfl, by omega, d3, fun _ _ _ => ⟨by omega, by omega⟩⟩⟩

/-! ### Blocks -/

theorem known_of_ok {T' : Type} {e : UInt32} {l : List T'} {f : List T' → List T'} {g : T' → Bytes} {x}
    (h : encodeData e l f g = .ok x) : KnownEnc e := by
  apply Classical.byContradiction
  intro hk
  rw [encodeData_unknown e hk] at h
  cases h

/-- What `WriteBlock` has done when it has written a block. -/
theorem block (ids : List UInt64) (vals : List Int64) (env : Env) (w : Writer B) :
    ((writeBlockC ids vals env w).1.1 = .ok () →
      (writeBlockC ids vals env w).2 = 4 * ids.length ∧
      w.opNo + (2 * ids.length + 21) ≤ (writeBlockC ids vals env w).1.2.opNo ∧
      (writeBlockC ids vals env w).1.2.opNo ≤ w.opNo + (2 * ids.length + 22) ∧
      ∃ (s : Nat) (w1 : Writer B), estimateBlockSize ids vals env w = (.ok s, w1) ∧ (s ≤ w.blockSizeTarget.toNat ∨ ids.length = 1)) ∧
    (∀ k, (writeBlockC ids vals env w).1.1 = .error (.blockFull k) →
      2 * ids.length + T k + 2 * k ≤ (writeBlockC ids vals env w).2 ∧
      (writeBlockC ids vals env w).2 ≤ 2 * ids.length + T (k + 1) + 2 * k ∧
      w.opNo + (3 * k + 21) ≤ (writeBlockC ids vals env w).1.2.opNo ∧
      (writeBlockC ids vals env w).1.2.opNo ≤ w.opNo + (3 * k + 23) ∧
      (k = 1 ∨ ∃ (s : Nat) (w1 w2 : Writer B), estimateBlockSize (ids.take k) (vals.take k) env w1 = (.ok s, w2) ∧
        s ≤ w.blockSizeTarget.toNat ∧ w1.encodingType = w.encodingType)) ∧
    (writeBlockC ids vals env w).1.2.encodingType = w.encodingType ∧
    (writeBlockC ids vals env w).1.2.blockSizeTarget = w.blockSizeTarget := by
  unfold writeBlockC
  by_cases hl : ids.length = vals.length
  · rw [if_neg (fun h => h hl)]
    by_cases hne : ids.length = 0
    · rw [if_pos hne]; exact ⟨nofun, nofun, rfl, rfl⟩
    · rw [if_neg hne]
      unfold estimateBlockSizeC
      rw [if_neg (show ¬ (ids.length ≠ vals.length ∨ ids.length = 0) from fun h => h.elim (fun h => h hl) hne)]
      obtain ⟨d1, d2, ⟨d3, d4⟩, d5⟩ := Does.estimateBlockSize (B := B) ids vals env w
      rcases he : estimateBlockSize ids vals env w with ⟨r, w1⟩
      rw [he] at d1 d2 d3 d4 d5
      dsimp only at d1 d2 d3 d4 d5
      cases r with
      | error e =>
        refine ⟨nofun, fun k hk => ?_, d1, d2⟩
        exfalso
        have : e = .blockFull k := by injection hk
        exact NoBF.estimateBlockSize ids vals env w k (by rw [he, this])
      | ok size =>
        have d5 := d5 size rfl
        obtain ⟨_, _, ⟨x, hx⟩, ⟨y, hy⟩⟩ := estimate_ok he
        have hk := known_of_ok hx
        rw [encodings_ok hx]
        dsimp only
        by_cases hc : size > w1.blockSizeTarget.toNat ∧ ids.length > 1
        · rw [if_pos hc]
          obtain ⟨k, w2, c, h1, h2, h3, h4⟩ := search ids vals env hl (ids.length - 1) 1 1 w1 (Nat.le_refl _) (by omega)
          rw [h1]
          dsimp only
          have hk1 : 1 ≤ k ∧ k < ids.length := by rcases h4 with h | h <;> omega
          have hti : (ids.take k).length = k := by rw [List.length_take]; omega
          have htv : (vals.take k).length = k := by rw [List.length_take]; omega
          have hone : (k = 1 ∧ c = 2 ∧ w2.opNo = w1.opNo + 1) ∨ (T k ≤ c ∧ c ≤ T (k + 1) ∧ w1.opNo + k ≤ w2.opNo ∧ w2.opNo ≤ w1.opNo + (k + 1) ∧
              ∃ (s : Nat) (w1' w2' : Writer B), estimateBlockSize (ids.take k) (vals.take k) env w1' = (.ok s, w2') ∧
                s ≤ w1'.blockSizeTarget.toNat ∧ w1'.encodingType = w1.encodingType ∧ w1'.blockSizeTarget = w1.blockSizeTarget) := by
            rcases h4 with ⟨rfl, h5, h6, h7⟩ | ⟨h5, h6, h7, h8, h9, h10, h11⟩
            · left
              obtain ⟨i, is, rfl⟩ : ∃ i is, ids = i :: is := by
                cases ids with
                | nil => exact absurd rfl hne
                | cons i is => exact ⟨i, is, rfl⟩
              obtain ⟨v, vs, rfl⟩ : ∃ v vs, vals = v :: vs := by
                cases vals with
                | nil => cases hl
                | cons v vs => exact ⟨v, vs, rfl⟩
              have := h7 (by simp only [List.length_cons] at hc ⊢; omega)
                (encodeData_one (by rw [d1]; exact hk) i _ (deltaEncode_length _) _ fun x => ⟨encodeVarInt_length_pos x, encodeVarInt_length_le_10 x⟩)
                (encodeData_one (by rw [d1]; exact hk) v _ (deltaEncodeInt64_length _) _
                  fun x => ⟨encodeSignedVarInt_length_pos x, encodeSignedVarInt_length_le_10 x⟩)
              exact ⟨rfl, this.1, this.2⟩
            · right
              have hT0 : T (1 - 1) = 0 := rfl
              rw [hT0] at h7 h8
              exact ⟨by omega, by omega, by omega, by omega, h11⟩
          obtain ⟨i1, i2, ⟨i3, i4⟩, i5⟩ := Does.writeBlockInternal (B := B) (ids.take k) (vals.take k) env w2
          rw [hti, htv] at i4 i5
          unfold writeBlockInternalC
          rcases hw : writeBlockInternal (ids.take k) (vals.take k) env w2 with ⟨r, w3⟩
          rw [hw] at i1 i2 i3 i4 i5
          dsimp only at i1 i2 i3 i4 i5
          have e1 := i1.trans (h2.trans d1)
          have e2 := i2.trans (h3.trans d2)
          cases r with
          | error e =>
            refine ⟨nofun, fun k' hk' => ?_, e1, e2⟩
            exfalso
            have : e = .blockFull k' := by injection hk'
            exact NoBF.writeBlockInternal (ids.take k) (vals.take k) env w2 k' (by rw [hw, this])
          | ok u =>
            have i5 := i5 u rfl
            -- the prefix could be encoded
            have henc : ∃ x, encodeIDs w2.encodingType (ids.take k) = .ok x := by
              rw [h2]
              rcases hone with ⟨rfl, _⟩ | ⟨_, _, _, _, s, w1', w2', h11, _, h13, _⟩
              · cases ids with
                | nil => exact absurd rfl hne
                | cons i is =>
                  exact encodeData_one (by rw [d1]; exact hk) i _ (deltaEncode_length _) _
                    fun x => ⟨encodeVarInt_length_pos x, encodeVarInt_length_le_10 x⟩
              · rw [← h13]
                exact (estimate_ok h11).2.2.1
            obtain ⟨x', hx'⟩ := henc
            rw [encodings_ok hx', hti, htv]
            refine ⟨nofun, fun k' hk' => ?_, e1, e2⟩
            have : k = k' := by injection hk' with hk'; injection hk'
            subst this
            dsimp only
            rcases hone with ⟨rfl, h5, h6⟩ | ⟨h5, h6, h7, h8, s, w1', w2', h11, h12, h13, h14⟩
            · have t1 : T 1 = 2 := rfl
              have t2 : T (1 + 1) = 6 := rfl
              exact ⟨by omega, by omega, by omega, by omega, .inl rfl⟩
            · exact ⟨by omega, by omega, by omega, by omega, .inr ⟨s, w1', w2', h11, by rw [← d2, ← h14]; exact h12, h13.trans d1⟩⟩
        · rw [if_neg hc]
          obtain ⟨i1, i2, ⟨i3, i4⟩, i5⟩ := Does.writeBlockInternal (B := B) ids vals env w1
          unfold writeBlockInternalC
          dsimp only
          rw [d1, encodings_ok hx]
          refine ⟨fun h => ?_, fun k hk' => ?_, i1.trans d1, i2.trans d2⟩
          · have := i5 () h
            refine ⟨by omega, by omega, by omega, size, w1, rfl, ?_⟩
            rw [d2] at hc
            omega
          · exact absurd hk' (NoBF.writeBlockInternal ids vals env w1 k)
  · rw [if_pos hl]; exact ⟨nofun, nofun, rfl, rfl⟩

/-! ### Flushing -/

/-- How many pairs a block within the target size can hold: a pair takes 16 bytes, or at least two with a variable-length encoding
(4 to 7), beside the 80 bytes of header and layout. A block of one pair is always written. -/
def capacity (e target : UInt32) : Nat := max 1 ((target.toNat - 80) / if 4 ≤ e.toNat then 2 else 16)

theorem capacity_pos (e target : UInt32) : 1 ≤ capacity e target := Nat.le_max_left _ _

theorem capacity_ge {e target : UInt32} {n : Nat} (h : 80 + n * (if 4 ≤ e.toNat then 2 else 16) ≤ target.toNat) :
    n ≤ capacity e target := by
  refine Nat.le_trans ?_ (Nat.le_max_right _ _)
  generalize hu : (if 4 ≤ e.toNat then 2 else 16) = u at h ⊢
  have : 0 < u := by rw [← hu]; split <;> omega
  rw [Nat.le_div_iff_mul_le this]
  omega

theorem fits_capacity {ids : List UInt64} {vals : List Int64} {env : Env} {w w' : Writer B} {s : Nat}
    (h : estimateBlockSize ids vals env w = (.ok s, w')) (hn : ids.length ≤ 2 ^ 27) {target : UInt32} (hs : s ≤ target.toNat) :
    ids.length ≤ capacity w.encodingType target := by
  obtain ⟨h1, h2, ⟨x, hx⟩, _⟩ := estimate_ok h
  have hk := known_of_ok hx
  have he := estimateBlockSize_spec env w ids vals hk h1 (by omega) hn
  unfold wp at he
  rw [h] at he
  have hs' : s = estSize w.encodingType w.file.pos ids vals := he.1
  apply capacity_ge
  have hid : ids.length * (if 4 ≤ w.encodingType.toNat then 2 else 16) ≤ idSize w.encodingType ids + valSize w.encodingType vals := by
    unfold idSize valSize
    by_cases hv : isVarIntEnc w.encodingType = true
    · rw [if_pos hv, if_pos hv]
      have a1 := flatten_map_ge encodeVarInt (encIDs w.encodingType ids) 1 encodeVarInt_length_pos
      have a2 := flatten_map_ge encodeSignedVarInt (encVals w.encodingType vals) 1 encodeSignedVarInt_length_pos
      rw [encIDs_length] at a1
      rw [encVals_length] at a2
      have : 4 ≤ w.encodingType.toNat := by
        unfold isVarIntEnc at hv
        simp only [Bool.or_eq_true, beq_iff_eq] at hv
        rcases hv with ((hv | hv) | hv) | hv <;> rw [hv] <;> decide
      rw [if_pos this]
      omega
    · rw [if_neg hv, if_neg hv]
      have : (if 4 ≤ w.encodingType.toNat then 2 else 16) ≤ 16 := by split <;> omega
      have := Nat.mul_le_mul_left ids.length this
      omega
  unfold estSize at hs'
  omega

theorem flushIfNeededC_eq (env : Env) (force : Bool) (sw : SimpleWriter B) : flushIfNeededC env force sw =
    if sw.pendingIDs.length = 0 then ((.ok (), sw), 0)
    else if force = true ∨ sw.pendingIDs.length ≥ 1000 then
      match writeBlockC sw.pendingIDs sw.pendingValues env sw.writer with
      | ((.error (.blockFull n), w'), c) =>
        let rest := flushIfNeededC env force { sw with
          writer := w'
          totalItems := sw.totalItems + n
          pendingIDs := sw.pendingIDs.drop n
          pendingValues := sw.pendingValues.drop n }
        (rest.1, c + rest.2)
      | ((.error e, w'), c) => ((.error e, { sw with writer := w' }), c)
      | ((.ok _, w'), c) => ((.ok (), { sw with
          writer := w'
          totalItems := sw.totalItems + sw.pendingIDs.length
          pendingIDs := []
          pendingValues := [] }), c)
    else ((.ok (), sw), 0) := by
  rw [flushIfNeededC]
  by_cases h0 : sw.pendingIDs.length = 0
  · rw [if_pos h0, if_pos h0]
  · rw [if_neg h0, if_neg h0]
    have hc : ((if (!force) = true then decide (sw.pendingIDs.length ≥ 1000) else force) = true) ↔
        (force = true ∨ sw.pendingIDs.length ≥ 1000) := by
      cases force <;> simp
    by_cases h1 : force = true ∨ sw.pendingIDs.length ≥ 1000
    · rw [if_pos h1]
      simp only [if_pos (hc.2 h1)]
      split <;> simp_all
    · rw [if_neg h1]
      simp only [if_neg (fun h => h1 (hc.1 h))]

/-- Counting changes nothing. -/
theorem flushIfNeededC_same (env : Env) (force : Bool) (sw : SimpleWriter B) :
    (flushIfNeededC env force sw).1 = flushIfNeeded env force sw := by
  obtain ⟨n, hn⟩ : ∃ n, sw.pendingIDs.length = n := ⟨_, rfl⟩
  induction n using Nat.strongRecOn generalizing sw with
  | ind n ih =>
    rw [flushIfNeededC_eq, flushIfNeeded_eq, ← writeBlockC_same]
    split
    · rfl
    · split
      · rcases h : writeBlockC sw.pendingIDs sw.pendingValues env sw.writer with ⟨⟨r, w'⟩, c⟩
        cases r with
        | ok u => rfl
        | error e =>
          cases e with
          | blockFull k =>
            have hb := writeBlock_blockFull_bounds sw.pendingIDs sw.pendingValues env sw.writer w' k (by rw [← writeBlockC_same, h])
            exact ih (n - k) (by omega) _ (by simp only [List.length_drop]; omega)
          | _ => rfl
      · rfl

theorem sq (a b : Nat) : (a + b) * (a + b) = a * a + 2 * (a * b) + b * b := by
  rw [Nat.add_mul, Nat.mul_add, Nat.mul_add, Nat.mul_comm b a]
  omega

theorem flush_work (env : Env) (force : Bool) (K : Nat) (sw : SimpleWriter B)
    (hK : K = capacity sw.writer.encodingType sw.writer.blockSizeTarget)
    (hl : sw.pendingIDs.length = sw.pendingValues.length) (hn : sw.pendingIDs.length ≤ 2 ^ 27)
    (hok : (flushIfNeededC env force sw).1.1 = .ok ()) :
    sw.pendingIDs.length * sw.pendingIDs.length ≤ K * (flushIfNeededC env force sw).2 +
      (flushIfNeededC env force sw).1.2.pendingIDs.length * (flushIfNeededC env force sw).1.2.pendingIDs.length ∧
    (flushIfNeededC env force sw).2 ≤ sw.pendingIDs.length * sw.pendingIDs.length + sw.pendingIDs.length * (K + 8) ∧
    (flushIfNeededC env force sw).1.2.pendingIDs.length ≤ (if force then 0 else 999) := by
  obtain ⟨n, hlen⟩ : ∃ n, sw.pendingIDs.length = n := ⟨_, rfl⟩
  induction n using Nat.strongRecOn generalizing sw with
  | ind n ih =>
    have hK1 : 1 ≤ K := by rw [hK]; exact capacity_pos _ _
    rw [flushIfNeededC_eq] at hok ⊢
    by_cases h0 : sw.pendingIDs.length = 0
    · rw [if_pos h0, h0]; dsimp only; simp
    · rw [if_neg h0] at hok ⊢
      by_cases h1 : force = true ∨ sw.pendingIDs.length ≥ 1000
      · rw [if_pos h1] at hok ⊢
        obtain ⟨b1, b2, b3, b4⟩ := block sw.pendingIDs sw.pendingValues env sw.writer
        have hbf := writeBlock_blockFull_bounds sw.pendingIDs sw.pendingValues env sw.writer
        rw [← writeBlockC_same] at hbf
        rcases h : writeBlockC sw.pendingIDs sw.pendingValues env sw.writer with ⟨⟨r, w'⟩, c⟩
        rw [h] at b1 b2 b3 b4 hok hbf
        dsimp only at b1 b2 b3 b4 hok hbf
        cases r with
        | ok u =>
          obtain ⟨rfl, _, _, s, w1, he, hs⟩ := b1 rfl
          dsimp only
          have hcap : sw.pendingIDs.length ≤ K := by
            rcases hs with hs | hs
            · rw [hK]; exact fits_capacity he hn hs
            · omega
          refine ⟨?_, ?_, by simp⟩
          · have := Nat.mul_le_mul_right sw.pendingIDs.length hcap
            rw [show K * (4 * sw.pendingIDs.length) = 4 * (K * sw.pendingIDs.length) from by rw [← Nat.mul_assoc, Nat.mul_comm K 4, Nat.mul_assoc]]
            omega
          · rw [Nat.mul_add]
            omega
        | error e =>
          cases e with
          | blockFull k =>
            obtain ⟨c1, c2, _, _, c3⟩ := b2 k rfl
            obtain ⟨hk1, hk2⟩ := hbf w' k rfl
            dsimp only at hok ⊢
            have hcap : k ≤ K := by
              rcases c3 with rfl | ⟨s, w1, w2, he, hs, h5⟩
              · exact hK1
              · rw [hK, ← h5]
                have := fits_capacity he (by rw [List.length_take]; omega) hs
                rw [List.length_take] at this
                omega
            have hd : (sw.pendingIDs.drop k).length = sw.pendingIDs.length - k := by rw [List.length_drop]
            obtain ⟨i1, i2, i3⟩ := ih (n - k) (by omega)
              { sw with
                writer := w'
                totalItems := sw.totalItems + k
                pendingIDs := sw.pendingIDs.drop k
                pendingValues := sw.pendingValues.drop k }
              (by rw [hK]; dsimp only; rw [b3, b4]) (by simp only [List.length_drop]; omega) (by simp only [List.length_drop]; omega) hok
              (by simp only [List.length_drop]; omega)
            refine ⟨?_, ?_, i3⟩
            · generalize (flushIfNeededC (B := B) env force _).2 = c' at i1 i2 ⊢
              generalize (flushIfNeededC (B := B) env force _).1.2.pendingIDs.length = m at i1 i2 ⊢
              dsimp only at i1 i2
              rw [hd] at i1 i2
              obtain ⟨q, hq⟩ : ∃ q, sw.pendingIDs.length = k + q := ⟨sw.pendingIDs.length - k, by omega⟩
              rw [hq, show k + q - k = q from by omega] at i1
              rw [hq, sq, Nat.mul_add]
              rw [hq] at c1
              have e1 : K * (2 * (k + q)) ≤ K * c := Nat.mul_le_mul_left K (by omega)
              have e2 : k * (k + q) ≤ K * (k + q) := Nat.mul_le_mul_right _ hcap
              rw [Nat.mul_left_comm] at e1
              rw [Nat.mul_add] at e2
              omega
            · generalize (flushIfNeededC (B := B) env force _).2 = c' at i1 i2 ⊢
              dsimp only at i1 i2
              rw [hd] at i1 i2
              obtain ⟨q, hq⟩ : ∃ q, sw.pendingIDs.length = k + q := ⟨sw.pendingIDs.length - k, by omega⟩
              rw [hq, show k + q - k = q from by omega] at i2
              rw [hq] at c2 ⊢
              rw [T_eq] at c2
              rw [sq, Nat.add_mul]
              have e1 : 1 * q ≤ k * q := Nat.mul_le_mul_right q hk1
              have e2 : k * 1 ≤ k * K := Nat.mul_le_mul_left k hK1
              rw [show (k + 1) * (k + 1 + 1) = k * k + 3 * k + 2 from by
                rw [Nat.add_mul, Nat.mul_add, Nat.mul_add]; omega] at c2
              rw [Nat.mul_add k K 8]
              omega
          | _ => cases hok
      · rw [if_neg h1]
        dsimp only
        refine ⟨by omega, by omega, ?_⟩
        have hf : force = false := by
          cases force with
          | false => rfl
          | true => exact absurd (.inl rfl) h1
        rw [hf] at h1 ⊢
        simp at h1 ⊢
        omega

/-! ### The theorems -/

/-- **C83.** The counting functions compute what the code computes. -/
theorem C83_same (env : Env) (ids : List UInt64) (vals : List Int64) :
    (∀ w : Writer B, (writeBlockC ids vals env w).1 = writeBlock ids vals env w) ∧
    ∀ sw : SimpleWriter B, (writeC env ids vals sw).1 = sw.write env ids vals := by
  refine ⟨fun w => writeBlockC_same ids vals env w, fun sw => ?_⟩
  unfold writeC SimpleWriter.write
  split
  · rfl
  · split
    · rfl
    · split
      · rfl
      · generalize (if (!isSorted ids) = true then sortByID env ids vals else (ids, vals)) = nv
        obtain ⟨a, b⟩ := nv
        exact flushIfNeededC_same (B := B) env false _

/-- **C83.** A block of `n` pairs that is written whole is encoded twice (`n` IDs and `n` values each time) and costs 2 file
operations per pair and 21 or 22 more. A block of which the first `k` pairs are written is encoded once as a whole, then with
1, 2, 3, ... pairs up to `k` or `k + 1`, then with `k` pairs again, and costs 3 file operations per pair written and at most 23
more. This holds in every environment, also if operations fail in between. -/
theorem C83_block (ids : List UInt64) (vals : List Int64) (env : Env) (w : Writer B) :
    ((writeBlock ids vals env w).1 = .ok () →
      (writeBlockC ids vals env w).2 = 4 * ids.length ∧
      w.opNo + (2 * ids.length + 21) ≤ (writeBlock ids vals env w).2.opNo ∧
      (writeBlock ids vals env w).2.opNo ≤ w.opNo + (2 * ids.length + 22)) ∧
    ∀ k, (writeBlock ids vals env w).1 = .error (.blockFull k) →
      2 * ids.length + k * (k + 1) + 2 * k ≤ (writeBlockC ids vals env w).2 ∧
      (writeBlockC ids vals env w).2 ≤ 2 * ids.length + (k + 1) * (k + 2) + 2 * k ∧
      w.opNo + (3 * k + 21) ≤ (writeBlock ids vals env w).2.opNo ∧
      (writeBlock ids vals env w).2.opNo ≤ w.opNo + (3 * k + 23) := by
  rw [← writeBlockC_same]
  obtain ⟨h1, h2, _⟩ := block ids vals env w
  refine ⟨fun h => ?_, fun k h => ?_⟩
  · obtain ⟨a, b, c, _⟩ := h1 h
    exact ⟨a, b, c⟩
  · obtain ⟨a, b, c, d, _⟩ := h2 k h
    rw [T_eq] at a b
    exact ⟨a, b, c, d⟩

/-- **C83.** `Write` of a `SimpleWriter` that holds `p` pairs back, called with `n` more, encodes at least about
`(p + n)² / capacity` numbers, because each block written starts with an estimate for all pairs that are left, and at most
`(p + n)² + (p + n) (capacity + 8)`. -/
theorem C83_write (env : Env) (hs : LawfulSort env.sort) (sw : SimpleWriter B) (ids : List UInt64) (vals : List Int64)
    (hp : sw.pendingIDs.length = sw.pendingValues.length) (hn : sw.pendingIDs.length + ids.length ≤ 2 ^ 27)
    (hok : (sw.write env ids vals).1 = .ok ()) (K : Nat)
    (hK : K = capacity sw.writer.encodingType sw.writer.blockSizeTarget) (hne : ids ≠ []) :
    (sw.pendingIDs.length + ids.length) * (sw.pendingIDs.length + ids.length) ≤ K * (writeC env ids vals sw).2 + 999 * 999 ∧
    (writeC env ids vals sw).2 ≤ (sw.pendingIDs.length + ids.length) * (sw.pendingIDs.length + ids.length) +
      (sw.pendingIDs.length + ids.length) * (K + 8) := by
  rw [← (C83_same (B := B) env ids vals).2 sw] at hok
  unfold writeC at hok ⊢
  split at hok
  · cases hok
  · next h1 =>
    rw [if_neg h1]
    split at hok
    · cases hok
    · next h2 =>
      rw [if_neg h2]
      have hl : ids.length = vals.length := Classical.byContradiction h2
      split at hok
      · next h3 => exact absurd (List.eq_nil_of_length_eq_zero h3) hne
      · next h3 =>
        rw [if_neg h3]
        have hsort : ∀ x, (if (!isSorted ids) = true then sortByID env ids vals else (ids, vals)) = x →
            x.1.length = ids.length ∧ x.2.length = ids.length := by
          rintro x rfl
          split
          · unfold sortByID
            dsimp only
            rw [List.length_map, List.length_map, (hs _).1.length_eq, List.length_zip]
            omega
          · exact ⟨rfl, hl.symm⟩
        generalize hx : (if (!isSorted ids) = true then sortByID env ids vals else (ids, vals)) = x at hok ⊢
        obtain ⟨l1, l2⟩ := hsort x hx
        dsimp only at hok ⊢
        have key := flush_work env false K
          { sw with pendingIDs := sw.pendingIDs ++ x.1, pendingValues := sw.pendingValues ++ x.2 } hK
          (by simp only [List.length_append]; omega) (by simp only [List.length_append]; omega) hok
        obtain ⟨k1, k2, k3⟩ := key
        dsimp only at k1 k2
        rw [List.length_append, l1] at k1 k2
        refine ⟨Nat.le_trans k1 (Nat.add_le_add_left ?_ _), k2⟩
        exact Nat.mul_le_mul k3 k3

/-- **C83, for a new `SimpleWriter`.** -/
theorem C83_fresh [LawfulBitmap B] (env : Env) (hs : LawfulSort env.sort) (opts : List WriterOption) (sw : SimpleWriter B)
    (h : newSimpleWriter opts env = .ok sw) (ids : List UInt64) (vals : List Int64) (hne : ids ≠ []) (hn : ids.length ≤ 2 ^ 27)
    (hok : (sw.write env ids vals).1 = .ok ()) :
    ids.length * ids.length ≤ capacity (chosenEncoding opts) (chosenBlockSize opts) * (writeC env ids vals sw).2 + 999 * 999 ∧
    (writeC env ids vals sw).2 ≤ ids.length * ids.length + ids.length * (capacity (chosenEncoding opts) (chosenBlockSize opts) + 8) := by
  unfold newSimpleWriter at h
  rcases hw : (newWriter opts env : Except Err Unit × Writer B) with ⟨r, w⟩
  rw [hw] at h
  cases r with
  | error e => cases h
  | ok u =>
    cases h
    obtain ⟨_, _, _, h1, h2, _⟩ := newWriter_inv hw
    have := C83_write env hs
      { writer := w, pendingIDs := [], pendingValues := [], targetBlockSize := 128 * 1024, closed := false, totalItems := 0 }
      ids vals rfl (by simpa using hn) hok _ rfl hne
    simp only [List.length_nil, Nat.zero_add, h1, h2] at this
    exact this

/-- Non-vacuity of C83: 2000 pairs in one call of `WriteBlock` with the default options. The first 1015 are written, and more than a
million numbers encoded for that. -/
theorem C83_example : ∃ w : Writer IdSet, newWriter [] quietEnv = (.ok (), w) ∧
    (writeBlock (List.replicate 2000 0) (List.replicate 2000 0) quietEnv w).1 = .error (.blockFull 1015) ∧
    1037270 ≤ (writeBlockC (List.replicate 2000 0) (List.replicate 2000 0) quietEnv w).2 := by
  obtain ⟨w, hw⟩ := newWriter_ok (B := IdSet) quietEnv quietEnv_noFault []
  have hh : History IdSet quietEnv [] [] [] w := ⟨w, hw, rfl⟩
  have h1 : (writeBlock (List.replicate 2000 0) (List.replicate 2000 0) quietEnv w).1 = .error (.blockFull 1015) := by
    rw [C05_default quietEnv_noFault hh (fun _ h => absurd h (by simp)) (fun _ h => absurd h (by simp)) (by simp)
      _ _ (by rw [List.length_replicate]; decide) (by simp only [List.length_replicate])
      (List.ne_nil_of_length_pos (by rw [List.length_replicate]; omega))]
    rw [List.length_replicate]
    rfl
  refine ⟨w, hw, h1, ?_⟩
  have := ((C83_block (List.replicate 2000 0) (List.replicate 2000 0) quietEnv w).2 1015 h1).1
  rw [List.length_replicate] at this
  exact Nat.le_trans (by decide) this

/-- Non-vacuity of the bounds for `SimpleWriter.Write`: a million pairs given to a new `SimpleWriter` with the default options in one
call. The call succeeds, and encodes more than 980 million numbers. -/
theorem C83_million : ∃ sw : SimpleWriter IdSet, newSimpleWriter [] quietEnv = .ok sw ∧
    (sw.write quietEnv (List.replicate 1000000 0) (List.replicate 1000000 0)).1 = .ok () ∧
    980000000 ≤ (writeC quietEnv (List.replicate 1000000 0) (List.replicate 1000000 0) sw).2 := by
  generalize hn : (1000000 : Nat) = n
  have hl : (List.replicate n (0 : UInt64)).length = (List.replicate n (0 : Int64)).length := by
    rw [List.length_replicate, List.length_replicate]
  obtain ⟨_, sw, hsw, hr⟩ := C23_succeeds (B := IdSet) (env := quietEnv) sortByInsertion_lawful quietEnv_noFault []
    (by unfold SymEnc; decide) [.write (List.replicate n 0) (List.replicate n 0)]
    (by
      intro c hc
      cases List.mem_singleton.mp hc
      show (List.replicate n 0).length + 999 ≤ 2 ^ 27
      rw [List.length_replicate]; omega)
  have hw : (sw.write quietEnv (List.replicate n 0) (List.replicate n 0)).1 = .ok () := by
    have h := congrArg (fun x => x.1.map Prod.snd) hr
    have h' := (List.cons.inj h).1
    refine h'.trans ?_
    exact if_pos hl
  refine ⟨sw, hsw, hw, ?_⟩
  have := (C83_fresh quietEnv sortByInsertion_lawful [] sw hsw _ _
    (List.ne_nil_of_length_pos (by rw [List.length_replicate]; omega)) (by rw [List.length_replicate]; omega) hw).1
  rw [List.length_replicate, show capacity (chosenEncoding []) (chosenBlockSize []) = 1019 from by decide] at this
  rw [← hn] at this ⊢
  omega

end VibeCol.Work
