/-
A session that is cut off leaves, beyond the file header, a prefix of what the whole session leaves: nothing that has been written is
changed later, although `WriteBlock` goes back four bytes and writes zeros over zeros.
-/
import Verif.Lemmas.Crash
import Verif.Lemmas.Prefix
import Verif.Lemmas.Hist
namespace VibeCol.Cuts
set_option linter.unusedSectionVars false
variable {B : Type} {α β : Type}

/-- Beyond the 60 bytes that `Finalize` writes again, `a` is a prefix of `b`. -/
def Front (a b : Bytes) : Prop := a.drop 60 <+: b.drop 60

theorem Front.refl (a : Bytes) : Front a a := List.prefix_refl _
theorem Front.trans {a b c : Bytes} (h : Front a b) (h' : Front b c) : Front a c := List.IsPrefix.trans h h'
theorem Front.append (a b : Bytes) : Front a (a ++ b) := by
  unfold Front
  rw [List.drop_append]
  exact List.prefix_append _ _

/-- Started in a state with `P` and without faults, `m` extends the file beyond the header, a run of `m` that is cut off leaves a prefix
there, and a successful run ends with `Q`. -/
structure Cuts (P : Writer B → Prop) (m : WM B α) (Q : α → Writer B → Prop) : Prop where
  crashable : Crashable m
  full : ∀ env w, env.NoFault → P w → Front w.file.bytes (m env w).2.file.bytes
  post : ∀ env w a w1, env.NoFault → P w → m env w = (.ok a, w1) → Q a w1
  cut : ∀ env w n k, env.NoFault → P w → w.opNo ≤ n → n < (m env w).2.opNo →
    Front (m (env.crashAt n k) w).2.file.bytes (m env w).2.file.bytes

namespace Cuts

theorem seq {P : Writer B → Prop} {m : WM B α} {Q : α → Writer B → Prop} {f : α → WM B β} {R : β → Writer B → Prop}
    (hm : Cuts P m Q) (hf : ∀ a, Cuts (Q a) (f a) R) : Cuts P (m >>= f) R where
  crashable := .bind hm.crashable fun a => (hf a).crashable
  full env w hq hp := by
    have h1 := hm.full env w hq hp
    have h2 := hm.post env w
    rw [WM.bind_def]
    rcases hr : m env w with ⟨r, w1⟩
    rw [hr] at h1 h2
    cases r with
    | error e => exact h1
    | ok a => exact h1.trans ((hf a).full env w1 hq (h2 a w1 hq hp rfl))
  post env w b w2 hq hp h := by
    have h2 := hm.post env w
    rw [WM.bind_def] at h
    rcases hr : m env w with ⟨r, w1⟩
    rw [hr] at h h2
    cases r with
    | error e => cases h
    | ok a => exact (hf a).post env w1 b w2 hq (h2 a w1 hq hp rfl) h
  cut env w n k hq hp hn1 hn2 := by
    by_cases hn : n < (m env w).2.opNo
    · have hc := hm.cut env w n k hq hp hn1 hn
      have hd := (hm.crashable.crash env w n k hn1 hn hq).2
      have hfull : Front (m env w).2.file.bytes ((m >>= f) env w).2.file.bytes := by
        have h2 := hm.post env w
        rw [WM.bind_def]
        rcases hr : m env w with ⟨r, w1⟩
        rw [hr] at h2
        cases r with
        | error e => exact Front.refl _
        | ok a => exact (hf a).full env w1 hq (h2 a w1 hq hp rfl)
      refine Front.trans ?_ hfull
      rw [WM.bind_def (m := m) (f := f) (env := env.crashAt n k)]
      rcases hr : m (env.crashAt n k) w with ⟨r, w1⟩
      rw [hr] at hc hd
      cases r with
      | error e => exact hc
      | ok a =>
        dsimp only
        rw [(hf a).crashable.dead (env.crashAt n k) w1 (dead_crashAt env n k w1 hd)]
        exact hc
    · have hag := hm.crashable.agree_crashAt env w n k (Nat.le_of_not_lt hn)
      have h2 := hm.post env w
      rw [WM.bind_def] at hn2 ⊢
      rw [WM.bind_def, hag]
      rcases hr : m env w with ⟨r, w1⟩
      rw [hr] at h2 hn2 hn
      cases r with
      | error e => exact Front.refl _
      | ok a => exact (hf a).cut env w1 n k hq (h2 a w1 hq hp rfl) (Nat.le_of_not_lt hn) hn2

theorem ite {P : Writer B → Prop} {c : Prop} [Decidable c] {a b : WM B α} {Q : α → Writer B → Prop} (ha : Cuts P a Q)
    (hb : Cuts P b Q) : Cuts P (if c then a else b) Q := by
  split <;> assumption

theorem weaken {P P' : Writer B → Prop} {m : WM B α} {Q Q' : α → Writer B → Prop} (h : Cuts P m Q) (hp : ∀ w, P' w → P w)
    (hq : ∀ a w, Q a w → Q' a w) : Cuts P' m Q' where
  crashable := h.crashable
  full env w hn h' := h.full env w hn (hp w h')
  post env w a w1 hn h' he := hq a w1 (h.post env w a w1 hn (hp w h') he)
  cut env w n k hn h' := h.cut env w n k hn (hp w h')

/-- A step that leaves the bytes of the file alone. -/
theorem still {P : Writer B → Prop} {m : WM B α} {Q : α → Writer B → Prop} (hc : Crashable m)
    (hb : ∀ env w, (m env w).2.file.bytes = w.file.bytes)
    (hpost : ∀ env w a w1, P w → m env w = (.ok a, w1) → Q a w1) : Cuts P m Q where
  crashable := hc
  full env w _ _ := by rw [hb]; exact Front.refl _
  post env w a w1 _ hp h := hpost env w a w1 hp h
  cut env w n k _ _ _ _ := by rw [hb, hb]; exact Front.refl _

theorem throw (P : Writer B → Prop) (e : Err) (Q : α → Writer B → Prop) : Cuts P (WM.throw e : WM B α) Q :=
  still (.throw e) (fun _ _ => rfl) (fun _ _ _ _ _ h => by cases h)

theorem pure {P : Writer B → Prop} {Q : α → Writer B → Prop} (a : α) (h : ∀ w, P w → Q a w) : Cuts P (Pure.pure a : WM B α) Q :=
  still (.pure a) (fun _ _ => rfl) (fun _ _ _ _ hp h' => by cases h'; exact h _ hp)

theorem fileOp_bytes {f : File → Except Err (α × File)} (hf : ∀ F a F', f F = .ok (a, F') → F'.bytes = F.bytes) (env : Env)
    (w : Writer B) : (WM.fileOp f env w).2.file.bytes = w.file.bytes := by
  unfold WM.fileOp
  dsimp only
  split
  · rfl
  · split
    · rfl
    · split
      · next h => exact hf _ _ _ h
      · rfl

theorem fileOp_ok {f : File → Except Err (α × File)} {env : Env} {w w1 : Writer B} {a : α} (h : WM.fileOp f env w = (.ok a, w1)) :
    f w.file = .ok (a, w1.file) := by
  unfold WM.fileOp at h
  dsimp only at h
  split at h
  · cases h
  · split at h
    · cases h
    · split at h
      · next h' => cases h; exact h'
      · cases h

/-- A condition on the file alone. -/
def On (p : File → Prop) (w : Writer B) : Prop := p w.file

/-- The file is longer than its header and the cursor is at its end. -/
def End (F : File) : Prop := F.pos = F.bytes.length ∧ 64 ≤ F.bytes.length

theorem seekCur (p : File → Prop) : Cuts (B := B) (On p) VibeCol.seekCur (fun _ => On p) :=
  still .seekCur (fileOp_bytes fun _ _ _ h => by cases h; rfl) (fun _ w _ w1 hp h => by
    have := fileOp_ok h
    injection this with this
    injection this with h1 h2
    show p w1.file
    rw [← h2]
    exact hp)

theorem fsync (p : File → Prop) : Cuts (B := B) (On p) VibeCol.fsync (fun _ => On p) := by
  refine still .fsync (fun env w => ?_) (fun env w _ w1 hp h => ?_)
  · unfold VibeCol.fsync
    dsimp only
    split
    · rfl
    · split <;> rfl
  · unfold VibeCol.fsync at h
    dsimp only at h
    split at h
    · cases h
    · split at h
      · cases h
      · cases h; exact hp

theorem get (p : File → Prop) : Cuts (B := B) (On p) WM.get (fun _ => On p) :=
  still .get (fun _ _ => rfl) (fun _ _ _ _ hp h => by cases h; exact hp)

theorem modify (p : File → Prop) (f : Writer B → Writer B) (h1 : ∀ w, (f w).opNo = w.opNo) (h2 : ∀ w, (f w).file = w.file)
    (h3 : ∀ w, (f w).disk = w.disk) : Cuts (On p) (WM.modify f) (fun _ => On p) :=
  still (.modify f h1 h2 h3) (fun _ w => by show (f w).file.bytes = _; rw [h2]) (fun _ w _ _ hp h => by
    cases h
    show p (f w).file
    rw [h2]
    exact hp)

theorem lift (p : File → Prop) (r : Except Err α) : Cuts (B := B) (On p) (WM.lift r) (fun _ => On p) := by
  refine still (.lift r) (fun _ w => ?_) (fun _ w _ _ hp h => ?_)
  · cases r <;> rfl
  · cases r with
    | error e => cases h
    | ok a => cases h; exact hp

theorem now [Bitmap B] (p : File → Prop) : Cuts (B := B) (On p) VibeCol.now (fun _ => On p) :=
  still .now (fun _ _ => rfl) (fun _ _ _ _ hp h => by cases h; exact hp)

/-- A write: the whole of it, and any part of it, extend the file beyond the header. -/
theorem write (p q : File → Prop) (d : Bytes)
    (h1 : ∀ F, p F → q { bytes := writeAt F.bytes F.pos d, pos := F.pos + d.length })
    (h2 : ∀ F k, p F → Front (writeAt F.bytes F.pos (d.take k)) (writeAt F.bytes F.pos d))
    (h3 : ∀ F, p F → Front F.bytes (writeAt F.bytes F.pos d)) :
    Cuts (B := B) (On p) (VibeCol.fwrite d) (fun _ => On q) where
  crashable := .fwrite d
  full env w hq hp := by
    unfold VibeCol.fwrite
    dsimp only
    split
    · exact Front.refl _
    · rw [hq]
      exact h3 _ hp
  post env w a w1 hq hp h := by
    unfold VibeCol.fwrite at h
    dsimp only at h
    split at h
    · cases h
    · rw [hq] at h
      cases h
      exact h1 _ hp
  cut env w n k hq hp hn1 hn2 := by
    unfold VibeCol.fwrite at hn2 ⊢
    dsimp only at hn2 ⊢
    split
    · exact Front.refl _
    · next ho =>
      rw [if_neg ho, hq] at hn2
      have : n = w.opNo := by
        dsimp only at hn2
        omega
      subst this
      rw [hq]
      have hc : (env.crashAt w.opNo k).fault w.opNo = some k := by
        unfold Env.crashAt
        dsimp only
        rw [if_neg (Nat.lt_irrefl _), if_pos rfl]
      rw [hc]
      exact h2 _ k hp

/-- A write at the end. -/
theorem append (d : Bytes) : Cuts (B := B) (On End) (VibeCol.fwrite d) (fun _ => On End) := by
  refine write _ _ d (fun F hF => ?_) (fun F k hF => ?_) (fun F hF => ?_)
  · unfold End
    dsimp only
    rw [hF.1, writeAt_end, List.length_append]
    exact ⟨rfl, Nat.le_trans hF.2 (Nat.le_add_right _ _)⟩
  · rw [hF.1, writeAt_end, writeAt_end]
    unfold Front
    rw [List.drop_append, List.drop_append]
    refine (List.prefix_append_right_inj _).2 ?_
    rw [Nat.sub_eq_zero_of_le (Nat.le_trans (by decide : 60 ≤ 64) hF.2)]
    exact List.take_prefix _ _
  · rw [hF.1, writeAt_end]
    exact Front.append _ _

theorem appendAll (ds : List Bytes) : Cuts (B := B) (On End) (VibeCol.fwriteAll ds) (fun _ => On End) := by
  induction ds with
  | nil => exact pure 0 fun _ h => h
  | cons d ds ih => exact seq (append d) fun _ => seq ih fun _ => pure _ fun _ h => h

/-- A write inside the header. -/
theorem inHeader (d : Bytes) (x y : Nat) (hy : x + d.length = y) (hy2 : y ≤ 60) :
    Cuts (B := B) (On fun F => F.pos = x ∧ 64 ≤ F.bytes.length) (VibeCol.fwrite d)
      (fun _ => On fun F => F.pos = y ∧ 64 ≤ F.bytes.length) := by
  refine write _ _ d (fun F hF => ?_) (fun F k hF => ?_) (fun F hF => ?_)
  · dsimp only
    rw [writeAt_length _ _ _ (by omega), hF.1]
    omega
  · unfold Front
    rw [writeAt_drop _ _ _ 60 (by rw [hF.1]; have : (d.take k).length ≤ d.length := (by rw [List.length_take]; exact Nat.min_le_right _ _); omega) (by omega),
      writeAt_drop _ _ _ 60 (by rw [hF.1]; omega) (by omega)]
    exact List.prefix_refl _
  · unfold Front
    rw [writeAt_drop _ _ _ 60 (by rw [hF.1]; omega) (by omega)]
    exact List.prefix_refl _

theorem inHeaderAll (ds : List Bytes) (x y : Nat) (hy : x + ds.flatten.length = y) (hy2 : y ≤ 60) :
    Cuts (B := B) (On fun F => F.pos = x ∧ 64 ≤ F.bytes.length) (VibeCol.fwriteAll ds)
      (fun _ => On fun F => F.pos = y ∧ 64 ≤ F.bytes.length) := by
  induction ds generalizing x with
  | nil => subst hy; exact pure 0 fun _ h => h
  | cons d ds ih =>
    rw [List.flatten_cons, List.length_append] at hy
    exact seq (inHeader d x (x + d.length) rfl (by omega)) fun _ => seq (ih (x + d.length) (by omega)) fun _ => pure _ fun _ h => h

theorem seekStart : Cuts (B := B) (On End) VibeCol.seekStart (fun _ => On fun F => F.pos = 0 ∧ 64 ≤ F.bytes.length) :=
  still .seekStart (fileOp_bytes fun _ _ _ h => by cases h; rfl) (fun _ w _ w1 hp h => by
    have := fileOp_ok h
    injection this with this
    injection this with h1 h2
    show w1.file.pos = 0 ∧ _
    rw [← h2]
    exact ⟨rfl, hp.2⟩)

theorem seekEnd (x : Nat) : Cuts (B := B) (On fun F => F.pos = x ∧ 64 ≤ F.bytes.length) VibeCol.seekEnd (fun _ => On End) :=
  still .seekEnd (fileOp_bytes fun _ _ _ h => by cases h; rfl) (fun _ w _ w1 hp h => by
    have := fileOp_ok h
    injection this with this
    injection this with h1 h2
    show End w1.file
    rw [← h2]
    exact ⟨rfl, hp.2⟩)

/-- The file ends with four zeros. -/
def Zeros (F : File) : Prop := ∃ x, F.bytes = x ++ [0, 0, 0, 0] ∧ 64 ≤ x.length

theorem checksum : Cuts (B := B) (On End) (VibeCol.fwrite (le64 0)) (fun _ => On fun F => F.pos = F.bytes.length ∧ Zeros F) := by
  have h := append (B := B) (le64 0)
  refine write _ _ _ (fun F hF => ?_) ?_ ?_
  · dsimp only
    rw [hF.1, writeAt_end]
    refine ⟨by rw [List.length_append], F.bytes ++ [0, 0, 0, 0], ?_, ?_⟩
    · rw [List.append_assoc]; rfl
    · rw [List.length_append]; exact Nat.le_trans hF.2 (Nat.le_add_right _ _)
  · intro F k hF
    rw [hF.1, writeAt_end, writeAt_end]
    unfold Front
    rw [List.drop_append, List.drop_append]
    refine (List.prefix_append_right_inj _).2 ?_
    rw [Nat.sub_eq_zero_of_le (Nat.le_trans (by decide : 60 ≤ 64) hF.2)]
    exact List.take_prefix _ _
  · intro F hF
    rw [hF.1, writeAt_end]
    exact Front.append _ _

/-- Going back over the four zeros. -/
theorem goBack : Cuts (B := B) (On fun F => F.pos = F.bytes.length ∧ Zeros F) (VibeCol.seekRel (-4))
    (fun _ => On fun F => F.pos + 4 = F.bytes.length ∧ Zeros F) :=
  still (.seekRel _ (by decide)) (fileOp_bytes fun _ _ _ h => by
      dsimp only at h
      split at h
      · cases h
      · cases h; rfl) (fun _ w _ w1 hp h => by
    have := fileOp_ok h
    dsimp only at this
    obtain ⟨hp1, x, hx, hl⟩ := hp
    have hlen : w.file.bytes.length = x.length + 4 := by rw [hx, List.length_append]; rfl
    split at this
    · cases this
    · injection this with this
      injection this with h1 h2
      show w1.file.pos + 4 = w1.file.bytes.length ∧ Zeros w1.file
      rw [← h2]
      refine ⟨?_, x, hx, hl⟩
      dsimp only
      rw [hp1, hlen]
      omega)

/-- Writing over the zeros something that starts with four zeros. -/
theorem layout (d : Bytes) : Cuts (B := B) (On fun F => F.pos + 4 = F.bytes.length ∧ Zeros F) (VibeCol.fwrite (le32 0 ++ d))
    (fun _ => On End) := by
  have key : ∀ F : File, (F.pos + 4 = F.bytes.length ∧ Zeros F) → ∀ k, ∃ e, e <+: d ∧
      writeAt F.bytes F.pos ((le32 0 ++ d).take k) = F.bytes ++ e ∧ (4 + d.length ≤ k → e = d) := by
    rintro F ⟨hp, x, hx, hl⟩ k
    have hpos : F.pos = x.length := by rw [hx, List.length_append] at hp; exact Nat.add_right_cancel hp
    rw [hpos, hx, writeAt_eq _ _ _ (by rw [List.length_append]; omega), List.take_left]
    have h0 : (le32 0 : Bytes) = [0, 0, 0, 0] := by decide
    rw [h0]
    by_cases hk : 4 ≤ k
    · refine ⟨d.take (k - 4), List.take_prefix _ _, ?_, fun h => List.take_of_length_le (by omega)⟩
      rw [List.take_append, List.take_of_length_le (by simpa using hk), List.drop_eq_nil_of_le (by simp)]
      simp
    · refine ⟨[], List.nil_prefix, ?_, fun h => absurd h (by omega)⟩
      rw [List.take_append_of_le_length (by simp; omega), List.append_nil]
      match k, hk with
      | 0, _ => simp
      | 1, _ => simp
      | 2, _ => simp
      | 3, _ => simp
      | k + 4, hk => exact absurd (Nat.le_add_left 4 k) hk
  have whole : ∀ F : File, (F.pos + 4 = F.bytes.length ∧ Zeros F) → writeAt F.bytes F.pos (le32 0 ++ d) = F.bytes ++ d := by
    intro F hF
    obtain ⟨e, _, h2, h3⟩ := key F hF (4 + d.length)
    rw [List.take_of_length_le (by rw [List.length_append]; exact Nat.le_refl _), h3 (Nat.le_refl _)] at h2
    exact h2
  refine write _ _ _ (fun F hF => ?_) (fun F k hF => ?_) (fun F hF => ?_)
  · unfold End
    dsimp only
    rw [whole F hF, List.length_append, List.length_append]
    obtain ⟨hp, x, hx, hl⟩ := hF
    have h4 : (le32 0 : Bytes).length = 4 := by decide
    have hlen : F.bytes.length = x.length + 4 := by rw [hx, List.length_append]; rfl
    omega
  · obtain ⟨e, h1, h2, _⟩ := key F hF k
    rw [h2, whole F hF]
    unfold Front
    obtain ⟨hp, x, hx, hl⟩ := hF
    have hlen : F.bytes.length = x.length + 4 := by rw [hx, List.length_append]; rfl
    rw [List.drop_append, List.drop_append, Nat.sub_eq_zero_of_le (by omega)]
    exact (List.prefix_append_right_inj _).2 h1
  · rw [whole F hF]
    exact Front.append _ _

variable [Bitmap B]

theorem writeBlockHeader (a b c d e : UInt64) (n : UInt32) :
    Cuts (B := B) (On End) (VibeCol.writeBlockHeader a b c d e n) (fun _ => On End) := by
  unfold VibeCol.writeBlockHeader
  exact seq (seekCur _) fun _ => seq (get _) fun _ => seq (appendAll _) fun _ => seq (seekCur _) fun x =>
    ite (throw _ _ _) (pure _ fun w hw => hw)

theorem seqEq {P : Writer B → Prop} {m : WM B α} {Q : Writer B → Prop} {f : α → WM B β} {R : β → Writer B → Prop} (a : α)
    (hm : Cuts P m fun _ => Q) (ha : ∀ env w, wp m (fun x _ => x = a) (fun _ _ => True) env w) (hf : Cuts Q (f a) R) :
    Cuts P (m >>= f) R := by
  have he : (m >>= f) = (m >>= fun _ => f a) := by
    funext env w
    have := ha env w
    unfold wp at this
    rw [WM.bind_def, WM.bind_def]
    generalize m env w = res at this ⊢
    obtain ⟨r, w'⟩ := res
    cases r with
    | ok x => dsimp only at this ⊢; rw [this]
    | error e => rfl
  rw [he]
  exact seq hm fun _ => hf

theorem writeBlockInternal (ids : List UInt64) (vals : List Int64) :
    Cuts (B := B) (On End) (VibeCol.writeBlockInternal ids vals) (fun _ => On End) := by
  unfold VibeCol.writeBlockInternal
  refine seq (modify _ _ (fun _ => rfl) (fun _ => rfl) (fun _ => rfl)) fun _ => seq (get _) fun _ => seq (lift _ _) fun _ => ?_
  refine seq (lift _ _) fun _ => seq (seekCur _) fun _ => seq (modify _ _ (fun _ => rfl) (fun _ => rfl) (fun _ => rfl)) fun _ => ?_
  refine seqEq 52 (writeBlockHeader _ _ _ _ _ _) (Crashable.writeBlockHeader_52 _ _ _ _ _ _) ?_
  refine seq (append _) fun _ => seq (append _) fun _ => seq (seekCur _) fun _ => seq checksum fun _ => seq goBack fun _ => ?_
  refine ite (throw _ _ _) (ite (throw _ _ _) (ite (throw _ _ _) ?_))
  rw [List.append_assoc, List.append_assoc]
  refine seq (layout _) fun _ => seq (seekCur _) fun _ => seq (appendAll _) fun _ => ite (throw _ _ _) ?_
  refine seq (appendAll _) fun _ => ite (throw _ _ _) ?_
  refine seq (seekCur _) fun _ => ?_
  refine ite (seq (append _) fun _ => ?_) ?_
  · exact ite (throw _ _ _) (seq (modify _ _ (fun _ => rfl) (fun _ => rfl) (fun _ => rfl)) fun _ => fsync _)
  · exact ite (throw _ _ _) (seq (modify _ _ (fun _ => rfl) (fun _ => rfl) (fun _ => rfl)) fun _ => fsync _)

theorem estimateBlockSize (ids : List UInt64) (vals : List Int64) :
    Cuts (B := B) (On End) (VibeCol.estimateBlockSize ids vals) (fun _ => On End) := by
  unfold VibeCol.estimateBlockSize
  exact ite (throw _ _ _) (ite (throw _ _ _) (seq (get _) fun _ => seq (lift _ _) fun _ => seq (lift _ _) fun _ =>
    seq (seekCur _) fun _ => pure _ fun _ h => h))

/-- Estimating, also of prefixes and whatever the outcome, leaves the file alone. -/
theorem estimateBlockSize_file (ids : List UInt64) (vals : List Int64) (env : Env) (w : Writer B) :
    (VibeCol.estimateBlockSize ids vals env w).2.file = w.file := by
  unfold VibeCol.estimateBlockSize
  split
  · rfl
  · split
    · rfl
    · simp only [WM.bind_def, WM.get]
      unfold WM.lift
      rcases encodeIDs w.encodingType ids with e | x
      · rfl
      · rcases encodeValues w.encodingType vals with e | y
        · rfl
        · dsimp only
          have hf : (VibeCol.seekCur env w).2.file = w.file := by
            unfold VibeCol.seekCur WM.fileOp
            dsimp only
            split
            · rfl
            · split <;> rfl
          generalize VibeCol.seekCur env w = res at hf ⊢
          obtain ⟨r, w'⟩ := res
          cases r <;> exact hf

theorem findOptimal (ids : List UInt64) (vals : List Int64) (fuel i o : Nat) :
    Cuts (B := B) (On End) (VibeCol.findOptimal ids vals fuel i o) (fun _ => On End) := by
  have hfile : ∀ (fuel i o : Nat) env (w : Writer B), (VibeCol.findOptimal ids vals fuel i o env w).2.file = w.file := by
    intro fuel
    induction fuel with
    | zero => intros; rfl
    | succ fuel ih =>
      intro i o env w
      unfold VibeCol.findOptimal
      have he := estimateBlockSize_file (ids.take i) (vals.take i) env w
      generalize VibeCol.estimateBlockSize (ids.take i) (vals.take i) env w = res at he ⊢
      obtain ⟨r, w'⟩ := res
      cases r with
      | error e => exact he
      | ok size =>
        dsimp only
        split
        · rw [ih]; exact he
        · exact he
  refine still (.findOptimal _ _ _ _ _) (fun env w => by rw [hfile]) (fun env w a w1 hp h => ?_)
  have := hfile fuel i o env w
  rw [h] at this
  show End w1.file
  rw [this]
  exact hp

theorem writeBlock (ids : List UInt64) (vals : List Int64) :
    Cuts (B := B) (On End) (VibeCol.writeBlock ids vals) (fun _ => On End) := by
  unfold VibeCol.writeBlock
  refine ite (throw _ _ _) (ite (throw _ _ _) (seq (estimateBlockSize _ _) fun _ => seq (get _) fun _ => ite ?_ ?_))
  · exact seq (findOptimal _ _ _ _ _) fun _ => seq (writeBlockInternal _ _) fun _ => throw _ _ _
  · exact writeBlockInternal _ _

theorem writeBlockFooters (es : List FooterEntry) : Cuts (B := B) (On End) (VibeCol.writeBlockFooters es) (fun _ => On End) := by
  induction es with
  | nil => exact pure _ fun _ h => h
  | cons e es ih =>
    unfold VibeCol.writeBlockFooters VibeCol.writeBlockFooter
    exact seq (seq (seekCur _) fun _ => seq (appendAll _) fun _ => seq (seekCur _) fun _ => ite (throw _ _ _) (pure _ fun _ h => h))
      fun _ => ih

theorem front : Cuts (B := B) (On End) Prefix.front (fun _ => On End) := by
  unfold Prefix.front VibeCol.writeGlobalIDBitmap
  refine seq (Q := fun _ => On End) (seq (seekCur _) fun _ => seq (get _) fun _ => seq (append _) fun _ => seq (append _) fun _ =>
    seq (seekCur _) fun _ => pure _ fun _ h => h) fun x => ?_
  obtain ⟨a, b⟩ := x
  refine seq seekStart fun _ => seq (now _) fun _ => seq (get _) fun _ => seq (inHeaderAll _ 0 60 ?_ (by decide)) fun _ => seq (seekEnd 60) fun _ =>
    pure _ fun _ h => h
  simp [FileHeader.fields, le64_length, le32_length]

theorem back (w : Writer B) : Cuts (B := B) (On End) (Prefix.back w) (fun _ => On End) := by
  unfold Prefix.back
  refine seq (seekCur _) fun _ => ?_
  have tail : ∀ fs : Nat, Cuts (B := B) (On End) (do
      let footerEnd ← VibeCol.seekCur (B := B)
      let footerSize := footerEnd - fs
      let _ ← VibeCol.fwriteAll [le64 (UInt64.ofNat footerSize), le64 0, le64 magicNumber]
      let footerMetaEnd ← VibeCol.seekCur
      if footerMetaEnd - footerEnd ≠ 24 then WM.throw .footerSizeMismatch else
      if footerMetaEnd - fs ≠ footerSize + 24 then WM.throw .footerSizeMismatch else
      VibeCol.fsync) (fun _ => On End) := fun fs =>
    seq (seekCur _) fun _ => seq (appendAll _) fun _ => seq (seekCur _) fun _ => ite (throw _ _ _) (ite (throw _ _ _) (fsync _))
  have mid : Cuts (B := B) (On End) (do
      let footerStart ← VibeCol.seekCur (B := B)
      let _ ← VibeCol.fwrite (le32 (UInt32.ofNat w.blockCount))
      if w.blockCount > 0 then
        if w.blockPositions.length ≠ w.blockCount then WM.throw .positionTracking
        else VibeCol.writeBlockFooters w.entries
      let footerEnd ← VibeCol.seekCur
      let footerSize := footerEnd - footerStart
      let _ ← VibeCol.fwriteAll [le64 (UInt64.ofNat footerSize), le64 0, le64 magicNumber]
      let footerMetaEnd ← VibeCol.seekCur
      if footerMetaEnd - footerEnd ≠ 24 then WM.throw .footerSizeMismatch else
      if footerMetaEnd - footerStart ≠ footerSize + 24 then WM.throw .footerSizeMismatch else
      VibeCol.fsync) (fun _ => On End) :=
    seq (seekCur _) fun _ => seq (append _) fun _ =>
      ite (ite (seq (Q := fun _ => On End) (throw _ _ _) fun _ => tail _) (seq (writeBlockFooters _) fun _ => tail _)) (tail _)
  exact ite (seq (append _) fun _ => mid) mid

theorem finalize : Cuts (B := B) (On End) VibeCol.finalize (fun _ => On End) := by
  rw [Prefix.finalize_split]
  exact seq front back

end Cuts

open Cuts (End)
theorem call_full {env : Env} (hq : env.NoFault) [Bitmap B] (c : Call) (w : Writer B) (h : End w.file) :
    Front w.file.bytes (c.run env w).2.file.bytes := by
  cases c with
  | write ids vals => exact (Cuts.writeBlock ids vals).full env w hq h
  | finalize => exact Cuts.finalize.full env w hq h
  | estimate ids vals =>
    have := (Cuts.estimateBlockSize (B := B) ids vals).full env w hq h
    simp only [Call.run]
    generalize VibeCol.estimateBlockSize ids vals env w = res at this ⊢
    obtain ⟨r, w'⟩ := res
    cases r <;> exact this

theorem call_cut {env : Env} (hq : env.NoFault) [Bitmap B] (c : Call) (w : Writer B) (h : End w.file) (n k : Nat) (h1 : w.opNo ≤ n)
    (h2 : n < (c.run env w).2.opNo) : Front (c.run (env.crashAt n k) w).2.file.bytes (c.run env w).2.file.bytes := by
  cases c with
  | write ids vals => exact (Cuts.writeBlock ids vals).cut env w n k hq h h1 h2
  | finalize => exact Cuts.finalize.cut env w n k hq h h1 h2
  | estimate ids vals =>
    have := (Cuts.estimateBlockSize (B := B) ids vals).cut env w n k hq h h1
    simp only [Call.run] at h2 ⊢
    generalize VibeCol.estimateBlockSize ids vals env w = res at this h2 ⊢
    generalize VibeCol.estimateBlockSize ids vals (env.crashAt n k) w = res' at this ⊢
    obtain ⟨r, w'⟩ := res
    obtain ⟨r', w''⟩ := res'
    cases r <;> cases r' <;> exact this h2

theorem calls_full {env : Env} (hq : env.NoFault) [Bitmap B] (cs : List Call) (w : Writer B)
    (h : ∀ pre suf, cs = pre ++ suf → End (runCalls env pre w).2.file) :
    Front w.file.bytes (runCalls env cs w).2.file.bytes := by
  induction cs generalizing w with
  | nil => exact Front.refl _
  | cons c cs ih =>
    refine (call_full hq c w (h [] _ rfl)).trans ?_
    exact ih (c.run env w).2 fun pre suf he => h (c :: pre) suf (by rw [he]; rfl)

theorem calls_cut {env : Env} (hq : env.NoFault) [Bitmap B] (cs : List Call) (w : Writer B)
    (h : ∀ pre suf, cs = pre ++ suf → End (runCalls env pre w).2.file) (n k : Nat) (h1 : w.opNo ≤ n)
    (h2 : n < (runCalls env cs w).2.opNo) :
    Front (runCalls (env.crashAt n k) cs w).2.file.bytes (runCalls env cs w).2.file.bytes := by
  induction cs generalizing w with
  | nil => exact Front.refl _
  | cons c cs ih =>
    have hrest : ∀ pre suf, cs = pre ++ suf → End (runCalls env pre (c.run env w).2).2.file :=
      fun pre suf he => h (c :: pre) suf (by rw [he]; rfl)
    by_cases hn : n < (c.run env w).2.opNo
    · have hcr : n < (c.run (env.crashAt n k) w).2.opNo := ((Crashable.call c).crash env w n k h1 hn hq).2
      show Front (runCalls (env.crashAt n k) cs (c.run (env.crashAt n k) w).2).2.file.bytes _
      rw [runCalls_dead _ _ _ (dead_crashAt env n k _ hcr)]
      exact (call_cut hq c w (h [] _ rfl) n k h1 hn).trans (calls_full hq cs _ hrest)
    · have hag : c.run (env.crashAt n k) w = c.run env w := by
        have := (Crashable.call c).agree_crashAt env w n k (Nat.le_of_not_lt hn)
        injection this with ha hb
        injection ha with ha
        exact Prod.ext ha hb
      show Front (runCalls (env.crashAt n k) cs (c.run (env.crashAt n k) w).2).2.file.bytes (runCalls env cs (c.run env w).2).2.file.bytes
      rw [hag]
      exact ih _ hrest (Nat.le_of_not_lt hn) h2

end VibeCol.Cuts
