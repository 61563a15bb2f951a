/-
What has been synced, and what later writes can touch.
-/
import Verif.Lemmas.Hist
import Verif.Spec.Power
namespace VibeCol
set_option linter.unusedSectionVars false
variable {B α β : Type}

/-! ### Programs that end with a `Sync` -/

/-- Everything in the file has been synced. -/
def AllSynced (w : Writer B) : Prop := w.disk = { synced := w.file.bytes, unsynced := [] }

/-- If `m` returns a value, everything in the file has been synced. -/
def Syncs (m : WM B α) : Prop := ∀ env w, wp m (fun _ w' => AllSynced w') (fun _ _ => True) env w

theorem wp_trivial (m : WM B α) (env : Env) (w : Writer B) : wp m (fun _ _ => True) (fun _ _ => True) env w := by
  unfold wp
  rcases m env w with ⟨r, w'⟩
  cases r <;> trivial

theorem Syncs.bind {m : WM B α} {f : α → WM B β} (hf : ∀ a, Syncs (f a)) : Syncs (m >>= f) := fun env w =>
  wp_bind (wp_mono (wp_trivial m env w) (fun a w' _ => hf a env w') (fun _ _ _ => trivial))

theorem Syncs.throw (e : Err) : Syncs (WM.throw e : WM B α) := fun _ _ => trivial

theorem Syncs.ite {c : Prop} [Decidable c] {a b : WM B α} (ha : Syncs a) (hb : Syncs b) :
    Syncs (if c then a else b) := by split <;> assumption

theorem Syncs.fsync : Syncs (VibeCol.fsync : WM B Unit) := by
  intro env w
  unfold wp VibeCol.fsync
  by_cases hc : w.fileOpen = false
  · simp only [hc, if_true]
  · simp only [if_neg hc]
    rcases hf : env.fault w.opNo with _ | k
    · rfl
    · trivial

variable [Bitmap B]

theorem Syncs.writeBlockInternal (ids : List UInt64) (vals : List Int64) :
    Syncs (VibeCol.writeBlockInternal ids vals : WM B Unit) := by
  unfold VibeCol.writeBlockInternal
  refine .bind fun _ => .bind fun w => .bind fun x => .bind fun y => .bind fun _ => .bind fun _ => .bind fun _ =>
    .bind fun _ => .bind fun _ => .bind fun _ => .bind fun _ => .bind fun _ => ?_
  refine .ite (.throw _) (.ite (.throw _) (.ite (.throw _) ?_))
  refine .bind fun _ => .bind fun _ => .bind fun _ => .ite (.throw _) (.bind fun _ => .ite (.throw _) (.bind fun _ => ?_))
  dsimp only
  split
  · exact .bind fun _ => .ite (.throw _) (.bind fun _ => .fsync)
  · exact .ite (.throw _) (.bind fun _ => .fsync)

theorem Syncs.finalize : Syncs (VibeCol.finalize : WM B Unit) := by
  unfold VibeCol.finalize
  refine .bind fun _ => .bind fun _ => .bind fun _ => .bind fun w => .bind fun _ => .bind fun _ => .bind fun _ => ?_
  dsimp only
  have tail : ∀ n, Syncs (do
      let footerEnd ← seekCur
      let footerSize := footerEnd - n
      let _ ← fwriteAll [le64 (UInt64.ofNat footerSize), le64 0, le64 magicNumber]
      let footerMetaEnd ← seekCur
      if footerMetaEnd - footerEnd ≠ 24 then WM.throw .footerSizeMismatch else
      if footerMetaEnd - n ≠ footerSize + 24 then WM.throw .footerSizeMismatch else
      VibeCol.fsync : WM B Unit) := fun n =>
    .bind fun _ => .bind fun _ => .bind fun _ => .ite (.throw _) (.ite (.throw _) .fsync)
  have rest : Syncs (do
      let footerStart ← seekCur
      let _ ← fwrite (le32 (UInt32.ofNat w.blockCount))
      if w.blockCount > 0 then
        if w.blockPositions.length ≠ w.blockCount then WM.throw .positionTracking
        else writeBlockFooters w.entries
      let footerEnd ← seekCur
      let footerSize := footerEnd - footerStart
      let _ ← fwriteAll [le64 (UInt64.ofNat footerSize), le64 0, le64 magicNumber]
      let footerMetaEnd ← seekCur
      if footerMetaEnd - footerEnd ≠ 24 then WM.throw .footerSizeMismatch else
      if footerMetaEnd - footerStart ≠ footerSize + 24 then WM.throw .footerSizeMismatch else
      VibeCol.fsync : WM B Unit) := by
    refine .bind fun n => .bind fun _ => ?_
    dsimp only
    split
    · split
      · exact .bind fun _ => tail n
      · exact .bind fun _ => tail n
    · exact tail n
  split
  · exact .bind fun _ => rest
  · exact rest

/-- A `WriteBlock` that acknowledges a block has synced everything. -/
theorem writeBlock_synced {env : Env} {w w' : Writer B} {ids vals} {r : Result}
    (h : writeBlock ids vals env w = (r, w')) (hr : Acknowledges r) : AllSynced w' := by
  have key : wp (writeBlock ids vals) (fun _ w' => AllSynced w') (fun e w' => (∃ n, e = .blockFull n) → AllSynced w')
      env w := by
    have nb : ∀ {γ : Type} (m : WM B γ) (hm : NoBF m) (w : Writer B) {Q : γ → Writer B → Prop}
        (hQ : wp m Q (fun _ _ => True) env w),
        wp m Q (fun e w' => (∃ n, e = .blockFull n) → AllSynced w') env w := by
      intro γ m hm w Q hQ
      unfold wp at *
      have := hm env w
      generalize m env w = res at hQ this ⊢
      obtain ⟨r, w'⟩ := res
      cases r with
      | ok a => exact hQ
      | error e => rintro ⟨n, rfl⟩; exact absurd rfl (this n)
    unfold writeBlock
    refine wp_ite (fun _ => wp_throw (by rintro ⟨_, h⟩; cases h)) fun _ =>
      wp_ite (fun _ => wp_throw (by rintro ⟨_, h⟩; cases h)) fun _ => ?_
    refine wp_bind (nb _ (NoBF.estimateBlockSize _ _) _ (wp_mono (wp_trivial _ env w) (fun s w1 _ => ?_) (fun _ _ _ => trivial)))
    refine wp_bind (wp_get ?_)
    refine wp_ite (fun _ => ?_) fun _ => nb _ (NoBF.writeBlockInternal _ _) _ (Syncs.writeBlockInternal _ _ env _)
    refine wp_bind ?_
    have hfo : ∀ fuel i o env w, ∃ a w', findOptimal (B := B) ids vals fuel i o env w = (.ok a, w') := by
      intro fuel
      induction fuel with
      | zero => intro i o env w; exact ⟨_, _, rfl⟩
      | succ fuel ih =>
        intro i o env w
        unfold findOptimal
        rcases estimateBlockSize (ids.take i) (vals.take i) env w with ⟨r, w'⟩
        cases r with
        | error e => exact ⟨_, _, rfl⟩
        | ok s =>
          dsimp only
          split
          · exact ih _ _ _ _
          · exact ⟨_, _, rfl⟩
    obtain ⟨a, w2, ha⟩ := hfo (ids.length - 1) 1 1 env w1
    unfold wp
    rw [ha]
    refine wp_bind (nb _ (NoBF.writeBlockInternal _ _) _ (wp_mono (Syncs.writeBlockInternal _ _ env _) ?_ (fun _ _ h => h)))
    intro _ w3 h3
    exact wp_throw fun _ => h3
  rcases hr with rfl | ⟨n, rfl⟩
  · exact wp_ok key h
  · exact wp_error key h ⟨n, rfl⟩

/-- If everything is synced, only the file itself may remain. -/
theorem AllSynced.remains {w : Writer B} (h : AllSynced w) (f : Bytes) : MayRemain w.disk f ↔ f = w.file.bytes := by
  unfold AllSynced at h
  rw [h]
  constructor
  · rintro ⟨h1, h2, h3⟩
    have hl : f.length = w.file.bytes.length := by
      rcases h2 with h2 | ⟨p, hp, _⟩
      · exact Nat.le_antisymm h2 h1
      · cases hp
    refine List.ext_getElem? fun i => ?_
    by_cases hi : i < f.length
    · have hb := List.getElem?_eq_getElem hi
      rw [hb]
      rcases h3 i _ hb with h | ⟨h, _⟩ | ⟨p, hp, _⟩
      · exact h.symm
      · dsimp only at h; omega
      · cases hp
    · rw [List.getElem?_eq_none (by omega), List.getElem?_eq_none (by omega)]
  · rintro rfl
    exact ⟨Nat.le_refl _, .inl (Nat.le_refl _), fun i b hb => .inl hb⟩

/-! ### What later calls can touch -/

/-- The bytes from `lo` to `hi` are those of `ref`: in the file, and, if `dk`, in the synced contents,
and no write made since the last `Sync` touched them. -/
structure KeepD (dk : Prop) (lo hi : Nat) (ref : Bytes) (w : Writer B) : Prop where
  len : hi ≤ w.file.bytes.length
  file : ∀ i, lo ≤ i → i < hi → w.file.bytes[i]? = ref[i]?
  slen : dk → hi ≤ w.disk.synced.length
  synced : dk → ∀ i, lo ≤ i → i < hi → w.disk.synced[i]? = ref[i]?
  away : dk → ∀ p ∈ w.disk.unsynced, p.2 = [] ∨ hi ≤ p.1 ∨ p.1 + p.2.length ≤ lo

theorem KeepD.remains {dk : Prop} {lo hi : Nat} {ref : Bytes} {w : Writer B} (h : KeepD dk lo hi ref w) (hdk : dk)
    {f : Bytes} (hf : MayRemain w.disk f) (i : Nat) (h1 : lo ≤ i) (h2 : i < hi) : f[i]? = ref[i]? := by
  have hl : i < f.length := by have := hf.grow; have := h.slen hdk; omega
  have hb := List.getElem?_eq_getElem hl
  rw [← h.synced hdk i h1 h2, hb]
  rcases hf.byte i _ hb with h' | ⟨h', _⟩ | ⟨p, hp, hle, hv⟩
  · exact h'.symm
  · have := h.slen hdk; omega
  · exfalso
    obtain ⟨hj, _⟩ := List.getElem?_eq_some_iff.mp hv
    rcases h.away hdk p hp with h' | h' | h'
    · rw [h'] at hj; simp at hj
    · omega
    · omega

theorem writeAt_below (b d : Bytes) (p i : Nat) (hi : i < p) (hl : i < b.length) : (writeAt b p d)[i]? = b[i]? := by
  cases d with
  | nil => rfl
  | cons x xs =>
    unfold writeAt
    dsimp only
    rw [List.append_assoc, List.append_assoc, List.getElem?_append_left (by rw [List.length_take]; omega),
      List.getElem?_take_of_lt hi]

theorem writeAt_above (b d : Bytes) (p i : Nat) (hi : p + d.length ≤ i) (hp : p ≤ b.length) :
    (writeAt b p d)[i]? = b[i]? := by
  cases d with
  | nil => rfl
  | cons x xs =>
    unfold writeAt
    dsimp only
    rw [List.getElem?_append_right (by
      simp only [List.length_append, List.length_take, List.length_replicate]
      simp only [List.length_cons] at hi
      simp only [List.length_cons]
      omega), List.getElem?_drop]
    congr 1
    simp only [List.length_append, List.length_take, List.length_replicate, List.length_cons] at hi ⊢
    omega

theorem writeAt_length_ge (b d : Bytes) (p : Nat) : b.length ≤ (writeAt b p d).length := by
  cases d with
  | nil => exact Nat.le_refl _
  | cons x xs =>
    unfold writeAt
    simp only [List.length_append, List.length_take, List.length_replicate, List.length_cons, List.length_drop]
    omega

theorem KeepD.write {dk : Prop} {lo hi : Nat} {ref : Bytes} {w : Writer B} (h : KeepD dk lo hi ref w) (d : Bytes) (o : Nat)
    (hd : hi ≤ w.file.pos ∨ w.file.pos + d.length ≤ lo) :
    KeepD dk lo hi ref { w with
      opNo := o
      file := { bytes := writeAt w.file.bytes w.file.pos d, pos := w.file.pos + d.length }
      disk := { w.disk with unsynced := w.disk.unsynced ++ [(w.file.pos, d)] } } where
  len := Nat.le_trans h.len (writeAt_length_ge _ _ _)
  file i h1 h2 := by
    rw [← h.file i h1 h2]
    have := h.len
    rcases hd with hd | hd
    · exact writeAt_below _ _ _ _ (by omega) (by omega)
    · exact writeAt_above _ _ _ _ (by omega) (by omega)
  slen := h.slen
  synced := h.synced
  away hdk p hp := by
    rcases List.mem_append.mp hp with hp | hp
    · exact h.away hdk p hp
    · rw [List.mem_singleton] at hp
      subst hp
      exact .inr hd

section rules
variable {env : Env} {w : Writer B} {dk : Prop} {lo hi n : Nat} {ref : Bytes} {E : Err → Writer B → Prop}

/-- `KeepD`, with the cursor at `n` or beyond. -/
def KeepP (dk : Prop) (lo hi : Nat) (ref : Bytes) (n : Nat) (w : Writer B) : Prop := KeepD dk lo hi ref w ∧ n ≤ w.file.pos

/-- `KeepD`, with the cursor inside the header and at least `n` bytes left before offset `lo`. -/
def KeepH (dk : Prop) (lo hi : Nat) (ref : Bytes) (n : Nat) (w : Writer B) : Prop := KeepD dk lo hi ref w ∧ w.file.pos + n ≤ lo

theorem KeepD.of_eq {w' : Writer B} (h : KeepD dk lo hi ref w) (h1 : w'.file.bytes = w.file.bytes) (h2 : w'.disk = w.disk) :
    KeepD dk lo hi ref w' := by
  constructor
  · rw [h1]; exact h.len
  · rw [h1]; exact h.file
  · rw [h2]; exact h.slen
  · rw [h2]; exact h.synced
  · rw [h2]; exact h.away

theorem KeepP.of_eq {w' : Writer B} (h : KeepP dk lo hi ref n w) (h1 : w'.file = w.file) (h2 : w'.disk = w.disk) :
    KeepP dk lo hi ref n w' := ⟨h.1.of_eq (by rw [h1]) h2, by rw [h1]; exact h.2⟩

theorem KeepP.weaken {m : Nat} (h : KeepP dk lo hi ref n w) (hm : m ≤ n) : KeepP dk lo hi ref m w := ⟨h.1, Nat.le_trans hm h.2⟩

theorem kp_fwrite {d : Bytes} {Q : Nat → Writer B → Prop} (hn : hi ≤ n) (h : KeepP dk lo hi ref n w)
    (hok : ∀ w', KeepP dk lo hi ref (n + d.length) w' → Q d.length w')
    (hio : ∀ w', KeepP dk lo hi ref n w' → E .io w') : wp (fwrite d : WM B Nat) Q E env w := by
  obtain ⟨h, hp⟩ := h
  unfold wp fwrite
  by_cases hc : w.fileOpen = false
  · simp only [hc, if_true]
    exact hio _ ⟨h.of_eq rfl rfl, hp⟩
  · simp only [if_neg hc]
    rcases hf : env.fault w.opNo with _ | k
    · exact hok _ ⟨h.write d _ (.inl (by omega)), by show _ ≤ w.file.pos + d.length; omega⟩
    · exact hio _ ⟨h.write (d.take k) _ (.inl (by omega)), by show _ ≤ w.file.pos + (d.take k).length; omega⟩

theorem kp_fwriteAll {ds : List Bytes} {Q : Nat → Writer B → Prop} (hn : hi ≤ n) (h : KeepP dk lo hi ref n w)
    (hok : ∀ w', KeepP dk lo hi ref (n + ds.flatten.length) w' → Q ds.flatten.length w')
    (hio : ∀ w', KeepP dk lo hi ref n w' → E .io w') : wp (fwriteAll ds : WM B Nat) Q E env w := by
  induction ds generalizing w n Q with
  | nil => exact hok _ h
  | cons d ds ih =>
    unfold fwriteAll
    refine wp_bind (kp_fwrite hn h (fun w1 h1 => ?_) hio)
    refine wp_bind (ih (n := n + d.length) (by omega) h1 (fun w2 h2 => wp_pure ?_)
      (fun w2 h2 => hio w2 (h2.weaken (by omega))))
    have := hok w2
    rw [List.flatten_cons, List.length_append, ← Nat.add_assoc] at this
    exact this h2

theorem kp_seekCur {Q : Nat → Writer B → Prop} (h : KeepP dk lo hi ref n w)
    (hok : ∀ a w', KeepP dk lo hi ref n w' → w'.file.pos = a → Q a w')
    (hio : ∀ w', KeepP dk lo hi ref n w' → E .io w') : wp (seekCur : WM B Nat) Q E env w :=
  wp_seekCur (fun _ _ => hok _ _ (h.of_eq rfl rfl) rfl) (fun _ _ => hio _ (h.of_eq rfl rfl))

theorem kp_seekBack {k : Nat} {off : Int} {Q : Nat → Writer B → Prop} (hoff : off = -(k : Int)) (h : KeepP dk lo hi ref (n + k) w)
    (hok : ∀ a w', KeepP dk lo hi ref n w' → Q a w')
    (hio : ∀ w', KeepP dk lo hi ref n w' → E .io w') : wp (seekRel off : WM B Nat) Q E env w := by
  subst hoff
  have h2 := h.2
  refine wp_seekRel (by omega) (fun o _ => hok _ _ ⟨h.1.of_eq rfl rfl, ?_⟩)
    (fun o _ => hio _ ⟨h.1.of_eq rfl rfl, ?_⟩)
  · show n ≤ ((w.file.pos : Int) + -(k : Int)).toNat; omega
  · show n ≤ w.file.pos; omega

theorem kp_fsync {Q : Unit → Writer B → Prop} (h : KeepP dk lo hi ref n w)
    (hok : ∀ w', KeepP dk lo hi ref n w' → Q () w')
    (hio : ∀ w', KeepP dk lo hi ref n w' → E .io w') : wp (fsync : WM B Unit) Q E env w := by
  obtain ⟨h, hp⟩ := h
  unfold wp fsync
  by_cases hc : w.fileOpen = false
  · simp only [hc, if_true]
    exact hio _ ⟨h.of_eq rfl rfl, hp⟩
  · simp only [if_neg hc]
    rcases hf : env.fault w.opNo with _ | k
    · exact hok _ ⟨⟨h.len, h.file, fun _ => h.len, fun _ => h.file, fun _ p hp => by cases hp⟩, hp⟩
    · exact hio _ ⟨h.of_eq rfl rfl, hp⟩

theorem kh_fwrite {m : Nat} {d : Bytes} {Q : Nat → Writer B → Prop} (h : KeepH dk lo hi ref m w) (hm : m = n + d.length)
    (hok : ∀ w', KeepH dk lo hi ref n w' → Q d.length w')
    (hio : ∀ w', KeepD dk lo hi ref w' → E .io w') : wp (fwrite d : WM B Nat) Q E env w := by
  obtain ⟨h, hp⟩ := h
  unfold wp fwrite
  by_cases hc : w.fileOpen = false
  · simp only [hc, if_true]
    exact hio _ (h.of_eq rfl rfl)
  · simp only [if_neg hc]
    rcases hf : env.fault w.opNo with _ | k
    · exact hok _ ⟨h.write d _ (.inr (by omega)), by show w.file.pos + d.length + n ≤ lo; omega⟩
    · refine hio _ (h.write (d.take k) _ (.inr ?_))
      rw [List.length_take]; omega

theorem kh_fwriteAll {ds : List Bytes} {m : Nat} {Q : Nat → Writer B → Prop} (h : KeepH dk lo hi ref m w)
    (hm : m = n + ds.flatten.length)
    (hok : ∀ w', KeepH dk lo hi ref n w' → Q ds.flatten.length w')
    (hio : ∀ w', KeepD dk lo hi ref w' → E .io w') : wp (fwriteAll ds : WM B Nat) Q E env w := by
  induction ds generalizing w m Q with
  | nil =>
    refine hok _ ?_
    rw [List.flatten_nil, List.length_nil, Nat.add_zero] at hm
    exact hm ▸ h
  | cons d ds ih =>
    unfold fwriteAll
    rw [List.flatten_cons, List.length_append] at hm
    refine wp_bind (kh_fwrite (n := n + ds.flatten.length) h (by omega) (fun w1 h1 => ?_) hio)
    refine wp_bind (ih h1 rfl (fun w2 h2 => wp_pure ?_))
    have := hok w2 h2
    rw [List.flatten_cons, List.length_append] at this
    exact this

end rules

section calls
variable {env : Env} {dk : Prop} {lo hi : Nat} {ref : Bytes}

/-- Nothing in the protected range changes, whether `m` succeeds or not, and the cursor stays
behind it. -/
def Keeps (dk : Prop) (lo hi : Nat) (ref : Bytes) (m : WM B α) : Prop :=
  ∀ env w, KeepP dk lo hi ref hi w → wp m (fun _ w' => KeepP dk lo hi ref hi w') (fun _ w' => KeepP dk lo hi ref hi w') env w

theorem lift_keep {r : Except Err α} {Q : α → Writer B → Prop} {E : Err → Writer B → Prop} {w : Writer B}
    (hok : ∀ a, Q a w) (herr : ∀ e, E e w) : wp (WM.lift r : WM B α) Q E env w := by
  cases r with
  | ok a => exact hok a
  | error e => exact herr e

theorem writeBlockHeader_keep (a b c d e : UInt64) (k : UInt32) {w : Writer B} {n : Nat} (hn : hi ≤ n)
    (h : KeepP dk lo hi ref n w) :
    wp (writeBlockHeader a b c d e k) (fun r w' => r = 52 ∧ KeepP dk lo hi ref (n + 52) w')
      (fun _ w' => KeepP dk lo hi ref hi w') env w := by
  unfold writeBlockHeader
  refine wp_bind (kp_seekCur h (fun s w1 h1 _ => ?_) (fun _ h => h.weaken hn))
  refine wp_bind (wp_get ?_)
  refine wp_bind (kp_fwriteAll hn h1 (fun w2 h2 => ?_) (fun _ h => h.weaken hn))
  refine wp_bind (kp_seekCur h2 (fun s w3 h3 _ => ?_) (fun _ h => h.weaken (by omega)))
  have hl : ([le64 a, le64 b, le64 c, le64 d, le64 e, le32 k, le32 w1.encodingType, le32 compressionNone] :
      List Bytes).flatten.length = 52 := by
    simp only [List.flatten_cons, List.flatten_nil, List.length_append, le64_length, le32_length, List.length_nil]
  rw [hl] at h3
  exact wp_ite (fun _ => wp_throw (h3.weaken (by omega))) fun hc => wp_pure ⟨by omega, h3⟩

theorem Keeps.writeBlockInternal (ids : List UInt64) (vals : List Int64) :
    Keeps dk lo hi ref (VibeCol.writeBlockInternal ids vals : WM B Unit) := by
  intro env w h
  unfold VibeCol.writeBlockInternal
  refine wp_bind (wp_modify ?_)
  have h0 : KeepP dk lo hi ref hi { w with globalIDs := ids.foldl Bitmap.set w.globalIDs } := h.of_eq rfl rfl
  generalize { w with globalIDs := ids.foldl Bitmap.set w.globalIDs } = w0 at h0 ⊢
  refine wp_bind (wp_get ?_)
  refine wp_bind (lift_keep (fun x => ?_) (fun _ => h0))
  refine wp_bind (lift_keep (fun y => ?_) (fun _ => h0))
  obtain ⟨x1, x2, x3⟩ := x
  obtain ⟨y1, y2, y3⟩ := y
  dsimp only
  refine wp_bind (kp_seekCur h0 (fun s w1 h1 _ => ?_) (fun _ h => h))
  refine wp_bind (wp_modify ?_)
  have h2 : KeepP dk lo hi ref hi { w1 with blockPositions := w1.blockPositions ++ [UInt64.ofNat s] } := h1.of_eq rfl rfl
  generalize { w1 with blockPositions := w1.blockPositions ++ [UInt64.ofNat s] } = w2 at h2 ⊢
  refine wp_bind (wp_mono (writeBlockHeader_keep _ _ _ _ _ _ (Nat.le_refl hi) h2) ?_ (fun _ _ h => h))
  rintro _ w3 ⟨rfl, h3⟩
  refine wp_bind (kp_fwrite (by omega) h3 (fun w4 h4 => ?_) (fun _ h => h.weaken (by omega)))
  refine wp_bind (kp_fwrite (by omega) h4 (fun w5 h5 => ?_) (fun _ h => h.weaken (by omega)))
  refine wp_bind (kp_seekCur h5 (fun _ w6 h6 _ => ?_) (fun _ h => h.weaken (by omega)))
  refine wp_bind (kp_fwrite (by omega) h6 (fun w7 h7 => ?_) (fun _ h => h.weaken (by omega)))
  refine wp_bind (kp_seekBack (n := hi) (k := 4) (by decide) (h7.weaken (by simp only [le32_length, le64_length]; omega))
    (fun _ w8 h8 => ?_) (fun _ h => h))
  refine wp_ite (fun _ => wp_throw h8) fun _ => wp_ite (fun _ => wp_throw h8) fun _ => wp_ite (fun _ => wp_throw h8) fun _ => ?_
  refine wp_bind (kp_fwrite (Nat.le_refl _) h8 (fun w9 h9 => ?_) (fun _ h => h))
  replace h9 := h9.weaken (m := hi) (by omega)
  refine wp_bind (kp_seekCur h9 (fun _ w10 h10 _ => ?_) (fun _ h => h))
  refine wp_bind (kp_fwriteAll (Nat.le_refl _) h10 (fun w11 h11 => ?_) (fun _ h => h))
  replace h11 := h11.weaken (m := hi) (by omega)
  refine wp_ite (fun _ => wp_throw h11) fun _ => ?_
  refine wp_bind (kp_fwriteAll (Nat.le_refl _) h11 (fun w12 h12 => ?_) (fun _ h => h))
  replace h12 := h12.weaken (m := hi) (by omega)
  refine wp_ite (fun _ => wp_throw h12) fun _ => ?_
  refine wp_bind (kp_seekCur h12 (fun e w13 h13 _ => ?_) (fun _ h => h))
  have tail : ∀ (w13 : Writer B) (g : Writer B → Writer B) (c : Prop) [Decidable c], KeepP dk lo hi ref hi w13 →
      (∀ w, (g w).file = w.file) → (∀ w, (g w).disk = w.disk) →
      wp (if c then WM.throw .blockSizeMismatch else (do WM.modify g; fsync) : WM B Unit)
        (fun _ w' => KeepP dk lo hi ref hi w') (fun _ w' => KeepP dk lo hi ref hi w') env w13 := by
    intro w13 g c _ h13 hg1 hg2
    refine wp_ite (fun _ => wp_throw h13) fun _ => wp_bind (wp_modify ?_)
    exact kp_fsync (h13.of_eq (hg1 _) (hg2 _)) (fun _ h => h) (fun _ h => h)
  split
  · refine wp_bind (kp_fwrite (Nat.le_refl _) h13 (fun w14 h14 => ?_) (fun _ h => h))
    exact tail w14 _ _ (h14.weaken (by omega)) (fun _ => rfl) (fun _ => rfl)
  · exact tail w13 _ _ h13 (fun _ => rfl) (fun _ => rfl)

theorem Keeps.estimateBlockSize (ids : List UInt64) (vals : List Int64) :
    Keeps dk lo hi ref (VibeCol.estimateBlockSize ids vals : WM B Nat) := by
  intro env w h
  unfold VibeCol.estimateBlockSize
  refine wp_ite (fun _ => wp_throw h) fun _ => wp_ite (fun _ => wp_throw h) fun _ => ?_
  refine wp_bind (wp_get ?_)
  refine wp_bind (lift_keep (fun x => ?_) (fun _ => h))
  refine wp_bind (lift_keep (fun y => ?_) (fun _ => h))
  exact wp_bind (kp_seekCur h (fun s w1 h1 _ => wp_pure h1) (fun _ h => h))

theorem findOptimal_succ (ids : List UInt64) (vals : List Int64) (fuel i o : Nat) (env : Env) (w : Writer B) :
    VibeCol.findOptimal ids vals (fuel + 1) i o env w =
      match VibeCol.estimateBlockSize (ids.take i) (vals.take i) env w with
      | (.error _, w') => (.ok o, w')
      | (.ok size, w') =>
        if size ≤ w.blockSizeTarget.toNat then VibeCol.findOptimal ids vals fuel (i + 1) i env w'
        else (.ok o, w') := rfl

theorem Keeps.findOptimal (ids : List UInt64) (vals : List Int64) (fuel i o : Nat) :
    Keeps dk lo hi ref (VibeCol.findOptimal ids vals fuel i o : WM B Nat) := by
  induction fuel generalizing i o with
  | zero => intro env w h; exact h
  | succ fuel ih =>
    intro env w h
    have he := Keeps.estimateBlockSize (dk := dk) (lo := lo) (hi := hi) (ref := ref) (ids.take i) (vals.take i) env w h
    unfold wp at he ⊢
    rw [findOptimal_succ]
    generalize VibeCol.estimateBlockSize (ids.take i) (vals.take i) env w = res at he ⊢
    obtain ⟨r, w'⟩ := res
    cases r with
    | error e => exact he
    | ok s =>
      dsimp only
      by_cases hs : s ≤ w.blockSizeTarget.toNat
      · rw [if_pos hs]; exact ih _ _ env w' he
      · rw [if_neg hs]; exact he

theorem Keeps.writeBlock (ids : List UInt64) (vals : List Int64) :
    Keeps dk lo hi ref (VibeCol.writeBlock ids vals : WM B Unit) := by
  intro env w h
  unfold VibeCol.writeBlock
  refine wp_ite (fun _ => wp_throw h) fun _ => wp_ite (fun _ => wp_throw h) fun _ => ?_
  refine wp_bind (wp_mono (Keeps.estimateBlockSize ids vals env w h) (fun s w1 h1 => ?_) (fun _ _ h => h))
  refine wp_bind (wp_get ?_)
  refine wp_ite (fun _ => ?_) fun _ => Keeps.writeBlockInternal ids vals env w1 h1
  refine wp_bind (wp_mono (Keeps.findOptimal ids vals _ _ _ env w1 h1) (fun k w2 h2 => ?_) (fun _ _ h => h))
  exact wp_bind (wp_mono (Keeps.writeBlockInternal _ _ env w2 h2) (fun _ w3 h3 => wp_throw h3) (fun _ _ h => h))

theorem Keeps.writeBlockFooter (e : FooterEntry) : Keeps dk lo hi ref (VibeCol.writeBlockFooter e : WM B Unit) := by
  intro env w h
  unfold VibeCol.writeBlockFooter
  refine wp_bind (kp_seekCur h (fun s w1 h1 _ => ?_) (fun _ h => h))
  refine wp_bind (kp_fwriteAll (Nat.le_refl _) h1 (fun w2 h2 => ?_) (fun _ h => h))
  replace h2 := h2.weaken (m := hi) (by omega)
  refine wp_bind (kp_seekCur h2 (fun s w3 h3 _ => ?_) (fun _ h => h))
  exact wp_ite (fun _ => wp_throw h3) fun _ => wp_pure h3

theorem Keeps.writeBlockFooters (es : List FooterEntry) : Keeps dk lo hi ref (VibeCol.writeBlockFooters es : WM B Unit) := by
  induction es with
  | nil => intro env w h; exact h
  | cons e es ih =>
    intro env w h
    unfold VibeCol.writeBlockFooters
    exact wp_bind (wp_mono (Keeps.writeBlockFooter e env w h) (fun _ w1 h1 => ih env w1 h1) (fun _ _ h => h))

/-- `Finalize` keeps the protected range. The cursor is behind it unless an I/O error occurred. -/
theorem finalize_keep {w : Writer B} (h64 : 64 ≤ lo) (h : KeepP dk lo hi ref hi w) :
    wp finalize (fun _ w' => KeepP dk lo hi ref hi w')
      (fun e w' => KeepD dk lo hi ref w' ∧ (e ≠ .io → KeepP dk lo hi ref hi w')) env w := by
  have up : ∀ {e : Err} {w' : Writer B}, KeepP dk lo hi ref hi w' → KeepD dk lo hi ref w' ∧ (e ≠ .io → KeepP dk lo hi ref hi w') :=
    fun h => ⟨h.1, fun _ => h⟩
  unfold VibeCol.finalize writeGlobalIDBitmap
  refine wp_bind (wp_bind (kp_seekCur h (fun s w1 h1 _ => ?_) (fun _ h => up h)))
  refine wp_bind (wp_get ?_)
  refine wp_bind (kp_fwrite (Nat.le_refl _) h1 (fun w2 h2 => ?_) (fun _ h => up h))
  replace h2 := h2.weaken (m := hi) (by omega)
  refine wp_bind (kp_fwrite (Nat.le_refl _) h2 (fun w3 h3 => ?_) (fun _ h => up h))
  replace h3 := h3.weaken (m := hi) (by omega)
  refine wp_bind (kp_seekCur h3 (fun s' w4 h4 _ => wp_pure ?_) (fun _ h => up h))
  dsimp only
  refine wp_bind (wp_seekStart (fun o _ => ?_) (fun o _ => up (h4.of_eq rfl rfl)))
  have h5 : KeepH dk lo hi ref 64 { w4 with opNo := o, file := { w4.file with pos := 0 } } :=
    ⟨h4.1.of_eq rfl rfl, by show 0 + 64 ≤ lo; omega⟩
  generalize { w4 with opNo := o, file := { w4.file with pos := 0 } } = w5 at h5 ⊢
  refine wp_bind (wp_now fun t => wp_bind (wp_get ?_))
  refine wp_bind (kh_fwriteAll (n := 4) h5 (by
    simp only [FileHeader.fields, List.flatten_cons, List.flatten_nil, List.length_append, le64_length, le32_length,
      List.length_nil]) (fun w6 h6 => ?_) (fun _ h => ⟨h, fun h => absurd rfl h⟩))
  refine wp_bind (wp_seekEnd (fun o _ => ?_) (fun o _ => ⟨h6.1.of_eq rfl rfl, fun h => absurd rfl h⟩))
  have h7 : KeepP dk lo hi ref hi { w6 with opNo := o, file := { w6.file with pos := w6.file.bytes.length } } :=
    ⟨h6.1.of_eq rfl rfl, h6.1.len⟩
  generalize { w6 with opNo := o, file := { w6.file with pos := w6.file.bytes.length } } = w7 at h7 ⊢
  refine wp_bind (kp_seekCur h7 (fun p w8 h8 _ => ?_) (fun _ h => up h))
  have tail : ∀ (fs : Nat) (w : Writer B), KeepP dk lo hi ref hi w → wp (do
      let footerEnd ← seekCur
      let footerSize := footerEnd - fs
      let _ ← fwriteAll [le64 (UInt64.ofNat footerSize), le64 0, le64 magicNumber]
      let footerMetaEnd ← seekCur
      if footerMetaEnd - footerEnd ≠ 24 then WM.throw .footerSizeMismatch else
      if footerMetaEnd - fs ≠ footerSize + 24 then WM.throw .footerSizeMismatch else
      fsync : WM B Unit) (fun _ w' => KeepP dk lo hi ref hi w')
      (fun e w' => KeepD dk lo hi ref w' ∧ (e ≠ .io → KeepP dk lo hi ref hi w')) env w := by
    intro fs w h
    refine wp_bind (kp_seekCur h (fun p w1 h1 _ => ?_) (fun _ h => up h))
    refine wp_bind (kp_fwriteAll (Nat.le_refl _) h1 (fun w2 h2 => ?_) (fun _ h => up h))
    replace h2 := h2.weaken (m := hi) (by omega)
    refine wp_bind (kp_seekCur h2 (fun p w3 h3 _ => ?_) (fun _ h => up h))
    exact wp_ite (fun _ => wp_throw (up h3)) fun _ => wp_ite (fun _ => wp_throw (up h3)) fun _ =>
      kp_fsync h3 (fun _ h => h) (fun _ h => up h)
  have rest : ∀ (w8 : Writer B), KeepP dk lo hi ref hi w8 → wp (do
      let footerStart ← seekCur
      let _ ← fwrite (le32 (UInt32.ofNat w5.blockCount))
      if w5.blockCount > 0 then
        if w5.blockPositions.length ≠ w5.blockCount then WM.throw .positionTracking
        else writeBlockFooters w5.entries
      let footerEnd ← seekCur
      let footerSize := footerEnd - footerStart
      let _ ← fwriteAll [le64 (UInt64.ofNat footerSize), le64 0, le64 magicNumber]
      let footerMetaEnd ← seekCur
      if footerMetaEnd - footerEnd ≠ 24 then WM.throw .footerSizeMismatch else
      if footerMetaEnd - footerStart ≠ footerSize + 24 then WM.throw .footerSizeMismatch else
      fsync : WM B Unit) (fun _ w' => KeepP dk lo hi ref hi w')
      (fun e w' => KeepD dk lo hi ref w' ∧ (e ≠ .io → KeepP dk lo hi ref hi w')) env w8 := by
    intro w8 h8
    refine wp_bind (kp_seekCur h8 (fun fs w9 h9 _ => ?_) (fun _ h => up h))
    refine wp_bind (kp_fwrite (Nat.le_refl _) h9 (fun w10 h10 => ?_) (fun _ h => up h))
    replace h10 := h10.weaken (m := hi) (by omega)
    dsimp only
    split
    · split
      · exact wp_bind (wp_throw (up h10))
      · exact wp_bind (wp_mono (Keeps.writeBlockFooters _ env w10 h10) (fun _ w11 h11 => tail fs w11 h11)
          (fun _ _ h => up h))
    · exact tail fs w10 h10
  split
  · refine wp_bind (kp_fwrite (Nat.le_refl _) h8 (fun w9 h9 => ?_) (fun _ h => up h))
    exact rest w9 (h9.weaken (by omega))
  · exact rest w8 h8

/-- One call keeps the protected range; the cursor stays behind it unless a `Finalize` had an I/O
error. -/
theorem call_keep (c : Call) {w : Writer B} (h64 : c = .finalize → 64 ≤ lo) (h : KeepP dk lo hi ref hi w) :
    KeepD dk lo hi ref (c.run env w).2 ∧
      ((c = .finalize → (c.run env w).1 ≠ .error .io) → KeepP dk lo hi ref hi (c.run env w).2) := by
  cases c with
  | write ids vals =>
    have := Keeps.writeBlock ids vals env w h
    unfold wp at this
    simp only [Call.run]
    generalize writeBlock ids vals env w = res at this ⊢
    obtain ⟨r, w'⟩ := res
    cases r <;> exact ⟨this.1, fun _ => this⟩
  | estimate ids vals =>
    have := Keeps.estimateBlockSize ids vals env w h
    unfold wp at this
    simp only [Call.run]
    generalize estimateBlockSize ids vals env w = res at this ⊢
    obtain ⟨r, w'⟩ := res
    cases r <;> exact ⟨this.1, fun _ => this⟩
  | finalize =>
    have := finalize_keep (env := env) (h64 rfl) h
    unfold wp at this
    simp only [Call.run]
    generalize finalize env w = res at this ⊢
    obtain ⟨r, w'⟩ := res
    cases r with
    | ok _ => exact ⟨this.1, fun _ => this⟩
    | error e => exact ⟨this.1, fun he => this.2 fun hc => he trivial (by rw [hc])⟩

/-- A sequence of calls keeps the protected range if only the last one may be a `Finalize` that had an I/O
error. -/
theorem runCalls_keep (calls : List Call) {w : Writer B} (h64 : .finalize ∈ calls → 64 ≤ lo) (h : KeepP dk lo hi ref hi w)
    (hfin : FinalizeNoIOError (runCalls env calls w).1.dropLast) : KeepD dk lo hi ref (runCalls env calls w).2 := by
  induction calls generalizing w with
  | nil => exact h.1
  | cons c cs ih =>
    obtain ⟨h1, h2⟩ := call_keep (env := env) c (fun hc => h64 (hc ▸ List.mem_cons_self ..)) h
    cases cs with
    | nil => exact h1
    | cons c' cs =>
      have hne : (runCalls env (c' :: cs) (c.run env w).2).1 ≠ [] := by simp [runCalls]
      have hrun : runCalls env (c :: c' :: cs) w =
        ((c, (c.run env w).1) :: (runCalls env (c' :: cs) (c.run env w).2).1,
          (runCalls env (c' :: cs) (c.run env w).2).2) := rfl
      rw [hrun] at hfin ⊢
      rw [List.dropLast_cons_of_ne_nil hne] at hfin
      refine ih (fun hc => h64 (List.mem_cons_of_mem _ hc)) (h2 fun hc => ?_) fun ev hev => hfin ev (List.mem_cons_of_mem _ hev)
      exact hfin _ (List.mem_cons_self ..) hc

end calls
end VibeCol
