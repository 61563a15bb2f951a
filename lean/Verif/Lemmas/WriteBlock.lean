/-
All outcomes of `WriteBlock`, for every fault schedule.
-/
import Verif.Lemmas.WriteInternal
namespace VibeCol
variable {B : Type}

/-- The number of bytes a block takes at file offset `off`, as computed by the estimate. -/
def estSize (e : UInt32) (off : Nat) (ids : List UInt64) (vals : List Int64) : Nat :=
  80 + idSize e ids + valSize e vals +
    calculatePadding (off + (80 + idSize e ids + valSize e vals)) pageSize

/-! ### Monotonicity of the estimate -/

theorem calculatePadding_add (x : Nat) : x + calculatePadding x pageSize = (x + 4095) / 4096 * 4096 := by
  unfold calculatePadding pageSize; split <;> omega

theorem padding_mono (off a b : Nat) (h : a ≤ b) :
    a + calculatePadding (off + a) pageSize ≤ b + calculatePadding (off + b) pageSize := by
  have h1 := calculatePadding_add (off + a)
  have h2 := calculatePadding_add (off + b)
  omega

theorem deltaEncodeFrom_take (p : UInt64) (l : List UInt64) (k : Nat) :
    deltaEncodeFrom p (l.take k) = (deltaEncodeFrom p l).take k := by
  induction l generalizing p k with
  | nil => simp [deltaEncodeFrom]
  | cons v vs ih => cases k <;> simp [deltaEncodeFrom, ih]

theorem deltaEncode_take (l : List UInt64) (k : Nat) :
    deltaEncode (l.take k) = (deltaEncode l).take k := by
  cases l with
  | nil => simp [deltaEncode]
  | cons v vs => cases k <;> simp [deltaEncode, deltaEncodeFrom_take]

theorem deltaEncodeInt64From_take (p : Int64) (l : List Int64) (k : Nat) :
    deltaEncodeInt64From p (l.take k) = (deltaEncodeInt64From p l).take k := by
  induction l generalizing p k with
  | nil => simp [deltaEncodeInt64From]
  | cons v vs ih => cases k <;> simp [deltaEncodeInt64From, ih]

theorem deltaEncodeInt64_take (l : List Int64) (k : Nat) :
    deltaEncodeInt64 (l.take k) = (deltaEncodeInt64 l).take k := by
  cases l with
  | nil => simp [deltaEncodeInt64]
  | cons v vs => cases k <;> simp [deltaEncodeInt64, deltaEncodeInt64From_take]

theorem flatten_take_mono {T : Type} (f : T → Bytes) (l : List T) (a b : Nat) (h : a ≤ b) :
    ((l.take a).map f).flatten.length ≤ ((l.take b).map f).flatten.length := by
  have : l.take b = l.take a ++ (l.take b).drop a := by
    conv => lhs; rw [← List.take_append_drop a (l.take b)]
    rw [List.take_take, Nat.min_eq_left h]
  rw [this, List.map_append, List.flatten_append, List.length_append]
  omega

theorem idSize_mono (e : UInt32) (ids : List UInt64) (a b : Nat) (h : a ≤ b) :
    idSize e (ids.take a) ≤ idSize e (ids.take b) := by
  unfold idSize encIDs
  split
  · split
    · rw [deltaEncode_take, deltaEncode_take]; exact flatten_take_mono _ _ _ _ h
    · exact flatten_take_mono _ _ _ _ h
  · simp only [List.length_take]; omega

theorem valSize_mono (e : UInt32) (vals : List Int64) (a b : Nat) (h : a ≤ b) :
    valSize e (vals.take a) ≤ valSize e (vals.take b) := by
  unfold valSize encVals
  split
  · split
    · rw [deltaEncodeInt64_take, deltaEncodeInt64_take]; exact flatten_take_mono _ _ _ _ h
    · exact flatten_take_mono _ _ _ _ h
  · simp only [List.length_take]; omega

theorem estSize_mono (e : UInt32) (off : Nat) (ids : List UInt64) (vals : List Int64) (a b : Nat)
    (h : a ≤ b) : estSize e off (ids.take a) (vals.take a) ≤ estSize e off (ids.take b) (vals.take b) := by
  have h1 := idSize_mono e ids a b h
  have h2 := valSize_mono e vals a b h
  exact padding_mono off _ _ (by omega)

/-! ### The estimate -/

/-- The estimate is computed modulo 2^32 before padding. -/
theorem estimateBlockSize_gen (env : Env) (w : Writer B) (ids : List UInt64) (vals : List Int64)
    (hk : KnownEnc w.encodingType) (hlen : ids.length = vals.length) (hne : 0 < ids.length)
    (hidl : idSize w.encodingType ids < 2 ^ 32) (hvall : valSize w.encodingType vals < 2 ^ 32) :
    wp (estimateBlockSize ids vals)
      (fun s w' => s = (80 + idSize w.encodingType ids + valSize w.encodingType vals) % 2 ^ 32 +
        calculatePadding (w.file.pos + (80 + idSize w.encodingType ids + valSize w.encodingType vals) % 2 ^ 32) pageSize ∧
        St w w.file w')
      (fun e w' => e = .io ∧ Faulty env w ∧ St w w.file w') env w := by
  have hids := encodeIDs_eq w.encodingType hk ids (by omega)
  have hvals := encodeValues_eq w.encodingType hk vals (by omega)
  unfold estimateBlockSize
  refine wp_ite (fun hc => absurd hlen hc) (fun _ => wp_ite (fun hc => absurd hc (by omega)) (fun _ => ?_))
  refine wp_bind (wp_get ?_)
  refine wp_bind (wp_lift_ok hids ?_)
  refine wp_bind (wp_lift_ok hvals ?_)
  refine wp_bind (st_seekCur (St.refl w) ?_ (fun w' h hF => ⟨rfl, hF, h⟩))
  intro w' hs _
  have htot : (UInt32.ofNat (blockHeaderSize + blockLayoutSize) + UInt32.ofNat (idSize w.encodingType ids) +
      UInt32.ofNat (valSize w.encodingType vals)).toNat =
      (80 + idSize w.encodingType ids + valSize w.encodingType vals) % 2 ^ 32 := by
    simp only [UInt32.toNat_add, UInt32.toNat_ofNat', blockHeaderSize, blockLayoutSize]
    omega
  refine wp_pure ⟨?_, hs⟩
  rw [htot]
  split <;> omega

theorem estimateBlockSize_spec (env : Env) (w : Writer B) (ids : List UInt64) (vals : List Int64)
    (hk : KnownEnc w.encodingType) (hlen : ids.length = vals.length) (hne : 0 < ids.length)
    (hid : ids.length ≤ 2 ^ 27) :
    wp (estimateBlockSize ids vals)
      (fun s w' => s = estSize w.encodingType w.file.pos ids vals ∧ St w w.file w')
      (fun e w' => e = .io ∧ Faulty env w ∧ St w w.file w') env w := by
  have hidl := idSize_le w.encodingType ids
  have hvall := valSize_le w.encodingType vals
  have h := estimateBlockSize_gen env w ids vals hk hlen hne (by omega) (by omega)
  rw [Nat.mod_eq_of_lt (by omega)] at h
  exact h

/-! ### The search loop -/

theorem findOptimal_spec (env : Env) (w : Writer B) (ids : List UInt64) (vals : List Int64)
    (hk : KnownEnc w.encodingType) (hlen : ids.length = vals.length) (hid : ids.length ≤ 2 ^ 27)
    (fuel i opt : Nat) (hi : 1 ≤ i) (hfuel : i + fuel ≤ ids.length) (w1 : Writer B)
    (hs : St w w.file w1) :
    wp (findOptimal ids vals fuel i opt)
      (fun k w' => St w w.file w' ∧ ∃ j, i ≤ j ∧ j ≤ i + fuel ∧ k = (if j = i then opt else j - 1) ∧
        (∀ m, i ≤ m → m < j →
          estSize w.encodingType w.file.pos (ids.take m) (vals.take m) ≤ w.blockSizeTarget.toNat) ∧
        (¬ Faulty env w → j < i + fuel → w.blockSizeTarget.toNat <
          estSize w.encodingType w.file.pos (ids.take j) (vals.take j)))
      (fun _ _ => False) env w1 := by
  induction fuel generalizing i opt w1 with
  | zero =>
    exact ⟨hs, i, Nat.le_refl _, by omega, by simp, by intros; omega, by intros; omega⟩
  | succ fuel ih =>
    have hest := estimateBlockSize_spec env w1 (ids.take i) (vals.take i) (by rw [hs.enc]; exact hk)
      (by simp; omega) (by simp; omega) (by simp; omega)
    rw [hs.enc, hs.file] at hest
    unfold wp
    simp only [findOptimal]
    unfold wp at hest
    rcases hr : estimateBlockSize (ids.take i) (vals.take i) env w1 with ⟨r, w2⟩
    rw [hr] at hest
    have ht : w1.blockSizeTarget = w.blockSizeTarget := by obtain ⟨o, d, rfl⟩ := hs; rfl
    cases r with
    | error e =>
      obtain ⟨_, hF, hs2⟩ := hest
      have hs2' : St w w.file w2 := by
        obtain ⟨o, d, rfl⟩ := hs; obtain ⟨o2, d2, rfl⟩ := hs2; exact ⟨o2, d2, rfl⟩
      exact ⟨hs2', i, Nat.le_refl _, by omega, by simp, by intros; omega,
        fun hnF => absurd (hs.faulty hF) hnF⟩
    | ok size =>
      obtain ⟨hsz, hs2⟩ := hest
      have hs2' : St w w.file w2 := by
        obtain ⟨o, d, rfl⟩ := hs; obtain ⟨o2, d2, rfl⟩ := hs2; exact ⟨o2, d2, rfl⟩
      dsimp only
      rw [ht]
      by_cases hc : size ≤ w.blockSizeTarget.toNat
      · rw [if_pos hc]
        have hrec := ih (i + 1) i (by omega) (by omega) w2 hs2'
        unfold wp at hrec
        rcases hr2 : findOptimal ids vals fuel (i + 1) i env w2 with ⟨r, w3⟩
        rw [hr2] at hrec
        cases r with
        | error e => exact hrec.elim
        | ok k =>
          obtain ⟨h3, j, hj1, hj2, hj3, hj4, hj5⟩ := hrec
          refine ⟨h3, j, by omega, by omega, ?_, ?_, ?_⟩
          · rw [hj3, if_neg (show ¬ j = i by omega)]; split <;> omega
          · intro m hm1 hm2
            by_cases hmi : m = i
            · subst hmi; rw [← hsz]; exact hc
            · exact hj4 m (by omega) hm2
          · intro hnF hjl; exact hj5 hnF (by omega)
      · rw [if_neg hc]
        exact ⟨hs2', i, Nat.le_refl _, by omega, by simp, by intros; omega,
          fun _ _ => by rw [← hsz]; omega⟩

/-! ### `WriteBlock` -/

variable [Bitmap B]

theorem Committed.of_st {w w1 w' : Writer B} {ids vals} (hs : St w w.file w1)
    (h : Committed w1 ids vals w') : Committed w ids vals w' := by
  obtain ⟨o, d, rfl⟩ := hs; exact h

theorem WriteErr.of_st {env} {w w1 w' : Writer B} {ids vals e} (hs : St w w.file w1)
    (h : WriteErr env w1 ids vals e w') : WriteErr env w ids vals e w' := by
  obtain ⟨o, d, rfl⟩ := hs
  cases h
  case early hF h => exact .early _ hF h
  case mid f hF hf h => exact .mid _ f hF hf h
  case mismatch f hm hf h => exact .mismatch _ f hm hf h
  case sync hF hm h => exact .sync _ hF hm h

/-- All outcomes of `WriteBlock` on acceptable arguments. -/
inductive WBOut (env : Env) (w : Writer B) (ids : List UInt64) (vals : List Int64) :
    Except Err Unit → Writer B → Prop where
  /-- The whole batch became one block. -/
  | full (w' : Writer B) (hopen : w.fileOpen = true)
      (hm : SectionsMatch w.encodingType ids vals)
      (hfit : estSize w.encodingType w.file.pos ids vals ≤ w.blockSizeTarget.toNat ∨ ids.length = 1)
      (h : Committed w ids vals w') : WBOut env w ids vals (.ok ()) w'
  /-- The first `k` pairs became one block. -/
  | part (w' : Writer B) (k : Nat) (hk1 : 1 ≤ k) (hk2 : k < ids.length)
      (hbig : w.blockSizeTarget.toNat < estSize w.encodingType w.file.pos ids vals)
      (hfit : estSize w.encodingType w.file.pos (ids.take k) (vals.take k) ≤ w.blockSizeTarget.toNat ∨
        k = 1)
      (hmax : ¬ Faulty env w → w.blockSizeTarget.toNat <
        estSize w.encodingType w.file.pos (ids.take (k + 1)) (vals.take (k + 1)))
      (hopen : w.fileOpen = true)
      (hm : SectionsMatch w.encodingType (ids.take k) (vals.take k))
      (h : Committed w (ids.take k) (vals.take k) w') :
      WBOut env w ids vals (.error (.blockFull k)) w'
  /-- The size estimate failed. -/
  | noop (w' : Writer B) (hF : Faulty env w) (h : St w w.file w') :
      WBOut env w ids vals (.error .io) w'
  /-- Writing the block failed. -/
  | fail (e : Err) (w' : Writer B) (k : Nat) (hk1 : 1 ≤ k) (hk2 : k ≤ ids.length)
      (hfit : estSize w.encodingType w.file.pos (ids.take k) (vals.take k) ≤ w.blockSizeTarget.toNat ∨
        k = 1)
      (h : WriteErr env w (ids.take k) (vals.take k) e w') : WBOut env w ids vals (.error e) w'

theorem writeBlock_out (env : Env) (w : Writer B) (ids : List UInt64) (vals : List Int64)
    (hk : KnownEnc w.encodingType) (hlen : ids.length = vals.length) (hne : 0 < ids.length)
    (hid : ids.length ≤ 2 ^ 27)
    (hpos : w.file.pos ≤ w.file.bytes.length) (hnear : w.file.bytes.length ≤ w.file.pos + 4) :
    WBOut env w ids vals (writeBlock ids vals env w).1 (writeBlock ids vals env w).2 := by
  have hwp : wp (writeBlock ids vals) (fun u w' => WBOut env w ids vals (.ok u) w')
      (fun e w' => WBOut env w ids vals (.error e) w') env w := by
    unfold writeBlock
    refine wp_ite (fun hc => absurd hlen hc) (fun _ =>
      wp_ite (fun hc => absurd hc (by omega)) (fun _ => ?_))
    refine wp_bind (wp_mono (estimateBlockSize_spec env w ids vals hk hlen hne hid) ?_ ?_)
    rotate_left
    · rintro e w' ⟨rfl, hF, h⟩; exact .noop w' hF h
    rintro s w1 ⟨rfl, hs1⟩
    refine wp_bind (wp_get ?_)
    have htgt : w1.blockSizeTarget = w.blockSizeTarget := by obtain ⟨o, d, rfl⟩ := hs1; rfl
    rw [htgt]
    refine wp_ite (fun hc => ?_) (fun hc => ?_)
    · refine wp_bind (wp_mono (findOptimal_spec env w ids vals hk hlen hid (ids.length - 1) 1 1
        (Nat.le_refl _) (by omega) w1 hs1) ?_ (fun _ _ h => h.elim))
      rintro k w2 ⟨hs2, j, hj1, hj2, hkj, hfits, hmax⟩
      have hk1 : 1 ≤ k := by rw [hkj]; split <;> omega
      have hk2 : k < ids.length := by rw [hkj]; split <;> omega
      have hfit : estSize w.encodingType w.file.pos (ids.take k) (vals.take k) ≤
          w.blockSizeTarget.toNat ∨ k = 1 := by
        by_cases hj : j = 1
        · right; rw [hkj, if_pos hj]
        · left; apply hfits <;> rw [hkj, if_neg hj] <;> omega
      have hmax' : ¬ Faulty env w → w.blockSizeTarget.toNat <
          estSize w.encodingType w.file.pos (ids.take (k + 1)) (vals.take (k + 1)) := by
        intro hnF
        by_cases hjl : j < 1 + (ids.length - 1)
        · refine Nat.lt_of_lt_of_le (hmax hnF hjl) (estSize_mono _ _ _ _ _ _ ?_)
          rw [hkj]; split <;> omega
        · have hk1 : ids.length ≤ k + 1 := by rw [hkj]; split <;> omega
          rw [List.take_of_length_le hk1, List.take_of_length_le (by omega)]
          exact hc.1
      refine wp_bind (wp_mono (writeBlockInternal_spec env w2 (ids.take k) (vals.take k)
        (by rw [hs2.enc]; exact hk) (by simp; omega) (by simp; omega)
        (by rw [← List.length_pos_iff]; simp; omega) (by rw [← List.length_pos_iff]; simp; omega)
        (by rw [hs2.file]; exact hpos) (by rw [hs2.file]; exact hnear)) ?_ ?_)
      · rintro _ w3 ⟨hm, ho, h⟩
        rw [hs2.enc] at hm; rw [hs2.open] at ho
        exact wp_throw (.part w3 k hk1 hk2 hc.1 hfit hmax' ho hm (h.of_st hs2))
      · intro e w3 h
        exact .fail e w3 k hk1 (by omega) hfit (h.of_st hs2)
    · have hfit : estSize w.encodingType w.file.pos ids vals ≤ w.blockSizeTarget.toNat ∨
          ids.length = 1 := by
        by_cases h1 : ids.length = 1
        · exact .inr h1
        · left; apply Nat.le_of_not_lt; intro h; exact hc ⟨h, by omega⟩
      refine wp_mono (writeBlockInternal_spec env w1 ids vals
        (by rw [hs1.enc]; exact hk) hid (by omega)
        (by rw [← List.length_pos_iff]; omega) (by rw [← List.length_pos_iff]; omega)
        (by rw [hs1.file]; exact hpos) (by rw [hs1.file]; exact hnear)) ?_ ?_
      · rintro _ w3 ⟨hm, ho, h⟩
        rw [hs1.enc] at hm; rw [hs1.open] at ho
        exact .full w3 ho hm hfit (h.of_st hs1)
      · intro e w3 h
        have h' := h.of_st hs1
        refine .fail e w3 ids.length hne (Nat.le_refl _) ?_ ?_
        · rw [List.take_length, hlen, List.take_length]
          exact hlen ▸ hfit
        · rw [List.take_length, hlen, List.take_length]; exact h'
  unfold wp at hwp
  rcases hr : writeBlock ids vals env w with ⟨r, w'⟩
  rw [hr] at hwp
  cases r <;> exact hwp

end VibeCol
