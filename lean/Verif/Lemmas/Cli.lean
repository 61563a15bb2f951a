/-
Reading and printing numbers.
-/
import Verif.Model.Cli
import Verif.Spec.Cli
import Verif.Lemmas.Ints
namespace VibeCol.Cli

/-! ### Printing -/

theorem digit_toNat (d : Nat) (h : d < 10) : (UInt8.ofNat (48 + d)).toNat = 48 + d := by
  rw [UInt8.toNat_ofNat']; omega

theorem digitsValue_append (s : Bytes) (c : UInt8) :
    digitsValue (s ++ [c]) = 10 * digitsValue s + (c.toNat - 48) := by
  simp [digitsValue]

theorem fmtNat_decimal (n : Nat) : Decimal (fmtNat n) n ∧ (n ≠ 0 → (fmtNat n).head? ≠ some 48) := by
  induction n using Nat.strongRecOn with
  | ind n ih =>
    unfold fmtNat
    split
    · rename_i h
      have hd := digit_toNat n h
      refine ⟨⟨⟨by simp, by simp [hd]; omega⟩, by simp only [digitsValue, List.foldl_cons, List.foldl_nil, hd]; omega, ?_⟩, ?_⟩
      · intro h'
        simpa using h'
      · intro h0 h'
        have : UInt8.ofNat (48 + n) = 48 := by simpa using h'
        have := congrArg UInt8.toNat this
        rw [hd] at this
        have h48 : (48 : UInt8).toNat = 48 := rfl
        omega
    · rename_i h
      obtain ⟨h1, h2⟩ := ih (n / 10) (by omega)
      have hd := digit_toNat (n % 10) (by omega)
      have hh : (fmtNat (n / 10) ++ [UInt8.ofNat (48 + n % 10)]).head? ≠ some 48 := by
        have h3 := h2 (by omega)
        have h4 := h1.digits.1
        generalize fmtNat (n / 10) = l at h3 h4
        cases l with
        | nil => exact absurd rfl h4
        | cons c cs => simpa using h3
      refine ⟨⟨⟨by simp, ?_⟩, ?_, fun h' => absurd h' hh⟩, fun _ => hh⟩
      · intro c hc
        rcases List.mem_append.1 hc with hc | hc
        · exact h1.digits.2 c hc
        · rw [List.mem_singleton] at hc
          subst hc
          rw [hd]; omega
      · rw [digitsValue_append, h1.value, hd]; omega

theorem fmtInt_decimal (v : Int64) : SignedDecimal (fmtInt v) v.toInt := by
  unfold fmtInt
  split
  · rename_i h
    have := SignedDecimal.neg _ _ (fmtNat_decimal v.toInt.natAbs).1 (by omega)
    rwa [show -((v.toInt.natAbs : Nat) : Int) = v.toInt by omega] at this
  · rename_i h
    have := SignedDecimal.pos _ _ (fmtNat_decimal v.toInt.natAbs).1
    rwa [show ((v.toInt.natAbs : Nat) : Int) = v.toInt by omega] at this

/-! ### Fields -/

theorem split_ne_nil (s : Bytes) : split s ≠ [] := by
  cases s with
  | nil => simp [split]
  | cons c cs =>
    unfold split
    split
    · simp
    · split <;> simp

theorem split_append (f rest : Bytes) (h : (44 : UInt8) ∉ f) : split (f ++ 44 :: rest) = f :: split rest := by
  induction f with
  | nil => simp [split]
  | cons c cs ih =>
    simp only [List.mem_cons, not_or] at h
    have := ih h.2
    simp only [List.cons_append]
    rw [split, if_neg (by exact fun hc => h.1 hc.symm), this]

theorem split_single (f : Bytes) (h : (44 : UInt8) ∉ f) : split f = [f] := by
  induction f with
  | nil => rfl
  | cons c cs ih =>
    simp only [List.mem_cons, not_or] at h
    rw [split, if_neg (by exact fun hc => h.1 hc.symm), ih h.2]

theorem split_intercalate (fs : List Bytes) (hne : fs ≠ []) (h : ∀ f ∈ fs, (44 : UInt8) ∉ f) :
    split ([(44 : UInt8)].intercalate fs) = fs := by
  induction fs with
  | nil => exact absurd rfl hne
  | cons f fs ih =>
    cases fs with
    | nil =>
      have : [(44 : UInt8)].intercalate [f] = f := by simp [List.intercalate]
      rw [this, split_single f (h f (by simp))]
    | cons g gs =>
      have : [(44 : UInt8)].intercalate (f :: g :: gs) = f ++ 44 :: [(44 : UInt8)].intercalate (g :: gs) := by
        simp [List.intercalate, List.intersperse]
      rw [this, split_append f _ (h f (by simp)), ih (by simp) (fun x hx => h x (by simp [hx]))]

theorem fieldsOf_split (s : Bytes) : FieldsOf s (split s) := by
  refine ⟨split_ne_nil s, ?_⟩
  induction s with
  | nil => simp [split, List.intercalate]
  | cons c cs ih =>
    obtain ⟨h1, h2⟩ := ih
    unfold split
    split
    · rename_i hc
      subst hc
      constructor
      · intro f hf
        rcases List.mem_cons.1 hf with rfl | hf
        · simp
        · exact h1 f hf
      · have hne := split_ne_nil cs
        generalize split cs = l at *
        cases l with
        | nil => exact absurd rfl hne
        | cons g gs => rw [h2]; simp [List.intercalate, List.intersperse]
    · rename_i hc
      have hne := split_ne_nil cs
      generalize split cs = l at *
      cases l with
      | nil => exact absurd rfl hne
      | cons g gs =>
        dsimp only
        constructor
        · intro f hf
          rcases List.mem_cons.1 hf with rfl | hf
          · simp only [List.mem_cons, not_or]
            exact ⟨fun h => hc h.symm, h1 g (by simp)⟩
          · exact h1 f (by simp [hf])
        · rw [h2]
          cases gs <;> simp [List.intercalate, List.intersperse]

/-- The fields of an argument are determined. -/
theorem fieldsOf_iff (s : Bytes) (fs : List Bytes) : FieldsOf s fs ↔ fs = split s := by
  constructor
  · rintro ⟨h1, h2, rfl⟩
    exact (split_intercalate fs h1 h2).symm
  · rintro rfl
    exact fieldsOf_split s

/-! ### White space -/

/-- `len` recognises the strings in `chars` at the start. -/
structure Recognises (len : Bytes → Nat) (chars : List Bytes) : Prop where
  nonempty : ∀ c ∈ chars, c ≠ []
  found : ∀ c ∈ chars, ∀ s, len (c ++ s) = c.length
  only : ∀ s, 0 < len s → ∃ c ∈ chars, ∃ t, s = c ++ t

theorem strip_spec {len : Bytes → Nat} {chars : List Bytes} (h : Recognises len chars) (s : Bytes) :
    ∃ ws : List Bytes, (∀ c ∈ ws, c ∈ chars) ∧ s = ws.flatten ++ strip len s := by
  induction hn : s.length using Nat.strongRecOn generalizing s with
  | ind n ih =>
    unfold strip
    split
    · rename_i hc
      obtain ⟨c, hcc, t, rfl⟩ := h.only s hc.1
      have hl := h.found c hcc t
      have hne := List.length_pos_iff.2 (h.nonempty c hcc)
      rw [hl, List.drop_left]
      obtain ⟨ws, h1, h2⟩ := ih t.length (by rw [← hn, List.length_append]; omega) t rfl
      refine ⟨c :: ws, ?_, ?_⟩
      · intro x hx
        rcases List.mem_cons.1 hx with rfl | hx
        · exact hcc
        · exact h1 x hx
      · rw [List.flatten_cons, List.append_assoc, ← h2]
    · exact ⟨[], by simp, rfl⟩

theorem strip_of {len : Bytes → Nat} {chars : List Bytes} (h : Recognises len chars) (ws : List Bytes)
    (hws : ∀ c ∈ ws, c ∈ chars) (t : Bytes) (ht : len t = 0) : strip len (ws.flatten ++ t) = t := by
  induction ws with
  | nil =>
    rw [List.flatten_nil, List.nil_append]
    unfold strip
    rw [if_neg (by omega)]
  | cons c ws ih =>
    have hc := hws c (by simp)
    have hne := List.length_pos_iff.2 (h.nonempty c hc)
    rw [List.flatten_cons, List.append_assoc]
    unfold strip
    rw [h.found c hc, if_pos ⟨hne, by rw [List.length_append]; omega⟩, List.drop_left]
    exact ih (fun x hx => hws x (by simp [hx]))

theorem toNat_eq8 {a : UInt8} {n : Nat} (hn : n < 256) (h : a.toNat = n) : a = UInt8.ofNat n := by
  rw [← UInt8.toNat_inj, h, UInt8.toNat_ofNat', Nat.mod_eq_of_lt hn]

theorem range8 {a lo hi : UInt8} (h1 : lo ≤ a) (h2 : a ≤ hi) :
    ∃ k, k ≤ hi.toNat - lo.toNat ∧ a = UInt8.ofNat (lo.toNat + k) := by
  rw [UInt8.le_iff_toNat_le] at h1 h2
  have := UInt8.toNat_lt hi
  exact ⟨a.toNat - lo.toNat, by omega, toNat_eq8 (by omega) (by omega)⟩

theorem ascii_space {a : UInt8} (h : (9 ≤ a ∧ a ≤ 13) ∨ a = 32) : [a] ∈ spaceChars := by
  rcases h with ⟨h1, h2⟩ | rfl
  · obtain ⟨k, hk, rfl⟩ := range8 h1 h2
    have e1 : (9 : UInt8).toNat = 9 := rfl
    have e2 : (13 : UInt8).toNat = 13 := rfl
    rw [e1, e2] at hk
    have hk : k = 0 ∨ k = 1 ∨ k = 2 ∨ k = 3 ∨ k = 4 := by omega
    rcases hk with rfl | rfl | rfl | rfl | rfl <;> decide
  · decide

theorem two_space {a b : UInt8} (h : a = 0xC2 ∧ (b = 0x85 ∨ b = 0xA0)) : [a, b] ∈ spaceChars := by
  obtain ⟨rfl, rfl | rfl⟩ := h <;> decide

theorem three_space {a b c : UInt8} (h : (a = 0xE1 ∧ b = 0x9A ∧ c = 0x80) ∨
    (a = 0xE2 ∧ b = 0x80 ∧ ((0x80 ≤ c ∧ c ≤ 0x8A) ∨ c = 0xA8 ∨ c = 0xA9 ∨ c = 0xAF)) ∨
    (a = 0xE2 ∧ b = 0x81 ∧ c = 0x9F) ∨ (a = 0xE3 ∧ b = 0x80 ∧ c = 0x80)) : [a, b, c] ∈ spaceChars := by
  rcases h with ⟨rfl, rfl, rfl⟩ | ⟨rfl, rfl, ⟨h1, h2⟩ | rfl | rfl | rfl⟩ | ⟨rfl, rfl, rfl⟩ | ⟨rfl, rfl, rfl⟩
  · decide
  · obtain ⟨k, hk, rfl⟩ := range8 h1 h2
    have e1 : (0x80 : UInt8).toNat = 128 := rfl
    have e2 : (0x8A : UInt8).toNat = 138 := rfl
    rw [e1, e2] at hk
    have hk : k = 0 ∨ k = 1 ∨ k = 2 ∨ k = 3 ∨ k = 4 ∨ k = 5 ∨ k = 6 ∨ k = 7 ∨ k = 8 ∨ k = 9 ∨ k = 10 := by omega
    rcases hk with rfl | rfl | rfl | rfl | rfl | rfl | rfl | rfl | rfl | rfl | rfl <;> decide
  all_goals decide

theorem spaceLen_recognises : Recognises spaceLen spaceChars where
  nonempty := by decide
  found c hc s := by
    have : ∀ c ∈ spaceChars, spaceLen (c ++ s) = c.length := by
      simp [spaceChars, spaceLen]
    exact this c hc
  only s h := by
    unfold spaceLen at h
    split at h
    · omega
    · rename_i a s
      split at h
      · exact ⟨[a], ascii_space ‹_›, s, rfl⟩
      · split at h
        · omega
        · rename_i b s
          split at h
          · exact ⟨[a, b], two_space ‹_›, s, rfl⟩
          · split at h
            · omega
            · rename_i c s
              split at h
              · exact ⟨[a, b, c], three_space ‹_›, s, rfl⟩
              · omega

theorem spaceLenRev_recognises : Recognises spaceLenRev (spaceChars.map List.reverse) where
  nonempty := by decide
  found c hc s := by
    have : ∀ c ∈ spaceChars.map List.reverse, spaceLenRev (c ++ s) = c.length := by
      simp [spaceChars, spaceLenRev]
    exact this c hc
  only s h := by
    unfold spaceLenRev at h
    split at h
    · omega
    · rename_i c s
      split at h
      · exact ⟨[c], List.mem_map.2 ⟨[c], ascii_space ‹_›, rfl⟩, s, rfl⟩
      · split at h
        · omega
        · rename_i b s
          split at h
          · exact ⟨[c, b], List.mem_map.2 ⟨[b, c], two_space ‹_›, rfl⟩, s, rfl⟩
          · split at h
            · omega
            · rename_i a s
              split at h
              · exact ⟨[c, b, a], List.mem_map.2 ⟨[a, b, c], three_space ‹_›, rfl⟩, s, rfl⟩
              · omega

theorem spaces_iff (s : Bytes) : Spaces s ↔ ∃ ws : List Bytes, (∀ c ∈ ws, c ∈ spaceChars) ∧ s = ws.flatten := by
  constructor
  · intro h
    induction h with
    | nil => exact ⟨[], by simp, rfl⟩
    | cons c s hc _ ih =>
      obtain ⟨ws, h1, rfl⟩ := ih
      refine ⟨c :: ws, ?_, rfl⟩
      intro x hx
      rcases List.mem_cons.1 hx with rfl | hx
      · exact hc
      · exact h1 x hx
  · rintro ⟨ws, h, rfl⟩
    induction ws with
    | nil => exact .nil
    | cons c ws ih => exact .cons c _ (h c (by simp)) (ih fun x hx => h x (by simp [hx]))

theorem flatten_reverse (ws : List Bytes) : ws.flatten.reverse = (ws.reverse.map List.reverse).flatten := by
  induction ws with
  | nil => rfl
  | cons c ws ih => simp [ih]

/-- Trimming removes white space at both ends. -/
theorem trimSpace_spec (s : Bytes) : ∃ l r, s = l ++ trimSpace s ++ r ∧ Spaces l ∧ Spaces r := by
  obtain ⟨ws, h1, h2⟩ := strip_spec spaceLen_recognises s
  obtain ⟨vs, h3, h4⟩ := strip_spec spaceLenRev_recognises (strip spaceLen s).reverse
  refine ⟨ws.flatten, vs.flatten.reverse, ?_, (spaces_iff _).2 ⟨ws, h1, rfl⟩, (spaces_iff _).2
    ⟨vs.reverse.map List.reverse, ?_, flatten_reverse vs⟩⟩
  · have h5 := congrArg List.reverse h4
    rw [List.reverse_reverse, List.reverse_append] at h5
    unfold trimSpace
    rw [List.append_assoc, ← h5]
    exact h2
  · intro c hc
    obtain ⟨v, hv, rfl⟩ := List.mem_map.1 hc
    obtain ⟨u, hu, rfl⟩ := List.mem_map.1 (h3 v (by simpa using hv))
    rwa [List.reverse_reverse]

/-- A visible ASCII character other than a space. -/
theorem spaceLen_visible (c : UInt8) (s : Bytes) (h1 : 32 < c.toNat) (h2 : c.toNat < 128) : spaceLen (c :: s) = 0 := by
  have := spaceLen_recognises.only (c :: s)
  apply Nat.eq_zero_of_not_pos
  intro h
  obtain ⟨w, hw, t, ht⟩ := this h
  have : ∀ w ∈ spaceChars, w.head?.all fun c => c.toNat ≤ 32 ∨ 128 ≤ c.toNat := by decide
  have := this w hw
  have hne := spaceLen_recognises.nonempty w hw
  cases w with
  | nil => exact hne rfl
  | cons x xs =>
    rw [List.cons_append, List.cons.injEq] at ht
    simp only [List.head?_cons, Option.all_some, decide_eq_true_eq] at this
    rw [← ht.1] at this
    omega

theorem spaceLenRev_visible (c : UInt8) (s : Bytes) (h1 : 32 < c.toNat) (h2 : c.toNat < 128) :
    spaceLenRev (c :: s) = 0 := by
  have := spaceLenRev_recognises.only (c :: s)
  apply Nat.eq_zero_of_not_pos
  intro h
  obtain ⟨w, hw, t, ht⟩ := this h
  have : ∀ w ∈ spaceChars.map List.reverse, w.head?.all fun c => c.toNat ≤ 32 ∨ 128 ≤ c.toNat := by decide
  have := this w hw
  have hne := spaceLenRev_recognises.nonempty w hw
  cases w with
  | nil => exact hne rfl
  | cons x xs =>
    rw [List.cons_append, List.cons.injEq] at ht
    simp only [List.head?_cons, Option.all_some, decide_eq_true_eq] at this
    rw [← ht.1] at this
    omega

/-- Trimming finds a string of visible ASCII characters between white space. -/
theorem trimSpace_of (l d r : Bytes) (hl : Spaces l) (hr : Spaces r) (hne : d ≠ [])
    (hd : ∀ c ∈ d, 32 < c.toNat ∧ c.toNat < 128) : trimSpace (l ++ d ++ r) = d := by
  obtain ⟨ws, h1, rfl⟩ := (spaces_iff l).1 hl
  obtain ⟨vs, h2, rfl⟩ := (spaces_iff r).1 hr
  have e1 : strip spaceLen (ws.flatten ++ d ++ vs.flatten) = d ++ vs.flatten := by
    rw [List.append_assoc]
    apply strip_of spaceLen_recognises ws h1
    cases d with
    | nil => exact absurd rfl hne
    | cons c cs =>
      have := hd c (by simp)
      exact spaceLen_visible c _ this.1 this.2
  have e2 : strip spaceLenRev (d ++ vs.flatten).reverse = d.reverse := by
    rw [List.reverse_append, flatten_reverse]
    apply strip_of spaceLenRev_recognises
    · intro c hc
      obtain ⟨v, hv, rfl⟩ := List.mem_map.1 hc
      exact List.mem_map.2 ⟨v, h2 v (by simpa using hv), rfl⟩
    · have hne' : d.reverse ≠ [] := by simpa using hne
      have hd' : ∀ c ∈ d.reverse, 32 < c.toNat ∧ c.toNat < 128 := fun c hc => hd c (by simpa using hc)
      generalize d.reverse = d' at hne' hd'
      cases d' with
      | nil => exact absurd rfl hne'
      | cons c cs =>
        have := hd' c (by simp)
        exact spaceLenRev_visible c _ this.1 this.2
  unfold trimSpace
  rw [e1, e2, List.reverse_reverse]

/-! ### Numbers -/

theorem foldl_digits_ge (s : Bytes) (n : Nat) : n ≤ s.foldl (fun n c => 10 * n + (c.toNat - 48)) n := by
  induction s generalizing n with
  | nil => exact Nat.le_refl _
  | cons c cs ih => exact Nat.le_trans (show n ≤ 10 * n + (c.toNat - 48) by omega) (ih _)

theorem parseUintLoop_iff (s : Bytes) (n m : UInt64) :
    parseUintLoop s n = .ok m ↔ (∀ c ∈ s, 48 ≤ c.toNat ∧ c.toNat ≤ 57) ∧
      s.foldl (fun n c => 10 * n + (c.toNat - 48)) n.toNat = m.toNat := by
  induction s generalizing n with
  | nil =>
    simp only [parseUintLoop, List.foldl_nil, Except.ok.injEq]
    rw [← UInt64.toNat_inj]
    simp
  | cons c cs ih =>
    have hm := UInt64.toNat_lt m
    have hn := UInt64.toNat_lt n
    have hge := foldl_digits_ge cs (10 * n.toNat + (c.toNat - 48))
    rw [parseUintLoop, List.foldl_cons]
    by_cases hc : c < 48 ∨ 57 < c
    · rw [if_pos hc]
      constructor
      · intro h; cases h
      · rintro ⟨h, _⟩
        have := h c (by simp)
        rw [UInt8.lt_iff_toNat_lt, UInt8.lt_iff_toNat_lt] at hc
        have e1 : (48 : UInt8).toNat = 48 := rfl
        have e2 : (57 : UInt8).toNat = 57 := rfl
        omega
    · rw [if_neg hc]
      have hc' : 48 ≤ c.toNat ∧ c.toNat ≤ 57 := by
        rw [UInt8.lt_iff_toNat_lt, UInt8.lt_iff_toNat_lt] at hc
        have e1 : (48 : UInt8).toNat = 48 := rfl
        have e2 : (57 : UInt8).toNat = 57 := rfl
        omega
      have ecut : (1844674407370955162 : UInt64).toNat = 1844674407370955162 := rfl
      by_cases hcut : n ≥ 1844674407370955162
      · rw [if_pos hcut]
        have hcut : 1844674407370955162 ≤ n.toNat := by
          rw [ge_iff_le, UInt64.le_iff_toNat_le, ecut] at hcut; exact hcut
        constructor
        · intro h; cases h
        · rintro ⟨_, h⟩
          omega
      · rw [if_neg hcut]
        have hcut : n.toNat < 1844674407370955162 := by
          rw [ge_iff_le, UInt64.le_iff_toNat_le, ecut] at hcut; omega
        have e10 : (n * 10).toNat = 10 * n.toNat := by
          rw [UInt64.toNat_mul, show (10 : UInt64).toNat = 10 from rfl]; omega
        have ed : ((c - 48).toUInt64).toNat = c.toNat - 48 := by
          rw [UInt8.toNat_toUInt64, UInt8.toNat_sub_of_le]
          · rfl
          · rw [UInt8.le_iff_toNat_le]; exact hc'.1
        have e1 : (n * 10 + (c - 48).toUInt64).toNat = (10 * n.toNat + (c.toNat - 48)) % 2 ^ 64 := by
          rw [UInt64.toNat_add, e10, ed]
        dsimp only
        by_cases hov : n * 10 + (c - 48).toUInt64 < n * 10
        · rw [if_pos hov]
          rw [UInt64.lt_iff_toNat_lt, e1, e10] at hov
          constructor
          · intro h; cases h
          · rintro ⟨_, h⟩
            omega
        · rw [if_neg hov]
          rw [UInt64.lt_iff_toNat_lt, e1, e10] at hov
          have e1' : (n * 10 + (c - 48).toUInt64).toNat = 10 * n.toNat + (c.toNat - 48) := by omega
          rw [ih, e1']
          simp only [List.forall_mem_cons, hc', true_and, and_true]

theorem parseUint_iff (s : Bytes) (m : UInt64) : parseUint s = .ok m ↔ Digits s ∧ digitsValue s = m.toNat := by
  unfold parseUint Digits digitsValue
  by_cases h : s = []
  · rw [if_pos h]
    simp [h]
  · rw [if_neg h, parseUintLoop_iff]
    simp [h, and_assoc]

/-- A range error means digits that stand for too large a number. -/
theorem parseUint_total (s : Bytes) (h : Digits s) (hv : digitsValue s < 2 ^ 64) :
    parseUint s = .ok (UInt64.ofNat (digitsValue s)) := by
  rw [parseUint_iff]
  exact ⟨h, by rw [UInt64.toNat_ofNat', Nat.mod_eq_of_lt hv]⟩

theorem denotesID_iff (f : Bytes) (n : UInt64) : parseUint (trimSpace f) = .ok n ↔ DenotesID f n := by
  rw [parseUint_iff]
  constructor
  · rintro ⟨h1, h2⟩
    obtain ⟨l, r, h3, h4, h5⟩ := trimSpace_spec f
    exact ⟨l, _, r, h3, h4, h5, h1, h2⟩
  · rintro ⟨l, d, r, rfl, h1, h2, h3, h4⟩
    rw [trimSpace_of l d r h1 h2 h3.1 (fun c hc => by have := h3.2 c hc; omega)]
    exact ⟨h3, h4⟩

theorem toInt_toInt64 (u : UInt64) : u.toInt64.toInt = (u.toNat : Int).bmod (2 ^ 64) := by
  rw [← Int64.toInt_toBitVec, UInt64.toBitVec_toInt64, BitVec.toInt_eq_toNat_bmod]
  rfl

/-- What `ParseInt` accepts. -/
theorem parseInt_iff (s : Bytes) (v : Int64) : parseInt s = .ok v ↔ ∃ sign d, s = sign ++ d ∧ Digits d ∧
    ((sign = [] ∨ sign = [43]) ∧ (digitsValue d : Int) = v.toInt ∨
      sign = [45] ∧ -(digitsValue d : Int) = v.toInt) := by
  have hv1 := v.toInt_lt
  have hv2 := v.le_toInt
  have e63 : (9223372036854775808 : UInt64).toNat = 9223372036854775808 := rfl
  have hpos : ∀ u : UInt64, u.toNat < 9223372036854775808 → u.toInt64.toInt = u.toNat := by
    intro u hu
    rw [toInt_toInt64, Int.bmod_def]
    omega
  have hneg : ∀ u : UInt64, u.toNat ≤ 9223372036854775808 → (-u.toInt64).toInt = -(u.toNat : Int) := by
    intro u hu
    rw [Int64.toInt_neg, toInt_toInt64, Int.bmod_def, Int.bmod_def]
    omega
  cases s with
  | nil =>
    simp only [parseInt]
    constructor
    · intro h; cases h
    · rintro ⟨sign, d, h, hd, _⟩
      have : d = [] := by
        have := congrArg List.length h
        rw [List.length_append, List.length_nil] at this
        exact List.eq_nil_of_length_eq_zero (by omega)
      exact absurd this hd.1
  | cons c cs =>
    unfold parseInt
    dsimp only
    by_cases hm : c = 45
    · subst hm
      rw [if_pos (Or.inr rfl)]
      constructor
      · intro h
        rcases hp : parseUint cs with e | u
        · rw [hp] at h; cases e <;> cases h
        · rw [hp] at h
          dsimp only at h
          have hu := (parseUint_iff cs u).1 hp
          rw [if_neg (by simp)] at h
          split at h
          · cases h
          · rename_i hle
            simp only [true_and, gt_iff_lt, UInt64.lt_iff_toNat_lt, e63, Nat.not_lt] at hle
            simp only [if_true, Except.ok.injEq] at h
            refine ⟨[45], cs, rfl, hu.1, .inr ⟨rfl, ?_⟩⟩
            rw [← h, hneg u hle, hu.2]
      · rintro ⟨sign, d, h, hd, ⟨h1 | h1, h2⟩ | ⟨h1, h2⟩⟩
        · subst h1
          rw [List.nil_append] at h
          have := hd.2 45 (by rw [← h]; simp)
          exact absurd this.1 (by decide)
        · subst h1; cases h
        · subst h1
          rw [List.singleton_append, List.cons.injEq] at h
          obtain rfl := h.2
          have hlt : digitsValue cs < 2 ^ 64 := by omega
          have hp := parseUint_total cs hd hlt
          have hn : (UInt64.ofNat (digitsValue cs)).toNat = digitsValue cs := by
            rw [UInt64.toNat_ofNat', Nat.mod_eq_of_lt hlt]
          rw [hp]
          dsimp only
          rw [if_neg (by simp), if_neg (by rw [gt_iff_lt, UInt64.lt_iff_toNat_lt, hn, e63]; omega), if_pos rfl]
          congr 1
          rw [← Int64.toInt_inj, hneg _ (by omega), hn, h2]
    · by_cases hp' : c = 43
      · subst hp'
        rw [if_pos (Or.inl rfl)]
        constructor
        · intro h
          rcases hp : parseUint cs with e | u
          · rw [hp] at h; cases e <;> cases h
          · rw [hp] at h
            dsimp only at h
            have hu := (parseUint_iff cs u).1 hp
            split at h
            · cases h
            · rename_i hle
              simp only [ge_iff_le, UInt64.le_iff_toNat_le, e63, Nat.not_le] at hle
              have hle : u.toNat < 9223372036854775808 := by
                apply Classical.byContradiction
                intro hx
                exact hle ⟨by decide, by omega⟩
              rw [if_neg (by simp)] at h
              simp only [Except.ok.injEq] at h
              refine ⟨[43], cs, rfl, hu.1, .inl ⟨.inr rfl, ?_⟩⟩
              rw [← h, hpos u hle, hu.2]
        · rintro ⟨sign, d, h, hd, ⟨h1 | h1, h2⟩ | ⟨h1, h2⟩⟩
          · subst h1
            rw [List.nil_append] at h
            have := hd.2 43 (by rw [← h]; simp)
            exact absurd this.1 (by decide)
          · subst h1
            rw [List.singleton_append, List.cons.injEq] at h
            obtain rfl := h.2
            have hlt : digitsValue cs < 2 ^ 64 := by omega
            have hp := parseUint_total cs hd hlt
            have hn : (UInt64.ofNat (digitsValue cs)).toNat = digitsValue cs := by
              rw [UInt64.toNat_ofNat', Nat.mod_eq_of_lt hlt]
            rw [hp]
            dsimp only
            rw [if_neg (by rw [ge_iff_le, UInt64.le_iff_toNat_le, hn, e63]; omega), if_neg (by simp), if_neg (by decide)]
            congr 1
            rw [← Int64.toInt_inj, hpos _ (by omega), hn, h2]
          · subst h1; cases h
      · rw [if_neg (by simp [hm, hp'])]
        constructor
        · intro h
          rcases hp : parseUint (c :: cs) with e | u
          · rw [hp] at h; cases e <;> cases h
          · rw [hp] at h
            dsimp only at h
            have hu := (parseUint_iff _ u).1 hp
            split at h
            · cases h
            · rename_i hle
              have hle : u.toNat < 9223372036854775808 := by
                apply Classical.byContradiction
                intro hx
                exact hle ⟨hm, by rw [ge_iff_le, UInt64.le_iff_toNat_le, e63]; omega⟩
              rw [if_neg (by simp [hm])] at h
              simp only [Except.ok.injEq] at h
              refine ⟨[], c :: cs, rfl, hu.1, .inl ⟨.inl rfl, ?_⟩⟩
              rw [← h, hpos u hle, hu.2]
        · rintro ⟨sign, d, h, hd, ⟨h1 | h1, h2⟩ | ⟨h1, h2⟩⟩
          · subst h1
            rw [List.nil_append] at h
            subst h
            have hlt : digitsValue (c :: cs) < 2 ^ 64 := by omega
            have hp := parseUint_total _ hd hlt
            have hn : (UInt64.ofNat (digitsValue (c :: cs))).toNat = digitsValue (c :: cs) := by
              rw [UInt64.toNat_ofNat', Nat.mod_eq_of_lt hlt]
            rw [hp]
            dsimp only
            rw [if_neg (by rw [ge_iff_le, UInt64.le_iff_toNat_le, hn, e63]; omega), if_neg (by simp [hm]), if_neg hm]
            congr 1
            rw [← Int64.toInt_inj, hpos _ (by omega), hn, h2]
          · subst h1; cases h; exact absurd rfl hp'
          · subst h1; cases h; exact absurd rfl hm

theorem denotesValue_iff (f : Bytes) (v : Int64) : parseInt (trimSpace f) = .ok v ↔ DenotesValue f v := by
  rw [parseInt_iff]
  constructor
  · rintro ⟨sign, d, h1, h2, h3⟩
    obtain ⟨l, r, h4, h5, h6⟩ := trimSpace_spec f
    refine ⟨l, sign, d, r, ?_, h5, h6, h2, h3⟩
    rw [List.append_assoc l sign d, ← h1]
    exact h4
  · rintro ⟨l, sign, d, r, rfl, h1, h2, h3, h4⟩
    rw [List.append_assoc l sign d, trimSpace_of l (sign ++ d) r h1 h2]
    · exact ⟨sign, d, rfl, h3, h4⟩
    · have := h3.1
      simp [this]
    · intro c hc
      rcases List.mem_append.1 hc with hc | hc
      · rcases h4 with ⟨rfl | rfl, _⟩ | ⟨rfl, _⟩
        · cases hc
        · rw [List.mem_singleton] at hc; subst hc; decide
        · rw [List.mem_singleton] at hc; subst hc; decide
      · have := h3.2 c hc; omega

theorem parseFields_iff {α : Type} (parse : Bytes → Except NumErr α) (fail : Bytes → NumErr → Failure)
    (R : Bytes → α → Prop) (hR : ∀ f x, parse (trimSpace f) = .ok x ↔ R f x) (fs : List Bytes) (xs : List α) :
    parseFields parse fail fs = .ok xs ↔ Each2 R fs xs := by
  induction fs generalizing xs with
  | nil =>
    simp only [parseFields, Except.ok.injEq]
    constructor
    · rintro rfl; exact .nil
    · intro h; cases h; rfl
  | cons f fs ih =>
    simp only [parseFields]
    constructor
    · intro h
      split at h
      · cases h
      · rename_i x hx
        split at h
        · cases h
        · rename_i ys hys
          cases h
          exact .cons ((hR f x).1 hx) ((ih ys).1 hys)
    · intro h
      cases h with
      | cons h1 h2 => rw [(hR f _).2 h1, (ih _).2 h2]

end VibeCol.Cli
