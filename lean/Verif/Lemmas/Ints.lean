/-
Small facts about fixed-width integers and positional reads.
-/
import Verif.Model.Reader
import Verif.Lemmas.Bytes
namespace VibeCol

theorem int64_toInt_ofNat (n : Nat) (h : n < 2 ^ 63) : (Int64.ofNat n).toInt = n := by
  apply Int64.toInt_ofNat_of_lt h

theorem int64_ofNat_sub (a b : Nat) (h : b ≤ a) (ha : a < 2 ^ 63) :
    Int64.ofNat a - Int64.ofNat b = Int64.ofNat (a - b) := by
  apply Int64.toInt_inj.1
  rw [Int64.toInt_sub, int64_toInt_ofNat _ ha, int64_toInt_ofNat _ (by omega),
    int64_toInt_ofNat _ (by omega)]
  rw [Int.bmod_eq_of_le] <;> omega

theorem int64_ofNat_add (a b : Nat) : Int64.ofNat a + Int64.ofNat b = Int64.ofNat (a + b) := by
  rw [Int64.ofNat_add]

theorem uint64_ofNat_toInt64 (n : Nat) : (UInt64.ofNat n).toInt64 = Int64.ofNat n := by
  simp

theorem int64_ofNat_lt (a b : Nat) (ha : a < 2 ^ 63) (hb : b < 2 ^ 63) :
    Int64.ofNat a < Int64.ofNat b ↔ a < b := by
  rw [Int64.lt_iff_toInt_lt, int64_toInt_ofNat _ ha, int64_toInt_ofNat _ hb]; omega

theorem int64_ofNat_not_neg (a : Nat) (ha : a < 2 ^ 63) : ¬ Int64.ofNat a < 0 := by
  intro h
  exact absurd ((int64_ofNat_lt a 0 ha (by decide)).1 h) (by omega)

/-- A read inside the file returns the bytes there. -/
theorem readBytesAt_ok (file : Bytes) (o n : Nat) (h : o + n ≤ file.length) (hf : file.length < 2 ^ 63) :
    readBytesAt file (Int64.ofNat o) (Int64.ofNat n) = .ok (slice file o n) := by
  unfold readBytesAt
  rw [if_neg (int64_ofNat_not_neg n (by omega)), if_neg (int64_ofNat_not_neg o (by omega)),
    int64_toInt_ofNat _ (by omega), int64_toInt_ofNat _ (by omega)]
  have hl := slice_length file o n h
  unfold slice at hl
  simp only [Int.toNat_natCast, hl, Nat.sub_self, List.replicate_zero, List.append_nil]
  rfl

theorem goSlice_ok (b : Bytes) (lo hi : Nat) (h1 : lo ≤ hi) (h2 : hi ≤ b.length) :
    goSlice b lo hi = .ok (slice b lo (hi - lo)) := by
  unfold goSlice slice; rw [if_pos ⟨h1, h2⟩]

theorem rd32_slice_of (b : Bytes) (o n off : Nat) (x : UInt32) (h : off + 4 ≤ n)
    (hx : slice b (o + off) 4 = le32 x) : rd32 (slice b o n) off = x := by
  apply rd32_of_slice
  have := slice_slice b o n off 4 h
  rw [hx] at this; exact this

theorem rd64_slice_of (b : Bytes) (o n off : Nat) (x : UInt64) (h : off + 8 ≤ n)
    (hx : slice b (o + off) 8 = le64 x) : rd64 (slice b o n) off = x := by
  apply rd64_of_slice
  have := slice_slice b o n off 8 h
  rw [hx] at this; exact this

/-- A part of a part. -/
theorem slice_of_slice {b d : Bytes} {o n : Nat} (h : slice b o n = d) (o' n' : Nat)
    (hn : o' + n' ≤ n) : slice b (o + o') n' = slice d o' n' := by
  rw [← h, slice_slice _ _ _ _ _ hn]

end VibeCol
