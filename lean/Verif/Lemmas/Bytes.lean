/-
Facts about little-endian encodings, byte-list slices and `writeAt`.
-/
import Verif.Model.Prim
namespace VibeCol

@[simp] theorem natToLE_length (k n : Nat) : (natToLE k n).length = k := by
  induction k generalizing n with
  | zero => rfl
  | succ k ih => simp [natToLE, ih]

@[simp] theorem le32_length (x : UInt32) : (le32 x).length = 4 := natToLE_length _ _
@[simp] theorem le64_length (x : UInt64) : (le64 x).length = 8 := natToLE_length _ _
@[simp] theorem leI64_length (x : Int64) : (leI64 x).length = 8 := natToLE_length _ _

theorem leToNat_natToLE (k n : Nat) : leToNat (natToLE k n) = n % 256 ^ k := by
  induction k generalizing n with
  | zero => simp [natToLE, leToNat, Nat.mod_one]
  | succ k ih =>
    simp only [natToLE, leToNat, ih]
    rw [Nat.pow_succ, Nat.mul_comm (256 ^ k) 256, Nat.mod_mul]
    simp

theorem leToNat_lt (b : Bytes) : leToNat b < 256 ^ b.length := by
  induction b with
  | nil => simp [leToNat]
  | cons x xs ih =>
    simp only [leToNat, List.length_cons, Nat.pow_succ]
    have := x.toNat_lt
    omega

theorem natToLE_leToNat (b : Bytes) : natToLE b.length (leToNat b) = b := by
  induction b with
  | nil => rfl
  | cons x xs ih =>
    have hx := x.toNat_lt
    have h1 : leToNat (x :: xs) % 256 = x.toNat := by simp only [leToNat]; omega
    have h2 : leToNat (x :: xs) / 256 = leToNat xs := by simp only [leToNat]; omega
    simp [natToLE, h1, h2, ih]

theorem take_append_len {α : Type} (a b : List α) (n : Nat) (h : n = a.length) :
    (a ++ b).take n = a := by subst h; simp

theorem drop_append_len {α : Type} (a b : List α) (n : Nat) (h : n = a.length) :
    (a ++ b).drop n = b := by subst h; simp

/-- Reading back a `uint32` that was written at offset `off`. -/
theorem rd32_of_slice (b : Bytes) (off : Nat) (x : UInt32)
    (h : (b.drop off).take 4 = le32 x) : rd32 b off = x := by
  unfold rd32; rw [h]; unfold le32; rw [leToNat_natToLE]
  have := x.toNat_lt
  rw [Nat.mod_eq_of_lt (by simpa using this)]; simp

theorem rd64_of_slice (b : Bytes) (off : Nat) (x : UInt64)
    (h : (b.drop off).take 8 = le64 x) : rd64 b off = x := by
  unfold rd64; rw [h]; unfold le64; rw [leToNat_natToLE]
  have := x.toNat_lt
  rw [Nat.mod_eq_of_lt (by simpa using this)]; simp

theorem rd32_append (a c : Bytes) (x : UInt32) (off : Nat) (h : off = a.length) :
    rd32 (a ++ le32 x ++ c) off = x := by
  subst h
  apply rd32_of_slice
  simp

theorem rd64_append (a c : Bytes) (x : UInt64) (off : Nat) (h : off = a.length) :
    rd64 (a ++ le64 x ++ c) off = x := by
  subst h
  apply rd64_of_slice
  simp

/-! ### `writeAt` -/

theorem writeAt_eq (bs : Bytes) (pos : Nat) (d : Bytes) (h : pos ≤ bs.length) :
    writeAt bs pos d = bs.take pos ++ d ++ bs.drop (pos + d.length) := by
  cases d with
  | nil => simp [writeAt]
  | cons x xs =>
    have : pos - bs.length = 0 := by omega
    simp [writeAt, this]

theorem writeAt_end (bs : Bytes) (d : Bytes) : writeAt bs bs.length d = bs ++ d := by
  rw [writeAt_eq _ _ _ (Nat.le_refl _)]
  simp

theorem writeAt_length (bs : Bytes) (pos : Nat) (d : Bytes) (h : pos ≤ bs.length) :
    (writeAt bs pos d).length = max bs.length (pos + d.length) := by
  rw [writeAt_eq _ _ _ h]
  simp; omega

theorem writeAt_writeAt (bs : Bytes) (pos : Nat) (d e : Bytes) (h : pos ≤ bs.length) :
    writeAt (writeAt bs pos d) (pos + d.length) e = writeAt bs pos (d ++ e) := by
  have hl := writeAt_length bs pos d h
  rw [writeAt_eq (writeAt bs pos d) _ _ (by omega), writeAt_eq _ _ _ h, writeAt_eq _ _ _ h]
  have e1 : (bs.take pos ++ d ++ bs.drop (pos + d.length)).take (pos + d.length)
      = bs.take pos ++ d := by
    apply take_append_len; simp; omega
  rw [e1]
  have e2 : (bs.take pos ++ d ++ bs.drop (pos + d.length)).drop (pos + d.length + e.length)
      = bs.drop (pos + (d ++ e).length) := by
    rw [List.drop_append]
    rw [List.drop_eq_nil_of_le (by simp; omega)]
    simp
    congr 1; omega
  rw [e2]
  simp

/-- Bytes below the write position are untouched. -/
theorem writeAt_take (bs : Bytes) (pos : Nat) (d : Bytes) (k : Nat) (hk : k ≤ pos)
    (h : pos ≤ bs.length) : (writeAt bs pos d).take k = bs.take k := by
  rw [writeAt_eq _ _ _ h, List.append_assoc, List.take_append_of_le_length (by simp; omega),
    List.take_take, Nat.min_eq_left hk]

/-- Bytes past the written range are untouched. -/
theorem writeAt_drop (bs : Bytes) (pos : Nat) (d : Bytes) (k : Nat) (hk : pos + d.length ≤ k)
    (h : pos ≤ bs.length) : (writeAt bs pos d).drop k = bs.drop k := by
  rw [writeAt_eq _ _ _ h, List.drop_append, List.drop_eq_nil_of_le (by simp; omega)]
  simp
  congr 1; omega

/-- `n` bytes at offset `off`. -/
def slice (bs : Bytes) (off n : Nat) : Bytes := (bs.drop off).take n

theorem slice_append_left (a b : Bytes) (off n : Nat) (h : off + n ≤ a.length) :
    slice (a ++ b) off n = slice a off n := by
  unfold slice
  rw [List.drop_append_of_le_length (by omega), List.take_append_of_le_length (by simp; omega)]

theorem slice_append_right (a b : Bytes) (off n : Nat) (h : a.length ≤ off) :
    slice (a ++ b) off n = slice b (off - a.length) n := by
  unfold slice
  rw [List.drop_append, List.drop_eq_nil_of_le h]; simp

theorem slice_length (bs : Bytes) (off n : Nat) (h : off + n ≤ bs.length) :
    (slice bs off n).length = n := by
  unfold slice; simp; omega

theorem slice_slice (bs : Bytes) (o n o' n' : Nat) (h : o' + n' ≤ n) :
    slice (slice bs o n) o' n' = slice bs (o + o') n' := by
  unfold slice
  rw [List.drop_take, List.take_take, List.drop_drop]
  congr 1; omega

theorem slice_writeAt_before (bs : Bytes) (pos : Nat) (d : Bytes) (o n : Nat)
    (h : pos ≤ bs.length) (hk : o + n ≤ pos) : slice (writeAt bs pos d) o n = slice bs o n := by
  unfold slice
  have := writeAt_take bs pos d (o + n) hk h
  have h2 : ∀ l : Bytes, (l.drop o).take n = (l.take (o + n)).drop o := by
    intro l; rw [List.drop_take]; congr 1; omega
  rw [h2, h2, this]

theorem slice_writeAt_after (bs : Bytes) (pos : Nat) (d : Bytes) (o n : Nat)
    (h : pos ≤ bs.length) (hk : pos + d.length ≤ o) :
    slice (writeAt bs pos d) o n = slice bs o n := by
  unfold slice; rw [writeAt_drop _ _ _ _ hk h]

theorem slice_writeAt_at (bs : Bytes) (pos : Nat) (d : Bytes) (h : pos ≤ bs.length) :
    slice (writeAt bs pos d) pos d.length = d := by
  unfold slice
  rw [writeAt_eq _ _ _ h, List.append_assoc, drop_append_len _ _ _ (by simp; omega)]
  simp

end VibeCol
