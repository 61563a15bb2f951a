/-
Go primitives used by the model: result values, byte slices, little-endian integers,
and `os.File` with an explicit cursor and a fault oracle.
-/
namespace VibeCol

/-- A Go `[]byte`, as an immutable list. -/
abbrev Bytes := List UInt8

/-- The error values returned by the code, one constructor per kind of `fmt.Errorf`
(the message text is dropped). `blockFull n` is `*BlockFullError{ItemsWritten: n}`
(pkg/col/writer_block_io.go:9-16). -/
inductive Err where
  | lengthMismatch
  | emptyBlock
  | unsupportedEncoding
  | zeroEncodedSize
  | zeroSection
  | io
  | headerSizeMismatch
  | sectionSizeMismatch
  | blockSizeMismatch
  | positionTracking
  | footerSizeMismatch
  | blockFull (itemsWritten : Nat)
  | closed
  | badMagic
  | badVersion
  | fileTooSmall
  | badFooterMagic
  | badFooterSize
  | badBlockIndex
  | sectionBounds
  | badVarint
  | negativeOffset
deriving DecidableEq, Repr

/-- Outcome of a read-side Go call: a value, a returned error, or a run-time panic
(slice bounds out of range, `makeslice: len out of range`, index out of range). -/
inductive Res (α : Type) where
  | ok (a : α)
  | err (e : Err)
  | panic
deriving DecidableEq, Repr

namespace Res
variable {α β : Type}

/-- Sequencing of Go calls: an error or a panic skips the continuation. -/
@[inline] def bind (x : Res α) (f : α → Res β) : Res β :=
  match x with
  | ok a => f a
  | err e => err e
  | panic => panic

instance : Monad Res where
  pure := Res.ok
  bind := Res.bind

@[simp] theorem pure_eq (a : α) : (pure a : Res α) = ok a := rfl
@[simp] theorem ok_bind (a : α) (f : α → Res β) : (ok a >>= f) = f a := rfl
@[simp] theorem err_bind (e : Err) (f : α → Res β) : ((err e : Res α) >>= f) = err e := rfl
@[simp] theorem panic_bind (f : α → Res β) : ((panic : Res α) >>= f) = panic := rfl

end Res

/-! ### Little-endian integers (`encoding/binary`, `binary.LittleEndian`) -/

/-- The `k` low-order bytes of `n`, least significant first. -/
def natToLE : (k : Nat) → (n : Nat) → Bytes
  | 0, _ => []
  | k + 1, n => UInt8.ofNat (n % 256) :: natToLE k (n / 256)

/-- The natural number whose little-endian bytes are `b`. -/
def leToNat : Bytes → Nat
  | [] => 0
  | x :: xs => x.toNat + 256 * leToNat xs

/-- `binary.Write(f, binary.LittleEndian, x)` for a `uint32`, and `PutUint32`. -/
def le32 (x : UInt32) : Bytes := natToLE 4 x.toNat

/-- `binary.Write(f, binary.LittleEndian, x)` for a `uint64`. -/
def le64 (x : UInt64) : Bytes := natToLE 8 x.toNat

/-- `binary.Write(f, binary.LittleEndian, x)` for an `int64` (two's complement). -/
def leI64 (x : Int64) : Bytes := le64 x.toUInt64

/-- `binary.LittleEndian.Uint32(b[off:off+4])` for an offset known to be in range. -/
def rd32 (b : Bytes) (off : Nat) : UInt32 := UInt32.ofNat (leToNat ((b.drop off).take 4))

/-- `binary.LittleEndian.Uint64(b[off:off+8])` for an offset known to be in range. -/
def rd64 (b : Bytes) (off : Nat) : UInt64 := UInt64.ofNat (leToNat ((b.drop off).take 8))

/-- The Go slice expression `b[lo:hi]` on a slice whose capacity is its length:
panics unless `0 ≤ lo ≤ hi ≤ len(b)`. -/
def goSlice (b : Bytes) (lo hi : Nat) : Res Bytes :=
  if lo ≤ hi ∧ hi ≤ b.length then .ok ((b.drop lo).take (hi - lo)) else .panic

/-! ### `os.File` opened for writing -/

/-- An open file: its contents and the current offset. -/
structure File where
  bytes : Bytes
  pos : Nat
deriving DecidableEq, Repr

/-- Contents after writing `d` at offset `pos` (POSIX: a gap is filled with zeros,
writing nothing changes nothing). -/
def writeAt (bs : Bytes) (pos : Nat) (d : Bytes) : Bytes :=
  match d with
  | [] => bs
  | _ :: _ => bs.take pos ++ List.replicate (pos - bs.length) 0 ++ d ++ bs.drop (pos + d.length)

/-- What the outside world decides: which file operation fails (`fault n = some k`: the
`n`-th operation fails, a write having put `min k len` bytes into the file first), the
clock, and what `sort.Slice` does with a slice of ID-value pairs. -/
structure Env where
  fault : Nat → Option Nat
  clock : Nat → UInt64
  sort : List (UInt64 × Int64) → List (UInt64 × Int64)

/-- No file operation fails. -/
def Env.NoFault (env : Env) : Prop := ∀ n, env.fault n = none

/-- The documented contract of `sort.Slice` with `less = (pairs[i].ID < pairs[j].ID)`:
the result is a permutation in ascending ID order. Nothing is assumed about equal IDs
(`sort.Slice` is not stable). -/
def LawfulSort (f : List (UInt64 × Int64) → List (UInt64 × Int64)) : Prop :=
  ∀ l, (f l).Perm l ∧ (f l).Pairwise (fun a b => a.1 ≤ b.1)

end VibeCol
