/-
Specification vocabulary: what the load generator hands to its writer.
-/
import Verif.Model.LoadTest
import Verif.Spec.Simple
namespace VibeCol.LoadTest

/-- With `n` values to go and `k` random draws made, the program generates these batches, each of 10000
pairs or all that is left; then `n'` values are to go and `k'` draws are made. -/
inductive Batches (g : Rng) (maxValue : Int64) (maxID : UInt64) : Nat → Nat → List (List UInt64 × List Int64) → Nat → Nat → Prop where
  | nil {n k} : Batches g maxValue maxID n k [] n k
  | cons {n k ids vals k1 rest n' k'} (hn : 0 < n)
      (h : genBatch g maxValue maxID (min 10000 n) none k = .ok ((ids, vals), k1))
      (t : Batches g maxValue maxID (n - min 10000 n) k1 rest n' k') :
      Batches g maxValue maxID n k ((ids, vals) :: rest) n' k'

/-- The calls with which the batches are written. -/
def writes (batches : List (List UInt64 × List Int64)) : List SWCall := batches.map fun b => .write b.1 b.2

/-- The pairs of the batches. -/
def pairs (batches : List (List UInt64 × List Int64)) : List (List Pair) := batches.map fun b => b.1.zip b.2

/-- All of these calls returned nil. -/
def succeeded (calls : List SWCall) : SWLog := calls.map fun c => (c, .ok ())

/-- The options with which the program creates the file. -/
def options (blockSize : Int64) : List WriterOption :=
  [.withBlockSize blockSize.toUInt64.toUInt32, .withEncoding encVarIntBoth]

/-- What the generator promises about the `j`-th pair of a batch, for the flags `max-value` and `max-id`. -/
structure InRange (maxValue maxID : Int) (j : Nat) (p : Pair) : Prop where
  id : p.1.toNat < maxID + 10 * j
  lo : -(maxValue / 20) ≤ p.2.toInt
  hi : p.2.toInt < maxValue + maxValue / 10 - maxValue / 20

end VibeCol.LoadTest
