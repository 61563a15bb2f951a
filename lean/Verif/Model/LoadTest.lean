/-
cmd/loadtest/main.go (cited as main.go). Flag parsing and `os.MkdirAll` are in LoadTestMain.lean. Not modelled: progress reports,
timings, throughput and the file size printed at the end. Of the printed text only the numbers named
in the definitions are kept.
-/
import Verif.Model.SimpleWriter
import Verif.Model.Aggregate
namespace VibeCol.LoadTest

/-- `math/rand`'s generator with some seed: the k-th draw yields `coin k` if it is compared with a
constant (`rng.Float64() < 0.9`, `< 0.7`), and `below k n` if it is `rng.Int63n(n)` (or `Intn`). -/
structure Rng where
  coin : Nat → Bool
  below : Nat → Int64 → Int64

/-- What `Int63n` promises. -/
def Rng.Lawful (g : Rng) : Prop := ∀ k n, 0 < n → 0 ≤ g.below k n ∧ g.below k n < n

/-- `rng.Int63n(n)`: panics unless `n > 0`. `k` is the number of draws so far. -/
def int63n (g : Rng) (n : Int64) (k : Nat) : Res (Int64 × Nat) :=
  if n ≤ 0 then .panic else .ok (g.below k n, k + 1)

/-- The next ID (main.go:107-111); `prev` is `ids[i-1]`, if `i > 0`. -/
def genID (g : Rng) (maxID : UInt64) (prev : Option UInt64) (k : Nat) : Res (UInt64 × Nat) :=
  let jump := fun k => do
    let (x, k) ← int63n g maxID.toInt64 k
    .ok (x.toUInt64, k)
  match prev with
  | none => jump k
  | some p =>
    if g.coin k then do
      let (x, k) ← int63n g 10 (k + 1)
      .ok (p + (x + 1).toUInt64, k)
    else jump (k + 1)

/-- Its value (main.go:114-122); `%` panics if the divisor is 0. -/
def genValue (g : Rng) (maxValue : Int64) (id : UInt64) (k : Nat) : Res (Int64 × Nat) :=
  if g.coin k then
    if maxValue.toUInt64 = 0 then .panic
    else do
      let (x, k) ← int63n g (maxValue / 10) (k + 1)
      .ok ((id % maxValue.toUInt64).toInt64 + (x - maxValue / 20), k)
  else int63n g maxValue (k + 1)

/-- The loop filling a batch (main.go:105-123), `n` pairs to go. -/
def genBatch (g : Rng) (maxValue : Int64) (maxID : UInt64) : Nat → Option UInt64 → Nat →
    Res ((List UInt64 × List Int64) × Nat)
  | 0, _, k => .ok (([], []), k)
  | n + 1, prev, k => do
    let (id, k) ← genID g maxID prev k
    let (v, k) ← genValue g maxValue id k
    let ((ids, vals), k) ← genBatch g maxValue maxID n (some id) k
    .ok ((id :: ids, v :: vals), k)

/-- How the program ends: status 0 with the totals printed at the end (values generated, items
written), `os.Exit(1)`, or a panic. -/
inductive Exit where
  | done (totalValues totalItems : Nat)
  | failed (e : Err)
  | panicked
deriving DecidableEq, Repr

section
variable {B : Type} [Bitmap B]

/-- The loop over batches and the end of `runImport` (main.go:82, 92-160), with `remaining` values to go
(`valuesWritten` and `numValues` are natural numbers, the same as long as they are below 2^63 - 10^4). A panic runs the
deferred `Close`; after an explicit `Close` that succeeded it does nothing; `os.Exit` does not run it. -/
def importLoop (env : Env) (g : Rng) (maxValue : Int64) (maxID : UInt64) (remaining written : Nat) (k : Nat)
    (sw : SimpleWriter B) : Exit × SimpleWriter B :=
  if _h : remaining = 0 then
    match sw.close env with
    | (.error e, sw) => (.failed e, sw)
    | (.ok _, sw) => (.done written sw.totalItems, (sw.close env).2)
  else
    let n := min 10000 remaining
    match genBatch g maxValue maxID n none k with
    | .panic => (.panicked, (sw.close env).2)
    | .err _ => (.panicked, (sw.close env).2)
    | .ok ((ids, values), k) =>
      match sw.write env ids values with
      | (.error e, sw) => (.failed e, sw)
      | (.ok _, sw) => importLoop env g maxValue maxID (remaining - n) (written + n) k sw
termination_by remaining
decreasing_by omega

/-- `runImport` (main.go:60-171). -/
def runImport (env : Env) (g : Rng) (numValues blockSize : Int64) (maxValue : Int64) (maxID : UInt64) :
    Exit × Option (SimpleWriter B) :=
  match newSimpleWriter [.withBlockSize blockSize.toUInt64.toUInt32, .withEncoding encVarIntBoth] env with
  | .error e => (.failed e, none)
  | .ok sw =>
    let (e, sw) := importLoop env g maxValue maxID numValues.toInt.toNat 0 0 sw
    (e, some sw)

/-- What `runAggregate` prints: version, encoding, number of blocks, the aggregates, the number of
workers (if parallel) and the number of values found by the full scan. -/
structure Report where
  version : UInt32
  encoding : UInt32
  blocks : UInt64
  result : AggregateResult
  workers : Option Int
  scanned : Int64
deriving DecidableEq, Repr

/-- The full scan (main.go:226-235), from block `i` on with `fuel` blocks to go. -/
def scan (r : Reader B) : Nat → UInt64 → Int64 → Res Int64
  | 0, _, total => .ok total
  | fuel + 1, i, total => do
    let (_, values) ← getPairs r i
    scan r fuel (i + 1) (total + Int64.ofNat values.length)

/-- `runAggregate` and `runAggregations` (main.go:173-246). An error of the full scan ends the program
with status 0; it is kept as `err` here. -/
def runAggregate (sched : Sched) (file : Bytes) (skipCache : Bool) (parallel : Int) : Res Report := do
  let r ← newReader (B := B) file
  let result ← aggregateWithOptions sched r { skipPreCalculated := skipCache, parallel := parallel }
  let scanned ← scan r r.blockCount.toNat 0 0
  .ok {
    version := r.version
    encoding := r.encodingType
    blocks := r.blockCount
    result := result
    workers := if parallel ≠ 0 then some (if parallel < 0 then sched.gomaxprocs else parallel) else none
    scanned := scanned }

end
end VibeCol.LoadTest
