/-
Averages. The aggregation functions compute `float64(sum) / float64(count)` (reader_aggregate.go:83, 123, 257,
381, 421, 497, 537; multicol/aggregate.go:117; cmd/read_example/main.go:373 and 402), which the other models leave unevaluated
(`Avg`), and the programs print it with `%.2f`. Here both are computed, following what the Go language
specification and package `fmt` promise: conversions and division round as in IEEE 754 (to nearest, ties to even),
and `%.2f` rounds the exact value of the float64 to two decimals (to nearest, ties to even).

Infinities, NaNs and subnormal numbers are not represented: an `int64` divided by a positive `int` is zero or has a magnitude
between 2^-63 and 2^63.
-/
import Verif.Model.Aggregate
import Verif.Model.Cli
namespace VibeCol

/-- The integer nearest to `p/q`; of two equally near ones the even one. -/
def nearestEven (p q : Nat) : Nat :=
  if q < 2 * (p % q) ∨ (2 * (p % q) = q ∧ p / q % 2 = 1) then p / q + 1 else p / q

/-- A finite `float64`: `man * 2^exp`, negated if `neg`. -/
structure F64 where
  neg : Bool
  man : Nat
  exp : Int
deriving DecidableEq, Repr

/-- The `float64` nearest to `p/q`, with a 53-bit significand, ties to even; negated if `neg`. `d` is the difference of the
numbers of bits of `p` and `q`, so that `p/q` lies between `2^(d-1)` and `2^(d+1)`. -/
def F64.ofRatio (neg : Bool) (p q : Nat) : F64 :=
  if p = 0 then ⟨neg, 0, 0⟩
  else
    let d : Int := (p.log2 : Int) - q.log2
    let e : Int := if q * 2 ^ d.toNat ≤ p * 2 ^ (-d).toNat then d - 52 else d - 53
    ⟨neg, nearestEven (p * 2 ^ (-e).toNat) (q * 2 ^ e.toNat), e⟩

/-- `float64(v)` for an `int64`. -/
def F64.ofInt (v : Int64) : F64 := F64.ofRatio (v.toInt < 0) v.toInt.natAbs 1

/-- `float64(n)` for a count. -/
def F64.ofNat (n : Nat) : F64 := F64.ofRatio false n 1

/-- `a / b` for `b ≠ 0`. -/
def F64.div (a b : F64) : F64 :=
  F64.ofRatio (a.neg != b.neg) (a.man * 2 ^ (a.exp - b.exp).toNat) (b.man * 2 ^ (b.exp - a.exp).toNat)

/-- The `float64` that stands in the field `Avg` of an `AggregateResult`. -/
def Avg.float : Avg → F64
  | .zero => ⟨false, 0, 0⟩
  | .quot sum count => (F64.ofInt sum).div (F64.ofNat count)

/-- `%.2f` of package `fmt`. -/
def fmtFixed2 (x : F64) : Bytes :=
  let n := nearestEven (100 * x.man * 2 ^ x.exp.toNat) (2 ^ (-x.exp).toNat)
  (if x.neg then [45] else []) ++ Cli.fmtNat (n / 100) ++
    [46, UInt8.ofNat (48 + n / 10 % 10), UInt8.ofNat (48 + n % 10)]

/-- `fmt.Printf("%.2f", result.Avg)` (cmd/vibecol/main.go:159, cmd/loadtest/main.go:213,
examples/filtered_aggregation_example.go:173, cmd/read_example/main.go:373 and 410). -/
def printAvg (a : Avg) : Bytes := fmtFixed2 a.float

end VibeCol
