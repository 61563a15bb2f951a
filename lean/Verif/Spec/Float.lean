/-
Specification vocabulary: 64-bit floating-point numbers, as rational numbers.
-/
import Mathlib.Algebra.Order.Field.Basic
import Mathlib.Algebra.Order.Field.Power
import Mathlib.Data.Rat.Floor
import Verif.Model.Float
import Verif.Spec.Aggregate
import Verif.Spec.Cli
import Verif.Spec.FilterExample
namespace VibeCol

/-- `x` is the value of a finite `float64` (IEEE 754 binary64): a 53-bit significand times a power of two. -/
def IsDouble (x : ℚ) : Prop := ∃ m e : ℤ, |m| < 2 ^ 53 ∧ -1074 ≤ e ∧ e ≤ 971 ∧ x = m * 2 ^ e

/-- The last bit of the significand of `x` is 0. (The significand has 53 bits, or less if the exponent is the least one.) -/
def EvenSignificand (x : ℚ) : Prop := ∃ m e : ℤ, (2 ^ 52 ≤ |m| ∨ e = -1074) ∧ |m| ≤ 2 ^ 53 ∧ -1074 ≤ e ∧ m % 2 = 0 ∧ x = m * 2 ^ e

/-- `y` is `x` rounded to a `float64`: no `float64` is nearer to `x`, and if another one is just as near, `y` is
the one with the even significand. -/
structure Rounds (x y : ℚ) : Prop where
  double : IsDouble y
  nearest : ∀ z, IsDouble z → |x - y| ≤ |x - z|
  even : ∀ z, IsDouble z → z ≠ y → |x - z| = |x - y| → EvenSignificand y

/-- The value of a `float64`. -/
def F64.val (a : F64) : ℚ := (if a.neg then -1 else 1) * a.man * 2 ^ a.exp

/-- `s` is the decimal notation of `n/100` with two digits after the point; `neg` says whether it has a minus sign (possibly
in front of zero). -/
def Fixed2 (s : Bytes) (neg : Bool) (n : Nat) : Prop :=
  ∃ whole frac, s = (if neg then [45] else []) ++ whole ++ [46] ++ frac ∧ Cli.Decimal whole (n / 100) ∧
    Cli.Digits frac ∧ frac.length = 2 ∧ Cli.digitsValue frac = n % 100

/-- `s` is `x` printed with two decimals: no number with two decimals is nearer to `x`; if two are equally near, it is the
one whose last digit is even. There is a minus sign if and only if `x` is negative. -/
def Printed2 (s : Bytes) (x : ℚ) : Prop :=
  ∃ n : Nat, Fixed2 s (decide (x < 0)) n ∧ (∀ k : ℤ, |(|x|) - n / 100| ≤ |(|x|) - k / 100|) ∧
    (|(|x|) - n / 100| = 1 / 200 → n % 2 = 0)

/-- The arithmetic mean. -/
def meanOf (vs : List Int64) : ℚ := intSum vs / vs.length

/-- `y` is the `float64` average of the values `vs`. -/
structure IsAverage (vs : List Int64) (y : ℚ) : Prop where
  /-- The average of nothing is 0. -/
  empty : vs = [] → y = 0
  /-- Otherwise it is a `float64` -/
  double : IsDouble y
  /-- whose relative error is at most 2^-51, if the sum of the values fits in 64 bits, -/
  close : vs ≠ [] → -2 ^ 63 ≤ intSum vs → intSum vs < 2 ^ 63 → |y - meanOf vs| ≤ |meanOf vs| / 2 ^ 51
  /-- and the best possible one if the sum is at most 2^53. -/
  exact : vs ≠ [] → |intSum vs| ≤ 2 ^ 53 → vs.length ≤ 2 ^ 53 → Rounds (meanOf vs) y

/-- The averages that the example program `filtered_aggregation_example` prints: those of 300 values with sum 175850 and so on. -/
def exampleAverage (sum : Int) (count : Nat) : String :=
  if sum = 175850 ∧ count = 300 then "586.17"
  else if sum = 3720 ∧ count = 9 then "413.33"
  else if sum = 125350 ∧ count = 200 then "626.75"
  else if sum = 62500 ∧ count = 100 then "625.00"
  else if sum = 39250 ∧ count = 60 then "654.17"
  else ""

end VibeCol
