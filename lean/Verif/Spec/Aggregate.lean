/-
Specification vocabulary: what it means for an aggregate to be exact.
-/
import Verif.Model.Aggregate
import Verif.Spec.History
namespace VibeCol

/-- The mathematical sum of 64-bit values. -/
def intSum (vs : List Int64) : Int := (vs.map Int64.toInt).sum

/-- `r` is the exact aggregate of the values `vs`: their number, their sum modulo 2^64, and,
if there are any, their least and greatest element; the average is `sum/count`, or zero if
there are none. Nothing is said about `min` and `max` of an empty aggregate. -/
structure IsAggregate (r : AggregateResult) (vs : List Int64) : Prop where
  count : r.count = vs.length
  sum : r.sum = Int64.ofInt (intSum vs)
  min_mem : vs ≠ [] → r.min ∈ vs
  min_le : ∀ v ∈ vs, r.min ≤ v
  max_mem : vs ≠ [] → r.max ∈ vs
  le_max : ∀ v ∈ vs, v ≤ r.max
  avg : r.avg = if vs = [] then .zero else .quot r.sum r.count

/-- All pairs of the blocks, in order. -/
def pairsOf (blocks : List Block) : List (UInt64 × Int64) := blocks.flatMap fun b => b.1.zip b.2

/-- All values of the blocks, in order. -/
def valuesOf (blocks : List Block) : List Int64 := (pairsOf blocks).map Prod.snd

/-- The values of the pairs whose ID is in the allow filter (if given) and not in the deny
filter (if given). -/
def selectedValues {B : Type} [Bitmap B] (allow deny : Option B) (blocks : List Block) : List Int64 :=
  ((pairsOf blocks).filter fun p =>
    (allow.all fun f => Bitmap.contains f p.1) && (deny.all fun d => !Bitmap.contains d p.1)).map Prod.snd

/-- The least `int64`. -/
def minInt64Value : Int64 := -9223372036854775808

/-- No block's minimum, maximum or wrapped sum is the least `int64`. -/
def StatsRepresentable (blocks : List Block) : Prop :=
  ∀ b ∈ blocks, minInt64Value ∉ b.2 ∧ Int64.ofInt (intSum b.2) ≠ minInt64Value

end VibeCol
