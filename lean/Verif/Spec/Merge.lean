/-
Specification vocabulary: what remains of files when newer ones hide older ones.
-/
import Verif.Spec.Multi
namespace VibeCol

/-- What remains of some files, given from oldest to newest by their pairs: a pair remains if no newer
file has a pair with its ID. -/
def remaining : List (List Pair) → List Pair
  | [] => []
  | f :: newer => (f.filter fun p => newer.all fun g => g.all fun q => q.1 != p.1) ++ remaining newer

/-- The same answer: the same number of values, sum and average, and, if anything was found, the same
minimum and maximum (of an empty aggregate they mean nothing, see C17). -/
structure SameAnswer (a b : AggregateResult) : Prop where
  count : a.count = b.count
  sum : a.sum = b.sum
  avg : a.avg = b.avg
  all : a.count ≠ 0 → a = b

end VibeCol
