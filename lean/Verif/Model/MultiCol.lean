/-
pkg/multicol/aggregate.go.
-/
import Verif.Model.Aggregate
namespace VibeCol

/-- `minInt64` (multicol/aggregate.go:124-129). -/
def minInt64 (a b : Int64) : Int64 := if a < b then a else b
/-- `maxInt64` (multicol/aggregate.go:132-137). -/
def maxInt64 (a b : Int64) : Int64 := if a > b then a else b

/-- `mergeAggregateResults` (multicol/aggregate.go:98-121). -/
def mergeAggregateResults (a b : AggregateResult) : AggregateResult :=
  if a.count = 0 then b
  else if b.count = 0 then a
  else
    let count := a.count + b.count
    let sum := a.sum + b.sum
    { count := count, min := minInt64 a.min b.min, max := maxInt64 a.max b.max, sum := sum
      avg := if count > 0 then .quot sum count else .zero }

section M
variable {B : Type} [Bitmap B]

/-- The loop of `MultiReader.Aggregate` (multicol/aggregate.go:62-92) over the readers from
newest to oldest. The readers' bitmap caches are not threaded through: caching is
transparent (property C19). -/
def multiLoop (sched : Sched) (skipPreCalculated : Bool) (filter : Option B) :
    List (Reader B) → (denyBitmap : B) → (result : AggregateResult) → Res AggregateResult
  | [], _, result => .ok result
  | r :: rest, denyBitmap, result => do
    let readerResult ← aggregateWithOptions sched r
      { skipPreCalculated := skipPreCalculated, filter := filter, denyFilter := some denyBitmap }
    let globalIDs ← (getGlobalIDBitmap r).1
    let result := if result.count = 0 then readerResult else mergeAggregateResults result readerResult
    multiLoop sched skipPreCalculated filter rest (Bitmap.or denyBitmap globalIDs) result

/-- `MultiReader.Aggregate` (multicol/aggregate.go:50-95); `readers` is ordered from oldest
to newest as in the struct. -/
def multiAggregate (sched : Sched) (readers : List (Reader B)) (skipPreCalculated : Bool)
    (filter : Option B) : Res AggregateResult :=
  if readers.length = 0 then .ok .zero
  else multiLoop sched skipPreCalculated filter readers.reverse Bitmap.empty .zero

end M
end VibeCol
