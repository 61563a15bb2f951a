/-
pkg/multicol/aggregate.go over files that other descriptors go on writing to. `Verif/Model/MultiCol.lean` is the case in
which no file changes (proved in `Verif/Props/MultiLive.lean`); as in `Verif/Model/Live.lean`, each read sees what the file
holds at that moment.
-/
import Verif.Model.Live
import Verif.Model.MultiCol
namespace VibeCol

/-- What one `Aggregate` call finds in one of the files: `blocks i` when block `i` is read, `bitmap n` at the `n`-th read of
`GetGlobalIDBitmap`. -/
structure Found where
  blocks : UInt64 → Bytes
  bitmap : Nat → Bytes

section M
variable {B : Type} [Bitmap B]

/-- The loop of `MultiReader.Aggregate` (multicol/aggregate.go:62-92) over the readers from newest to oldest. The readers are
returned too, since `GetGlobalIDBitmap` may fill their caches. -/
def multiLoopLive (sched : Sched) (skipPreCalculated : Bool) (filter : Option B) :
    List (Found × Reader B) → (denyBitmap : B) → (result : AggregateResult) → Res AggregateResult × List (Reader B)
  | [], _, result => (.ok result, [])
  | (f, r) :: rest, denyBitmap, result =>
    match aggregateWithOptionsLive f.blocks sched r
        { skipPreCalculated := skipPreCalculated, filter := filter, denyFilter := some denyBitmap } with
    | .panic => (.panic, r :: rest.map Prod.snd)
    | .err e => (.err e, r :: rest.map Prod.snd)
    | .ok readerResult =>
      match getGlobalIDBitmapLive f.bitmap r with
      | (.panic, r') => (.panic, r' :: rest.map Prod.snd)
      | (.err e, r') => (.err e, r' :: rest.map Prod.snd)
      | (.ok globalIDs, r') =>
        let result := if result.count = 0 then readerResult else mergeAggregateResults result readerResult
        let (res, rs) := multiLoopLive sched skipPreCalculated filter rest (Bitmap.or denyBitmap globalIDs) result
        (res, r' :: rs)

/-- `MultiReader.Aggregate` (multicol/aggregate.go:50-95); `readers` is ordered from oldest to newest. `found i` is what the
reads from reader `i` find. -/
def multiAggregateLive (found : Nat → Found) (sched : Sched) (readers : List (Reader B)) (skipPreCalculated : Bool)
    (filter : Option B) : Res AggregateResult × List (Reader B) :=
  if readers.length = 0 then (.ok .zero, readers)
  else
    let (res, rs) := multiLoopLive sched skipPreCalculated filter (readers.zipIdx.map fun x => (found x.2, x.1)).reverse
      Bitmap.empty .zero
    (res, rs.reverse)

end M
end VibeCol
