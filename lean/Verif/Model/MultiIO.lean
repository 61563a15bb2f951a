/-
pkg/multicol/aggregate.go with reads that may fail and readers that may have been closed (by `MultiReader.Close` or by the
client, who still holds the readers it passed to `NewMultiReader`). `Verif/Model/MultiCol.lean` is the case in which nothing
fails.
-/
import Verif.Model.ReaderIO
namespace VibeCol

/-- The reads that fail during one `Aggregate` call, for one of the readers: by block number, and the reads of
`GetGlobalIDBitmap` in order. -/
structure ReadFails where
  blocks : UInt64 → Bool
  bitmap : Nat → Bool

section M
variable {B : Type} [Bitmap B]

/-- The loop of `MultiReader.Aggregate` (multicol/aggregate.go:62-92) over the readers from newest to oldest. The readers are
returned too, since `GetGlobalIDBitmap` may fill their caches. -/
def multiLoopIO (sched : Sched) (skipPreCalculated : Bool) (filter : Option B) :
    List (ReadFails × OpenReader B) → (denyBitmap : B) → (result : AggregateResult) → Res AggregateResult × List (OpenReader B)
  | [], _, result => (.ok result, [])
  | (f, s) :: rest, denyBitmap, result =>
    match aggregateWithOptionsIO (fun i => !s.isOpen || f.blocks i) sched s.reader
        { skipPreCalculated := skipPreCalculated, filter := filter, denyFilter := some denyBitmap } with
    | .panic => (.panic, s :: rest.map Prod.snd)
    | .err e => (.err e, s :: rest.map Prod.snd)
    | .ok readerResult =>
      match getGlobalIDBitmapIO (fun n => !s.isOpen || f.bitmap n) s.reader with
      | (.panic, r) => (.panic, { s with reader := r } :: rest.map Prod.snd)
      | (.err e, r) => (.err e, { s with reader := r } :: rest.map Prod.snd)
      | (.ok globalIDs, r) =>
        let result := if result.count = 0 then readerResult else mergeAggregateResults result readerResult
        let (res, ss) := multiLoopIO sched skipPreCalculated filter rest (Bitmap.or denyBitmap globalIDs) result
        (res, { s with reader := r } :: ss)

/-- `MultiReader.Aggregate` (multicol/aggregate.go:50-95); `readers` is ordered from oldest to newest. `fails i` are the
failures of the reads from reader `i`. -/
def multiAggregateIO (fails : Nat → ReadFails) (sched : Sched) (readers : List (OpenReader B)) (skipPreCalculated : Bool)
    (filter : Option B) : Res AggregateResult × List (OpenReader B) :=
  if readers.length = 0 then (.ok .zero, readers)
  else
    let (res, ss) := multiLoopIO sched skipPreCalculated filter (readers.zipIdx.map fun x => (fails x.2, x.1)).reverse
      Bitmap.empty .zero
    (res, ss.reverse)

/-- The calls of a client that made a `MultiReader` of some readers: the two methods of `MultiReader`, and any call on one of
the readers directly. -/
inductive MultiCall (B : Type) where
  | aggregate (fails : Nat → ReadFails) (sched : Sched) (skipPreCalculated : Bool) (filter : Option B)
  | close (failing : Nat → Bool)
  | on (i : Nat) (c : IOCall B)

/-- What a call returns. -/
inductive MultiOut (B : Type) where
  | result (a : Res AggregateResult)
  | closed (e : Except Err Unit)
  | reader (o : IOOut B)
  | none

/-- Run one call. -/
def MultiCall.run : MultiCall B → List (OpenReader B) → MultiOut B × List (OpenReader B)
  | .aggregate fails sched skip filter, ss =>
    let (a, ss') := multiAggregateIO fails sched ss skip filter
    (.result a, ss')
  | .close failing, ss =>
    let (e, ss') := closeAll (ss.zipIdx.map fun x => (failing x.2, x.1)) (.ok ())
    (.closed e, ss')
  | .on i c, ss =>
    match ss[i]? with
    | some s =>
      let (o, s') := c.run s
      (.reader o, ss.set i s')
    | Option.none => (.none, ss)

/-- Run calls one after the other. -/
def runMulti : List (MultiCall B) → List (OpenReader B) → List (MultiOut B) × List (OpenReader B)
  | [], ss => ([], ss)
  | c :: cs, ss =>
    let (o, ss') := c.run ss
    let (os, ss'') := runMulti cs ss'
    (o :: os, ss'')

end M
end VibeCol
