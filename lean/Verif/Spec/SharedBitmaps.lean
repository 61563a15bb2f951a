/-
What a program may expect of bitmaps: every variable holds a bitmap of its own, readers have no cache, and the calls see
the contents at the time of the call.
-/
import Verif.Model.SharedBitmaps
namespace VibeCol.Pointers

/-- The program's bitmaps and the readers, nothing shared. -/
structure Separate (B : Type) where
  vars : List (Option B)
  readers : List (Reader B)

section
variable {B : Type} [Bitmap B]

/-- The bitmap in a variable; no variable is nil. -/
def Separate.val (q : Separate B) (v : Option Nat) : Option B := v.bind fun v => q.vars[v]?.join

/-- `GetGlobalIDBitmap` on a reader just opened. -/
def bitmapIn (readers : List (Reader B)) (k : Nat) : Res B :=
  match readers[k]? with
  | none => .panic
  | some r => (getGlobalIDBitmap r).1

/-- One step. -/
def Act.spec : Act B → Separate B → Seen B × Separate B
  | .newBitmap, q => (.nothing, { q with vars := q.vars ++ [some Bitmap.empty] })
  | .change v f, q => (.nothing, { q with vars := q.vars.modify v fun b => b.map f })
  | .look v, q => (.bitmap (q.val (some v)), q)
  | .get k, q =>
    let r := bitmapIn q.readers k
    (.got (done r), { q with vars := q.vars ++ [match r with | .ok b => some b | _ => none] })
  | .enable _, q => (.nothing, q)
  | .disable _, q => (.nothing, q)
  | .aggregate sched k skip filter deny parallel, q =>
    match q.readers[k]? with
    | none => (.nothing, q)
    | some r => (.result (aggregateWithOptions sched r
        { skipPreCalculated := skip, filter := q.val filter, denyFilter := q.val deny, parallel := parallel }), q)
  | .multi sched ks skip filter, q =>
    if ks.all fun k => k < q.readers.length then
      (.result (VibeCol.multiAggregate sched (ks.filterMap (q.readers[·]?)) skip (q.val filter)), q)
    else (.nothing, q)

/-- All steps. -/
def specRun : List (Act B) → Separate B → List (Seen B) × Separate B
  | [], q => ([], q)
  | a :: as, q =>
    let (o, q) := a.spec q
    let (os, q) := specRun as q
    (o :: os, q)

/-- The program changes no bitmap that it got from a reader while caching was enabled. `caching k`: caching is enabled
for reader `k`; `shared`: for each variable, whether it was obtained that way. -/
def Polite : List (Act B) → (caching : Nat → Bool) → (shared : List Bool) → Prop
  | [], _, _ => True
  | .newBitmap :: as, caching, shared => Polite as caching (shared ++ [false])
  | .change v _ :: as, caching, shared => shared[v]? ≠ some true ∧ Polite as caching shared
  | .get k :: as, caching, shared => Polite as caching (shared ++ [caching k])
  | .enable k :: as, caching, shared => Polite as (fun j => if j = k then true else caching j) shared
  | .disable k :: as, caching, shared => Polite as (fun j => if j = k then false else caching j) shared
  | .look _ :: as, caching, shared => Polite as caching shared
  | .aggregate .. :: as, caching, shared => Polite as caching shared
  | .multi .. :: as, caching, shared => Polite as caching shared

end
end VibeCol.Pointers
