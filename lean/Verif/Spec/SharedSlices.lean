/-
What a program using a `SimpleWriter` may rely on: the calls take the contents of the slices at the time of the call,
and the program's arrays change only by its own stores. Here the arrays are the program's alone, and the writer is the
one of `Model/SimpleWriter.lean`, which is given lists.
-/
import Verif.Model.SharedSlices
import Verif.Spec.Simple
namespace VibeCol.Shared

/-- The program's arrays, and a writer that shares nothing with them. -/
structure Separate (B : Type) where
  ids : List (List UInt64)
  vals : List (List Int64)
  sw : SimpleWriter B

/-- The contents of a part. -/
def Part.contents {α : Type} (p : Part) (arrays : List (List α)) : Option (List α) :=
  match arrays[p.arr]? with
  | none => none
  | some a => if p.off + p.len ≤ a.length then some ((a.drop p.off).take p.len) else none

section
variable {B : Type} [Bitmap B]

/-- One step. -/
def Act.spec (env : Env) : Act → Separate B → Seen × Separate B
  | .makeIDs xs, p => (.nothing, { p with ids := p.ids ++ [xs] })
  | .makeValues xs, p => (.nothing, { p with vals := p.vals ++ [xs] })
  | .storeID a i v, p => (.nothing, { p with ids := p.ids.modify a fun xs => xs.set i v })
  | .storeValue a i v, p => (.nothing, { p with vals := p.vals.modify a fun xs => xs.set i v })
  | .loadID a i, p => (.id (p.ids[a]?.bind fun xs => xs[i]?), p)
  | .loadValue a i, p => (.value (p.vals[a]?.bind fun xs => xs[i]?), p)
  | .write x y, p =>
    match x.contents p.ids, y.contents p.vals with
    | some xs, some ys =>
      let (r, sw) := p.sw.write env xs ys
      (.result r, { p with sw })
    | _, _ => (.nothing, p)
  | .setTarget size, p =>
    let (r, sw) := VibeCol.setTargetBlockSize size p.sw
    (.result r, { p with sw })
  | .close, p =>
    let (r, sw) := p.sw.close env
    (.result r, { p with sw })

/-- All steps. -/
def specRun (env : Env) : List Act → Separate B → List Seen × Separate B
  | [], p => ([], p)
  | a :: as, p =>
    let (o, p) := a.spec env p
    let (os, p) := specRun env as p
    (o :: os, p)

end
/-- The calls a program makes, with the contents of the slices at the time of the call. -/
def made : List Act → List (List UInt64) → List (List Int64) → List SWCall
  | [], _, _ => []
  | .makeIDs xs :: as, ids, vals => made as (ids ++ [xs]) vals
  | .makeValues xs :: as, ids, vals => made as ids (vals ++ [xs])
  | .storeID a i v :: as, ids, vals => made as (ids.modify a fun xs => xs.set i v) vals
  | .storeValue a i v :: as, ids, vals => made as ids (vals.modify a fun xs => xs.set i v)
  | .loadID _ _ :: as, ids, vals => made as ids vals
  | .loadValue _ _ :: as, ids, vals => made as ids vals
  | .write x y :: as, ids, vals =>
    match x.contents ids, y.contents vals with
    | some xs, some ys => .write xs ys :: made as ids vals
    | _, _ => made as ids vals
  | .setTarget size :: as, ids, vals => .setTarget size :: made as ids vals
  | .close :: as, ids, vals => .close :: made as ids vals

end VibeCol.Shared
