/-
`GetGlobalIDBitmap`, the bitmap cache, filters and `MultiReader.Aggregate` once more, now with bitmaps as pointers
(`*sroar.Bitmap`): the program, the readers' caches and the library can hold the same bitmap, and `Set` or `Or` on it is
seen by all of them.
-/
import Verif.Model.MultiCol
import Verif.Model.Concurrent
namespace VibeCol.Pointers

/-- A `Reader` whose cache field `globalIDs` is a pointer (reader.go:11-20). The cache fields inside `reader` are unused. -/
structure Cell (B : Type) where
  reader : Reader B
  cached : Option Nat
  caching : Bool

/-- All bitmaps in memory (the pointer is the position) and all open readers. -/
structure State (B : Type) where
  heap : List B
  cells : List (Cell B)

section
variable {B : Type} [Bitmap B]

/-- `sroar.NewBitmap()` or `sroar.FromBuffer(buf)`. -/
def State.new (b : B) (s : State B) : Nat × State B := (s.heap.length, { s with heap := s.heap ++ [b] })

/-- `EnableGlobalIDBitmapCaching` (reader.go:128-130) on reader `k`. -/
def enable (k : Nat) (s : State B) : State B := { s with cells := s.cells.modify k fun c => { c with caching := true } }

/-- `DisableGlobalIDBitmapCaching` (reader.go:133-136). -/
def disable (k : Nat) (s : State B) : State B :=
  { s with cells := s.cells.modify k fun c => { c with caching := false, cached := none } }

/-- The part of `GetGlobalIDBitmap` after the cache lookup (reader.go:147-178). `loadBitmap` is the reading from the file
(reader.go:147-171). -/
def fetch (k : Nat) (c : Cell B) (s : State B) : Res Nat × State B :=
  match loadBitmap c.reader with
  | .err e => (.err e, s)
  | .panic => (.panic, s)
  | .ok b =>
    let (p, s) := s.new b
    if c.caching then (.ok p, { s with cells := s.cells.modify k fun c => { c with cached := some p } })
    else (.ok p, s)

/-- `GetGlobalIDBitmap` (reader.go:141-179) on reader `k`: a pointer. -/
def get (k : Nat) (s : State B) : Res Nat × State B :=
  match s.cells[k]? with
  | none => (.panic, s)
  | some c =>
    match c.cached, c.caching with
    | some p, true => (.ok p, s)
    | _, _ => fetch k c s

/-- `a.Or(b)` (multicol/aggregate.go:82). Whether `Or` changes `a` and returns it, or returns a new bitmap, is left open. -/
def or (inPlace : Bool) (a b : Nat) (s : State B) : Nat × State B :=
  match s.heap[a]?, s.heap[b]? with
  | some x, some y => if inPlace then (a, { s with heap := s.heap.set a (Bitmap.or x y) }) else s.new (Bitmap.or x y)
  | _, _ => (a, s)

/-- The loop of `MultiReader.Aggregate` (multicol/aggregate.go:62-92), newest reader first. -/
def multiLoop (inPlace : Bool) (sched : Sched) (skip : Bool) (filter : Option Nat) :
    List Nat → (denyBitmap : Nat) → (result : AggregateResult) → State B → Res AggregateResult × State B
  | [], _, result, s => (.ok result, s)
  | k :: rest, denyBitmap, result, s =>
    match s.cells[k]? with
    | none => (.panic, s)
    | some c =>
      match aggregateWithOptions sched c.reader
        { skipPreCalculated := skip, filter := filter.bind (s.heap[·]?), denyFilter := s.heap[denyBitmap]? } with
      | .err e => (.err e, s)
      | .panic => (.panic, s)
      | .ok readerResult =>
        match get k s with
        | (.err e, s) => (.err e, s)
        | (.panic, s) => (.panic, s)
        | (.ok globalIDs, s) =>
          let (denyBitmap, s) := or inPlace denyBitmap globalIDs s
          let result := if result.count = 0 then readerResult else mergeAggregateResults result readerResult
          multiLoop inPlace sched skip filter rest denyBitmap result s

/-- `MultiReader.Aggregate` (multicol/aggregate.go:50-95) over the readers `ks`, oldest first. -/
def multiAggregate (inPlace : Bool) (sched : Sched) (ks : List Nat) (skip : Bool) (filter : Option Nat) (s : State B) :
    Res AggregateResult × State B :=
  if ks.length = 0 then (.ok .zero, s)
  else
    let (denyBitmap, s) := s.new Bitmap.empty
    multiLoop inPlace sched skip filter ks.reverse denyBitmap .zero s

/-! ### A program using readers and bitmaps -/

/-- What a program can do. Its bitmap variables are numbered in the order in which they get their value. -/
inductive Act (B : Type) where
  /-- `v := sroar.NewBitmap()` -/
  | newBitmap
  /-- any in-place change of the bitmap in variable `v`, for example `v.Set(id)` or `v.Or(...)` -/
  | change (v : Nat) (f : B → B)
  /-- look at the bitmap in variable `v` -/
  | look (v : Nat)
  /-- `v, err := readers[k].GetGlobalIDBitmap()` -/
  | get (k : Nat)
  | enable (k : Nat)
  | disable (k : Nat)
  /-- `readers[k].AggregateWithOptions`, with variables as filters -/
  | aggregate (sched : Sched) (k : Nat) (skip : Bool) (filter deny : Option Nat) (parallel : Int)
  /-- `NewMultiReader(readers ks).Aggregate` -/
  | multi (sched : Sched) (ks : List Nat) (skip : Bool) (filter : Option Nat)

/-- What it sees. -/
inductive Seen (B : Type) where
  | nothing
  | bitmap (b : Option B)
  | got (r : Res Unit)
  | result (r : Res AggregateResult)

/-- The process: bitmaps, readers and the program's variables (nil if `GetGlobalIDBitmap` failed). -/
structure Process (B : Type) where
  state : State B
  vars : List (Option Nat)

/-- The pointer in a variable; no variable is nil. -/
def Process.ptr (p : Process B) (v : Option Nat) : Option Nat := v.bind fun v => p.vars[v]?.join

/-- `err` and panics without the value. -/
def done {α : Type} : Res α → Res Unit
  | .ok _ => .ok ()
  | .err e => .err e
  | .panic => .panic

/-- One step. Accesses to a nil bitmap or a reader that does not exist have no effect. -/
def Act.run (inPlace : Bool) : Act B → Process B → Seen B × Process B
  | .newBitmap, p =>
    let (a, s) := p.state.new Bitmap.empty
    (.nothing, ⟨s, p.vars ++ [some a]⟩)
  | .change v f, p =>
    match p.ptr (some v) with
    | none => (.nothing, p)
    | some a => (.nothing, { p with state := { p.state with heap := p.state.heap.modify a f } })
  | .look v, p => (.bitmap ((p.ptr (some v)).bind (p.state.heap[·]?)), p)
  | .get k, p =>
    let (r, s) := Pointers.get k p.state
    (.got (done r), ⟨s, p.vars ++ [match r with | .ok a => some a | _ => none]⟩)
  | .enable k, p => (.nothing, { p with state := Pointers.enable k p.state })
  | .disable k, p => (.nothing, { p with state := Pointers.disable k p.state })
  | .aggregate sched k skip filter deny parallel, p =>
    match p.state.cells[k]? with
    | none => (.nothing, p)
    | some c => (.result (aggregateWithOptions sched c.reader
        { skipPreCalculated := skip, filter := (p.ptr filter).bind (p.state.heap[·]?),
          denyFilter := (p.ptr deny).bind (p.state.heap[·]?), parallel := parallel }), p)
  | .multi sched ks skip filter, p =>
    if ks.all fun k => k < p.state.cells.length then
      let (r, s) := multiAggregate inPlace sched ks skip (p.ptr filter) p.state
      (.result r, { p with state := s })
    else (.nothing, p)

/-- All steps. -/
def run (inPlace : Bool) : List (Act B) → Process B → List (Seen B) × Process B
  | [], p => ([], p)
  | a :: as, p =>
    let (o, p) := a.run inPlace p
    let (os, p) := run inPlace as p
    (o :: os, p)

/-- Readers that have just been opened; no bitmaps yet. -/
def Process.start (readers : List (Reader B)) : Process B := ⟨⟨[], readers.map fun r => ⟨r, none, false⟩⟩, []⟩

end
end VibeCol.Pointers
