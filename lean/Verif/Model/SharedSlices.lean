/-
simple_writer.go once more, now with Go slices: arrays in memory and slices pointing into them, so that writing through
one slice is seen through another. `Writer.WriteBlock` only reads its arguments while it runs and keeps no reference to
them (writer_block_io.go:21-68, 72-330: `range`, `ids[:i]` and the copying encoders of writer_encoding.go:20-25 and
encoding.go:10-78), so it is the function of the contents modelled in `Model/Writer.lean`.
-/
import Verif.Model.SimpleWriter
namespace VibeCol.Shared

/-- Arrays in memory; the address of an array is its position. An array never changes its length. -/
abbrev Mem (α : Type) := List (List α)

/-- A slice: array, start, length and capacity. The nil slice has length and capacity 0. -/
structure Slice where
  arr : Nat
  off : Nat
  len : Nat
  cap : Nat

section
variable {α : Type}

/-- The elements of a slice. -/
def Slice.read (m : Mem α) (s : Slice) : List α := ((m.getD s.arr []).drop s.off).take s.len

/-- `a[i] = v` for the array at address `a`. -/
def put (m : Mem α) (a i : Nat) (v : α) : Mem α := m.modify a fun xs => xs.set i v

/-- `s[i] = vs[0]; s[i+1] = vs[1]; ...` -/
def Slice.fill (s : Slice) (m : Mem α) (i : Nat) : List α → Mem α
  | [] => m
  | v :: vs => s.fill (put m s.arr (s.off + i) v) (i + 1) vs

/-- `make([]T, n)`. -/
def make (zero : α) (n : Nat) (m : Mem α) : Slice × Mem α := (⟨m.length, 0, n, n⟩, m ++ [List.replicate n zero])

/-- `copy(dst, src)`. -/
def copy (dst src : Slice) (m : Mem α) : Mem α := dst.fill m 0 ((src.read m).take dst.len)

/-- `append(s, t...)`: in place if the capacity suffices, otherwise into a new array, whose capacity is chosen by the
runtime: any function `grow` of the old capacity and the length needed. -/
def append (grow : Nat → Nat → Nat) (zero : α) (s t : Slice) (m : Mem α) : Slice × Mem α :=
  let need := s.len + t.len
  if need ≤ s.cap then ({ s with len := need }, ({ s with len := need } : Slice).fill m s.len (t.read m))
  else
    let cap := max need (grow s.cap need)
    let xs := s.read m ++ t.read m
    (⟨m.length, 0, need, cap⟩, m ++ [xs ++ List.replicate (cap - xs.length) zero])

/-- `s[n:]`. -/
def Slice.from (s : Slice) (n : Nat) : Slice := ⟨s.arr, s.off + n, s.len - n, s.cap - n⟩

end

/-- `SimpleWriter` (simple_writer.go:10-18) and the memory of the process. -/
structure World (B : Type) where
  ids : Mem UInt64
  vals : Mem Int64
  writer : Writer B
  pendingIDs : Slice
  pendingValues : Slice
  targetBlockSize : Int64
  closed : Bool
  totalItems : Nat

/-- The nil slice. -/
def nilSlice : Slice := ⟨0, 0, 0, 0⟩

section S
variable {B : Type} [Bitmap B]

/-- `NewSimpleWriter` (simple_writer.go:21-40); `make([]T, 0)` has capacity 0. -/
def newSimpleWriter (options : List WriterOption) (env : Env) (ids : Mem UInt64) (vals : Mem Int64) : Except Err (World B) :=
  match newWriter options env with
  | (.error e, _) => .error e
  | (.ok _, w) =>
    let (pendingIDs, ids) := make 0 0 ids
    let (pendingValues, vals) := make 0 0 vals
    .ok { ids, vals, writer := w, pendingIDs, pendingValues, targetBlockSize := 128 * 1024, closed := false, totalItems := 0 }

/-- `SetTargetBlockSize` (simple_writer.go:43-54). -/
def setTargetBlockSize (size : Int64) (w : World B) : Except Err Unit × World B :=
  if w.closed then (.error .closed, w)
  else (.ok (), { w with targetBlockSize := size, writer := { w.writer with blockSizeTarget := size.toUInt64.toUInt32 } })

/-- `sortByID` (simple_writer.go:178-208): sorts in place, through the two slices. -/
def sortByID (env : Env) (ids values : Slice) (w : World B) : World B :=
  let pairs := env.sort ((ids.read w.ids).zip (values.read w.vals))
  { w with ids := ids.fill w.ids 0 (pairs.map Prod.fst), vals := values.fill w.vals 0 (pairs.map Prod.snd) }

/-- `flushIfNeeded` (simple_writer.go:121-165). -/
def flushIfNeeded (env : Env) (force : Bool) (w : World B) : Except Err Unit × World B :=
  if w.pendingIDs.len = 0 then (.ok (), w)
  else
    let shouldWrite := if !force then decide (w.pendingIDs.len ≥ 1000) else force
    if shouldWrite then
      match h : writeBlock (w.pendingIDs.read w.ids) (w.pendingValues.read w.vals) env w.writer with
      | (.error (.blockFull itemsWritten), w') =>
        flushIfNeeded env force { w with
          writer := w'
          totalItems := w.totalItems + itemsWritten
          pendingIDs := w.pendingIDs.from itemsWritten
          pendingValues := w.pendingValues.from itemsWritten }
      | (.error e, w') => (.error e, { w with writer := w' })
      | (.ok _, w') => (.ok (), { w with
          writer := w'
          totalItems := w.totalItems + w.pendingIDs.len
          pendingIDs := nilSlice
          pendingValues := nilSlice })
    else (.ok (), w)
termination_by w.pendingIDs.len
decreasing_by
  have := writeBlock_blockFull_bounds _ _ _ _ _ _ h
  simp only [Slice.from]
  omega

/-- `Write` (simple_writer.go:58-88), given two slices. -/
def write (grow : Nat → Nat → Nat) (env : Env) (ids values : Slice) (w : World B) : Except Err Unit × World B :=
  if w.closed then (.error .closed, w)
  else if ids.len ≠ values.len then (.error .lengthMismatch, w)
  else if ids.len = 0 then (.ok (), w)
  else
    let (newIDs, idMem) := make 0 ids.len w.ids
    let (newValues, valMem) := make 0 values.len w.vals
    let w := { w with ids := copy newIDs ids idMem, vals := copy newValues values valMem }
    let w := if !isSorted (newIDs.read w.ids) then sortByID env newIDs newValues w else w
    let (pendingIDs, idMem) := append grow 0 w.pendingIDs newIDs w.ids
    let (pendingValues, valMem) := append grow 0 w.pendingValues newValues w.vals
    flushIfNeeded env false { w with ids := idMem, vals := valMem, pendingIDs, pendingValues }

/-- `Close` (simple_writer.go:91-108). -/
def close (env : Env) (w : World B) : Except Err Unit × World B :=
  if w.closed then (.ok (), w)
  else
    match flushIfNeeded env true w with
    | (.error e, w') => (.error e, w')
    | (.ok _, w') =>
      match finalizeAndClose env w'.writer with
      | (.error e, f) => (.error e, { w' with writer := f })
      | (.ok _, f) => (.ok (), { w' with writer := f, closed := true })

end S

/-! ### A program using the writer -/

/-- A part of one of the program's arrays: the array (counting from 0 in the order they were made), start and length. -/
structure Part where
  arr : Nat
  off : Nat
  len : Nat

/-- What a program can do. -/
inductive Act where
  | makeIDs (contents : List UInt64)
  | makeValues (contents : List Int64)
  | storeID (arr i : Nat) (v : UInt64)
  | storeValue (arr i : Nat) (v : Int64)
  | loadID (arr i : Nat)
  | loadValue (arr i : Nat)
  | write (ids values : Part)
  | setTarget (size : Int64)
  | close

/-- What it sees. -/
inductive Seen where
  | nothing
  | id (v : Option UInt64)
  | value (v : Option Int64)
  | result (r : Except Err Unit)

/-- The process: memory, writer, and the addresses of the program's arrays. -/
structure Process (B : Type) where
  world : World B
  myIDs : List Nat
  myValues : List Nat

section P
variable {B : Type} [Bitmap B]

/-- The slice for a part, if the slice expression is within bounds. -/
def Part.slice {α : Type} (p : Part) (m : Mem α) (mine : List Nat) : Option Slice :=
  match mine[p.arr]? with
  | none => none
  | some a =>
    let n := (m.getD a []).length
    if p.off + p.len ≤ n then some ⟨a, p.off, p.len, n - p.off⟩ else none

/-- An element of one of the program's arrays. -/
def peek {α : Type} (m : Mem α) (mine : List Nat) (arr i : Nat) : Option α :=
  match mine[arr]? with
  | none => none
  | some a => (m.getD a [])[i]?

/-- Change an element. -/
def poke {α : Type} (m : Mem α) (mine : List Nat) (arr i : Nat) (v : α) : Mem α :=
  match mine[arr]? with
  | none => m
  | some a => put m a i v

/-- One step. Out of bounds accesses have no effect here (in Go they panic). -/
def Act.run (grow : Nat → Nat → Nat) (env : Env) : Act → Process B → Seen × Process B
  | .makeIDs xs, p => (.nothing, { p with world := { p.world with ids := p.world.ids ++ [xs] }, myIDs := p.myIDs ++ [p.world.ids.length] })
  | .makeValues xs, p =>
    (.nothing, { p with world := { p.world with vals := p.world.vals ++ [xs] }, myValues := p.myValues ++ [p.world.vals.length] })
  | .storeID a i v, p => (.nothing, { p with world := { p.world with ids := poke p.world.ids p.myIDs a i v } })
  | .storeValue a i v, p => (.nothing, { p with world := { p.world with vals := poke p.world.vals p.myValues a i v } })
  | .loadID a i, p => (.id (peek p.world.ids p.myIDs a i), p)
  | .loadValue a i, p => (.value (peek p.world.vals p.myValues a i), p)
  | .write x y, p =>
    match x.slice p.world.ids p.myIDs, y.slice p.world.vals p.myValues with
    | some s, some t =>
      let (r, w) := Shared.write grow env s t p.world
      (.result r, { p with world := w })
    | _, _ => (.nothing, p)
  | .setTarget size, p =>
    let (r, w) := setTargetBlockSize size p.world
    (.result r, { p with world := w })
  | .close, p =>
    let (r, w) := Shared.close env p.world
    (.result r, { p with world := w })

/-- All steps. -/
def run (grow : Nat → Nat → Nat) (env : Env) : List Act → Process B → List Seen × Process B
  | [], p => ([], p)
  | a :: as, p =>
    let (o, p) := a.run grow env p
    let (os, p) := run grow env as p
    (o :: os, p)

end P
end VibeCol.Shared
