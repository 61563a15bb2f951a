/-
Specification for goroutines that share readers (C81): what a call may return, said with the calls made one at a time
(`Verif/Model/Reader.lean`, `Verif/Model/Aggregate.lean`, `Verif/Model/MultiCol.lean`, and with failing reads
`Verif/Model/ReaderIO.lean`, `Verif/Model/MultiIO.lean`).
-/
import Verif.Model.Goroutines
import Verif.Spec.MultiIO
namespace VibeCol.Goroutines
variable {B : Type} [Bitmap B]

/-- What the call returns when it is the only one, the readers being as `NewReader` returned them and no read failing. For a
parallel aggregation this leaves open in which order the workers finish. -/
def ReturnsAlone (gomaxprocs : Int) (reader : Nat → Reader B) : Call B → Out B → Prop
  | .getPairs k i, .pairs p => p = getPairs (reader k) i
  | .aggregate k o, .result a =>
    ∃ sched : Sched, sched.Fair ∧ sched.gomaxprocs = gomaxprocs ∧ a = aggregateWithOptions sched (reader k) o
  | .getBitmap k, .bitmap p =>
    match (getGlobalIDBitmap (reader k)).1 with
    | .ok b => p = .ok (some b)
    | .err e => p = .err e
    | .panic => p = .panic
  | .enable _, .done => True
  | .multi ks skip filter, .result a => ∀ sched : Sched, a = multiAggregate sched (ks.map reader) skip filter
  | .close _, .closed _ => True
  | _, _ => False

/-- What the call returns when it is the only one, and the reads given by some choice of failing reads fail, but only reads from
readers in `faulty`. -/
def ReturnsFaulty (gomaxprocs : Int) (reader : Nat → Reader B) (faulty : Nat → Bool) : Call B → Out B → Prop
  | .getPairs k i, .pairs p => ∃ fail : Bool, (fail = true → faulty k = true) ∧ p = getPairsIO fail (reader k) i
  | .aggregate k o, .result a =>
    ∃ (fail : UInt64 → Bool) (sched : Sched), (∀ i, fail i = true → faulty k = true) ∧ sched.Fair ∧
      sched.gomaxprocs = gomaxprocs ∧ a = aggregateWithOptionsIO fail sched (reader k) o
  | .getBitmap k, .bitmap p =>
    ∃ fail : Nat → Bool, (∀ n, fail n = true → faulty k = true) ∧
      match (getGlobalIDBitmapIO fail (reader k)).1 with
      | .ok b => p = .ok (some b)
      | .err e => p = .err e
      | .panic => p = .panic
  | .enable _, .done => True
  | .multi ks skip filter, .result a =>
    ∃ fails : Nat → ReadFails, (∀ (n k : Nat), ks[n]? = some k →
        (∀ i, (fails n).blocks i = true → faulty k = true) ∧ ∀ i, (fails n).bitmap i = true → faulty k = true) ∧
      ∀ sched : Sched, a = (multiAggregateIO fails sched (ks.map fun k => ⟨reader k, true⟩) skip filter).1
  | .close k, .closed _ => faulty k = true
  | _, _ => False

/-- The outputs are those of the first calls, in order. -/
def Answers {α β : Type} (R : α → β → Prop) (calls : List α) (outs : List β) : Prop :=
  ∀ (n : Nat) out, outs[n]? = some out → ∃ call, calls[n]? = some call ∧ R call out

/-- What a call has to return by what has been written: `blocks k` are the blocks that were written to the file of reader `k`.
Of an aggregate from the index this is only said where the statistics can be stored (see C10). -/
def Stored (blocks : Nat → List Block) : Call B → Out B → Prop
  | .getPairs k i, .pairs p => p = match (blocks k)[i.toNat]? with
    | some b => .ok b
    | none => .err .badBlockIndex
  | .aggregate k o, .result a =>
    o.filter.isSome ∨ o.denyFilter.isSome ∨ o.skipPreCalculated = true ∨ StatsRepresentable (blocks k) →
      ∃ res, a = .ok res ∧ IsAggregate res (selectedValues o.filter o.denyFilter (blocks k))
  | .getBitmap k, .bitmap p =>
    ∃ bm, p = .ok (some bm) ∧ ∀ id, Bitmap.contains bm id = true ↔ ∃ v, (id, v) ∈ pairsOf (blocks k)
  | .enable _, .done => True
  | .multi ks _ filter, .result a =>
    ∃ res, a = .ok res ∧ IsAggregate res ((visible (allowedBy filter) (ks.map blocks)).map Prod.snd)
  | _, _ => False

/-- The same if reads from the readers in `faulty` may fail, or these readers may be closed by another goroutine: pairs and
bitmaps are right or there is an error; an aggregate is that of the blocks that could be read, or right if it is from the
index; over a stack of files it is that of the visible pairs in blocks that could be read, or there is an error. -/
def StoredFaulty (blocks : Nat → List Block) (faulty : Nat → Bool) : Call B → Out B → Prop
  | .getPairs k i, .pairs p =>
    match (blocks k)[i.toNat]? with
    | some b => p = .ok b ∨ faulty k = true ∧ p = .err .io
    | none => p = .err .badBlockIndex
  | .aggregate k o, .result a =>
    (o.filter.isSome ∨ o.denyFilter.isSome ∨ o.skipPreCalculated = true →
      ∃ fail : Nat → Bool, (∀ i, fail i = true → faulty k = true) ∧ ∃ res, a = .ok res ∧
        IsAggregate res (selectedValues o.filter o.denyFilter (unfailed fail (blocks k)))) ∧
    (o.filter = none ∧ o.denyFilter = none ∧ o.skipPreCalculated = false ∧ StatsRepresentable (blocks k) →
      ∃ res, a = .ok res ∧ IsAggregate res (valuesOf (blocks k)))
  | .getBitmap k, .bitmap p =>
    (∃ bm, p = .ok (some bm) ∧ ∀ id, Bitmap.contains bm id = true ↔ ∃ v, (id, v) ∈ pairsOf (blocks k)) ∨
      faulty k = true ∧ p = .err .io
  | .enable _, .done => True
  | .multi ks _ filter, .result a =>
    (a = .err .io ∧ ∃ k ∈ ks, faulty k = true) ∨
      ∃ fail : Nat → Nat → Bool, (∀ n k, ks[n]? = some k → ∀ i, fail n i = true → faulty k = true) ∧ ∃ res, a = .ok res ∧
        IsAggregate res ((visibleRead (allowedBy filter) (readOf fail (ks.map blocks))).map Prod.snd)
  | .close k, .closed _ => faulty k = true
  | _, _ => False

end VibeCol.Goroutines
