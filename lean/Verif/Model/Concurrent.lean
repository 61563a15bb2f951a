/-
Several goroutines calling `GetGlobalIDBitmap`, `EnableGlobalIDBitmapCaching` and
`DisableGlobalIDBitmapCaching` (pkg/col/reader.go:127-179) on one `Reader`, which has no lock.
One step is one access to one of the two shared fields `globalIDs` and `cacheGlobalIDs`, or the
reading of the bitmap from the file (which touches no shared field: reader.go:147-171).
Accesses are taken to be atomic and sequentially consistent, which is more than Go promises
for unsynchronised accesses.
-/
import Verif.Model.Reader
namespace VibeCol

/-- A call by a goroutine. -/
inductive CacheCall where
  | get
  | enable
  | disable
deriving DecidableEq

/-- Where a goroutine is. -/
inductive CachePC (B : Type) where
  /-- between calls -/
  | ready
  /-- `r.globalIDs != nil` held; next `r.cacheGlobalIDs` is read (reader.go:143) -/
  | checkCache
  /-- about to return `r.globalIDs`, which is read once more (reader.go:144) -/
  | reread
  /-- about to read the bitmap from the file (reader.go:148-171) -/
  | load
  /-- has a bitmap; next `r.cacheGlobalIDs` is read (reader.go:151, 174) -/
  | loaded (b : B)
  /-- about to execute `r.globalIDs = bitmap` (reader.go:152, 175) -/
  | store (b : B)
  /-- about to execute `r.globalIDs = nil` (reader.go:135) -/
  | clear

/-- One goroutine: position, remaining calls, and what its `GetGlobalIDBitmap` calls have
returned so far (`.ok none` is a nil bitmap with a nil error). -/
structure CacheThread (B : Type) where
  pc : CachePC B
  todo : List CacheCall
  outs : List (Res (Option B))

/-- The shared fields and all goroutines. -/
structure CacheState (B : Type) where
  globalIDs : Option B
  cacheGlobalIDs : Bool
  thread : Nat → CacheThread B

/-- Replace goroutine `i`. -/
def CacheState.setThread {B : Type} (s : CacheState B) (i : Nat) (t : CacheThread B) : CacheState B :=
  { s with thread := fun j => if j = i then t else s.thread j }

/-- A call of goroutine `t` returns `out`. -/
def CacheThread.ret {B : Type} (t : CacheThread B) (out : Res (Option B)) : CacheThread B :=
  { t with pc := .ready, outs := t.outs ++ [out] }

/-- One step of goroutine `i`; `none` if it has finished its calls. `file` is what reading the
bitmap from the file gives. -/
def cacheStep {B : Type} (file : Res B) (i : Nat) (s : CacheState B) : Option (CacheState B) :=
  let t := s.thread i
  match t.pc with
  | .ready =>
    match t.todo with
    | [] => none
    | .get :: rest =>
      match s.globalIDs with
      | some _ => some (s.setThread i { t with pc := .checkCache, todo := rest })
      | none => some (s.setThread i { t with pc := .load, todo := rest })
    | .enable :: rest => some { s.setThread i { t with todo := rest } with cacheGlobalIDs := true }
    | .disable :: rest =>
      some { s.setThread i { t with pc := .clear, todo := rest } with cacheGlobalIDs := false }
  | .checkCache =>
    if s.cacheGlobalIDs then some (s.setThread i { t with pc := .reread })
    else some (s.setThread i { t with pc := .load })
  | .reread => some (s.setThread i (t.ret (.ok s.globalIDs)))
  | .load =>
    match file with
    | .ok b => some (s.setThread i { t with pc := .loaded b })
    | .err e => some (s.setThread i (t.ret (.err e)))
    | .panic => some (s.setThread i (t.ret .panic))
  | .loaded b =>
    if s.cacheGlobalIDs then some (s.setThread i { t with pc := .store b })
    else some (s.setThread i (t.ret (.ok (some b))))
  | .store b => some { s.setThread i (t.ret (.ok (some b))) with globalIDs := some b }
  | .clear => some { s.setThread i { t with pc := .ready } with globalIDs := none }

/-- Steps in the order chosen by the scheduler. -/
def cacheExec {B : Type} (file : Res B) : List Nat → CacheState B → Option (CacheState B)
  | [], s => some s
  | i :: is, s => (cacheStep file i s).bind (cacheExec file is)

/-- A reader with the given cache fields, and goroutines about to make the given calls. -/
def CacheState.start {B : Type} (r : Reader B) (calls : Nat → List CacheCall) : CacheState B where
  globalIDs := r.globalIDs
  cacheGlobalIDs := r.cacheGlobalIDs
  thread i := { pc := .ready, todo := calls i, outs := [] }

/-- What reading the bitmap from the file gives (reader.go:147-171, 178). -/
def loadBitmap {B : Type} [Bitmap B] (r : Reader B) : Res B :=
  (getGlobalIDBitmap { r with globalIDs := none, cacheGlobalIDs := false }).1

end VibeCol
