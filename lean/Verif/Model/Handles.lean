/-
The files a process has open: the constructors with the calls of `file.Close()` on their error paths, and a process that makes
any calls on any number of writers and readers.
-/
import Verif.Model.Closing
import Verif.Model.ReaderIO
import Verif.Spec.Simple
namespace VibeCol
variable {B : Type} [Bitmap B]

/-- `NewWriter` (writer.go:31-60) with `os.Create` and, when the header cannot be written, `file.Close()`. `creates` says whether
`os.Create` succeeds. The second component is whether the file is open when `NewWriter` returns; `none` if there is no file. -/
def newWriterFile (creates : Bool) (options : List WriterOption) (env : Env) : Except Err (Writer B) × Option Bool :=
  if creates = false then (.error .io, none)
  else
    match newWriter options env with
    | (.error e, w) => (.error e, some (fclose env w).2.fileOpen)
    | (.ok _, w) => (.ok w, some w.fileOpen)

/-- `NewSimpleWriter` (simple_writer.go:21-40), likewise. -/
def newSimpleWriterFile (creates : Bool) (options : List WriterOption) (env : Env) : Except Err (SimpleWriter B) × Option Bool :=
  match newWriterFile creates options env with
  | (.error e, o) => (.error e, o)
  | (.ok w, o) => (.ok
    { writer := w, pendingIDs := [], pendingValues := [], targetBlockSize := 128 * 1024, closed := false, totalItems := 0 }, o)

/-- `NewReader` (reader.go:23-57), likewise: each error path after `os.Open` closes the file; a panic leaves it open, because
nothing is deferred. -/
def newReaderFile (fail : Nat → Bool) (file : Bytes) : Res (Reader B) × Option Bool :=
  if fail 0 then (.err .io, none) else
  if fail 1 then (.err .io, some false) else
  match readHeaderIO (fail 2) file with
  | .panic => (.panic, some true)
  | .err e => (.err e, some false)
  | .ok header =>
    match readFooterIO (fun n => fail (n + 3)) file header with
    | .panic => (.panic, some true)
    | .err e => (.err e, some false)
    | .ok (header, footerMeta, blockIndex) =>
      (.ok { bytes := file, header := header, footerMeta := footerMeta, blockIndex := blockIndex,
             globalIDs := none, cacheGlobalIDs := false }, some true)

/-- What a constructor returned to the process. -/
inductive Object (B : Type) where
  | writer (w : Writer B)
  | simple (sw : SimpleWriter B)
  | reader (s : OpenReader B)

/-- Whether the object's file (writer.go:20, reader.go:13) is open. -/
def Object.isOpen : Object B → Bool
  | .writer w => w.fileOpen
  | .simple sw => sw.writer.fileOpen
  | .reader s => s.isOpen

/-- A process: the objects it got, in this order, and for each file opened by a constructor that returned no object whether the
file is still open. -/
structure Process (B : Type) where
  objects : List (Object B)
  lost : List Bool

/-- How many files the process has open. -/
def Process.openFiles (p : Process B) : Nat :=
  (p.objects.filter Object.isOpen).length + (p.lost.filter id).length

/-- What a process can do: call a constructor, call a method of an object (given by its number), or `MultiReader.Close`
(multicol/aggregate.go:26-35) with some readers. `MultiReader.Aggregate` makes only calls of `GetGlobalIDBitmap` and
`AggregateWithOptions` on its readers, so it is a sequence of the `onReader` here. Each call has its own environment. -/
inductive Deed (B : Type) where
  | newWriter (creates : Bool) (options : List WriterOption) (env : Env)
  | newSimple (creates : Bool) (options : List WriterOption) (env : Env)
  | newReader (fail : Nat → Bool) (file : Bytes)
  | onWriter (i : Nat) (env : Env) (c : WCall)
  | onSimple (i : Nat) (env : Env) (c : SWCall)
  | onReader (i : Nat) (c : IOCall B)
  | closeStack (is : List Nat) (failing : Nat → Bool)

/-- What the process sees: the number of its new object, an error of a constructor, a panic of a constructor, the result of a call on
a writer, that a call on readers has returned, or nothing, because there is no such object. -/
inductive Outcome where
  | created (k : Nat)
  | failed
  | panicked
  | result (r : Result)
  | returned
  | noSuch

/-- A constructor has returned. -/
def Process.add (p : Process B) : Option (Object B) × Option Bool → Process B
  | (some o, _) => { p with objects := p.objects ++ [o] }
  | (none, some b) => { p with lost := p.lost ++ [b] }
  | (none, none) => p

/-- Close the readers with the given numbers (multicol/aggregate.go:28-33: the loop goes on after an error). -/
def closeReaders (failing : Nat → Bool) : List Nat → List (Object B) → List (Object B)
  | [], os => os
  | i :: is, os =>
    match os[i]? with
    | some (.reader s) => closeReaders failing is (os.set i (.reader (closeReader (failing i) s).2))
    | _ => closeReaders failing is os

/-- Whether there is a reader with this number. -/
def isReader (os : List (Object B)) (i : Nat) : Bool :=
  match os[i]? with
  | some (.reader _) => true
  | _ => false

/-- One deed. -/
def Deed.act : Deed B → Process B → Outcome × Process B
  | .newWriter creates options env, p =>
    match newWriterFile creates options env with
    | (.error _, o) => (.failed, p.add (none, o))
    | (.ok w, o) => (.created p.objects.length, p.add (some (.writer w), o))
  | .newSimple creates options env, p =>
    match newSimpleWriterFile creates options env with
    | (.error _, o) => (.failed, p.add (none, o))
    | (.ok sw, o) => (.created p.objects.length, p.add (some (.simple sw), o))
  | .newReader fail file, p =>
    match newReaderFile fail file with
    | (.panic, o) => (.panicked, p.add (none, o))
    | (.err _, o) => (.failed, p.add (none, o))
    | (.ok r, o) => (.created p.objects.length, p.add (some (.reader { reader := r, isOpen := o == some true }), o))
  | .onWriter i env c, p =>
    match p.objects[i]? with
    | some (.writer w) => (.result (c.run env w).1, { p with objects := p.objects.set i (.writer (c.run env w).2) })
    | _ => (.noSuch, p)
  | .onSimple i env c, p =>
    match p.objects[i]? with
    | some (.simple sw) => (.result (c.run env sw).1, { p with objects := p.objects.set i (.simple (c.run env sw).2) })
    | _ => (.noSuch, p)
  | .onReader i c, p =>
    match p.objects[i]? with
    | some (.reader s) => (.returned, { p with objects := p.objects.set i (.reader (c.run s).2) })
    | _ => (.noSuch, p)
  | .closeStack is failing, p =>
    if is.all (isReader p.objects) then (.returned, { p with objects := closeReaders failing is p.objects }) else (.noSuch, p)

/-- What a process does, and what it sees. -/
def Process.run : List (Deed B) → Process B → List (Deed B × Outcome) × Process B
  | [], p => ([], p)
  | d :: ds, p => ((d, (d.act p).1) :: (Process.run ds (d.act p).2).1, (Process.run ds (d.act p).2).2)

end VibeCol
