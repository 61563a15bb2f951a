/-
Specification vocabulary: stacks of column files.
-/
import Verif.Spec.Aggregate
import Verif.Spec.Files
import Verif.Spec.Simple
import Verif.Model.MultiCol
namespace VibeCol

/-- `r` is a reader opened on a finalized file that contains `blocks`. The serialized bitmap of
the file fits its 32-bit length field. -/
structure FileWith (B : Type) [Bitmap B] (r : Reader B) (blocks : List Block) : Prop where
  opened : ∃ (env : Env) (opts : List WriterOption) (log : Log) (file : Bytes),
    Finalized B env opts log file ∧ SymEnc (chosenEncoding opts) ∧ newReader file = .ok r ∧ acked log = blocks
  few : blocks.length ≤ maxBlocks
  buffer : (Bitmap.toBuffer (bitmapOf B blocks)).length < 2 ^ 32

/-- The pairs visible in a stack of files, ordered from oldest to newest: those that pass the
filter and whose ID occurs in no newer file. -/
def visible (allowed : UInt64 → Bool) : List (List Block) → List Pair
  | [] => []
  | f :: newer =>
    (pairsOf f).filter (fun p => allowed p.1 && !(newer.any fun g => (pairsOf g).any fun q => q.1 == p.1)) ++
      visible allowed newer

/-- Setting a key of a map. -/
def upsert (m : UInt64 → Option Int64) (p : Pair) : UInt64 → Option Int64 :=
  fun id => if id = p.1 then some p.2 else m id

/-- The map obtained by applying all pairs of all files as upserts, from oldest to newest. -/
def latest (files : List (List Block)) : UInt64 → Option Int64 :=
  files.foldl (fun m f => (pairsOf f).foldl upsert m) fun _ => none

/-- The filter as a predicate; `nil` allows everything. -/
def allowedBy {B : Type} [Bitmap B] (filter : Option B) (id : UInt64) : Bool :=
  filter.all fun f => Bitmap.contains f id

end VibeCol
