/-
Specification vocabulary: what the programs that read files print when reads fail.
-/
import Verif.Spec.ReadFaults
import Verif.Spec.Aggregate
import Verif.Model.ProgramsIO
namespace VibeCol.ProgramsIO

/-- What a run of `loadtest aggregate` that ended with status 0 has printed, for a file with these blocks: the aggregates of the
blocks it could read (of all, if they come from the index), and the true number of values, or no number, if the scan failed. -/
structure Printed (blocks : List Block) (skipCache : Bool) (aggregating scanning : Nat → Bool) (rep : LoadTest.ReportIO) : Prop where
  version : rep.version = 1
  count : rep.blocks.toNat = blocks.length
  skipped : skipCache = true → IsAggregate rep.result (valuesOf (unfailed aggregating blocks))
  cached : skipCache = false → IsAggregate rep.result (valuesOf blocks)
  scan : rep.scanned = if ∃ i < blocks.length, scanning i = true then none else some (Int64.ofNat (valuesOf blocks).length)

/-- The values of the pairs of these blocks whose ID has a property. -/
def valuesWith (keep : Nat → Bool) (blocks : List Block) : List Int64 :=
  ((pairsOf blocks).filter fun p => keep p.1.toNat).map Prod.snd

/-- IDs 10, 20, 30, 110, 120, 130, 210, 220, 230. -/
def listed (n : Nat) : Bool := [10, 20, 30, 110, 120, 130, 210, 220, 230].contains n
/-- Not in the first block (1-100). -/
def notFirst (n : Nat) : Bool := !(decide (1 ≤ n) && decide (n ≤ 100))
/-- An odd number from 1 to 200. -/
def oddTo200 (n : Nat) : Bool := decide (1 ≤ n) && decide (n ≤ 200) && n % 2 == 1
/-- In one of the ranges 50-75, 150-175, 250-275, and not divisible by 5. -/
def inRanges (n : Nat) : Bool :=
  ((decide (50 ≤ n) && decide (n ≤ 75)) || (decide (150 ≤ n) && decide (n ≤ 175)) || (decide (250 ≤ n) && decide (n ≤ 275))) && n % 5 != 0

/-- The three blocks of the filter example: IDs 1-100, 101-200 and 201-300, with 10, 5 and 2 times the ID as value. -/
def exampleBlock (first factor : Nat) : Block :=
  ((List.range' first 100).map UInt64.ofNat, (List.range' first 100).map fun n => Int64.ofNat (n * factor))
def exampleBlocks : List Block := [exampleBlock 1 10, exampleBlock 101 5, exampleBlock 201 2]

end VibeCol.ProgramsIO
