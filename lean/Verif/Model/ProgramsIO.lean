/-
The programs that read column files (cmd/vibecol/main.go `read`, cmd/loadtest/main.go `aggregate`,
examples/filtered_aggregation_example.go), again, with reads that may fail. `Verif/Model/Cli.lean`, `Verif/Model/LoadTest.lean` and
`Verif/Model/FilterExample.lean` are the case in which no read fails (proved in `Verif/Props/ProgramsIO.lean`).

`opening n`: the n-th operation of `NewReader` fails. Every later call has its own oracle: `fail i` says that the read of block `i`
by that call fails.
-/
import Verif.Model.ReaderIO
import Verif.Model.Cli
import Verif.Model.LoadTest
import Verif.Model.FilterExample
namespace VibeCol
variable {B : Type} [Bitmap B]

namespace Cli

/-- The loop over the blocks (cmd/vibecol/main.go:137-148): the first error ends the program. -/
def dumpLoopIO (fail : UInt32 → Bool) (r : Reader B) : Nat → UInt32 → Bytes × Option Stopped
  | 0, _ => ([], none)
  | fuel + 1, i =>
    match getPairsIO (fail i) r i.toUInt64 with
    | .panic => ([], some .panicked)
    | .err e => ([], some (.failed (.pairs i e)))
    | .ok (ids, values) =>
      match printPairs ids values with
      | (out, some e) => (out, some e)
      | (out, none) =>
        let (rest, e) := dumpLoopIO fail r fuel (i + 1)
        (out ++ rest, e)

/-- `runRead` (cmd/vibecol/main.go:113-167). -/
def runReadIO (opening : Nat → Bool) (dumping : UInt32 → Bool) (aggregating : UInt64 → Bool) (fmtAvg : Avg → Bytes) (usage : Bytes)
    (sched : Sched) (inputFile : Bytes) (file : Bytes) (dumpKV aggregate : Bool) : Bytes × Option Stopped :=
  match newReaderIO (B := B) opening file with
  | .panic => ([], some .panicked)
  | .err e => ([], some (.failed (.open e)))
  | .ok r =>
    let head := str "File: " ++ inputFile ++ str "\n" ++
      str "Version: " ++ fmtNat r.version.toNat ++ str "\n" ++
      str "Blocks: " ++ fmtNat r.blockCount.toNat ++ str "\n\n"
    let (dump, e) := if dumpKV then
        let (out, e) := dumpLoopIO dumping r r.blockCount.toUInt32.toNat 0
        (str "ID\tValue\n" ++ str "--\t-----\n" ++ out ++ (if e.isNone then str "\n" else []), e)
      else ([], none)
    match e with
    | some e => (head ++ dump, some e)
    | none =>
      if aggregate then
        match aggregateWithOptionsIO aggregating sched r {} with
        | .panic => (head ++ dump, some .panicked)
        | .err _ => (head ++ dump, some .panicked)
        | .ok res => (head ++ dump ++ aggText fmtAvg res, none)
      else (head ++ dump ++ (if dumpKV then [] else usage), none)

end Cli

namespace LoadTest

/-- The full scan (cmd/loadtest/main.go:226-235): the first error ends the program (with status 0). -/
def scanIO (fail : UInt64 → Bool) (r : Reader B) : Nat → UInt64 → Int64 → Res Int64
  | 0, _, total => .ok total
  | fuel + 1, i, total => do
    let (_, values) ← getPairsIO (fail i) r i
    scanIO fail r fuel (i + 1) (total + Int64.ofNat values.length)

/-- What `runAggregate` has printed when it returns, that is, ends with status 0: as `Report`, but the line about the full scan
is missing (`none`) if a block could not be read. -/
structure ReportIO where
  version : UInt32
  encoding : UInt32
  blocks : UInt64
  result : AggregateResult
  workers : Option Int
  scanned : Option Int64
deriving DecidableEq, Repr

/-- `runAggregate` and `runAggregations` (cmd/loadtest/main.go:173-246). `err` is `os.Exit(1)`. -/
def runAggregateIO (opening : Nat → Bool) (aggregating scanning : UInt64 → Bool) (sched : Sched) (file : Bytes) (skipCache : Bool)
    (parallel : Int) : Res ReportIO := do
  let r ← newReaderIO (B := B) opening file
  let result ← aggregateWithOptionsIO aggregating sched r { skipPreCalculated := skipCache, parallel := parallel }
  let report (scanned : Option Int64) : ReportIO := {
    version := r.version
    encoding := r.encodingType
    blocks := r.blockCount
    result := result
    workers := if parallel ≠ 0 then some (if parallel < 0 then sched.gomaxprocs else parallel) else none
    scanned := scanned }
  match scanIO scanning r r.blockCount.toNat 0 0 with
  | .panic => .panic
  | .err _ => .ok (report none)
  | .ok n => .ok (report (some n))

end LoadTest

namespace FilterExample
open VibeCol.Cli (str)

/-- `main` (examples/filtered_aggregation_example.go:13-120): `reading k` are the failing reads of the k-th aggregation. -/
def mainIO (env : Env) (opening : Nat → Bool) (reading : Nat → UInt64 → Bool) (sched : Sched) (fmtAvg : Avg → Bytes) (filename : Bytes) :
    Res Bytes :=
  match createSampleData (B := B) env with
  | .error e => .err e
  | .ok w => do
    let reader ← newReaderIO (B := B) opening w.file.bytes
    let result ← aggregateWithOptionsIO (reading 1) sched reader {}
    let allowFilter : B := bitmapWith [10, 20, 30, 110, 120, 130, 210, 220, 230]
    let allowResult ← aggregateWithOptionsIO (reading 2) sched reader { filter := some allowFilter }
    let denyFilter : B := bitmapWith (loop 1 100 1)
    let denyResult ← aggregateWithOptionsIO (reading 3) sched reader { denyFilter := some denyFilter }
    let combinedAllowFilter : B := bitmapWith (loop 1 200 1)
    let combinedDenyFilter : B := bitmapWith (loop 2 200 2)
    let combinedResult ← aggregateWithOptionsIO (reading 4) sched reader
      { filter := some combinedAllowFilter, denyFilter := some combinedDenyFilter }
    let rangeFilter : B := bitmapWith (loop 50 75 1 ++ loop 150 175 1 ++ loop 250 275 1)
    let rangeDenyFilter : B := bitmapWith (loop 5 300 5)
    let rangeResult ← aggregateWithOptionsIO (reading 5) sched reader
      { filter := some rangeFilter, denyFilter := some rangeDenyFilter, skipPreCalculated := true }
    .ok (str "Creating column file at: " ++ filename ++ str "\n" ++
      str "\n=== Example 1: No filters ===\n" ++ printResult fmtAvg "No filters" result ++
      str "\n=== Example 2: Only allow filter ===\n" ++ printResult fmtAvg "Allow specific IDs" allowResult ++
      str "\n=== Example 3: Only deny filter ===\n" ++ printResult fmtAvg "Deny first block" denyResult ++
      str "\n=== Example 4: Both allow and deny filters ===\n" ++
        printResult fmtAvg "Allow IDs 1-200, deny even IDs" combinedResult ++
      str "\n=== Example 5: Complex filtering scenario ===\n" ++
        printResult fmtAvg "Allow specific ranges, deny IDs divisible by 5" rangeResult)

end FilterExample
end VibeCol
