/-
examples/filtered_aggregation_example.go (cited as ex.go). `%.2f` of the average is a parameter; creating, removing and
closing the temporary file is not modelled.
-/
import Verif.Model.Aggregate
import Verif.Model.Cli
namespace VibeCol.FilterExample
open VibeCol.Cli (str fmtNat fmtInt)

/-- The IDs of a block: `uint64(i + first)` for `i` from 0 to 99 (ex.go:130-135, 141-146, 152-157). -/
def blockIDs (first : Nat) : List UInt64 := (List.range 100).map fun i => UInt64.ofNat (i + first)
/-- Its values: `int64((i + first) * factor)` (same lines). -/
def blockValues (first factor : Nat) : List Int64 := (List.range 100).map fun i => Int64.ofNat ((i + first) * factor)

section
variable {B : Type} [Bitmap B]

/-- `createSampleData` (ex.go:123-163): the error, or the writer afterwards. -/
def createSampleData (env : Env) : Except Err (Writer B) :=
  match newWriter (B := B) [] env with
  | (.error e, _) => .error e
  | (.ok _, w) =>
  match writeBlock (blockIDs 1) (blockValues 1 10) env w with
  | (.error e, _) => .error e
  | (.ok _, w) =>
  match writeBlock (blockIDs 101) (blockValues 101 5) env w with
  | (.error e, _) => .error e
  | (.ok _, w) =>
  match writeBlock (blockIDs 201) (blockValues 201 2) env w with
  | (.error e, _) => .error e
  | (.ok _, w) =>
  match finalizeAndClose env w with
  | (.error e, _) => .error e
  | (.ok _, w) => .ok w

/-- `sroar.NewBitmap()` and a loop calling `Set` (ex.go:43-48, 57-62, 71-82, 93-110). -/
def bitmapWith (ids : List Nat) : B := ids.foldl (fun b i => Bitmap.set b (UInt64.ofNat i)) Bitmap.empty

/-- `for i := lo; i <= hi; i += step`. -/
def loop (lo hi step : Nat) : List Nat := (List.range ((hi - lo) / step + 1)).map fun k => lo + k * step

/-- `printResult` (ex.go:166-175). -/
def printResult (fmtAvg : Avg → Bytes) (description : String) (r : AggregateResult) : Bytes :=
  str description ++ str ":\n" ++ str "  Count: " ++ fmtNat r.count ++ str "\n" ++
  if r.count > 0 then
    str "  Min: " ++ fmtInt r.min ++ str "\n" ++ str "  Max: " ++ fmtInt r.max ++ str "\n" ++
    str "  Sum: " ++ fmtInt r.sum ++ str "\n" ++ str "  Avg: " ++ fmtAvg r.avg ++ str "\n"
  else []

/-- `main` (ex.go:13-120): the text printed, or an error for `log.Fatalf`. -/
def main (env : Env) (sched : Sched) (fmtAvg : Avg → Bytes) (filename : Bytes) : Res Bytes :=
  match createSampleData (B := B) env with
  | .error e => .err e
  | .ok w => do
    let reader ← newReader (B := B) w.file.bytes
    let result ← aggregate sched reader
    let allowFilter : B := bitmapWith [10, 20, 30, 110, 120, 130, 210, 220, 230]
    let allowResult ← aggregateWithOptions sched reader { filter := some allowFilter }
    let denyFilter : B := bitmapWith (loop 1 100 1)
    let denyResult ← aggregateWithOptions sched reader { denyFilter := some denyFilter }
    let combinedAllowFilter : B := bitmapWith (loop 1 200 1)
    let combinedDenyFilter : B := bitmapWith (loop 2 200 2)
    let combinedResult ← aggregateWithOptions sched reader
      { filter := some combinedAllowFilter, denyFilter := some combinedDenyFilter }
    let rangeFilter : B := bitmapWith (loop 50 75 1 ++ loop 150 175 1 ++ loop 250 275 1)
    let rangeDenyFilter : B := bitmapWith (loop 5 300 5)
    let rangeResult ← aggregateWithOptions sched reader
      { filter := some rangeFilter, denyFilter := some rangeDenyFilter, skipPreCalculated := true }
    .ok (str "Creating column file at: " ++ filename ++ str "\n" ++
      str "\n=== Example 1: No filters ===\n" ++ printResult fmtAvg "No filters" result ++
      str "\n=== Example 2: Only allow filter ===\n" ++ printResult fmtAvg "Allow specific IDs" allowResult ++
      str "\n=== Example 3: Only deny filter ===\n" ++ printResult fmtAvg "Deny first block" denyResult ++
      str "\n=== Example 4: Both allow and deny filters ===\n" ++
        printResult fmtAvg "Allow IDs 1-200, deny even IDs" combinedResult ++
      str "\n=== Example 5: Complex filtering scenario ===\n" ++
        printResult fmtAvg "Allow specific ranges, deny IDs divisible by 5" rangeResult)

end
end VibeCol.FilterExample
