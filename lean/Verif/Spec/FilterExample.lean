/-
What examples/filtered_aggregation_example.go prints. `avg s n` is the text for the average of `n` values with sum `s`.
-/
import Verif.Model.Prim
namespace VibeCol.FilterExample

/-- Characters as bytes. -/
def text (s : String) : Bytes := s.toList.map fun c => UInt8.ofNat c.toNat

/-- The whole output. -/
def expected (avg : Int → Nat → Bytes) (filename : Bytes) : Bytes :=
  text "Creating column file at: " ++ filename ++
  text "\n\n=== Example 1: No filters ===\nNo filters:\n  Count: 300\n  Min: 10\n  Max: 1000\n  Sum: 175850\n  Avg: " ++
    avg 175850 300 ++
  text "\n\n=== Example 2: Only allow filter ===\nAllow specific IDs:\n  Count: 9\n  Min: 100\n  Max: 650\n  Sum: 3720\n  Avg: " ++
    avg 3720 9 ++
  text "\n\n=== Example 3: Only deny filter ===\nDeny first block:\n  Count: 200\n  Min: 402\n  Max: 1000\n  Sum: 125350\n  Avg: " ++
    avg 125350 200 ++
  text "\n\n=== Example 4: Both allow and deny filters ===\nAllow IDs 1-200, deny even IDs:\n  Count: 100\n  Min: 10\n  Max: 995\n  Sum: 62500\n  Avg: " ++
    avg 62500 100 ++
  text "\n\n=== Example 5: Complex filtering scenario ===\nAllow specific ranges, deny IDs divisible by 5:\n  Count: 60\n  Min: 502\n  Max: 870\n  Sum: 39250\n  Avg: " ++
    avg 39250 60 ++ text "\n"

end VibeCol.FilterExample
