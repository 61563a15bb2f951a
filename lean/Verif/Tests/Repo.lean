/-
The project's own unit tests, run on the model. These are tests, not proofs of properties: they are
evidence that the model computes what the code computes. Every expected number and byte below is copied
from the cited test in /repo; the kernel evaluates the model (tests of functions), or the general theorems
are applied to the data of the test (tests of files).
-/
import Verif.Props.Aggregation
import Verif.Props.Multi
import Verif.Props.Bitmap
import Verif.Props.Example
namespace VibeCol.Tests

/-! ### encoding_test.go -/

/-- `TestDeltaEncodeEmpty` to `TestDeltaEncodeWithDuplicates` (encoding_test.go:11-205). -/
example : deltaEncode [] = [] ∧ deltaEncodeInt64 [] = [] ∧ deltaDecode [] = [] ∧ deltaDecodeInt64 [] = [] ∧
    deltaEncode [42] = [42] ∧ deltaEncodeInt64 [-123] = [-123] ∧
    deltaEncode [1000, 1001, 1002, 1003, 1004] = [1000, 1, 1, 1, 1] ∧
    deltaEncodeInt64 [500, 550, 600, 650, 700] = [500, 50, 50, 50, 50] ∧
    deltaEncode [1000, 1100, 1105, 1200, 1500] = [1000, 100, 5, 95, 300] ∧
    deltaEncodeInt64 [5000, 4000, 4500, 3000, 5000] = [5000, -1000, 500, -1500, 2000] ∧
    deltaEncode [1000, 990, 980, 970, 960] =
      [1000, 18446744073709551606, 18446744073709551606, 18446744073709551606, 18446744073709551606] ∧
    deltaEncodeInt64 [500, 400, 300, 200, 100] = [500, -100, -100, -100, -100] ∧
    deltaEncode [1000, 1000, 1000, 1200, 1200] = [1000, 0, 0, 200, 0] ∧
    deltaEncodeInt64 [500, 500, 500, 700, 700] = [500, 0, 0, 200, 0] := by decide +kernel

/-- The round trips of the same tests. -/
example : (∀ l ∈ [[42], [1000, 1001, 1002, 1003, 1004], [1000, 1100, 1105, 1200, 1500], [1000, 990, 980, 970, 960],
      [1000, 1000, 1000, 1200, 1200]], deltaDecode (deltaEncode l) = l) ∧
    (∀ l ∈ [[-123], [500, 550, 600, 650, 700], [5000, 4000, 4500, 3000, 5000], [500, 400, 300, 200, 100],
      [500, 500, 500, 700, 700]], deltaDecodeInt64 (deltaEncodeInt64 l) = l) := by decide +kernel

/-- `TestVarIntEncoding` (encoding_test.go:274-310). -/
def varintTable : List (UInt64 × Bytes) :=
  [(0, [0]), (1, [1]), (127, [127]), (128, [128, 1]), (16383, [255, 127]), (16384, [128, 128, 1]),
    (2097151, [255, 255, 127]), (2097152, [128, 128, 128, 1]), (268435455, [255, 255, 255, 127]),
    (268435456, [128, 128, 128, 128, 1]), (0xFFFFFFFF, [255, 255, 255, 255, 15])]

example : ∀ c ∈ varintTable, encodeVarInt c.1 = c.2 ∧ decodeVarInt c.2 = (c.1, c.2.length) := by decide +kernel

/-- `TestSignedVarIntEncoding` (encoding_test.go:312-355). -/
example : ∀ v ∈ ([0, 1, -1, 63, -63, 64, -64, 8191, -8191, 8192, -8192, 1048575, -1048575, 1048576, -1048576, 134217727,
      -134217727, 134217728, -134217728, 0x7FFFFFFF, -0x7FFFFFFF, 0x7FFFFFFFFFFFFFFF, -0x7FFFFFFFFFFFFFFF] : List Int64),
    decodeSignedVarInt (encodeSignedVarInt v) = (v, (encodeSignedVarInt v).length) := by decide +kernel

/-- `TestVarintEncodingSize` (encoding_test.go:357-393). -/
example : ∀ c ∈ ([(0, 1), (127, 1), (128, 2), (16383, 2), (16384, 3), (2097151, 3), (2097152, 4), (268435455, 4),
      (34359738368, 6), (72057594037927936, 9), (18446744073709551615, 10)] : List (UInt64 × Nat)),
    (encodeVarInt c.1).length = c.2 ∧ decodeVarInt (encodeVarInt c.1) = (c.1, c.2) := by decide +kernel

/-! ### format_test.go, page_alignment_test.go -/

/-- `TestInt64ToUint64Conversion` (format_test.go:143-170). -/
example : ∀ c ∈ ([(0, 0), (1, 1), (-1, 9223372036854775809), (9223372036854775807, 9223372036854775807), (42, 42),
      (-42, 9223372036854775850)] : List (Int64 × UInt64)),
    int64ToUint64 c.1 = c.2 ∧ uint64ToInt64 c.2 = c.1 := by decide +kernel

/-- `TestCalculatePadding` (page_alignment_test.go:98-120). -/
example : ∀ c ∈ [(0, 4096, 0), (4096, 4096, 0), (4097, 4096, 4095), (8191, 4096, 1), (8192, 4096, 0), (1234, 4096, 4096 - 1234),
      (4096 * 3 + 100, 4096, 3996)], calculatePadding c.1 c.2.1 = c.2.2 := by decide

/-! ### writer_test.go -/

/-- A file with these blocks, made without failures, all calls returning nil. -/
def Made (opts : List WriterOption) (blocks : List Block) (file : Bytes) : Prop :=
  Finalized IdSet quietEnv opts (blocks.map fun b => (.write b.1 b.2, .ok ())) file

theorem made (opts : List WriterOption) (blocks : List Block) (hb : ∀ c ∈ blocks.map (fun b => Call.write b.1 b.2), c.Bounded)
    (hlog : (runCalls quietEnv (blocks.map fun b => Call.write b.1 b.2) (newWriter (B := IdSet) opts quietEnv).2).1 =
      blocks.map fun b => (.write b.1 b.2, .ok ()))
    (hmis : NoMismatch (blocks.map fun b => (Call.write b.1 b.2, (.ok () : Result))))
    (hsize : sizeBound (blocks.map fun b => Call.write b.1 b.2) (8 * totalPairs (blocks.map fun b => Call.write b.1 b.2)) < 2 ^ 63) :
    ∃ file, Made opts blocks file :=
  finalized_of_log opts _ _ hb hlog hmis hsize

/-- `TestWriteBlock`, `TestWriteBlockWithRawEncoding`, `TestWriteBlockWithVarIntEncoding`,
`TestWithBlockSizeOption` (writer_test.go:23-177): one block, read back. -/
theorem writeBlock_test (opts : List WriterOption)
    (ho : opts ∈ [[], [.withEncoding encRaw], [.withEncoding encVarIntBoth], [.withBlockSize (8 * 1024)]]) :
    ∃ file, Made opts [([1, 2, 3, 4, 5], [10, 20, 30, 40, 50])] file ∧
      ∃ r : Reader IdSet, newReader file = .ok r ∧ r.blockCount = 1 ∧
        getPairs r 0 = .ok ([1, 2, 3, 4, 5], [10, 20, 30, 40, 50]) := by
  obtain ⟨file, h⟩ : ∃ file, Made opts [([1, 2, 3, 4, 5], [10, 20, 30, 40, 50])] file := by
    simp only [List.mem_cons, List.not_mem_nil, or_false] at ho
    rcases ho with rfl | rfl | rfl | rfl <;>
      exact made _ _ (by decide) (by decide +kernel) (by unfold NoMismatch; decide) (by decide)
  refine ⟨file, h, ?_⟩
  have henc : SymEnc (chosenEncoding opts) := by
    simp only [List.mem_cons, List.not_mem_nil, or_false] at ho
    rcases ho with rfl | rfl | rfl | rfl <;> (unfold SymEnc; decide)
  obtain ⟨r, hr, hc, hp⟩ := (C01_roundtrip h henc (by decide)).opens
  exact ⟨r, hr, UInt64.toNat_inj.1 hc, hp 0 (by decide)⟩

/-- `TestWriteBlockErrorHandling` (writer_test.go:179-229). -/
example : (runCalls quietEnv [.write [] [], .write [1, 2, 3] [10, 20], .write [1, 2, 3] [10, 20, 30]]
      (newWriter (B := IdSet) [] quietEnv).2).1.map Prod.snd = [.error .emptyBlock, .error .lengthMismatch, .ok ()] := by
  decide +kernel

/-! ### update_experiment_test.go, multicol/aggregate_test.go, global_id_bitmap_test.go -/

/-- The result that belongs to given values. -/
theorem result_of {res : AggregateResult} {vs : List Int64} (h : IsAggregate res vs) (m M s : Int64) (n : Nat)
    (hn : vs.length = n) (hs : Int64.ofInt (intSum vs) = s) (hm : m ∈ vs) (hM : M ∈ vs) (hm' : ∀ v ∈ vs, m ≤ v) (hM' : ∀ v ∈ vs, v ≤ M) :
    res.count = n ∧ res.min = m ∧ res.max = M ∧ res.sum = s ∧ res.avg = .quot s n := by
  have hne : vs ≠ [] := by intro h0; rw [h0] at hm; cases hm
  have e1 : res.min = m := Int64.le_antisymm (h.min_le m hm) (hm' _ (h.min_mem hne))
  have e2 : res.max = M := Int64.le_antisymm (hM' _ (h.max_mem hne)) (h.le_max M hM)
  have e3 : res.sum = s := by rw [h.sum, hs]
  have e4 : res.count = n := by rw [h.count, hn]
  exact ⟨e4, e1, e2, e3, by rw [h.avg, if_neg hne, e3, e4]⟩

def ten : Block := ([1, 2, 3, 4, 5, 6, 7, 8, 9, 10], [10, 20, 30, 40, 50, 60, 70, 80, 90, 100])
def second : List Block := [([5, 6, 7], [500, 600, 700]), ([11, 12, 13, 14, 15], [110, 120, 130, 140, 150])]
def third : List Block := [([3, 4, 11, 12], [300, 400, 1100, 1200]), ([16, 17, 18, 19, 20], [160, 170, 180, 190, 200])]

/-- A bitmap with these IDs. -/
def bits (ids : List UInt64) : IdSet := ids.foldl Bitmap.set Bitmap.empty

theorem ten_made : ∃ file, Made [] [ten] file :=
  made _ _ (by decide) (by decide +kernel) (by unfold NoMismatch; decide) (by decide)

theorem second_made : ∃ file, Made [] second file :=
  made _ _ (by decide) (by decide +kernel) (by unfold NoMismatch; decide) (by decide)

theorem third_made : ∃ file, Made [] third file :=
  made _ _ (by decide) (by decide +kernel) (by unfold NoMismatch; decide) (by decide)

/-- `TestDenyFilterExperiment` (update_experiment_test.go:195-238). -/
theorem denyFilter_test : ∃ file, Made [] [ten] file ∧ ∃ r : Reader IdSet, newReader file = .ok r ∧
    ∃ res, aggregateWithOptions inOrder r { denyFilter := some (bits [5, 6, 7]) } = .ok res ∧
      res.count = 7 ∧ res.min = 10 ∧ res.max = 100 ∧ res.sum = 370 ∧ res.avg = .quot 370 7 := by
  obtain ⟨file, h⟩ := ten_made
  obtain ⟨r, hr, _⟩ := (C01_roundtrip h (.inl rfl) (by decide)).opens
  obtain ⟨res, h1, h2⟩ := C13_filtered h (.inl rfl) (by decide) r hr inOrder inOrder_fair
    { denyFilter := some (bits [5, 6, 7]) } (.inr rfl)
  exact ⟨file, h, r, hr, res, h1, result_of h2 10 100 370 7 (by decide +kernel) (by decide +kernel) (by decide +kernel)
    (by decide +kernel) (by decide +kernel) (by decide +kernel)⟩

/-- `TestMultiReaderAggregate` (multicol/aggregate_test.go:15-174): count, min, max and sum without a filter, count and sum
with the filter 1 to 10. -/
theorem multi_test : ∃ (r1 r2 r3 : Reader IdSet), ∃ res res',
    multiAggregate inOrder [r1, r2, r3] false none = .ok res ∧
      res.count = 20 ∧ res.min = 10 ∧ res.max = 1200 ∧
      res.sum = (10 + 20 + 80 + 90 + 100) + (500 + 600 + 700 + 130 + 140 + 150) +
        (300 + 400 + 1100 + 1200 + 160 + 170 + 180 + 190 + 200) ∧
    multiAggregate inOrder [r1, r2, r3] false (some (bits [1, 2, 3, 4, 5, 6, 7, 8, 9, 10])) = .ok res' ∧
      res'.count = 10 ∧ res'.sum = (10 + 20 + 80 + 90 + 100) + (500 + 600 + 700) + (300 + 400) := by
  obtain ⟨f1, h1⟩ := ten_made
  obtain ⟨f2, h2⟩ := second_made
  obtain ⟨f3, h3⟩ := third_made
  obtain ⟨r1, o1, _⟩ := (C01_roundtrip h1 (.inl rfl) (by decide)).opens
  obtain ⟨r2, o2, _⟩ := (C01_roundtrip h2 (.inl rfl) (by decide)).opens
  obtain ⟨r3, o3, _⟩ := (C01_roundtrip h3 (.inl rfl) (by decide)).opens
  have hE : Each (FileWith IdSet) [r1, r2, r3] [[ten], second, third] :=
    .cons ⟨⟨_, _, _, _, h1, .inl rfl, o1, rfl⟩, by decide, by decide⟩
      (.cons ⟨⟨_, _, _, _, h2, .inl rfl, o2, rfl⟩, by decide, by decide⟩
        (.cons ⟨⟨_, _, _, _, h3, .inl rfl, o3, rfl⟩, by decide, by decide⟩ .nil))
  obtain ⟨res, a1, a2⟩ := C24_newestWins inOrder inOrder_fair _ _ hE false none
  obtain ⟨res', b1, b2⟩ := C24_newestWins inOrder inOrder_fair _ _ hE false (some (bits [1, 2, 3, 4, 5, 6, 7, 8, 9, 10]))
  obtain ⟨c1, c2, c3, c4, _⟩ := result_of a2 10 1200 6420 20 (by decide +kernel) (by decide +kernel) (by decide +kernel)
    (by decide +kernel) (by decide +kernel) (by decide +kernel)
  obtain ⟨d1, _, _, d4, _⟩ := result_of b2 10 700 2800 10 (by decide +kernel) (by decide +kernel) (by decide +kernel)
    (by decide +kernel) (by decide +kernel) (by decide +kernel)
  exact ⟨r1, r2, r3, res, res', a1, c1, c2, c3, c4.trans (by decide), b1, d1, d4.trans (by decide)⟩

/-- `TestMultiReaderAggregateEmpty` (multicol/aggregate_test.go:177-187). -/
example : multiAggregate (B := IdSet) inOrder [] false none = .ok ⟨0, 0, 0, 0, .zero⟩ := by decide

/-- `TestGlobalIDBitmap` (global_id_bitmap_test.go:11-65). -/
theorem bitmap_test : ∃ file, Made [] [([1, 2, 3, 4, 5], [10, 20, 30, 40, 50]), ([6, 7, 8, 9, 10], [60, 70, 80, 90, 100]),
      ([5, 10, 15, 20, 25], [5, 10, 15, 20, 25])] file ∧
    ∃ r : Reader IdSet, newReader file = .ok r ∧ ∃ bm, (getGlobalIDBitmap r).1 = .ok bm ∧
      (∀ id ∈ ([1, 2, 3, 4, 5, 6, 7, 8, 9, 10, 15, 20, 25] : List UInt64), Bitmap.contains bm id = true) ∧
      ∀ id ∈ ([11, 12, 13, 14, 16, 17, 18, 19, 21, 22, 23, 24, 26] : List UInt64), Bitmap.contains bm id = false := by
  obtain ⟨file, h⟩ : ∃ file, Made [] [([1, 2, 3, 4, 5], [10, 20, 30, 40, 50]), ([6, 7, 8, 9, 10], [60, 70, 80, 90, 100]),
      ([5, 10, 15, 20, 25], [5, 10, 15, 20, 25])] file :=
    made _ _ (by decide) (by decide +kernel) (by unfold NoMismatch; decide) (by decide)
  obtain ⟨r, hr, _⟩ := (C01_roundtrip h (.inl rfl) (by decide)).opens
  obtain ⟨bm, h1, h2⟩ := C18_bitmap h (by unfold NoMismatch; decide) (by decide) (by decide) r hr
  refine ⟨file, h, r, hr, bm, h1, ?_, ?_⟩
  · intro id hid
    rw [h2]
    revert id
    decide
  · intro id hid
    rw [Bool.eq_false_iff, Ne, h2]
    revert id
    decide

/-! ### filtered_aggregation_test.go, deny_filter_test.go -/

/-- IDs `a+1` to `a+100` with values `id*k`. -/
def hundred (a k : Nat) : Block :=
  ((List.range 100).map fun i => UInt64.ofNat (a + i + 1), (List.range 100).map fun i => Int64.ofNat ((a + i + 1) * k))

def threeBlocks : List Block := [hundred 0 10, hundred 100 5, hundred 200 2]

/-- IDs `a` to `b`. -/
def range (a b : Nat) : List UInt64 := (List.range (b + 1 - a)).map fun i => UInt64.ofNat (a + i)

theorem three_made : ∃ file, Made [] threeBlocks file :=
  made _ _ (by decide +kernel) (by decide +kernel) (by unfold NoMismatch; decide +kernel) (by decide +kernel)

/-- The cases of `TestFilteredAggregation` (filtered_aggregation_test.go:75-137) and `TestDenyFilter`
(deny_filter_test.go:67-133) with a result that is not empty: allowed IDs, denied IDs, count, min, max, sum. -/
def cases : List (Option (List UInt64) × Option (List UInt64) × Nat × Int64 × Int64 × Int64) :=
  [(none, none, 300, 10, 1000, 175850), (some (range 1 10), none, 10, 10, 100, 550),
    (some [50, 150, 250], none, 3, 500, 750, 1750), (some [10, 110, 210, 20, 120, 220], none, 6, 100, 600, 2310),
    (some (range 150 250), none, 101, 402, 1000, 67175),
    (none, some (range 1 5), 295, 60, 1000, 175700), (some (range 1 10), some [1, 3, 5, 7, 9], 5, 20, 100, 300),
    (none, some [50, 150, 250], 297, 10, 1000, 174100), (some (range 1 100), some (range 50 100), 49, 10, 490, 12250)]

theorem filtered_test : ∃ file, Made [] threeBlocks file ∧ ∃ r : Reader IdSet, newReader file = .ok r ∧
    ∀ c ∈ cases, ∃ res, aggregateWithOptions inOrder r
        { skipPreCalculated := true, filter := c.1.map bits, denyFilter := c.2.1.map bits } = .ok res ∧
      res.count = c.2.2.1 ∧ res.min = c.2.2.2.1 ∧ res.max = c.2.2.2.2.1 ∧ res.sum = c.2.2.2.2.2 := by
  obtain ⟨file, h⟩ := three_made
  obtain ⟨r, hr, _⟩ := (C01_roundtrip h (.inl rfl) (by decide)).opens
  refine ⟨file, h, r, hr, ?_⟩
  have key : ∀ c ∈ cases, ∀ vs, vs = selectedValues (c.1.map bits) (c.2.1.map bits) threeBlocks →
      vs.length = c.2.2.1 ∧ Int64.ofInt (intSum vs) = c.2.2.2.2.2 ∧ c.2.2.2.1 ∈ vs ∧ c.2.2.2.2.1 ∈ vs ∧
        (∀ v ∈ vs, c.2.2.2.1 ≤ v) ∧ ∀ v ∈ vs, v ≤ c.2.2.2.2.1 := by
    simp only [forall_eq]
    decide +kernel
  intro c hc
  obtain ⟨res, h1, h2⟩ := C13_general h (.inl rfl) (by decide) r hr inOrder inOrder_fair
    { skipPreCalculated := true, filter := c.1.map bits, denyFilter := c.2.1.map bits } (.inr (.inr (.inl rfl)))
  obtain ⟨k1, k2, k3, k4, k5, k6⟩ := key c hc _ rfl
  obtain ⟨e1, e2, e3, e4, _⟩ := result_of h2 _ _ _ _ k1 k2 k3 k4 k5 k6
  exact ⟨res, h1, e1, e2, e3, e4⟩

end VibeCol.Tests
