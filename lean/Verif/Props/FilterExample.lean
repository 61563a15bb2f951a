import Verif.Model.FilterExample
import Verif.Spec.FilterExample
import Verif.Props.Cli
import Verif.Props.Examples
import Verif.Props.Split
import Verif.Props.Aggregation
/-! # C58: the filtered aggregation example -/
namespace VibeCol.FilterExample
open VibeCol.Cli (str fmtNat fmtInt)
variable {B : Type} [Bitmap B] [LawfulBitmap B]

/-- The blocks written. -/
def sample : List Block := [(blockIDs 1, blockValues 1 10), (blockIDs 101, blockValues 101 5), (blockIDs 201, blockValues 201 2)]

def sampleCalls : List Call := sample.map fun b => .write b.1 b.2
def sampleLog : Log := sampleCalls.map fun c => (c, .ok ())

theorem sample_acked : acked sampleLog = sample := rfl

theorem sample_bounded : ∀ c ∈ sampleCalls, c.Bounded := by
  intro c hc
  simp only [sampleCalls, sample, List.map_cons, List.map_nil, List.mem_cons, List.not_mem_nil, or_false] at hc
  rcases hc with rfl | rfl | rfl <;> (show (blockIDs _).length ≤ _; simp [blockIDs])

theorem sample_pairs : totalPairs sampleCalls = 300 := by
  simp [totalPairs, sampleCalls, sample, Call.pairs, blockIDs]

theorem sample_noIO : NoIOError sampleLog := by
  intro ev hev
  obtain ⟨c, _, rfl⟩ := List.mem_map.1 hev
  simp

theorem sample_noMis : NoMismatch sampleLog := by
  intro ev hev
  obtain ⟨c, _, rfl⟩ := List.mem_map.1 hev
  simp

theorem contains_bitmapWith (ids : List Nat) (x : UInt64) :
    Bitmap.contains (bitmapWith ids : B) x = (ids.map UInt64.ofNat).contains x := by
  have h : (bitmapWith ids : B) = (ids.map UInt64.ofNat).foldl Bitmap.set Bitmap.empty := by
    unfold bitmapWith
    rw [List.foldl_map]
  rw [h, Bool.eq_iff_iff, contains_foldl_set, LawfulBitmap.contains_empty]
  simp

/-- The pairs as natural numbers. -/
def natPairs : List (Nat × Nat) :=
  (List.range 100).map (fun i => (i + 1, (i + 1) * 10)) ++ (List.range 100).map (fun i => (i + 101, (i + 101) * 5)) ++
  (List.range 100).map (fun i => (i + 201, (i + 201) * 2))

theorem sample_nat : pairsOf sample = natPairs.map fun p => (UInt64.ofNat p.1, Int64.ofNat p.2) := by
  simp only [pairsOf, sample, natPairs, blockIDs, blockValues, List.flatMap_cons, List.flatMap_nil, List.zip_map', List.map_append,
    List.map_map, List.append_nil, List.append_assoc]
  rfl

/-- Which values are selected, without bitmaps. -/
def chosen (allow deny : Option (List Nat)) : List Int64 :=
  ((natPairs.filter fun p => (allow.all fun f => f.contains p.1) && (deny.all fun d => !d.contains p.1)).map Prod.snd).map Int64.ofNat

/-- Small numbers. -/
def Small (l : Option (List Nat)) : Prop := ∀ f, l = some f → ∀ x ∈ f, x < 2 ^ 64

theorem contains_nat {f : List Nat} (hf : ∀ x ∈ f, x < 2 ^ 64) {n : Nat} (hn : n < 2 ^ 64) :
    Bitmap.contains (bitmapWith f : B) (UInt64.ofNat n) = f.contains n := by
  rw [contains_bitmapWith, Bool.eq_iff_iff]
  simp only [List.contains_iff_mem, List.mem_map]
  constructor
  · rintro ⟨x, hx, he⟩
    have := congrArg UInt64.toNat he
    rw [UInt64.toNat_ofNat', UInt64.toNat_ofNat', Nat.mod_eq_of_lt (hf x hx), Nat.mod_eq_of_lt hn] at this
    rwa [← this]
  · intro h
    exact ⟨n, h, rfl⟩

theorem selected_chosen (allow deny : Option (List Nat)) (ha : Small allow) (hd : Small deny) :
    selectedValues (allow.map (bitmapWith (B := B))) (deny.map (bitmapWith (B := B))) sample = chosen allow deny := by
  unfold selectedValues chosen
  rw [sample_nat, List.filter_map, List.map_map, List.map_map]
  have hp : ∀ p ∈ natPairs, p.1 < 2 ^ 64 := by
    intro p hp
    simp only [natPairs, List.mem_append, List.mem_map, List.mem_range] at hp
    rcases hp with (⟨i, hi, rfl⟩ | ⟨i, hi, rfl⟩) | ⟨i, hi, rfl⟩ <;> dsimp only <;> omega
  rw [List.filter_congr (q := fun p => (allow.all fun f => f.contains p.1) && (deny.all fun d => !d.contains p.1))]
  · rfl
  · intro p hpm
    have h1 : ∀ f, allow = some f → Bitmap.contains (bitmapWith f : B) (UInt64.ofNat p.1) = f.contains p.1 :=
      fun f hf => contains_nat (ha f hf) (hp p hpm)
    have h2 : ∀ f, deny = some f → Bitmap.contains (bitmapWith f : B) (UInt64.ofNat p.1) = f.contains p.1 :=
      fun f hf => contains_nat (hd f hf) (hp p hpm)
    cases allow <;> cases deny <;> simp_all

theorem sample_representable : StatsRepresentable sample := by
  intro b hb
  simp only [sample, List.mem_cons, List.not_mem_nil, or_false] at hb
  rcases hb with rfl | rfl | rfl <;> decide +kernel

set_option maxRecDepth 20000 in
theorem res1 : (accOf (chosen none none)).result = ⟨300, 10, 1000, 175850, .quot 175850 300⟩ := by decide +kernel
theorem res2 : (accOf (chosen (some [10, 20, 30, 110, 120, 130, 210, 220, 230]) none)).result = ⟨9, 100, 650, 3720, .quot 3720 9⟩ := by
  decide +kernel
theorem res3 : (accOf (chosen none (some (loop 1 100 1)))).result = ⟨200, 402, 1000, 125350, .quot 125350 200⟩ := by decide +kernel
theorem res4 : (accOf (chosen (some (loop 1 200 1)) (some (loop 2 200 2)))).result = ⟨100, 10, 995, 62500, .quot 62500 100⟩ := by
  decide +kernel
theorem res5 : (accOf (chosen (some (loop 50 75 1 ++ loop 150 175 1 ++ loop 250 275 1)) (some (loop 5 300 5)))).result =
    ⟨60, 502, 870, 39250, .quot 39250 60⟩ := by decide +kernel

theorem aggregate_sample {env : Env} {file : Bytes} (h : Finalized B env [] sampleLog file) (r : Reader B) (hr : newReader file = .ok r)
    (sched : Sched) (hs : sched.Fair) (allow deny : Option (List Nat)) (skip : Bool) (ha : Small allow) (hd : Small deny) {res : AggregateResult}
    (hres : (accOf (chosen allow deny)).result = res) (hne : 0 < res.count) :
    aggregateWithOptions sched r { filter := allow.map bitmapWith, denyFilter := deny.map bitmapWith, skipPreCalculated := skip } = .ok res := by
  obtain ⟨x, h1, h2⟩ := C13_general h (.inl rfl) (by decide) r hr sched hs
    { filter := allow.map bitmapWith, denyFilter := deny.map bitmapWith, skipPreCalculated := skip } (.inr (.inr (.inr sample_representable)))
  rw [h1]
  dsimp only at h2
  rw [sample_acked, selected_chosen _ _ ha hd] at h2
  have h3 := accOf_isAggregate (chosen allow deny)
  rw [hres] at h3
  rw [h2.unique h3 ?_]
  intro hc
  have := h3.count
  rw [hc] at this
  simp at this
  omega

theorem created {env : Env} {w : Writer B} (h : createSampleData env = .ok w)
    (hbm : ∀ L : List UInt64, L.length ≤ 300 → (Bitmap.toBuffer (L.foldl Bitmap.set (Bitmap.empty : B))).length < 2 ^ 32) :
    Finalized B env [] sampleLog w.file.bytes := by
  unfold createSampleData at h
  rcases h0 : newWriter (B := B) [] env with ⟨r0, w0⟩
  rw [h0] at h
  cases r0 with
  | error e => cases h
  | ok u0 =>
  dsimp only at h
  rcases h1 : writeBlock (blockIDs 1) (blockValues 1 10) env w0 with ⟨r1, w1⟩
  rw [h1] at h
  cases r1 with
  | error e => cases h
  | ok u1 =>
  dsimp only at h
  rcases h2 : writeBlock (blockIDs 101) (blockValues 101 5) env w1 with ⟨r2, w2⟩
  rw [h2] at h
  cases r2 with
  | error e => cases h
  | ok u2 =>
  dsimp only at h
  rcases h3 : writeBlock (blockIDs 201) (blockValues 201 2) env w2 with ⟨r3, w3⟩
  rw [h3] at h
  cases r3 with
  | error e => cases h
  | ok u3 =>
  dsimp only at h
  rcases h4 : finalizeAndClose env w3 with ⟨r4, w4⟩
  rw [h4] at h
  cases r4 with
  | error e => cases h
  | ok u4 =>
  dsimp only at h
  obtain rfl := Except.ok.inj h
  obtain ⟨w5, h5, h6⟩ := Cli.finalizeAndClose_ok h4
  have hh : History B env [] sampleCalls sampleLog w3 := by
    refine ⟨w0, h0, ?_⟩
    simp [sampleCalls, sample, runCalls, Call.run, h1, h2, h3, sampleLog]
  refine ⟨⟨sampleCalls, w3, w5, hh, h5, by rw [h6]⟩, sample_noIO, ?_, ?_⟩
  · intro ev hev
    obtain ⟨c, hc, rfl⟩ := List.mem_map.1 hev
    exact sample_bounded c hc
  · rw [h6]
    refine Nat.lt_of_le_of_lt (finalized_length hh sample_bounded sample_noMis sample_noIO h5 (2 ^ 32) (fun L hL => ?_)) ?_
    · rw [sample_pairs] at hL
      exact Nat.le_of_lt (hbm L hL)
    · have hl : sampleCalls.length = 3 := rfl
      simp only [sizeBound, sample_pairs, hl]
      omega

theorem created_noFault {env : Env} (hnf : env.NoFault) : ∃ w : Writer B, createSampleData env = .ok w := by
  obtain ⟨w0, h0⟩ := newWriter_ok (B := B) env hnf []
  have hlenI : ∀ n, (blockIDs n).length = 100 := fun n => by simp [blockIDs]
  have hlenV : ∀ n k, (blockValues n k).length = 100 := fun n k => by simp [blockValues]
  have hneI : ∀ n, blockIDs n ≠ [] := fun n hc => by have := hlenI n; rw [hc] at this; simp at this
  have step : ∀ {calls log} {w : Writer B}, History B env [] calls log w → NoIOError log → (∀ ev ∈ log, ev.1.Bounded) →
      Call.finalize ∉ calls → ∀ n k, ∃ w', writeBlock (blockIDs n) (blockValues n k) env w = (.ok (), w') := by
    intro calls log w hh h1 h2 h3 n k
    have := C05_default hnf hh h1 h2 h3 (blockIDs n) (blockValues n k) (by rw [hlenI]; omega) (by rw [hlenI, hlenV]) (hneI n)
    rw [if_pos (by rw [hlenI]; unfold defaultCapacity; split <;> omega)] at this
    exact ⟨_, Prod.ext this rfl⟩
  have hbd : ∀ n k, (Call.write (blockIDs n) (blockValues n k)).Bounded := fun n k => by
    show (blockIDs n).length ≤ _
    rw [hlenI]
    omega
  obtain ⟨w1, h1⟩ := step (⟨w0, h0, rfl⟩ : History B env [] [] [] w0) (fun _ h => by cases h) (fun _ h => by cases h) (by simp) 1 10
  have hh1 : History B env [] [.write (blockIDs 1) (blockValues 1 10)] [(.write (blockIDs 1) (blockValues 1 10), .ok ())] w1 :=
    ⟨w0, h0, by simp [runCalls, Call.run, h1]⟩
  obtain ⟨w2, h2⟩ := step hh1 (by simp [NoIOError]) (by simpa using hbd 1 10) (by simp) 101 5
  have hh2 : History B env [] [.write (blockIDs 1) (blockValues 1 10), .write (blockIDs 101) (blockValues 101 5)]
      [(.write (blockIDs 1) (blockValues 1 10), .ok ()), (.write (blockIDs 101) (blockValues 101 5), .ok ())] w2 :=
    ⟨w0, h0, by simp [runCalls, Call.run, h1, h2]⟩
  obtain ⟨w3, h3⟩ := step hh2 (by simp [NoIOError]) (by simpa using ⟨hbd 1 10, hbd 101 5⟩) (by simp) 201 2
  have hh3 : History B env [] sampleCalls sampleLog w3 := by
    refine ⟨w0, h0, ?_⟩
    simp [sampleCalls, sample, runCalls, Call.run, h1, h2, h3, sampleLog]
  obtain ⟨blks, hi, hc, _, ho, _⟩ := history_clean' hh3 sample_bounded sample_noMis sample_noIO
  obtain ⟨w4, h4⟩ := finalize_noFault hnf hi hc ho
  obtain ⟨_, _, hsame, _⟩ := wp_ok (finalize_inv env w3 blks [] hi) h4
  obtain ⟨w5, h5, _⟩ := Cli.finalizeAndClose_noFault hnf h4 (hsame.opened.trans ho)
  refine ⟨w5, ?_⟩
  unfold createSampleData
  rw [h0]
  dsimp only
  rw [h1]
  dsimp only
  rw [h2]
  dsimp only
  rw [h3]
  dsimp only
  rw [h5]

theorem small_none : Small none := fun _ h => by cases h
theorem small_loop {lo hi step : Nat} (h : lo + ((hi - lo) / step + 1) * step < 2 ^ 64) : ∀ x ∈ loop lo hi step, x < 2 ^ 64 := by
  intro x hx
  obtain ⟨k, hk, rfl⟩ := List.mem_map.1 hx
  rw [List.mem_range] at hk
  have : k * step ≤ ((hi - lo) / step + 1) * step := Nat.mul_le_mul_right _ (by omega)
  omega
theorem small_some {l : List Nat} (h : ∀ x ∈ l, x < 2 ^ 64) : Small (some l) := fun f hf => by
  cases hf
  exact h
theorem small_append {l m : List Nat} (h1 : ∀ x ∈ l, x < 2 ^ 64) (h2 : ∀ x ∈ m, x < 2 ^ 64) : ∀ x ∈ l ++ m, x < 2 ^ 64 := by
  intro x hx
  rcases List.mem_append.1 hx with h | h
  · exact h1 x h
  · exact h2 x h

theorem printResult_eq (fmtAvg : Avg → Bytes) (d : String) (c : Nat) (mn mx sm : Int64) (a b e : Nat) (h0 : 0 < c) (h1 : mn.toInt = a) (h2 : mx.toInt = b)
    (h3 : sm.toInt = e) (v : Avg) : printResult fmtAvg d ⟨c, mn, mx, sm, v⟩ =
      str d ++ str ":\n" ++ str "  Count: " ++ fmtNat c ++ str "\n" ++ (str "  Min: " ++ fmtNat a ++ str "\n" ++ str "  Max: " ++ fmtNat b ++ str "\n" ++
    str "  Sum: " ++ fmtNat e ++ str "\n" ++ str "  Avg: " ++ fmtAvg v ++ str "\n") := by
  unfold printResult
  dsimp only
  rw [if_pos h0, Examples.fmtInt_nat mn a h1, Examples.fmtInt_nat mx b h2, Examples.fmtInt_nat sm e h3]

/-- **C58.** Whatever fails while writing (reads: C78) and whatever the scheduler does, the example stops with an error or prints exactly the
expected text; if no file operation fails it prints the text. -/
theorem C58_example (env : Env) (sched : Sched) (hs : sched.Fair) (fmtAvg : Avg → Bytes) (name : Bytes)
    (hbm : ∀ L : List UInt64, L.length ≤ 300 → (Bitmap.toBuffer (L.foldl Bitmap.set (Bitmap.empty : B))).length < 2 ^ 32) :
    ((∃ e, main (B := B) env sched fmtAvg name = .err e) ∨
      main (B := B) env sched fmtAvg name = .ok (expected (fun s n => fmtAvg (.quot (Int64.ofInt s) n)) name)) ∧
    (env.NoFault → main (B := B) env sched fmtAvg name = .ok (expected (fun s n => fmtAvg (.quot (Int64.ofInt s) n)) name)) := by
  have key : ∀ w : Writer B, createSampleData env = .ok w →
      main (B := B) env sched fmtAvg name = .ok (expected (fun s n => fmtAvg (.quot (Int64.ofInt s) n)) name) := by
    intro w hw
    have hf := created hw hbm
    obtain ⟨_, _, _, _, hcon⟩ := hf.contents (.inl rfl)
    have hr := hcon.newReader (by decide)
    generalize okReader w.file.bytes _ _ _ = r at hr
    have a1 := aggregate_sample hf r hr sched hs none none false small_none small_none res1 (by decide)
    have a2 := aggregate_sample hf r hr sched hs _ none false (small_some (by decide)) small_none res2 (by decide)
    have a3 := aggregate_sample hf r hr sched hs none _ false small_none (small_some (small_loop (by decide))) res3 (by decide)
    have a4 := aggregate_sample hf r hr sched hs _ _ false (small_some (small_loop (by decide))) (small_some (small_loop (by decide))) res4 (by decide)
    have a5 := aggregate_sample hf r hr sched hs _ _ true
      (small_some (small_append (small_append (small_loop (by decide)) (small_loop (by decide))) (small_loop (by decide))))
      (small_some (small_loop (by decide))) res5 (by decide)
    simp only [Option.map_none, Option.map_some] at a1 a2 a3 a4 a5
    unfold main
    rw [hw]
    show (newReader (B := B) w.file.bytes >>= fun _ => _) = _
    rw [hr]
    simp only [Res.ok_bind]
    rw [show aggregate sched r = _ from a1]
    simp only [Res.ok_bind]
    rw [a2]
    simp only [Res.ok_bind]
    rw [a3]
    simp only [Res.ok_bind]
    rw [a4]
    simp only [Res.ok_bind]
    rw [a5]
    simp only [Res.ok_bind]
    rw [printResult_eq fmtAvg _ _ _ _ _ 10 1000 175850 (by decide) (by decide) (by decide) (by decide),
      printResult_eq fmtAvg _ _ _ _ _ 100 650 3720 (by decide) (by decide) (by decide) (by decide),
      printResult_eq fmtAvg _ _ _ _ _ 402 1000 125350 (by decide) (by decide) (by decide) (by decide),
      printResult_eq fmtAvg _ _ _ _ _ 10 995 62500 (by decide) (by decide) (by decide) (by decide),
      printResult_eq fmtAvg _ _ _ _ _ 502 870 39250 (by decide) (by decide) (by decide) (by decide)]
    have e9 : fmtNat 9 = [57] := by simp [fmtNat]
    have e10 : fmtNat 10 = [49, 48] := by simp [fmtNat]
    have e60 : fmtNat 60 = [54, 48] := by simp [fmtNat]
    have e100 : fmtNat 100 = [49, 48, 48] := by simp [fmtNat]
    have e200 : fmtNat 200 = [50, 48, 48] := by simp [fmtNat]
    have e300 : fmtNat 300 = [51, 48, 48] := by simp [fmtNat]
    have e402 : fmtNat 402 = [52, 48, 50] := by simp [fmtNat]
    have e502 : fmtNat 502 = [53, 48, 50] := by simp [fmtNat]
    have e650 : fmtNat 650 = [54, 53, 48] := by simp [fmtNat]
    have e870 : fmtNat 870 = [56, 55, 48] := by simp [fmtNat]
    have e995 : fmtNat 995 = [57, 57, 53] := by simp [fmtNat]
    have e1000 : fmtNat 1000 = [49, 48, 48, 48] := by simp [fmtNat]
    have e3720 : fmtNat 3720 = [51, 55, 50, 48] := by simp [fmtNat]
    have e39250 : fmtNat 39250 = [51, 57, 50, 53, 48] := by simp [fmtNat]
    have e62500 : fmtNat 62500 = [54, 50, 53, 48, 48] := by simp [fmtNat]
    have e125350 : fmtNat 125350 = [49, 50, 53, 51, 53, 48] := by simp [fmtNat]
    have e175850 : fmtNat 175850 = [49, 55, 53, 56, 53, 48] := by simp [fmtNat]
    have c1 : ∀ X, str "\n" ++ (str "\n=== Example 1: No filters ===\n" ++ (str "No filters" ++ (str ":\n" ++ (str "  Count: " ++ ([51, 48, 48] ++ (str "\n" ++ (str "  Min: " ++ ([49, 48] ++ (str "\n" ++ (str "  Max: " ++ ([49, 48, 48, 48] ++ (str "\n" ++ (str "  Sum: " ++ ([49, 55, 53, 56, 53, 48] ++ (str "\n" ++ (str "  Avg: " ++ (X))))))))))))))))) = text "\n\n=== Example 1: No filters ===\nNo filters:\n  Count: 300\n  Min: 10\n  Max: 1000\n  Sum: 175850\n  Avg: " ++ X := by
      intro X
      simp only [← List.append_assoc]
      exact congrArg (· ++ X) (by decide +kernel)
    have c2 : ∀ X, str "\n" ++ (str "\n=== Example 2: Only allow filter ===\n" ++ (str "Allow specific IDs" ++ (str ":\n" ++ (str "  Count: " ++ ([57] ++ (str "\n" ++ (str "  Min: " ++ ([49, 48, 48] ++ (str "\n" ++ (str "  Max: " ++ ([54, 53, 48] ++ (str "\n" ++ (str "  Sum: " ++ ([51, 55, 50, 48] ++ (str "\n" ++ (str "  Avg: " ++ (X))))))))))))))))) = text "\n\n=== Example 2: Only allow filter ===\nAllow specific IDs:\n  Count: 9\n  Min: 100\n  Max: 650\n  Sum: 3720\n  Avg: " ++ X := by
      intro X
      simp only [← List.append_assoc]
      exact congrArg (· ++ X) (by decide +kernel)
    have c3 : ∀ X, str "\n" ++ (str "\n=== Example 3: Only deny filter ===\n" ++ (str "Deny first block" ++ (str ":\n" ++ (str "  Count: " ++ ([50, 48, 48] ++ (str "\n" ++ (str "  Min: " ++ ([52, 48, 50] ++ (str "\n" ++ (str "  Max: " ++ ([49, 48, 48, 48] ++ (str "\n" ++ (str "  Sum: " ++ ([49, 50, 53, 51, 53, 48] ++ (str "\n" ++ (str "  Avg: " ++ (X))))))))))))))))) = text "\n\n=== Example 3: Only deny filter ===\nDeny first block:\n  Count: 200\n  Min: 402\n  Max: 1000\n  Sum: 125350\n  Avg: " ++ X := by
      intro X
      simp only [← List.append_assoc]
      exact congrArg (· ++ X) (by decide +kernel)
    have c4 : ∀ X, str "\n" ++ (str "\n=== Example 4: Both allow and deny filters ===\n" ++ (str "Allow IDs 1-200, deny even IDs" ++ (str ":\n" ++ (str "  Count: " ++ ([49, 48, 48] ++ (str "\n" ++ (str "  Min: " ++ ([49, 48] ++ (str "\n" ++ (str "  Max: " ++ ([57, 57, 53] ++ (str "\n" ++ (str "  Sum: " ++ ([54, 50, 53, 48, 48] ++ (str "\n" ++ (str "  Avg: " ++ (X))))))))))))))))) = text "\n\n=== Example 4: Both allow and deny filters ===\nAllow IDs 1-200, deny even IDs:\n  Count: 100\n  Min: 10\n  Max: 995\n  Sum: 62500\n  Avg: " ++ X := by
      intro X
      simp only [← List.append_assoc]
      exact congrArg (· ++ X) (by decide +kernel)
    have c5 : ∀ X, str "\n" ++ (str "\n=== Example 5: Complex filtering scenario ===\n" ++ (str "Allow specific ranges, deny IDs divisible by 5" ++ (str ":\n" ++ (str "  Count: " ++ ([54, 48] ++ (str "\n" ++ (str "  Min: " ++ ([53, 48, 50] ++ (str "\n" ++ (str "  Max: " ++ ([56, 55, 48] ++ (str "\n" ++ (str "  Sum: " ++ ([51, 57, 50, 53, 48] ++ (str "\n" ++ (str "  Avg: " ++ (X))))))))))))))))) = text "\n\n=== Example 5: Complex filtering scenario ===\nAllow specific ranges, deny IDs divisible by 5:\n  Count: 60\n  Min: 502\n  Max: 870\n  Sum: 39250\n  Avg: " ++ X := by
      intro X
      simp only [← List.append_assoc]
      exact congrArg (· ++ X) (by decide +kernel)
    rw [e9, e10, e60, e100, e200, e300, e402, e502, e650, e870, e995, e1000, e3720, e39250, e62500, e125350, e175850]
    unfold expected
    dsimp only
    simp only [List.append_assoc]
    rw [c1, c2, c3, c4, c5]
    rfl
  rcases h : createSampleData (B := B) env with e | w
  · refine ⟨.inl ⟨e, by unfold main; rw [h]⟩, fun hnf => ?_⟩
    obtain ⟨w, hw⟩ := created_noFault (B := B) hnf
    rw [h] at hw
    cases hw
  · exact ⟨.inr (key w h), fun _ => key w h⟩

/-- Non-vacuity: an implementation of the bitmaps, a fair scheduler and an environment without failures. -/
example (fmtAvg : Avg → Bytes) : main (B := IdSet) quietEnv inOrder fmtAvg (str "x.col") =
    .ok (expected (fun s n => fmtAvg (.quot (Int64.ofInt s) n)) (str "x.col")) :=
  (C58_example (B := IdSet) quietEnv inOrder inOrder_fair fmtAvg _ (fun L hL => Cli.idSet_small L (by omega))).2 quietEnv_noFault

end VibeCol.FilterExample
