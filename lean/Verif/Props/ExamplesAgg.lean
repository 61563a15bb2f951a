/-
C56: what `read_example -agg` prints for an arbitrary file.
-/
import Verif.Props.Examples
namespace VibeCol.Examples
open Cli (str fmtNat fmtInt fmtNat_decimal fmtInt_decimal)

theorem get32_inv {b c : Bytes} {x : UInt32} (h : get32 b = .ok (x, c)) : x = rd32 b 0 ∧ c = b.drop 4 := by
  unfold get32 at h
  split at h
  · cases h; exact ⟨rfl, rfl⟩
  · cases h
theorem get64_inv {b c : Bytes} {x : UInt64} (h : get64 b = .ok (x, c)) : x = rd64 b 0 ∧ c = b.drop 8 := by
  unfold get64 at h
  split at h
  · cases h; exact ⟨rfl, rfl⟩
  · cases h
theorem getI64_inv {b c : Bytes} {x : Int64} (h : getI64 b = .ok (x, c)) : x = (rd64 b 0).toInt64 ∧ c = b.drop 8 := by
  unfold getI64 at h
  split at h
  · cases h; exact ⟨rfl, rfl⟩
  · cases h

theorem rd64_drop (b : Bytes) (a i : Nat) : rd64 (b.drop a) i = rd64 b (a + i) := by
  unfold rd64
  rw [List.drop_drop]
theorem rd32_drop (b : Bytes) (a i : Nat) : rd32 (b.drop a) i = rd32 b (a + i) := by
  unfold rd32
  rw [List.drop_drop]

/-- The numbers of the index entry at offset `i` of `b`. -/
def entryAt (b : Bytes) (i : Nat) : Entry :=
  ⟨(rd64 b (i + 28)).toInt64, (rd64 b (i + 36)).toInt64, (rd64 b (i + 44)).toInt64, rd32 b (i + 52)⟩

theorem entryAt_drop (b : Bytes) (a i : Nat) : entryAt (b.drop a) i = entryAt b (a + i) := by
  simp only [entryAt, rd64_drop, rd32_drop, Nat.add_assoc]

theorem readEntries_any (n : Nat) (b : Bytes) (es : List Entry) (h : readEntries n b = .ok es) :
    es = (List.range n).map fun i => entryAt b (56 * i) := by
  induction n generalizing b es with
  | zero => cases h; rfl
  | succ n ih =>
    simp only [readEntries] at h
    obtain ⟨⟨x1, b1⟩, e1, h⟩ := Res.bind_ok h
    dsimp only at h
    obtain ⟨⟨x2, b2⟩, e2, h⟩ := Res.bind_ok h
    dsimp only at h
    obtain ⟨⟨x3, b3⟩, e3, h⟩ := Res.bind_ok h
    dsimp only at h
    obtain ⟨⟨x4, b4⟩, e4, h⟩ := Res.bind_ok h
    dsimp only at h
    obtain ⟨⟨x5, b5⟩, e5, h⟩ := Res.bind_ok h
    dsimp only at h
    obtain ⟨⟨x6, b6⟩, e6, h⟩ := Res.bind_ok h
    dsimp only at h
    obtain ⟨⟨x7, b7⟩, e7, h⟩ := Res.bind_ok h
    dsimp only at h
    obtain ⟨⟨x8, b8⟩, e8, h⟩ := Res.bind_ok h
    dsimp only at h
    obtain ⟨rest, e9, hfin⟩ := Res.bind_ok h
    obtain ⟨-, rfl⟩ := get64_inv e1
    obtain ⟨-, rfl⟩ := get32_inv e2
    obtain ⟨-, rfl⟩ := get64_inv e3
    obtain ⟨-, rfl⟩ := get64_inv e4
    obtain ⟨rfl, rfl⟩ := getI64_inv e5
    obtain ⟨rfl, rfl⟩ := getI64_inv e6
    obtain ⟨rfl, rfl⟩ := getI64_inv e7
    obtain ⟨rfl, rfl⟩ := get32_inv e8
    have ih' := ih _ _ e9
    injection hfin with hfin
    subst hfin
    rw [ih', List.range_succ_eq_map, List.map_cons, List.map_map]
    have e : ∀ i, entryAt (List.drop 4 (List.drop 8 (List.drop 8 (List.drop 8 (List.drop 8 (List.drop 8 (List.drop 4 (List.drop 8 b)))))))) (56 * i) =
        entryAt b (56 * (i + 1)) := by
      intro i
      simp only [List.drop_drop]
      rw [entryAt_drop]
      congr 1
      omega
    simp only [e]
    simp only [List.drop_drop, rd64_drop, rd32_drop]
    rfl

theorem openFile_entries {file : Bytes} {o : Opened} (h : openFile file = .ok o) :
    o.entries = (List.range (rd32 file 320).toNat).map fun i => entryAt file (324 + 56 * i) := by
  unfold openFile at h
  obtain ⟨hd, h1, h⟩ := Res.bind_ok h
  obtain ⟨es, h2, h⟩ := Res.bind_ok h
  cases h
  unfold readFooter at h2
  split at h2
  · cases h2
  · obtain ⟨⟨m, _⟩, _, h2⟩ := Res.bind_ok h2
    dsimp only at h2
    split at h2
    · cases h2
    · obtain ⟨⟨n, b⟩, h3, h4⟩ := Res.bind_ok h2
      obtain ⟨rfl, rfl⟩ := get32_inv h3
      have := readEntries_any _ _ _ h4
      rw [this]
      simp only [List.drop_drop, entryAt_drop, rd32_drop]

/-- What the totals of index entries are. -/
structure TotalsOf (es : List Entry) (t : Entry) : Prop where
  count : t.count = UInt32.ofNat ((es.map fun e => e.count.toNat).sum)
  sum : t.sum = Int64.ofInt (intSum (es.map (·.sum)))
  min_le : ∀ e ∈ es, t.minValue ≤ e.minValue
  min_mem : es ≠ [] → ∃ e ∈ es, t.minValue = e.minValue
  le_max : ∀ e ∈ es, e.maxValue ≤ t.maxValue
  max_mem : es ≠ [] → ∃ e ∈ es, t.maxValue = e.maxValue

theorem totals_spec (es : List Entry) : TotalsOf es (totals es) ∧
    (es = [] → (totals es).minValue = 9223372036854775807 ∧ (totals es).maxValue = -9223372036854775808) := by
  generalize hn : es.length = n
  induction n generalizing es with
  | zero =>
    obtain rfl := List.length_eq_zero_iff.1 hn
    exact ⟨⟨rfl, rfl, by simp, by simp, by simp, by simp⟩, fun _ => ⟨rfl, rfl⟩⟩
  | succ n ih =>
    have hne : es ≠ [] := by rintro rfl; cases hn
    obtain ⟨fs, e, rfl⟩ : ∃ fs e, es = fs ++ [e] := ⟨es.dropLast, es.getLast hne, (List.dropLast_concat_getLast hne).symm⟩
    obtain ⟨h, h0⟩ := ih fs (by simpa using hn)
    refine ⟨?_, fun hc => absurd hc hne⟩
    have et : totals (fs ++ [e]) = ⟨if e.minValue < (totals fs).minValue then e.minValue else (totals fs).minValue,
        if e.maxValue > (totals fs).maxValue then e.maxValue else (totals fs).maxValue, (totals fs).sum + e.sum, (totals fs).count + e.count⟩ := by
      unfold totals
      rw [List.foldl_append]
      rfl
    rw [et]
    generalize totals fs = t at h h0
    refine ⟨?_, ?_, ?_, ?_, ?_, ?_⟩
    · show t.count + e.count = _
      rw [h.count]
      simp [UInt32.ofNat_add]
    · show t.sum + e.sum = _
      rw [h.sum, List.map_append, intSum_append, Int64.ofInt_add]
      simp [intSum]
    · intro x hx
      show (if e.minValue < t.minValue then e.minValue else t.minValue) ≤ x.minValue
      rcases List.mem_append.1 hx with hx | hx
      · have := h.min_le x hx
        split <;> simp only [Int64.le_iff_toInt_le, Int64.lt_iff_toInt_lt] at * <;> omega
      · rw [List.mem_singleton.1 hx]
        split <;> simp only [Int64.le_iff_toInt_le, Int64.lt_iff_toInt_lt] at * <;> omega
    · intro _
      show ∃ x ∈ fs ++ [e], (if e.minValue < t.minValue then e.minValue else t.minValue) = x.minValue
      by_cases hlt : e.minValue < t.minValue
      · exact ⟨e, by simp, by rw [if_pos hlt]⟩
      · rw [if_neg hlt]
        by_cases hf : fs = []
        · refine ⟨e, by simp, ?_⟩
          rw [(h0 hf).1] at hlt ⊢
          apply i64_ext
          have := e.minValue.toInt_lt
          simp only [Int64.lt_iff_toInt_lt] at hlt
          have h9 : (9223372036854775807 : Int64).toInt = 9223372036854775807 := by decide
          omega
        · obtain ⟨x, hx, h1⟩ := h.min_mem hf
          exact ⟨x, by simp [hx], h1⟩
    · intro x hx
      show x.maxValue ≤ (if e.maxValue > t.maxValue then e.maxValue else t.maxValue)
      rcases List.mem_append.1 hx with hx | hx
      · have := h.le_max x hx
        split <;> simp only [gt_iff_lt, Int64.le_iff_toInt_le, Int64.lt_iff_toInt_lt] at * <;> omega
      · rw [List.mem_singleton.1 hx]
        split <;> simp only [gt_iff_lt, Int64.le_iff_toInt_le, Int64.lt_iff_toInt_lt] at * <;> omega
    · intro _
      show ∃ x ∈ fs ++ [e], (if e.maxValue > t.maxValue then e.maxValue else t.maxValue) = x.maxValue
      by_cases hlt : e.maxValue > t.maxValue
      · exact ⟨e, by simp, by rw [if_pos hlt]⟩
      · rw [if_neg hlt]
        by_cases hf : fs = []
        · refine ⟨e, by simp, ?_⟩
          rw [(h0 hf).2] at hlt ⊢
          apply i64_ext
          have := e.maxValue.le_toInt
          simp only [gt_iff_lt, Int64.lt_iff_toInt_lt] at hlt
          have h9 : (-9223372036854775808 : Int64).toInt = -9223372036854775808 := by decide
          omega
        · obtain ⟨x, hx, h1⟩ := h.max_mem hf
          exact ⟨x, by simp [hx], h1⟩

/-- **C56.** On whatever file `read_example -agg` opens, it prints the totals of the index entries at offset 324. -/
theorem C56_agg {fmtAvg : Avg → Bytes} {file : Bytes} {o : Opened} (usage name : Bytes) (h : openFile file = .ok o) :
    ∃ head c mi ma s avg t, run fmtAvg usage name file false true = .ok (head ++
      str "Aggregate Statistics (from metadata only):\nCount: " ++ c ++ str "\nMin: " ++ mi ++ str "\nMax: " ++ ma ++ str "\nSum: " ++ s ++
        str "\nAverage: " ++ fmtAvg avg ++ str "\n") ∧
      TotalsOf ((List.range (rd32 file 320).toNat).map fun i => entryAt file (324 + 56 * i)) t ∧
      Cli.Decimal c t.count.toNat ∧ Cli.SignedDecimal mi t.minValue.toInt ∧ Cli.SignedDecimal ma t.maxValue.toInt ∧
      Cli.SignedDecimal s t.sum.toInt ∧ avg = (if t.count = 0 then .zero else .quot t.sum t.count.toNat) := by
  rw [← openFile_entries h]
  refine ⟨str "File: " ++ name ++ str "\n" ++ str "Version: " ++ fmtNat o.header.version.toNat ++ str "\n" ++
    str "Blocks: " ++ fmtNat o.header.blockCount.toNat ++ str "\n\n", fmtNat (totals o.entries).count.toNat,
    fmtInt (totals o.entries).minValue, fmtInt (totals o.entries).maxValue, fmtInt (totals o.entries).sum,
    (if (totals o.entries).count > 0 then .quot (totals o.entries).sum (totals o.entries).count.toNat else .zero), totals o.entries, ?_,
    (totals_spec _).1, (fmtNat_decimal _).1, fmtInt_decimal _, fmtInt_decimal _, fmtInt_decimal _, ?_⟩
  · unfold run
    rw [h, Res.ok_bind]
    dsimp only
    rw [if_neg (by simp), Res.ok_bind]
    have e1 : str "Aggregate Statistics (from metadata only):\nCount: " =
      str "Aggregate Statistics (from metadata only):\n" ++ str "Count: " := by rw [← Cli.str_append]; rfl
    have e2 : str "\nMin: " = str "\n" ++ str "Min: " := by rw [← Cli.str_append]; rfl
    have e3 : str "\nMax: " = str "\n" ++ str "Max: " := by rw [← Cli.str_append]; rfl
    have e4 : str "\nSum: " = str "\n" ++ str "Sum: " := by rw [← Cli.str_append]; rfl
    have e5 : str "\nAverage: " = str "\n" ++ str "Average: " := by rw [← Cli.str_append]; rfl
    rw [e1, e2, e3, e4, e5]
    simp [aggregate, List.append_assoc]
  · generalize totals o.entries = t
    by_cases hc : t.count = 0
    · rw [if_pos hc, if_neg (by rw [hc]; decide)]
    · rw [if_neg hc, if_pos (by
        show (0 : UInt32) < t.count
        rw [UInt32.lt_iff_toNat_lt]
        have : t.count.toNat ≠ 0 := fun h => hc (UInt32.toNat_inj.1 h)
        have : (0 : UInt32).toNat = 0 := rfl
        omega)]


/-- Non-vacuity: the file written by `write_example` is opened. -/
example (crc : Bytes → UInt64) (now : UInt64) : ∃ o, openFile (exampleFile crc now) = .ok o := ⟨_, example_opens crc now⟩

end VibeCol.Examples
