/-
C63, C64: averages as floating-point numbers, and how they are printed.
-/
import Verif.Lemmas.FloatOps
import Verif.Props.Multi
import Verif.Props.Cli
import Verif.Props.Examples
import Verif.Props.FilterExample
namespace VibeCol
variable {B : Type} [Bitmap B] [LawfulBitmap B]

theorem ofInt_toInt {n : Int} (h1 : -2 ^ 63 ≤ n) (h2 : n < 2 ^ 63) : (Int64.ofInt n).toInt = n :=
  Int64.toInt_ofInt_of_le (by simpa using h1) (by simpa using h2)

theorem rounds_self {x : ℚ} (h : IsDouble x) : Rounds x x :=
  ⟨h, fun z _ => by simp, fun z _ hne he => absurd (by rw [sub_self, abs_zero, abs_eq_zero] at he; linarith) hne⟩

theorem error_div {a b s n y u : ℚ} (hu0 : 0 < u) (hu : u ≤ 1 / 5) (hn : 0 < n) (ha : |s - a| ≤ |s| * u) (hb : |n - b| ≤ n * u)
    (hy : |a / b - y| ≤ |a / b| * u) : |y - s / n| ≤ |s / n| * (4 * u) := by
  have hb' := abs_le.1 hb
  have b1 : n * (1 - u) ≤ b := by linarith
  have b2 : b ≤ n * (1 + u) := by linarith
  have hn1 : 0 < n * (1 - u) := mul_pos hn (by linarith)
  have hb0 : 0 < b := lt_of_lt_of_le hn1 b1
  -- the quotient of the rounded numbers
  have q1 : |a / b - s / n| ≤ |s / n| * (2 * u / (1 - u)) := by
    have e : a / b - s / n = ((a - s) * n + s * (n - b)) / (b * n) := by field_simp; ring
    rw [e, abs_div, abs_of_pos (mul_pos hb0 hn), div_le_iff₀ (mul_pos hb0 hn)]
    have t1 : |(a - s) * n + s * (n - b)| ≤ |s| * n * (2 * u) := by
      calc |(a - s) * n + s * (n - b)| ≤ |(a - s) * n| + |s * (n - b)| := abs_add_le _ _
        _ = |s - a| * n + |s| * |n - b| := by rw [abs_mul, abs_mul, abs_of_pos hn, abs_sub_comm]
        _ ≤ |s| * u * n + |s| * (n * u) :=
          add_le_add (mul_le_mul_of_nonneg_right ha hn.le) (mul_le_mul_of_nonneg_left hb (abs_nonneg _))
        _ = _ := by ring
    refine t1.trans ?_
    rw [abs_div, abs_of_pos hn]
    have t2 : |s| / n * (2 * u / (1 - u)) * (b * n) = |s| * (2 * u) * (b / (1 - u)) := by field_simp
    rw [t2]
    have t3 : n ≤ b / (1 - u) := by rw [le_div_iff₀ (by linarith)]; exact b1
    calc |s| * n * (2 * u) = |s| * (2 * u) * n := by ring
      _ ≤ _ := mul_le_mul_of_nonneg_left t3 (mul_nonneg (abs_nonneg _) (by linarith))
  have q2 : |a / b| ≤ |s / n| * (1 + 2 * u / (1 - u)) := by
    have := abs_sub_abs_le_abs_sub (a / b) (s / n)
    linarith
  have q3 : |y - s / n| ≤ |a / b - y| + |a / b - s / n| := by
    rw [show y - s / n = -(a / b - y) + (a / b - s / n) by ring]
    exact (abs_add_le _ _).trans (by rw [abs_neg])
  have q4 : |a / b| * u ≤ |s / n| * (1 + 2 * u / (1 - u)) * u := mul_le_mul_of_nonneg_right q2 hu0.le
  have q5 : (1 + 2 * u / (1 - u)) * u + 2 * u / (1 - u) ≤ 4 * u := by
    have h1 : 0 < 1 - u := by linarith
    have e : (1 + 2 * u / (1 - u)) * u + 2 * u / (1 - u) = ((1 + u) * u + 2 * u) / (1 - u) := by field_simp; ring
    rw [e, div_le_iff₀ h1]
    nlinarith
  calc |y - s / n| ≤ |s / n| * (1 + 2 * u / (1 - u)) * u + |s / n| * (2 * u / (1 - u)) := by linarith
    _ = |s / n| * ((1 + 2 * u / (1 - u)) * u + 2 * u / (1 - u)) := by ring
    _ ≤ _ := mul_le_mul_of_nonneg_left q5 (abs_nonneg _)

/-- The quotient of a rounded 64-bit number and a rounded count is of ordinary size. -/
theorem int_ordinary {n : ℤ} (h : |n| < 2 ^ 64) : ((n : ℚ) = 0 ∨ 2 ^ (-1000 : ℤ) ≤ |(n : ℚ)|) ∧ |(n : ℚ)| < 2 ^ (1000 : ℤ) := by
  have e : |(n : ℚ)| = ((|n| : ℤ) : ℚ) := (Int.cast_abs).symm
  constructor
  · by_cases h0 : n = 0
    · left; exact_mod_cast h0
    · right
      have : (1 : ℤ) ≤ |n| := Int.one_le_abs h0
      rw [e]
      calc (2 : ℚ) ^ (-1000 : ℤ) ≤ 2 ^ (0 : ℤ) := zpow_le_zpow_right₀ (by norm_num) (by norm_num)
        _ = 1 := by norm_num
        _ ≤ _ := by exact_mod_cast this
  · rw [e]
    calc ((|n| : ℤ) : ℚ) < 2 ^ (64 : ℕ) := by exact_mod_cast h
      _ = 2 ^ (64 : ℤ) := by norm_num
      _ ≤ _ := zpow_le_zpow_right₀ (by norm_num) (by norm_num)

theorem rounded_bounds {n : ℤ} {y : ℚ} (h : Rounds n y) (hn : |n| ≤ 2 ^ 64) : |y| ≤ 2 ^ 64 := by
  have d : IsDouble ((2 ^ 64 : ℤ) : ℚ) := ⟨2 ^ 52, 12, by norm_num, by norm_num, by norm_num, by norm_num⟩
  have hn' := abs_le.1 hn
  have h1 := h.mono (rounds_self d) (by exact_mod_cast hn'.2)
  have h2 := (rounds_self d.neg).mono h (by exact_mod_cast hn'.1)
  push_cast at h1 h2
  exact abs_le.2 ⟨h2, h1⟩

theorem rounded_large {n : ℤ} {y : ℚ} (h : Rounds n y) (hn : 1 ≤ |n|) : 1 ≤ |y| := by
  have d : IsDouble ((1 : ℤ) : ℚ) := isDouble_int (by norm_num)
  rcases abs_choice n with e | e
  · have := (rounds_self d).mono h (by exact_mod_cast (show (1 : ℤ) ≤ n by omega))
    push_cast at this
    exact this.trans (le_abs_self y)
  · have := h.mono (rounds_self d.neg) (by exact_mod_cast (show n ≤ -(1 : ℤ) by omega))
    push_cast at this
    rw [abs_of_nonpos (by linarith)]
    linarith

theorem length_lt_of_sum {vs : List Int64} (h : vs ≠ []) : 0 < vs.length := List.length_pos_iff.2 h

/-- Every exact aggregate carries the right average. -/
theorem IsAggregate.isAverage {r : AggregateResult} {vs : List Int64} (h : IsAggregate r vs) (hlen : vs.length < 2 ^ 64) :
    IsAverage vs r.avg.float.val := by
  by_cases hne : vs = []
  · have e : r.avg.float.val = 0 := by rw [h.avg, if_pos hne]; simp [Avg.float, F64.val]
    rw [e]
    exact ⟨fun _ => rfl, isDouble_zero, fun h' => absurd hne h', fun h' => absurd hne h'⟩
  have hpos := length_lt_of_sum hne
  have hr : Rounds ((F64.ofInt r.sum).val / (F64.ofNat vs.length).val) r.avg.float.val := by
    rw [h.avg, if_neg hne, h.count]
    exact float_rounds r.sum hpos hlen
  have hn := ofNat_rounds hlen
  have hs := ofInt_rounds r.sum
  refine ⟨fun h' => absurd h' hne, hr.double, fun _ h1 h2 => ?_, fun _ h1 h2 => ?_⟩
  · have hsum : r.sum.toInt = intSum vs := by rw [h.sum]; exact ofInt_toInt h1 h2
    rw [hsum] at hs
    generalize (F64.ofInt r.sum).val = a at hs hr
    generalize (F64.ofNat vs.length).val = b at hn hr
    generalize r.avg.float.val = y at hr
    have hsabs : |intSum vs| < 2 ^ 64 := by rw [abs_lt]; omega
    have hn' : Rounds ((vs.length : ℤ) : ℚ) b := by exact_mod_cast hn
    have hnabs : |(vs.length : ℤ)| < 2 ^ 64 := by rw [abs_of_nonneg (by omega)]; exact_mod_cast hlen
    have hn1 : 1 ≤ |(vs.length : ℤ)| := by rw [abs_of_nonneg (by omega)]; exact_mod_cast hpos
    obtain ⟨o1, o2⟩ := int_ordinary hsabs
    obtain ⟨o3, o4⟩ := int_ordinary hnabs
    have e1 := hs.error o1 o2
    have e2 := hn'.error o3 o4
    have b1 := rounded_large hn' hn1
    have b2 := rounded_bounds hn' hnabs.le
    have e3 : |a / b - y| ≤ |a / b| / 2 ^ 53 := by
      refine hr.error ?_ ?_
      · by_cases h0 : intSum vs = 0
        · left
          rw [h0, Int.cast_zero] at hs
          rw [hs.unique rounds_zero, zero_div]
        · right
          have a1 := rounded_large hs (Int.one_le_abs h0)
          rw [abs_div, le_div_iff₀ (by linarith)]
          calc (2 : ℚ) ^ (-1000 : ℤ) * |b| ≤ 2 ^ (-1000 : ℤ) * 2 ^ (64 : ℕ) := mul_le_mul_of_nonneg_left b2 (by positivity)
            _ = 2 ^ (-936 : ℤ) := by rw [← zpow_natCast, ← zpow_add₀ (by norm_num)]; norm_num
            _ ≤ 2 ^ (0 : ℤ) := zpow_le_zpow_right₀ (by norm_num) (by norm_num)
            _ = 1 := by norm_num
            _ ≤ _ := a1
      · have a2 := rounded_bounds hs hsabs.le
        rw [abs_div, div_lt_iff₀ (by linarith)]
        calc |a| ≤ 2 ^ (64 : ℕ) := a2
          _ = 2 ^ (64 : ℤ) := by norm_num
          _ < 2 ^ (1000 : ℤ) := zpow_lt_zpow_right₀ (by norm_num) (by norm_num)
          _ ≤ 2 ^ (1000 : ℤ) * |b| := le_mul_of_one_le_right (by positivity) b1
    have hpos' : (0 : ℚ) < vs.length := by exact_mod_cast hpos
    rw [Int.cast_natCast, abs_of_pos hpos'] at e2
    have := error_div (u := 1 / 2 ^ 53) (by norm_num) (by norm_num) hpos' (by rw [mul_one_div]; exact e1) (by rw [mul_one_div]; exact e2)
      (by rw [mul_one_div]; exact e3)
    refine this.trans (le_of_eq ?_)
    unfold meanOf
    rw [show (4 * (1 / 2 ^ 53 : ℚ)) = 1 / 2 ^ 51 by norm_num, mul_one_div]
  · have h3 := abs_le.1 h1
    have hsum : r.sum.toInt = intSum vs := by rw [h.sum]; exact ofInt_toInt (by omega) (by omega)
    rw [hsum] at hs
    rw [hs.exact (isDouble_int h1), hn.exact (by exact_mod_cast isDouble_int (n := vs.length) (by
      rw [abs_of_nonneg (by omega)]; exact_mod_cast h2))] at hr
    exact hr

theorem meanOf_le {vs : List Int64} {z : ℚ} (hne : vs ≠ []) (h : ∀ v ∈ vs, (v.toInt : ℚ) ≤ z) : meanOf vs ≤ z := by
  have hpos' : (0 : ℚ) < vs.length := by exact_mod_cast length_lt_of_sum hne
  unfold meanOf
  rw [div_le_iff₀ hpos']
  clear hne hpos'
  induction vs with
  | nil => simp [intSum]
  | cons v vs ih =>
    have h1 := ih fun w hw => h w (by simp [hw])
    have h2 := h v (by simp)
    have e : intSum (v :: vs) = v.toInt + intSum vs := by simp [intSum]
    rw [e]
    push_cast [List.length_cons]
    linarith

theorem le_meanOf {vs : List Int64} {z : ℚ} (hne : vs ≠ []) (h : ∀ v ∈ vs, z ≤ (v.toInt : ℚ)) : z ≤ meanOf vs := by
  have hpos' : (0 : ℚ) < vs.length := by exact_mod_cast length_lt_of_sum hne
  unfold meanOf
  rw [le_div_iff₀ hpos']
  clear hne hpos'
  induction vs with
  | nil => simp [intSum]
  | cons v vs ih =>
    have h1 := ih fun w hw => h w (by simp [hw])
    have h2 := h v (by simp)
    have e : intSum (v :: vs) = v.toInt + intSum vs := by simp [intSum]
    rw [e]
    push_cast [List.length_cons]
    linarith

/-- If the sum is at most 2^53, the average is not above an upper bound of the values and not below a lower bound. -/
theorem IsAverage.between {vs : List Int64} {y : ℚ} (h : IsAverage vs y) (hne : vs ≠ []) (h1 : |intSum vs| ≤ 2 ^ 53)
    (h2 : vs.length ≤ 2 ^ 53) (z : ℚ) (hz : IsDouble z) :
    ((∀ v ∈ vs, (v.toInt : ℚ) ≤ z) → y ≤ z) ∧ ((∀ v ∈ vs, z ≤ (v.toInt : ℚ)) → z ≤ y) :=
  ⟨fun hu => (h.exact hne h1 h2).mono (rounds_self hz) (meanOf_le hne hu),
   fun hl => (rounds_self hz).mono (h.exact hne h1 h2) (le_meanOf hne hl)⟩

/-- The number of pairs in a file. -/
theorem pairs_bound {blocks : List Block} (h : ∀ b ∈ blocks, b.1.length ≤ 2 ^ 27) : (pairsOf blocks).length ≤ blocks.length * 2 ^ 27 := by
  induction blocks with
  | nil => simp [pairsOf]
  | cons b bs ih =>
    have h1 := ih fun c hc => h c (by simp [hc])
    have h2 := h b (by simp)
    have e : pairsOf (b :: bs) = b.1.zip b.2 ++ pairsOf bs := by simp [pairsOf]
    rw [e, List.length_append, List.length_cons, List.length_zip]
    omega

/-- **C63.** Over a finalized file, with or without filters, with any number of workers and under every schedule, the `Avg` of
an aggregation is the `float64` average of the values selected: its relative error is at most 2^-51 if their sum fits in
64 bits, and if the sum is at most 2^53 no `float64` is nearer to the mean. -/
theorem C63_average {env : Env} {opts : List WriterOption} {log : Log} {file : Bytes}
    (h : Finalized B env opts log file) (henc : SymEnc (chosenEncoding opts))
    (hn : (acked log).length ≤ maxBlocks) (hrep : StatsRepresentable (acked log)) (r : Reader B) (hr : newReader file = .ok r)
    (sched : Sched) (hs : sched.Fair) (o : AggregateOptions B) :
    ∃ res, aggregateWithOptions sched r o = .ok res ∧
      IsAverage (selectedValues o.filter o.denyFilter (acked log)) res.avg.float.val := by
  have hb : (selectedValues o.filter o.denyFilter (acked log)).length < 2 ^ 64 := by
    have h1 := pairs_bound fun b hb => ((h.indexed hn r hr).ok b hb).2.2
    unfold selectedValues
    rw [List.length_map]
    refine lt_of_le_of_lt (List.length_filter_le _ _) ?_
    unfold maxBlocks at hn
    omega
  by_cases ho : o.filter.isSome ∨ o.denyFilter.isSome
  · obtain ⟨res, h1, h2⟩ := C13_filtered h henc hn r hr sched hs o ho
    exact ⟨res, h1, h2.isAverage hb⟩
  · have hf : o.filter = none := by cases hx : o.filter <;> simp_all
    have hd : o.denyFilter = none := by cases hx : o.denyFilter <;> simp_all
    have hv : selectedValues o.filter o.denyFilter (acked log) = valuesOf (acked log) := by
      rw [hf, hd]; simp [selectedValues, valuesOf]
    rw [hv] at hb ⊢
    obtain ⟨sk, f, d, pa⟩ := o
    dsimp only at hf hd
    subst hf hd
    cases sk
    · obtain ⟨res, h1, h2⟩ := C10_parallel h hn hrep r hr sched hs pa
      exact ⟨res, h1, h2.isAverage hb⟩
    · obtain ⟨res, h1, h2⟩ := C11_skip h henc hn r hr sched hs pa
      exact ⟨res, h1, h2.isAverage hb⟩

/-! ### Printing -/

theorem abs_val (x : F64) : |x.val| = x.man * 2 ^ x.exp := by
  unfold F64.val
  rw [abs_mul, abs_mul, abs_of_pos (show (0 : ℚ) < 2 ^ x.exp by positivity), Nat.abs_cast]
  cases x.neg <;> simp

/-- `%.2f` prints two decimals, correctly rounded. -/
theorem fmtFixed2_printed (x : F64) (hneg : x.neg = decide (x.val < 0)) : Printed2 (fmtFixed2 x) x.val := by
  obtain ⟨h1, h2⟩ := nearestEven_rat (100 * x.man * 2 ^ x.exp.toNat) (2 ^ (-x.exp).toNat) (by positivity)
  have e : (((100 * x.man * 2 ^ x.exp.toNat : ℕ) : ℚ) / (2 ^ (-x.exp).toNat : ℕ)) = 100 * |x.val| := by
    rw [abs_val, pow_split]
    push_cast
    ring
  rw [e] at h1 h2
  have hf : fmtFixed2 x = (if x.neg then [45] else []) ++
      Cli.fmtNat (nearestEven (100 * x.man * 2 ^ x.exp.toNat) (2 ^ (-x.exp).toNat) / 100) ++
      [46, UInt8.ofNat (48 + nearestEven (100 * x.man * 2 ^ x.exp.toNat) (2 ^ (-x.exp).toNat) / 10 % 10),
        UInt8.ofNat (48 + nearestEven (100 * x.man * 2 ^ x.exp.toNat) (2 ^ (-x.exp).toNat) % 10)] := rfl
  rw [hf]
  generalize nearestEven (100 * x.man * 2 ^ x.exp.toNat) (2 ^ (-x.exp).toNat) = n at h1 h2 ⊢
  have hs : ∀ k : ℚ, |(|x.val|) - k / 100| = |100 * |x.val| - k| / 100 := by
    intro k
    rw [show |x.val| - k / 100 = (100 * |x.val| - k) / 100 by ring, abs_div, abs_of_pos (by norm_num : (0 : ℚ) < 100)]
  refine ⟨n, ⟨_, [UInt8.ofNat (48 + n / 10 % 10), UInt8.ofNat (48 + n % 10)], ?_, (Cli.fmtNat_decimal _).1, ⟨by simp, ?_⟩, rfl, ?_⟩, ?_, ?_⟩
  · rw [← hneg]
    simp
  · intro c hc
    rcases List.mem_cons.1 hc with rfl | hc
    · rw [UInt8.toNat_ofNat']; omega
    · rw [List.mem_singleton.1 hc, UInt8.toNat_ofNat']; omega
  · simp only [Cli.digitsValue, List.foldl_cons, List.foldl_nil, UInt8.toNat_ofNat']
    omega
  · intro k
    rw [hs, hs]
    have := nearest_integer (x := 100 * |x.val|) (n := n) (by exact_mod_cast h1) k
    rw [Int.cast_natCast] at this
    exact div_le_div_of_nonneg_right this (by norm_num)
  · intro he
    rw [hs] at he
    exact h2 (by linarith)

/-- The sign bit of an average. -/
theorem float_neg (s : Int64) {n : ℕ} (h0 : 0 < n) (hn : n < 2 ^ 64) :
    (Avg.quot s n).float.neg = decide ((Avg.quot s n).float.val < 0) := by
  have e1 : (Avg.quot s n).float.neg = decide (s.toInt < 0) := by
    show (F64.ofRatio _ _ _).neg = _
    rw [ofRatio_neg]
    show ((F64.ofRatio _ _ _).neg != (F64.ofRatio _ _ _).neg) = _
    rw [ofRatio_neg, ofRatio_neg, Bool.bne_false]
  rw [e1, decide_eq_decide]
  have hr := float_rounds s h0 hn
  have hs := ofInt_rounds s
  have hb : Rounds ((n : ℤ) : ℚ) (F64.ofNat n).val := by exact_mod_cast ofNat_rounds hn
  generalize (F64.ofInt s).val = a at hr hs
  generalize (F64.ofNat n).val = b at hr hb
  generalize (Avg.quot s n).float.val = y at hr
  have b0 : 0 ≤ b := rounds_zero.mono hb (by exact_mod_cast h0.le)
  have b1 := rounded_large hb (by rw [abs_of_nonneg (by omega)]; exact_mod_cast h0)
  have b2 := rounded_bounds hb (by rw [abs_of_nonneg (by omega)]; exact_mod_cast hn.le)
  rw [abs_of_nonneg b0] at b1 b2
  constructor
  · intro hlt
    have a1 : a ≤ -1 := by
      have d : IsDouble ((-1 : ℤ) : ℚ) := isDouble_int (by norm_num)
      have := hs.mono (rounds_self d) (by exact_mod_cast (show s.toInt ≤ -1 by omega))
      push_cast at this
      exact this
    have d : IsDouble (-(2 : ℚ) ^ (-64 : ℤ)) :=
      ⟨-1, -64, by norm_num, by norm_num, by norm_num, by push_cast; ring⟩
    have hq : a / b ≤ -(2 : ℚ) ^ (-64 : ℤ) := by
      rw [div_le_iff₀ (by linarith)]
      have : (2 : ℚ) ^ (-64 : ℤ) * b ≤ 1 := by
        rw [zpow_neg, ← div_eq_inv_mul, div_le_one (by positivity)]
        exact b2.trans (by norm_num)
      linarith
    have := hr.mono (rounds_self d) hq
    have hp : (0 : ℚ) < 2 ^ (-64 : ℤ) := by positivity
    linarith
  · intro hlt
    by_contra hc
    have a0 : 0 ≤ a := rounds_zero.mono hs (by exact_mod_cast (not_lt.1 hc))
    have := rounds_zero.mono hr (div_nonneg a0 b0)
    linarith

/-- Every average of an exact aggregate is printed correctly rounded. -/
theorem IsAggregate.printed {r : AggregateResult} {vs : List Int64} (h : IsAggregate r vs) (hlen : vs.length < 2 ^ 64) :
    Printed2 (printAvg r.avg) r.avg.float.val := by
  refine fmtFixed2_printed _ ?_
  rw [h.avg]
  split
  · simp [Avg.float, F64.val]
  · rename_i hne
    rw [h.count]
    exact float_neg _ (length_lt_of_sum hne) hlen

/-- **C63.** In particular, an average is between every lower and every upper bound of the values, if the sum of the
values is at most 2^53. -/
theorem C63_between {env : Env} {opts : List WriterOption} {log : Log} {file : Bytes}
    (h : Finalized B env opts log file) (henc : SymEnc (chosenEncoding opts))
    (hn : (acked log).length ≤ maxBlocks) (hrep : StatsRepresentable (acked log)) (r : Reader B) (hr : newReader file = .ok r)
    (sched : Sched) (hs : sched.Fair) (o : AggregateOptions B)
    (hne : selectedValues o.filter o.denyFilter (acked log) ≠ [])
    (h1 : |intSum (selectedValues o.filter o.denyFilter (acked log))| ≤ 2 ^ 53)
    (h2 : (selectedValues o.filter o.denyFilter (acked log)).length ≤ 2 ^ 53) :
    ∃ res, aggregateWithOptions sched r o = .ok res ∧ ∀ z, IsDouble z →
      ((∀ v ∈ selectedValues o.filter o.denyFilter (acked log), (v.toInt : ℚ) ≤ z) → res.avg.float.val ≤ z) ∧
      ((∀ v ∈ selectedValues o.filter o.denyFilter (acked log), z ≤ (v.toInt : ℚ)) → z ≤ res.avg.float.val) := by
  obtain ⟨res, h3, h4⟩ := C63_average h henc hn hrep r hr sched hs o
  exact ⟨res, h3, h4.between hne h1 h2⟩

/-- **C63.** The same for stacks of files. -/
theorem C63_multi (sched : Sched) (hs : sched.Fair) (readers : List (Reader B)) (files : List (List Block))
    (h : Each (FileWith B) readers files) (skip : Bool) (filter : Option B)
    (hlen : (visible (allowedBy filter) files).length < 2 ^ 64) :
    ∃ res, multiAggregate sched readers skip filter = .ok res ∧
      IsAverage ((visible (allowedBy filter) files).map Prod.snd) res.avg.float.val := by
  obtain ⟨res, h1, h2⟩ := C24_newestWins sched hs readers files h skip filter
  exact ⟨res, h1, h2.isAverage (by rw [List.length_map]; exact hlen)⟩

/-- Three equal values. -/
def equalLog : Log := [(.write [1, 2, 3] [9007199254740794, 9007199254740794, 9007199254740794], .ok ())]

theorem equal_finalized : ∃ file, Finalized IdSet quietEnv [] equalLog file :=
  finalized_of_log [] [.write [1, 2, 3] [9007199254740794, 9007199254740794, 9007199254740794]] equalLog
    (by decide) (by decide +kernel) (by unfold NoMismatch; decide) (by decide)

/-- **C63 is refuted for larger sums**: the average of three equal values can be greater than their maximum. -/
theorem C63_refuted : ∃ file, ∃ r : Reader IdSet, Finalized IdSet quietEnv [] equalLog file ∧ newReader file = .ok r ∧
    ∃ res, aggregate inOrder r = .ok res ∧ res.max = 9007199254740794 ∧ res.avg.float.val = 9007199254740795 := by
  obtain ⟨file, h⟩ := equal_finalized
  obtain ⟨r, h1, _⟩ := C29_accessors h (by decide)
  obtain ⟨res, h2, h3⟩ := C10_aggregate h (by decide) (by unfold StatsRepresentable; decide) r h1 inOrder
  have e : res = ⟨3, 9007199254740794, 9007199254740794, 27021597764222382, .quot 27021597764222382 3⟩ :=
    (h3.unique (accOf_isAggregate _) (by decide)).trans (by decide)
  subst e
  have e2 : (Avg.quot 27021597764222382 3).float = ⟨false, 9007199254740795, 0⟩ := by decide +kernel
  exact ⟨file, r, h, h1, _, h2, rfl, by rw [e2]; simp [F64.val]⟩

/-- Two values whose sum does not fit in 64 bits. -/
def wrapLog : Log := [(.write [1, 2] [9223372036854775807, 9223372036854775807], .ok ())]

theorem wrap_finalized : ∃ file, Finalized IdSet quietEnv [] wrapLog file :=
  finalized_of_log [] [.write [1, 2] [9223372036854775807, 9223372036854775807]] wrapLog
    (by decide) (by decide +kernel) (by unfold NoMismatch; decide) (by decide)

/-- **C63 is refuted for sums beyond 64 bits**: the average of two values 2^63-1 is -1. -/
theorem C63_refuted_overflow : ∃ file, ∃ r : Reader IdSet, Finalized IdSet quietEnv [] wrapLog file ∧ newReader file = .ok r ∧
    ∃ res, aggregate inOrder r = .ok res ∧ res.min = 9223372036854775807 ∧ res.avg.float.val = -1 := by
  obtain ⟨file, h⟩ := wrap_finalized
  obtain ⟨r, h1, _⟩ := C29_accessors h (by decide)
  obtain ⟨res, h2, h3⟩ := C10_aggregate h (by decide) (by unfold StatsRepresentable; decide) r h1 inOrder
  have e : res = ⟨2, 9223372036854775807, 9223372036854775807, -2, .quot (-2) 2⟩ :=
    (h3.unique (accOf_isAggregate _) (by decide)).trans (by decide)
  subst e
  have e2 : (Avg.quot (-2) 2).float = ⟨true, 4503599627370496, -52⟩ := by decide +kernel
  refine ⟨file, r, h, h1, _, h2, rfl, ?_⟩
  show (Avg.quot (-2) 2).float.val = -1
  rw [e2]
  simp only [F64.val, if_true]
  norm_num

/-- Non-vacuity of C63: the average of 30, -10, 20 and -1 is 9.75. -/
example : ∃ file, ∃ r : Reader IdSet, Finalized IdSet quietEnv exampleOpts oldLog file ∧ newReader file = .ok r ∧
    ∃ res, aggregate inOrder r = .ok res ∧ res.avg.float.val = 39 / 4 := by
  obtain ⟨file, h⟩ := old_finalized
  obtain ⟨r, h1, _⟩ := C29_accessors h (by decide)
  obtain ⟨res, h2, h3⟩ := C10_aggregate h (by decide) (by unfold StatsRepresentable; decide) r h1 inOrder
  have hv : valuesOf (acked oldLog) = [30, -10, 20, -1] := by decide
  rw [hv] at h3
  refine ⟨file, r, h, h1, res, h2, ?_⟩
  have hr := (h3.isAverage (by decide)).exact (by decide) (by decide) (by decide)
  have e : meanOf [30, -10, 20, -1] = 39 / 4 := by
    unfold meanOf
    rw [show intSum [30, -10, 20, -1] = 39 from by decide]
    norm_num
  rw [e] at hr
  exact hr.exact ⟨39, -2, by norm_num, by norm_num, by norm_num, by norm_num⟩

/-- **C64.** `vibecol read --agg` ends its output with the average of the values, printed with two decimals: these are
the best two decimals of the `float64` average (which differs from the mean as in C63). -/
theorem C64_read {env : Env} {opts : List WriterOption} {log : Log} {file : Bytes}
    (h : Finalized B env opts log file) (henc : SymEnc (chosenEncoding opts))
    (hn : (acked log).length ≤ maxBlocks) (hrep : StatsRepresentable (acked log)) (usage name : Bytes) (sched : Sched) (dump : Bool) :
    ∃ text before t y, Cli.runRead (B := B) printAvg usage sched name file dump true = (text, none) ∧
      Cli.ReadText printAvg usage name (acked log) dump true text ∧
      text = before ++ Cli.str "\nAverage: " ++ t ++ Cli.str "\n" ∧
      Printed2 t y ∧ IsAverage (valuesOf (acked log)) y := by
  obtain ⟨text, h1, h2⟩ := Cli.C51_read h henc hn printAvg usage name sched dump true (fun _ => hrep)
  obtain ⟨version, count, body, stats, lines, _, _, _, _, ⟨res, c, mi, ma, s, h3, _, _, _, _, h4⟩, h5⟩ := h2.parts
  have hb : (valuesOf (acked log)).length < 2 ^ 64 := by
    obtain ⟨r, hr, _⟩ := C29_accessors (B := B) h hn
    have h1 := pairs_bound fun b hb => ((h.indexed hn r hr).ok b hb).2.2
    unfold valuesOf
    rw [List.length_map]
    unfold maxBlocks at hn
    omega
  refine ⟨text, Cli.str "File: " ++ name ++ Cli.str "\nVersion: " ++ version ++ Cli.str "\nBlocks: " ++ count ++ Cli.str "\n\n" ++
      (if dump then body else []) ++ (Cli.str "Aggregate Statistics (from metadata only):\nCount: " ++ c ++ Cli.str "\nMin: " ++ mi ++
        Cli.str "\nMax: " ++ ma ++ Cli.str "\nSum: " ++ s), printAvg res.avg, _, h1, h2, ?_, h3.printed hb, h3.isAverage hb⟩
  rw [h5, h4]
  simp only [if_true, List.append_assoc]

/-- **C64.** The number printed differs from the mean by at most half a hundredth plus 2^-51 of the mean. -/
theorem C64_error {vs : List Int64} {y : ℚ} {t : Bytes} (h : IsAverage vs y) (ht : Printed2 t y) (hne : vs ≠ [])
    (h1 : -2 ^ 63 ≤ intSum vs) (h2 : intSum vs < 2 ^ 63) :
    ∃ neg n, Fixed2 t neg n ∧ |(if neg then -1 else 1) * (n / 100 : ℚ) - meanOf vs| ≤ 1 / 200 + |meanOf vs| / 2 ^ 51 := by
  obtain ⟨n, h3, h4, h5⟩ := ht
  refine ⟨_, n, h3, ?_⟩
  have hc := h.close hne h1 h2
  have hr := h4 (round (100 * |y|))
  have hr2 : |(|y|) - (round (100 * |y|) : ℚ) / 100| ≤ 1 / 200 := by
    have := abs_sub_round (100 * |y|)
    rw [show |y| - (round (100 * |y|) : ℚ) / 100 = (100 * |y| - round (100 * |y|)) / 100 by ring, abs_div,
      abs_of_pos (by norm_num : (0 : ℚ) < 100)]
    linarith
  have hy : |(if decide (y < 0) then (-1 : ℚ) else 1) * (n / 100 : ℚ) - y| ≤ 1 / 200 := by
    by_cases hlt : y < 0
    · simp only [hlt, decide_true, if_true]
      rw [abs_of_neg hlt] at hr hr2
      rw [show -1 * ((n : ℚ) / 100) - y = -y - n / 100 by ring]
      exact hr.trans hr2
    · simp only [hlt, decide_false]
      rw [abs_of_nonneg (not_lt.1 hlt)] at hr hr2
      rw [abs_sub_comm] at hr
      simpa using hr.trans hr2
  calc _ = |((if decide (y < 0) then (-1 : ℚ) else 1) * (n / 100 : ℚ) - y) + (y - meanOf vs)| := by ring_nf
    _ ≤ _ := (abs_add_le _ _).trans (add_le_add hy hc)

theorem print_550_00 : printAvg (.quot 5500 10) = Cli.str "550.00" := by
  have e : (Avg.quot 5500 10).float = ⟨false, 4837851162214400, -43⟩ := by decide +kernel
  have e2 : nearestEven (100 * 4837851162214400 * 2 ^ (-43 : ℤ).toNat) (2 ^ (-(-43 : ℤ)).toNat) = 55000 := by decide +kernel
  simp only [printAvg, e, fmtFixed2, e2]
  simp [Cli.fmtNat, Cli.str]

theorem print_586_17 : printAvg (.quot (Int64.ofInt 175850) 300) = Cli.str "586.17" := by
  have e : (Avg.quot (Int64.ofInt 175850) 300).float = ⟨false, 5155976526517589, -43⟩ := by decide +kernel
  have e2 : nearestEven (100 * 5155976526517589 * 2 ^ (-43 : ℤ).toNat) (2 ^ (-(-43 : ℤ)).toNat) = 58617 := by decide +kernel
  simp only [printAvg, e, fmtFixed2, e2]
  simp [Cli.fmtNat, Cli.str]

theorem print_413_33 : printAvg (.quot (Int64.ofInt 3720) 9) = Cli.str "413.33" := by
  have e : (Avg.quot (Int64.ofInt 3720) 9).float = ⟨false, 7271436898358613, -44⟩ := by decide +kernel
  have e2 : nearestEven (100 * 7271436898358613 * 2 ^ (-44 : ℤ).toNat) (2 ^ (-(-44 : ℤ)).toNat) = 41333 := by decide +kernel
  simp only [printAvg, e, fmtFixed2, e2]
  simp [Cli.fmtNat, Cli.str]

theorem print_626_75 : printAvg (.quot (Int64.ofInt 125350) 200) = Cli.str "626.75" := by
  have e : (Avg.quot (Int64.ofInt 125350) 200).float = ⟨false, 5512951301668864, -43⟩ := by decide +kernel
  have e2 : nearestEven (100 * 5512951301668864 * 2 ^ (-43 : ℤ).toNat) (2 ^ (-(-43 : ℤ)).toNat) = 62675 := by decide +kernel
  simp only [printAvg, e, fmtFixed2, e2]
  simp [Cli.fmtNat, Cli.str]

theorem print_625_00 : printAvg (.quot (Int64.ofInt 62500) 100) = Cli.str "625.00" := by
  have e : (Avg.quot (Int64.ofInt 62500) 100).float = ⟨false, 5497558138880000, -43⟩ := by decide +kernel
  have e2 : nearestEven (100 * 5497558138880000 * 2 ^ (-43 : ℤ).toNat) (2 ^ (-(-43 : ℤ)).toNat) = 62500 := by decide +kernel
  simp only [printAvg, e, fmtFixed2, e2]
  simp [Cli.fmtNat, Cli.str]

theorem print_654_17 : printAvg (.quot (Int64.ofInt 39250) 60) = Cli.str "654.17" := by
  have e : (Avg.quot (Int64.ofInt 39250) 60).float = ⟨false, 5754110852027733, -43⟩ := by decide +kernel
  have e2 : nearestEven (100 * 5754110852027733 * 2 ^ (-43 : ℤ).toNat) (2 ^ (-(-43 : ℤ)).toNat) = 65417 := by decide +kernel
  simp only [printAvg, e, fmtFixed2, e2]
  simp [Cli.fmtNat, Cli.str]

/-- **C64.** The example program prints exactly this (or fails). -/
theorem C64_example (env : Env) (sched : Sched) (hs : sched.Fair) (name : Bytes)
    (hbm : ∀ L : List UInt64, L.length ≤ 300 → (Bitmap.toBuffer (L.foldl Bitmap.set (Bitmap.empty : B))).length < 2 ^ 32) :
    ((∃ e, FilterExample.main (B := B) env sched printAvg name = .err e) ∨
      FilterExample.main (B := B) env sched printAvg name =
        .ok (FilterExample.expected (fun s n => FilterExample.text (exampleAverage s n)) name)) ∧
    (env.NoFault → FilterExample.main (B := B) env sched printAvg name =
      .ok (FilterExample.expected (fun s n => FilterExample.text (exampleAverage s n)) name)) := by
  have e : FilterExample.expected (fun s n => printAvg (.quot (Int64.ofInt s) n)) name =
      FilterExample.expected (fun s n => FilterExample.text (exampleAverage s n)) name := by
    unfold FilterExample.expected
    dsimp only
    rw [print_586_17, print_413_33, print_626_75, print_625_00, print_654_17]
    rfl
  rw [← e]
  exact FilterExample.C58_example env sched hs printAvg name hbm

/-- **C64.** The program `read_example` prints the average 550.00 for the file of `write_example`. -/
theorem C64_readExample (usage name : Bytes) (crc : Bytes → UInt64) (now : UInt64) (dump agg : Bool) :
    Examples.run printAvg usage name (Examples.exampleFile crc now) dump agg =
      .ok (Examples.exampleText (Examples.ascii "550.00") usage name dump agg) := by
  rw [Examples.C56_roundtrip, print_550_00]
  rfl

/-- Non-vacuity of C64: a file on which `vibecol read --agg` prints an average. -/
example (usage name : Bytes) : ∃ file, Finalized IdSet quietEnv exampleOpts oldLog file ∧
    ∃ text before t y, Cli.runRead (B := IdSet) printAvg usage inOrder name file true true = (text, none) ∧
      text = before ++ Cli.str "\nAverage: " ++ t ++ Cli.str "\n" ∧ Printed2 t y ∧ IsAverage [30, -10, 20, -1] y := by
  obtain ⟨file, h⟩ := old_finalized
  obtain ⟨text, before, t, y, h1, _, h2, h3, h4⟩ := C64_read h (.inr (.inr (.inr rfl))) (by decide) (by unfold StatsRepresentable; decide)
    usage name inOrder true
  rw [show valuesOf (acked oldLog) = [30, -10, 20, -1] from by decide] at h4
  exact ⟨file, h, text, before, t, y, h1, h2, h3, h4⟩

/-- The average of those values is printed as 9.75. -/
example : printAvg (.quot 39 4) = Cli.str "9.75" := by
  have e : (Avg.quot 39 4).float = ⟨false, 5488762045857792, -49⟩ := by decide +kernel
  have e2 : nearestEven (100 * 5488762045857792 * 2 ^ (-49 : ℤ).toNat) (2 ^ (-(-49 : ℤ)).toNat) = 975 := by decide +kernel
  simp only [printAvg, e, fmtFixed2, e2]
  simp [Cli.fmtNat, Cli.str]

/-- **C64.** A negative average above -0.005 is printed with a minus sign in front of zero. -/
theorem C64_minusZero : printAvg (.quot (-1) 300) = Cli.str "-0.00" := by
  have e : (Avg.quot (-1) 300).float.neg = true := by decide +kernel
  have e2 : nearestEven (100 * (Avg.quot (-1) 300).float.man * 2 ^ (Avg.quot (-1) 300).float.exp.toNat)
    (2 ^ (-(Avg.quot (-1) 300).float.exp).toNat) = 0 := by decide +kernel
  simp only [printAvg, fmtFixed2, e, e2]
  simp [Cli.fmtNat, Cli.str]

end VibeCol
