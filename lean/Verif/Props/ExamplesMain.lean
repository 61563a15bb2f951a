/-
C75: the example programs from the command line to the exit status, with file operations that fail.
-/
import Verif.Spec.ExamplesMain
import Verif.Props.ExamplesAgg
import Verif.Props.CommandLine
import Verif.Props.Float
namespace VibeCol.ExampleCmd
open VibeCol.Cli (str fmtNat)
open VibeCol.Cmd (Files FlagErr Values Kind Value Sets Options Rest lastOf parse_iff setAll string_of bool_of lastOf_text lastOf_bool)
open VibeCol.Examples (Stats Opened exampleFile exampleText sampleIDs)

/-! ### write_example -/

theorem bind_some {α β : Type} {m : P α} {f : α → P β} {s s' : St} {a : α} (h : m s = (some a, s')) : (m >>= f) s = f a s' := by
  show (match m s with | (some a, s) => f a s | (none, s) => (none, s)) = _
  rw [h]

/-- A file whose cursor is at its end. -/
def AtEnd (f : File) : Prop := f.pos = f.bytes.length

theorem writeAt_length (b d : Bytes) (p : Nat) (h : p ≤ b.length) : (writeAt b p d).length = max b.length (p + d.length) := by
  unfold writeAt
  cases d with
  | nil => simp; omega
  | cons x xs =>
    simp only [List.length_append, List.length_take, List.length_replicate, List.length_drop, List.length_cons]
    omega

theorem put_any (w : World) (d : Bytes) (s : St) (hp : s.file.pos ≤ s.file.bytes.length) : ∃ f, put w d s = (some (), ⟨f, s.ops + 1⟩) ∧
    f.pos ≤ f.bytes.length ∧ (AtEnd s.file → AtEnd f) ∧ s.file.bytes.length ≤ f.bytes.length ∧
    ((∀ n, w.write n = none) → f = Examples.put s.file d) := by
  refine ⟨_, rfl, ?_, ?_, ?_, ?_⟩
  · simp only [Examples.put]
    rw [writeAt_length _ _ _ hp]; omega
  · intro h
    simp only [AtEnd, Examples.put] at h ⊢
    rw [writeAt_length _ _ _ hp]; omega
  · simp only [Examples.put]
    rw [writeAt_length _ _ _ hp]; omega
  · intro h
    rw [h]

theorem puts_any (w : World) (ds : List Bytes) (s : St) (hp : s.file.pos ≤ s.file.bytes.length) :
    ∃ f, puts w ds s = (some (), ⟨f, s.ops + ds.length⟩) ∧
    f.pos ≤ f.bytes.length ∧ (AtEnd s.file → AtEnd f) ∧ s.file.bytes.length ≤ f.bytes.length ∧
    ((∀ n, w.write n = none) → f = Examples.puts s.file ds) := by
  induction ds generalizing s with
  | nil => exact ⟨_, rfl, hp, id, Nat.le_refl _, fun _ => rfl⟩
  | cons d ds ih =>
    obtain ⟨f1, h1, h2, h3, h4, h5⟩ := put_any w d s hp
    obtain ⟨f2, g1, g2, g3, g4, g5⟩ := ih ⟨f1, s.ops + 1⟩ h2
    refine ⟨f2, ?_, g2, fun h => g3 (h3 h), Nat.le_trans h4 g4, fun h => ?_⟩
    · show (put w d >>= fun _ => puts w ds) s = _
      rw [bind_some h1, g1]
      show (some (), St.mk f2 (s.ops + 1 + ds.length)) = (some (), St.mk f2 (s.ops + (ds.length + 1)))
      rw [Nat.add_assoc, Nat.add_comm 1]
    · rw [g5 h, h5 h]; rfl

theorem position_ok {w : World} (s : St) (hw : w.other s.ops = true) : position w s = (some s.file.pos, ⟨s.file, s.ops + 1⟩) :=
  if_pos hw
theorem seek_ok {w : World} (p : Nat) (s : St) (hw : w.other s.ops = true) : seek w p s = (some (), ⟨Examples.seek s.file p, s.ops + 1⟩) :=
  if_pos hw
theorem seekEnd_ok {w : World} (s : St) (hw : w.other s.ops = true) :
    seekEnd w s = (some (), ⟨Examples.seek s.file s.file.bytes.length, s.ops + 1⟩) := if_pos hw

theorem read_ok {w : World} (n : Nat) (s : St) (hw : w.read s.ops = true) (h : s.file.pos + n ≤ s.file.bytes.length) :
    read w n s = (some (Examples.read s.file n).1, ⟨(Examples.read s.file n).2, s.ops + 1⟩) ∧
    (Examples.read s.file n).2 = ⟨s.file.bytes, s.file.pos + n⟩ := by
  have hl : (Examples.read s.file n).1.length = n := by
    simp only [Examples.read, List.length_take, List.length_drop]
    omega
  constructor
  · unfold read
    rw [if_neg (by rw [hw]; decide)]
    dsimp only
    rw [if_neg]
    · rw [hl, Nat.sub_self]; simp
    · rintro ⟨h1, h2⟩
      rw [h1] at hl
      exact h2 hl.symm
  · have : (Examples.read s.file n).2 = ⟨s.file.bytes, s.file.pos + (Examples.read s.file n).1.length⟩ := rfl
    rw [this, hl]

theorem OnlyWritesFail.completes {w : World} (h : OnlyWritesFail w) : Completes w := ⟨fun n _ => (h n).2, fun n _ => (h n).1⟩

/-- `writeFile` succeeds whichever writes fail, and without failures it does what it should. -/
theorem writeFile_ok {w : World} (hw : Completes w) (crc : Bytes → UInt64) {s : Stats}
    (hs : Examples.stats sampleIDs Examples.sampleValues = .ok s) :
    ∃ size st, writeFile w crc s ⟨⟨[], 0⟩, 0⟩ = (some size, st) ∧
      ((∀ n, w.write n = none) → Examples.writeFile crc w.now = .ok (st.file, size)) := by
  obtain ⟨ho, hr⟩ := hw
  unfold writeFile
  dsimp only
  obtain ⟨f1, e1, l1, a1, _, x1⟩ := puts_any w
    [le64 Examples.magic, le32 1, le32 0, le64 1, le32 (4 * 1024), le32 0, le32 0, le64 w.now, List.replicate 24 0] ⟨⟨[], 0⟩, 0⟩ (Nat.le_refl _)
  rw [bind_some (s' := ⟨f1, 9⟩) e1]
  obtain ⟨f2, e2, l2, a2, _, x2⟩ := puts_any w
    [le64 s.minID, le64 s.maxID, leI64 s.minValue, leI64 s.maxValue, leI64 s.sum, le32 (UInt32.ofNat sampleIDs.length), le32 0, le32 0,
    le32 (UInt32.ofNat sampleIDs.length * 8 * 2), le32 (UInt32.ofNat sampleIDs.length * 8 * 2)] ⟨f1, 9⟩ l1
  rw [bind_some (s' := ⟨f2, 19⟩) e2, bind_some (s' := ⟨f2, 20⟩) (position_ok ⟨f2, 19⟩ (ho 19 (by decide)))]
  dsimp only
  obtain ⟨f3, e3, l3, a3, b3, x3⟩ := puts_any w [le64 0, List.replicate 8 0] ⟨f2, 20⟩ l2
  rw [bind_some (s' := ⟨f3, 22⟩) e3]
  obtain ⟨f4, e4, l4, a4, b4, x4⟩ := puts_any w [le32 0, le32 (UInt32.ofNat sampleIDs.length * 8),
    le32 (UInt32.ofNat sampleIDs.length * 8), le32 (UInt32.ofNat sampleIDs.length * 8)] ⟨f3, 22⟩ l3
  rw [bind_some (s' := ⟨f4, 26⟩) e4, bind_some (s' := ⟨f4, 27⟩) (position_ok ⟨f4, 26⟩ (ho 26 (by decide)))]
  dsimp only
  obtain ⟨f5, e5, l5, a5, b5, x5⟩ := puts_any w (sampleIDs.map le64) ⟨f4, 27⟩ l4
  rw [bind_some (s' := ⟨f5, 37⟩) e5]
  obtain ⟨f6, e6, l6, a6, b6, x6⟩ := puts_any w (Examples.sampleValues.map leI64) ⟨f5, 37⟩ l5
  rw [bind_some (s' := ⟨f6, 47⟩) e6, bind_some (s' := ⟨f6, 48⟩) (position_ok ⟨f6, 47⟩ (ho 47 (by decide))), bind_some (s' := ⟨Examples.seek f6 f4.pos, 49⟩) (seek_ok _ ⟨f6, 48⟩ (ho 48 (by decide)))]
  dsimp only at *
  have c1 : AtEnd f1 := a1 rfl
  have c4 : AtEnd f4 := a4 (a3 (a2 c1))
  have c6 : AtEnd f6 := a6 (a5 c4)
  unfold AtEnd at c4 c6
  obtain ⟨r1, r2⟩ := read_ok (f6.pos - f4.pos) ⟨Examples.seek f6 f4.pos, 49⟩ (hr 49 (by decide)) (by simp only [Examples.seek]; omega)
  rw [bind_some (s' := ⟨_, 50⟩) r1, bind_some (s' := ⟨_, 51⟩) (seek_ok _ ⟨_, 50⟩ (ho 50 (by decide)))]
  dsimp only at r2 ⊢
  generalize hbd : (Examples.read (Examples.seek f6 f4.pos) (f6.pos - f4.pos)).1 = bd
  rw [r2]
  simp only [Examples.seek]
  obtain ⟨f7, e7, l7, _, b7, x7⟩ := put_any w (le64 (crc bd)) ⟨⟨f6.bytes, f2.pos⟩, 51⟩ (by dsimp only; omega)
  rw [bind_some (s' := ⟨f7, 52⟩) e7, bind_some (s' := ⟨_, 53⟩) (seekEnd_ok ⟨f7, 52⟩ (ho 52 (by decide))), bind_some (s' := ⟨_, 54⟩) (position_ok ⟨_, 53⟩ (ho 53 (by decide)))]
  simp only [Examples.seek] at b7 ⊢
  obtain ⟨f8, e8, l8, a8, b8, x8⟩ := puts_any w [le32 1] ⟨⟨f7.bytes, f7.bytes.length⟩, 54⟩ (Nat.le_refl _)
  rw [bind_some (s' := ⟨f8, 55⟩) e8]
  obtain ⟨f9, e9, l9, a9, b9, x9⟩ := puts_any w
    [le64 (UInt64.ofNat 64), le32 (UInt32.ofNat f6.pos - UInt32.ofNat 64), le64 s.minID, le64 s.maxID,
    leI64 s.minValue, leI64 s.maxValue, leI64 s.sum, le32 (UInt32.ofNat sampleIDs.length)] ⟨f8, 55⟩ l8
  rw [bind_some (s' := ⟨f9, 63⟩) e9, bind_some (s' := ⟨f9, 64⟩) (position_ok ⟨f9, 63⟩ (ho 63 (by decide)))]
  dsimp only at *
  obtain ⟨f10, e10, l10, _, b10, x10⟩ := put_any w (le64 (UInt64.ofNat (f9.pos - f7.bytes.length))) ⟨f9, 64⟩ l9
  rw [bind_some (s' := ⟨f10, 65⟩) e10, bind_some (s' := ⟨_, 66⟩) (seek_ok _ ⟨f10, 65⟩ (ho 65 (by decide)))]
  simp only [Examples.seek] at b10 ⊢
  obtain ⟨q1, q2⟩ := read_ok f9.pos ⟨⟨f10.bytes, 0⟩, 66⟩ (hr 66 (by decide)) (by dsimp only at *; omega)
  rw [bind_some (s' := ⟨_, 67⟩) q1]
  dsimp only at q2 ⊢
  generalize hfd : (Examples.read ⟨f10.bytes, 0⟩ f9.pos).1 = fd
  rw [q2]
  obtain ⟨f11, e11, l11, _, b11, x11⟩ := put_any w (le64 (crc fd)) ⟨⟨f10.bytes, 0 + f9.pos⟩, 67⟩ (by dsimp only; omega)
  rw [bind_some (s' := ⟨f11, 68⟩) e11]
  dsimp only at *
  obtain ⟨f12, e12, l12, _, b12, x12⟩ := put_any w (le64 Examples.magic) ⟨f11, 68⟩ l11
  rw [bind_some (s' := ⟨f12, 69⟩) e12, position_ok ⟨f12, 69⟩ (ho 69 (by decide))]
  refine ⟨_, _, rfl, fun hn => ?_⟩
  replace x1 := x1 hn
  replace x2 := x2 hn
  replace x3 := x3 hn
  replace x4 := x4 hn
  replace x5 := x5 hn
  replace x6 := x6 hn
  replace x7 := x7 hn
  replace x8 := x8 hn
  replace x9 := x9 hn
  replace x10 := x10 hn
  replace x11 := x11 hn
  replace x12 := x12 hn
  unfold Examples.writeFile
  rw [hs, Res.ok_bind]
  dsimp only
  rw [← x1, ← x2, ← x3, ← x4, ← x5, ← x6]
  rw [show Examples.read (Examples.seek f6 f4.pos) (f6.pos - f4.pos) = (bd, ⟨f6.bytes, f4.pos + (f6.pos - f4.pos)⟩) from Prod.ext hbd r2]
  simp only [Examples.seek]
  rw [← x7, ← x8, ← x9, ← x10, show Examples.read ⟨f10.bytes, 0⟩ f9.pos = (fd, ⟨f10.bytes, 0 + f9.pos⟩) from Prod.ext hfd q2]
  dsimp only
  rw [← x11, ← x12]

theorem stats_ok : Examples.stats sampleIDs Examples.sampleValues = .ok ⟨1, 45, 100, 1000, 5500⟩ := Examples.sample_stats

/-- **C75.** `write_example` ends with status 0 and claims that ten entries were written, whichever of its writes failed, and however
little they put into the file. -/
theorem C75_lossy (crc : Bytes → UInt64) {w : World} (fs : Files) (hc : w.creatable (str "example.col") = true) (hw : OnlyWritesFail w) :
    ∃ size, (writeMain crc w fs).stop.status = 0 ∧
      (writeMain crc w fs).out = str "Wrote example file with 10 entries to example.col\nFile size: " ++ fmtNat size ++ str " bytes\n" := by
  obtain ⟨size, st, h, _⟩ := writeFile_ok hw.completes crc stats_ok
  refine ⟨size, ?_⟩
  unfold writeMain
  dsimp only
  rw [if_neg (by rw [hc]; decide), stats_ok]
  dsimp only
  rw [h]
  refine ⟨rfl, ?_⟩
  dsimp only
  have e10 : fmtNat sampleIDs.length = str "10" := by simp [fmtNat, sampleIDs]; decide
  have e : str "Wrote example file with 10 entries to example.col\nFile size: " =
      str "Wrote example file with " ++ str "10" ++ str " entries to " ++ str "example.col" ++ str "\n" ++ str "File size: " := by
    simp only [← Cli.str_append]; rfl
  rw [e10, e]

theorem bind_isSome {α β : Type} {m : P α} {f : α → P β} {s : St} (h : ((m >>= f) s).1.isSome = true) :
    ∃ a s1, m s = (some a, s1) ∧ (f a s1).1.isSome = true := by
  have e : (m >>= f) s = match m s with | (some a, s) => f a s | (none, s) => (none, s) := rfl
  rw [e] at h
  rcases hm : m s with ⟨_ | a, s1⟩
  · rw [hm] at h; cases h
  · rw [hm] at h; exact ⟨a, s1, rfl, h⟩

theorem puts_ops (w : World) (ds : List Bytes) (s : St) : ∃ f, puts w ds s = (some (), ⟨f, s.ops + ds.length⟩) := by
  induction ds generalizing s with
  | nil => exact ⟨_, rfl⟩
  | cons d ds ih =>
    have h1 : put w d s = (some (), ⟨_, s.ops + 1⟩) := rfl
    obtain ⟨f, h⟩ := ih (put w d s).2
    refine ⟨f, ?_⟩
    show (put w d >>= fun _ => puts w ds) s = _
    rw [bind_some h1]
    refine h.trans ?_
    show (some (), St.mk f (s.ops + 1 + ds.length)) = (some (), St.mk f (s.ops + (ds.length + 1)))
    rw [Nat.add_assoc, Nat.add_comm 1]

theorem puts_needs {β : Type} {w : World} {ds : List Bytes} {f : Unit → P β} {s : St} (h : ((puts w ds >>= f) s).1.isSome = true) :
    ∃ s1, s1.ops = s.ops + ds.length ∧ (f () s1).1.isSome = true := by
  obtain ⟨F, hF⟩ := puts_ops w ds s
  rw [bind_some hF] at h
  exact ⟨_, rfl, h⟩

theorem put_needs {β : Type} {w : World} {d : Bytes} {f : Unit → P β} {s : St} (h : ((put w d >>= f) s).1.isSome = true) :
    ∃ s1, s1.ops = s.ops + 1 ∧ (f () s1).1.isSome = true := ⟨_, rfl, h⟩

theorem position_needs {β : Type} {w : World} {f : Nat → P β} {s : St} (h : ((position w >>= f) s).1.isSome = true) :
    w.other s.ops = true ∧ ∃ p s1, s1.ops = s.ops + 1 ∧ (f p s1).1.isSome = true := by
  obtain ⟨a, s1, h1, h2⟩ := bind_isSome h
  unfold position at h1
  split at h1
  · rename_i ho
    cases h1
    exact ⟨ho, _, _, rfl, h2⟩
  · cases h1

theorem seek_needs {β : Type} {w : World} {p : Nat} {f : Unit → P β} {s : St} (h : ((seek w p >>= f) s).1.isSome = true) :
    w.other s.ops = true ∧ ∃ s1, s1.ops = s.ops + 1 ∧ (f () s1).1.isSome = true := by
  obtain ⟨a, s1, h1, h2⟩ := bind_isSome h
  unfold seek at h1
  split at h1
  · rename_i ho
    cases h1
    exact ⟨ho, _, rfl, h2⟩
  · cases h1

theorem seekEnd_needs {β : Type} {w : World} {f : Unit → P β} {s : St} (h : ((seekEnd w >>= f) s).1.isSome = true) :
    w.other s.ops = true ∧ ∃ s1, s1.ops = s.ops + 1 ∧ (f () s1).1.isSome = true := by
  obtain ⟨a, s1, h1, h2⟩ := bind_isSome h
  unfold seekEnd at h1
  split at h1
  · rename_i ho
    cases h1
    exact ⟨ho, _, rfl, h2⟩
  · cases h1

theorem read_needs {β : Type} {w : World} {n : Nat} {f : Bytes → P β} {s : St} (h : ((read w n >>= f) s).1.isSome = true) :
    w.read s.ops = true ∧ ∃ d s1, s1.ops = s.ops + 1 ∧ (f d s1).1.isSome = true := by
  obtain ⟨a, s1, h1, h2⟩ := bind_isSome h
  unfold read at h1
  split at h1
  · cases h1
  · rename_i ho
    dsimp only at h1
    split at h1
    · cases h1
    · cases h1
      exact ⟨by simpa using ho, _, _, rfl, h2⟩

theorem completes_of {w : World} (h1 : w.other 19 = true) (h2 : w.other 26 = true) (h3 : w.other 47 = true) (h4 : w.other 48 = true)
    (h5 : w.other 50 = true) (h6 : w.other 52 = true) (h7 : w.other 53 = true) (h8 : w.other 63 = true) (h9 : w.other 65 = true)
    (h10 : w.other 69 = true) (r1 : w.read 49 = true) (r2 : w.read 66 = true) : Completes w := by
  refine ⟨fun n hn => ?_, fun n hn => ?_⟩
  · simp only [List.mem_cons, List.not_mem_nil, or_false] at hn
    rcases hn with rfl | rfl | rfl | rfl | rfl | rfl | rfl | rfl | rfl | rfl <;> assumption
  · simp only [List.mem_cons, List.not_mem_nil, or_false] at hn
    rcases hn with rfl | rfl <;> assumption

theorem writeFile_needs {w : World} {crc : Bytes → UInt64} {st : Stats} {s : St} (h0 : s.ops = 0)
    (h : (writeFile w crc st s).1.isSome = true) : Completes w := by
  unfold writeFile at h
  dsimp only at h
  obtain ⟨s1, o1, h⟩ := puts_needs h
  obtain ⟨s2, o2, h⟩ := puts_needs h
  obtain ⟨k1, p1, s3, o3, h⟩ := position_needs h
  obtain ⟨s4, o4, h⟩ := puts_needs h
  obtain ⟨s5, o5, h⟩ := puts_needs h
  obtain ⟨k2, p2, s6, o6, h⟩ := position_needs h
  obtain ⟨s7, o7, h⟩ := puts_needs h
  obtain ⟨s8, o8, h⟩ := puts_needs h
  obtain ⟨k3, p3, s9, o9, h⟩ := position_needs h
  obtain ⟨k4, s10, o10, h⟩ := seek_needs h
  obtain ⟨k5, d1, s11, o11, h⟩ := read_needs h
  obtain ⟨k6, s12, o12, h⟩ := seek_needs h
  obtain ⟨s13, o13, h⟩ := put_needs h
  obtain ⟨k7, s14, o14, h⟩ := seekEnd_needs h
  obtain ⟨k8, p4, s15, o15, h⟩ := position_needs h
  obtain ⟨s16, o16, h⟩ := puts_needs h
  obtain ⟨s17, o17, h⟩ := puts_needs h
  obtain ⟨k9, p5, s18, o18, h⟩ := position_needs h
  obtain ⟨s19, o19, h⟩ := put_needs h
  obtain ⟨k10, s20, o20, h⟩ := seek_needs h
  obtain ⟨k11, d2, s21, o21, h⟩ := read_needs h
  obtain ⟨s22, o22, h⟩ := put_needs h
  obtain ⟨s23, o23, h⟩ := put_needs h
  have k12 : w.other s23.ops = true := by
    unfold position at h
    split at h
    · assumption
    · cases h
  clear h
  simp only [List.length_cons, List.length_nil, List.length_map, show sampleIDs.length = 10 from rfl, show Examples.sampleValues.length = 10 from rfl]
    at o1 o2 o3 o4 o5 o6 o7 o8 o9 o10 o11 o12 o13 o14 o15 o16 o17 o18 o19 o20 o21 o22 o23
  rw [show s2.ops = 19 by omega] at k1
  rw [show s5.ops = 26 by omega] at k2
  rw [show s8.ops = 47 by omega] at k3
  rw [show s9.ops = 48 by omega] at k4
  rw [show s10.ops = 49 by omega] at k5
  rw [show s11.ops = 50 by omega] at k6
  rw [show s13.ops = 52 by omega] at k7
  rw [show s14.ops = 53 by omega] at k8
  rw [show s17.ops = 63 by omega] at k9
  rw [show s19.ops = 65 by omega] at k10
  rw [show s20.ops = 66 by omega] at k11
  rw [show s23.ops = 69 by omega] at k12
  exact completes_of k1 k2 k3 k4 k6 k7 k8 k9 k10 k12 k5 k11

/-- **C75.** When exactly `write_example` ends with status 0: if the file can be created and none of its twelve operations that are not writes
fails. Otherwise it ends with status 1 and claims nothing. -/
theorem C75_status (crc : Bytes → UInt64) (w : World) (fs : Files) :
    ((writeMain crc w fs).stop.status = 0 ↔ w.creatable (str "example.col") = true ∧ Completes w) ∧
    ((writeMain crc w fs).stop.status ≠ 0 → (writeMain crc w fs).stop.status = 1 ∧ (writeMain crc w fs).out = []) := by
  unfold writeMain
  dsimp only
  by_cases hc : w.creatable (str "example.col") = false
  · rw [if_pos hc]
    refine ⟨⟨fun h => (by cases h), fun h => ?_⟩, fun _ => ⟨rfl, rfl⟩⟩
    rw [hc] at h
    cases h.1
  · rw [if_neg hc, stats_ok]
    dsimp only
    by_cases hw : Completes w
    · obtain ⟨size, st, h, _⟩ := writeFile_ok hw crc stats_ok
      rw [h]
      exact ⟨⟨fun _ => ⟨by simpa using hc, hw⟩, fun _ => rfl⟩, fun h => absurd rfl h⟩
    · rcases h : writeFile w crc ⟨1, 45, 100, 1000, 5500⟩ ⟨⟨[], 0⟩, 0⟩ with ⟨_ | size, st⟩
      · exact ⟨⟨fun h => (by cases h), fun h => absurd h.2 hw⟩, fun _ => ⟨rfl, rfl⟩⟩
      · exact absurd (writeFile_needs rfl (by rw [h]; rfl)) hw

/-- **C75.** If nothing fails, `write_example` ends with status 0, reports the size, and `example.col` is the documented file. -/
theorem C75_written (crc : Bytes → UInt64) {w : World} (fs : Files) (hc : w.creatable (str "example.col") = true) (hw : NothingFails w) :
    writeMain crc w fs = ⟨str "Wrote example file with 10 entries to example.col\nFile size: 396 bytes\n", .success,
      fs.put (str "example.col") (exampleFile crc w.now)⟩ := by
  obtain ⟨size, st, h, hn⟩ := writeFile_ok hw.1.completes crc stats_ok
  obtain ⟨f, h1, h2, _⟩ := Examples.C56_file crc w.now
  have h3 := hn hw.2
  rw [h1] at h3
  cases h3
  unfold writeMain
  dsimp only
  rw [if_neg (by rw [hc]; decide), stats_ok]
  dsimp only
  rw [h]
  dsimp only
  rw [h2]
  have e10 : fmtNat sampleIDs.length = str "10" := by simp [fmtNat, sampleIDs]; decide
  have e396 : fmtNat 396 = str "396" := by simp [fmtNat]; decide
  have e : str "Wrote example file with 10 entries to example.col\nFile size: 396 bytes\n" =
      str "Wrote example file with " ++ str "10" ++ str " entries to " ++ str "example.col" ++ str "\n" ++ str "File size: " ++
        str "396" ++ str " bytes\n" := by
    simp only [← Cli.str_append]; rfl
  rw [e10, e, e396]

/-! ### read_example -/

/-- `m` does what `x` does, up to `φ`, unless an operation fails. -/
def Follows {α β : Type} (w : World) (φ : α → β) (m : R α) (x : Res β) : Prop := ∀ n,
  (∃ a k, m n = .ok (a, k) ∧ x = .ok (φ a)) ∨ (∃ e, m n = .err e ∧ x = .err e) ∨ (m n = .panic ∧ x = .panic) ∨
  (m n = .err .io ∧ ¬ OnlyWritesFail w)

theorem Follows.bind {α β γ : Type} {w : World} {φ : β → γ} {m : R α} {x : Res α} {f : α → R β} {g : α → Res γ}
    (h : Follows w id m x) (hf : ∀ a, Follows w φ (f a) (g a)) : Follows w φ (m >>= f) (x >>= g) := by
  intro n
  have hb : (m >>= f) n = match m n with | .ok (a, n) => f a n | .err e => .err e | .panic => .panic := rfl
  rw [hb]
  rcases h n with ⟨a, k, h1, rfl⟩ | ⟨e, h1, rfl⟩ | ⟨h1, rfl⟩ | ⟨h1, h2⟩
  · rw [h1]; exact hf a k
  · rw [h1]; exact .inr (.inl ⟨e, rfl, rfl⟩)
  · rw [h1]; exact .inr (.inr (.inl ⟨rfl, rfl⟩))
  · rw [h1]; exact .inr (.inr (.inr ⟨rfl, h2⟩))

theorem Follows.ok {α β : Type} (w : World) (φ : α → β) (a : α) : Follows w φ (pure a) (.ok (φ a)) :=
  fun n => .inl ⟨a, n, rfl, rfl⟩

theorem Follows.fail {α β : Type} (w : World) (φ : α → β) (e : Err) : Follows w φ (fail e) (.err e) :=
  fun _ => .inr (.inl ⟨e, rfl, rfl⟩)

theorem Follows.reading {α : Type} (w : World) (x : Res α) : Follows w id (reading w x) x := by
  intro n
  unfold ExampleCmd.reading
  by_cases h : w.read n = true
  · rw [if_pos h]
    cases x with
    | ok a => exact .inl ⟨a, n + 1, rfl, rfl⟩
    | err e => exact .inr (.inl ⟨e, rfl, rfl⟩)
    | panic => exact .inr (.inr (.inl ⟨rfl, rfl⟩))
  · rw [if_neg h]
    exact .inr (.inr (.inr ⟨rfl, fun hw => h (hw n).1⟩))

theorem Follows.other {α β : Type} {w : World} {φ : α → β} {m : Unit → R α} {x : Res β} (h : Follows w φ (m ()) x) :
    Follows w φ (other w >>= m) x := by
  have h1 : Follows w id (ExampleCmd.other w) (.ok ()) := by
    intro n
    unfold ExampleCmd.other
    by_cases ho : w.other n = true
    · rw [if_pos ho]; exact .inl ⟨(), n + 1, rfl, rfl⟩
    · rw [if_neg ho]; exact .inr (.inr (.inr ⟨rfl, fun hw => ho (hw n).2⟩))
  exact Follows.bind (g := fun _ => x) h1 fun _ => h

theorem readFileHeader_follows (w : World) (file : Bytes) : Follows w id (readFileHeader w file) (Examples.readFileHeader file) := by
  refine .other ?_
  refine .bind (.reading w _) fun a => ?_
  dsimp only
  split
  · exact .fail w id _
  refine .bind (.reading w _) fun a => .bind (.reading w _) fun a => .bind (.reading w _) fun a => .bind (.reading w _) fun a =>
    .bind (.reading w _) fun a => .bind (.reading w _) fun a => .bind (.reading w _) fun a => .other ?_
  exact .ok w id _

theorem readEntries_follows (w : World) (n : Nat) (b : Bytes) : Follows w id (readEntries w n b) (Examples.readEntries n b) := by
  induction n generalizing b with
  | zero => exact .ok w id _
  | succ n ih =>
    refine .bind (.reading w _) fun a => .bind (.reading w _) fun a => .bind (.reading w _) fun a => .bind (.reading w _) fun a =>
      .bind (.reading w _) fun a => .bind (.reading w _) fun a => .bind (.reading w _) fun a => .bind (.reading w _) fun a =>
      .bind (ih _) fun a => ?_
    exact .ok w id _

theorem readFooter_follows (w : World) (file : Bytes) : Follows w id (readFooter w file) (Examples.readFooter file) := by
  unfold readFooter Examples.readFooter
  refine .other ?_
  split
  · exact .fail w id _
  refine .other (.bind (.reading w _) fun a => ?_)
  dsimp only
  split
  · exact .fail w id _
  refine .other (.bind (.reading w _) fun a => ?_)
  exact readEntries_follows w _ _

theorem openFile_follows (w : World) (file : Bytes) : Follows w id (openFile w file) (Examples.openFile file) := by
  refine .bind (readFileHeader_follows w file) fun a => .bind (readFooter_follows w file) fun b => ?_
  exact .ok w id _

theorem getIDs_follows (w : World) (n : Nat) (b : Bytes) : Follows w id (getIDs w n b) (Examples.getIDs n b) := by
  induction n generalizing b with
  | zero => exact .ok w id _
  | succ n ih =>
    refine .bind (.reading w _) fun a => .bind (ih _) fun a => ?_
    exact .ok w id _

theorem getValues_follows (w : World) (n : Nat) (b : Bytes) : Follows w id (getValues w n b) (Examples.getValues n b) := by
  induction n generalizing b with
  | zero => exact .ok w id _
  | succ n ih =>
    refine .bind (.reading w _) fun a => .bind (ih _) fun a => ?_
    exact .ok w id _

theorem dumpRest_follows (fmtAvg : Avg → Bytes) (w : World) (file : Bytes) :
    Follows w (dumpHead ++ ·) (dumpRest fmtAvg w file) (Examples.dump fmtAvg file) := by
  refine .other ?_
  refine .bind (.reading w _) fun a => .bind (.reading w _) fun a => .bind (.reading w _) fun a => .bind (.reading w _) fun a =>
    .bind (.reading w _) fun a => .bind (.reading w _) fun a => .bind (.reading w _) fun a => .bind (.reading w _) fun a =>
    .bind (.reading w _) fun a => .bind (.reading w _) fun a => .bind (.reading w _) fun a => .other ?_
  refine .bind (.reading w _) fun a => .bind (.reading w _) fun a => .bind (.reading w _) fun a => .bind (.reading w _) fun a => .other ?_
  refine .bind (getIDs_follows w _ _) fun ids => .other (.bind (getValues_follows w _ _) fun values => ?_)
  cases Examples.stats ids values with
  | ok s =>
    have := Follows.ok w (dumpHead ++ ·) (((ids.zip values).map fun p => fmtNat p.1.toNat ++ [9] ++ Cli.fmtInt p.2 ++ [10]).flatten ++
      str "\nBlock Statistics (computed from data):\n" ++
      str "Count: " ++ fmtNat 10 ++ str "\n" ++
      str "Min ID: " ++ fmtNat s.minID.toNat ++ str ", Max ID: " ++ fmtNat s.maxID.toNat ++ str "\n" ++
      str "Min Value: " ++ Cli.fmtInt s.minValue ++ str ", Max Value: " ++ Cli.fmtInt s.maxValue ++ str "\n" ++
      str "Sum: " ++ Cli.fmtInt s.sum ++ str "\n" ++
      str "Average: " ++ fmtAvg (.quot s.sum 10) ++ str "\n\n")
    simp only [dumpHead, List.append_assoc] at this ⊢
    exact this
  | err e => exact .fail w _ _
  | panic => exact fun n => .inr (.inr (.inl ⟨rfl, rfl⟩))

theorem display_files (fmtAvg : Avg → Bytes) (w : World) (fs : Files) (name file : Bytes) (d a : Bool) :
    (display fmtAvg w fs name file d a).files = fs := by
  unfold display
  split
  · rfl
  · rfl
  · dsimp only
    split
    · split <;> rfl
    · rfl

/-- A run on a file: without failures it ends as `Examples.run` says, and if it ends with status 0 it printed what `Examples.run` says. -/
theorem display_run (fmtAvg : Avg → Bytes) (w : World) (fs : Files) (name file : Bytes) (d a : Bool) :
    (∃ text, Examples.run fmtAvg noOperation name file d a = .ok text ∧ display fmtAvg w fs name file d a = ⟨text, .success, fs⟩) ∨
    ((display fmtAvg w fs name file d a).stop.status ≠ 0 ∧
      ((∀ text, Examples.run fmtAvg noOperation name file d a ≠ .ok text) ∨ ¬ OnlyWritesFail w)) := by
  unfold display
  rcases openFile_follows w file 0 with ⟨o, k, h1, h2⟩ | ⟨e, h1, h2⟩ | ⟨h1, h2⟩ | ⟨h1, h2⟩
  · rw [h1]
    dsimp only
    unfold Examples.run
    rw [h2, Res.ok_bind]
    dsimp only [id]
    cases d with
    | false =>
      refine .inl ⟨_, rfl, ?_⟩
      simp only [List.append_nil, List.append_assoc]
      rfl
    | true =>
      rw [if_pos rfl]
      rcases dumpRest_follows fmtAvg w file k with ⟨t, k', h3, h4⟩ | ⟨e, h3, h4⟩ | ⟨h3, h4⟩ | ⟨h3, h4⟩
      · rw [h3, if_pos rfl, h4]
        refine .inl ⟨_, rfl, ?_⟩
        simp only [List.append_assoc]
      · rw [h3, if_pos rfl, h4]
        exact .inr ⟨by simp [End.status], .inl (fun t h => by cases h)⟩
      · rw [h3, if_pos rfl, h4]
        exact .inr ⟨by simp [End.status], .inl (fun t h => by cases h)⟩
      · rw [h3]
        exact .inr ⟨by simp [End.status], .inr h4⟩
  · rw [h1]
    refine .inr ⟨by simp [End.status], .inl (fun t h => ?_)⟩
    unfold Examples.run at h
    rw [h2] at h
    cases h
  · rw [h1]
    refine .inr ⟨by simp [End.status], .inl (fun t h => ?_)⟩
    unfold Examples.run at h
    rw [h2] at h
    cases h
  · rw [h1]
    exact .inr ⟨by simp [End.status], .inr h2⟩

/-! ### The command line -/

theorem exampleFlags : Cmd.Flags readKind [str "file"] [str "dump", str "agg"] where
  text n := by
    unfold readKind
    simp only [List.mem_cons, List.not_mem_nil, or_false]
    split
    · simp_all
    · split <;> simp_all
  bool n := by
    unfold readKind
    simp only [List.mem_cons, List.not_mem_nil, or_false]
    split
    · rename_i h
      subst h
      simp only [reduceCtorEq, Option.some.injEq, false_iff]
      decide
    · split <;> simp_all
  plain n h := by
    simp only [List.mem_cons, List.not_mem_nil, or_false] at h
    rcases h with rfl | rfl | rfl <;> decide

theorem readMain_asks {w : World} {fs : Files} {args : List Bytes} {f : Bytes} {d a : Bool} (h : Asks args f d a) :
    readMain w fs args = readFile w fs f d a := by
  obtain ⟨os, hs, hf, hd, ha⟩ := h
  obtain ⟨left, hp⟩ := (parse_iff exampleFlags args readDefaults _).mpr ⟨os, hs, rfl⟩
  unfold readMain
  rw [hp]
  dsimp only
  rw [string_of (v := readDefaults) (s := f) hf, bool_of (v := readDefaults) (b := d) hd, bool_of (v := readDefaults) (b := a) ha]

/-- **C75.** Every command line either asks `read_example` for one file and certain operations, or is rejected: then nothing is read, and
the status is 0 if it asks for help, otherwise 2. -/
theorem C75_commands (args : List Bytes) :
    (∃ f d a, Asks args f d a ∧ ∀ f' d' a', Asks args f' d' a' → f' = f ∧ d' = d ∧ a' = a) ∨
    ((∀ f d a, ¬ Asks args f d a) ∧
      ∃ stop : End, (AsksHelp args → stop.status = 0) ∧ (¬ AsksHelp args → stop.status = 2) ∧
        ∀ w fs, readMain w fs args = ⟨[], stop, fs⟩) := by
  cases hp : Cmd.parse readKind args readDefaults with
  | ok x =>
    obtain ⟨v, left⟩ := x
    obtain ⟨os, hs, rfl⟩ := (parse_iff exampleFlags args readDefaults v).mp ⟨left, hp⟩
    have hs' := hs
    obtain ⟨opts, rest, h1, h2, h3⟩ := hs'
    obtain ⟨f, hf⟩ := lastOf_text h2 (name := str "file") (by decide) (str "example.col")
    obtain ⟨d, hd⟩ := lastOf_bool h2 (name := str "dump") (by decide) false
    obtain ⟨a, ha⟩ := lastOf_bool h2 (name := str "agg") (by decide) false
    refine .inl ⟨f, d, a, ⟨os, hs, hf, hd, ha⟩, ?_⟩
    rintro f' d' a' ⟨os', hs', hf', hd', ha'⟩
    obtain ⟨left', hp'⟩ := (parse_iff exampleFlags args readDefaults _).mpr ⟨os', hs', rfl⟩
    rw [hp] at hp'
    have e : setAll os readDefaults = setAll os' readDefaults := by injection hp' with e; injection e
    refine ⟨?_, ?_, ?_⟩
    · rw [← string_of (v := readDefaults) (s := f') hf', ← e, string_of (v := readDefaults) (s := f) hf]
    · rw [← bool_of (v := readDefaults) (b := d') hd', ← e, bool_of (v := readDefaults) (b := d) hd]
    · rw [← bool_of (v := readDefaults) (b := a') ha', ← e, bool_of (v := readDefaults) (b := a) ha]
  | error e =>
    have hh := Cmd.parse_help exampleFlags (by decide) args readDefaults
    rw [hp] at hh
    refine .inr ⟨?_, .flags e, ?_, ?_, fun w fs => by unfold readMain; rw [hp]⟩
    · rintro f d a ⟨os, hs, _⟩
      obtain ⟨left, hp'⟩ := (parse_iff exampleFlags args readDefaults _).mpr ⟨os, hs, rfl⟩
      rw [hp] at hp'
      cases hp'
    · intro h
      have := hh.mpr h
      injection this with this
      subst this
      rfl
    · intro h
      cases e with
      | help => exact absurd (hh.mp rfl) h
      | _ => rfl

/-- `read_example -dump --help` asks for help, `read_example --fiel x` does not. -/
example : AsksHelp [str "-dump", str "--help"] ∧ ¬ AsksHelp [str "--fiel", str "x"] :=
  ⟨⟨[str "-dump"], _, str "--help", [], rfl, .switch (str "dump") (str "-dump") (by decide) (.inl rfl) .nil,
    str "--help", .inr (.inr rfl), .inl rfl⟩,
  fun h => (by have := (Cmd.parse_help exampleFlags (by decide) _ readDefaults).mpr h; cases this)⟩

/-- **C75.** `read_example` changes no file; `write_example` changes no file except `example.col`, and that only if it can be created. -/
theorem C75_untouched (crc : Bytes → UInt64) (w : World) (fs : Files) (c : Command) (name : Bytes)
    (h : (c.run crc w fs).files name ≠ fs name) :
    name = str "example.col" ∧ w.creatable name = true ∧ ∃ args, c = .write args := by
  cases c with
  | read args =>
    refine absurd ?_ h
    show (readMain w fs args).files name = fs name
    unfold readMain
    split
    · rfl
    · unfold readFile
      split
      · rfl
      · split
        · rfl
        · rw [display_files]
  | write args =>
    change (writeMain crc w fs).files name ≠ fs name at h
    unfold writeMain at h
    dsimp only at h
    split at h
    · exact absurd rfl h
    · rename_i hc
      have hn : name = str "example.col" := by
        apply Classical.byContradiction
        intro hne
        split at h
        · split at h <;> exact h (if_neg hne)
        · exact h (if_neg hne)
      subst hn
      exact ⟨rfl, by simpa using hc, args, rfl⟩

/-- **C75.** A run of `read_example` that ends with status 0 printed what a run without failures prints; and failures cannot turn
an unsuccessful run into a successful one. -/
theorem C75_faults {w w' : World} {fs : Files} {args : List Bytes} (hs : (readMain w fs args).stop.status = 0)
    (hw : OnlyWritesFail w') (ho : ∀ name, w'.openable name = true) : readMain w' fs args = readMain w fs args := by
  rcases C75_commands args with ⟨f, d, a, h, _⟩ | ⟨_, hr⟩
  · rw [readMain_asks h] at hs ⊢
    rw [readMain_asks h]
    unfold readFile at hs ⊢
    cases hf : fs f with
    | none => rfl
    | some file =>
      rw [hf] at hs
      dsimp only at hs ⊢
      rw [if_neg (by rw [ho]; decide)]
      split at hs
      · cases hs
      · rename_i hop
        rw [if_neg hop]
        rcases display_run printAvg w fs f file d a with ⟨t, h1, h2⟩ | ⟨h1, _⟩
        · rcases display_run printAvg w' fs f file d a with ⟨t', h1', h2'⟩ | ⟨_, h2'⟩
          · rw [h2, h2']
            rw [h1] at h1'
            cases h1'
            rfl
          · rcases h2' with h2' | h2'
            · exact absurd h1 (h2' _)
            · exact absurd hw h2'
        · exact absurd hs h1
  · obtain ⟨stop, _, _, hr⟩ := hr
    rw [hr, hr]

theorem put_same (fs : Files) (n b : Bytes) : fs.put n b n = some b := if_pos rfl

theorem session_example (crc : Bytes → UInt64) (cmds : List (World × Command))
    (h : ∀ c ∈ cmds, ∀ args, c.2 = .write args → NothingFails c.1 ∨ c.1.creatable (str "example.col") = false) (fs : Files)
    (hf : ∃ now, fs (str "example.col") = some (exampleFile crc now)) :
    ∃ now, session crc cmds fs (str "example.col") = some (exampleFile crc now) := by
  induction cmds generalizing fs with
  | nil => exact hf
  | cons c cs ih =>
    obtain ⟨w, c⟩ := c
    unfold session
    refine ih (fun c hc => h c (List.mem_cons_of_mem _ hc)) _ ?_
    have keep : (c.run crc w fs).files (str "example.col") = fs (str "example.col") →
        ∃ now, (c.run crc w fs).files (str "example.col") = some (exampleFile crc now) := by
      intro e; rw [e]; exact hf
    cases hc : w.creatable (str "example.col") with
    | false =>
      apply keep
      apply Classical.byContradiction
      intro hne
      rw [(C75_untouched crc w fs c _ hne).2.1] at hc
      cases hc
    | true =>
      cases c with
      | read args =>
        apply keep
        apply Classical.byContradiction
        intro hne
        obtain ⟨_, _, _, h'⟩ := C75_untouched crc w fs _ _ hne
        cases h'
      | write args =>
        rcases h _ (List.mem_cons_self ..) args rfl with hn | hn
        · refine ⟨w.now, ?_⟩
          show (writeMain crc w fs).files _ = _
          rw [C75_written crc fs hc hn]
          dsimp only; exact put_same _ _ _
        · rw [hc] at hn; cases hn

/-- **C75.** `write_example`, then any further runs of the two programs whose writing is undisturbed, then `read_example` for the default
file: unless reading fails it prints exactly the ten pairs and their statistics. If nothing fails it ends with status 0. -/
theorem C75_session (crc : Bytes → UInt64) {w : World} (fs : Files) (hc : w.creatable (str "example.col") = true) (hw : NothingFails w)
    {cmds : List (World × Command)}
    (hcmds : ∀ c ∈ cmds, ∀ args, c.2 = .write args → NothingFails c.1 ∨ c.1.creatable (str "example.col") = false)
    (w' : World) {args : List Bytes} {d a : Bool} (h : Asks args (str "example.col") d a) :
    let run := readMain w' (session crc cmds (writeMain crc w fs).files) args
    (OnlyWritesFail w' → w'.openable (str "example.col") = true → run.stop.status = 0) ∧
    (run.stop.status = 0 → run.out = exampleText (Examples.ascii "550.00")
      (Examples.ascii "No operation specified. Use --dump to show key-value pairs or --agg to show aggregations.\n")
      (Examples.ascii "example.col") d a) := by
  obtain ⟨now, hf⟩ := session_example crc cmds hcmds (writeMain crc w fs).files
    ⟨w.now, by rw [C75_written crc fs hc hw]; dsimp only; exact put_same _ _ _⟩
  generalize session crc cmds (writeMain crc w fs).files = fs1 at hf
  intro run
  have hr : run = if w'.openable (str "example.col") = false then ⟨[], .noFile, fs1⟩
      else display printAvg w' fs1 (str "example.col") (exampleFile crc now) d a := by
    show readMain w' fs1 args = _
    rw [readMain_asks h]
    unfold readFile
    rw [hf]
  have hrun := Examples.C56_roundtrip printAvg noOperation (str "example.col") crc now d a
  rw [print_550_00] at hrun
  constructor
  · intro h1 h2
    rw [hr, if_neg (by rw [h2]; decide)]
    rcases display_run printAvg w' fs1 (str "example.col") (exampleFile crc now) d a with ⟨t, h3, h4⟩ | ⟨_, h3 | h3⟩
    · rw [h4]; rfl
    · exact absurd hrun (h3 _)
    · exact absurd h1 h3
  · intro hs
    rw [hr] at hs ⊢
    split at hs
    · cases hs
    · rename_i ho
      rw [if_neg ho]
      rcases display_run printAvg w' fs1 (str "example.col") (exampleFile crc now) d a with ⟨t, h3, h4⟩ | ⟨h3, _⟩
      · rw [h4]
        rw [hrun] at h3
        cases h3
        rfl
      · exact absurd hs h3

/-! ### Examples and refutations -/

/-- Other ways of asking. A file name without `-file` is ignored, and so is everything after it. -/
theorem C75_usage :
    Asks [] (str "example.col") false false ∧
    Asks [str "--dump", str "-agg=true", str "-file", str "a.col"] (str "a.col") true true ∧
    ∀ args, Asks (str "a.col" :: args) (str "example.col") false false := by
  refine ⟨⟨[], ⟨[], [], rfl, .nil, .nil⟩, by decide, by decide, by decide⟩, ?_, fun args => ?_⟩
  · refine ⟨[(str "dump", .bool true), (str "agg", .bool true), (str "file", .text (str "a.col"))],
      ⟨_, [], (List.append_nil _).symm, ?_, .nil⟩, by decide, by decide, by decide⟩
    exact .switch (str "dump") _ (by decide) (.inr rfl) (.switchTo (str "agg") (str "-agg") (str "true") true (by decide) (.inl rfl) (by decide)
      (.separate (str "file") _ _ (by decide) (.inl rfl) .nil))
  · exact ⟨[], ⟨[], _, rfl, .nil, .word _ _ (.inr (by decide))⟩, by decide, by decide, by decide⟩

/-- A world in which nothing fails. -/
def calm : World where
  creatable _ := true
  openable _ := true
  now := 0
  write _ := none
  read _ := true
  other _ := true

theorem calm_nothing : NothingFails calm := ⟨fun _ => ⟨rfl, rfl⟩, fun _ => rfl⟩

/-- Non-vacuity of C75: write twice, look at another file, and dump the pairs. -/
theorem C75_example (crc : Bytes → UInt64) (fs : Files) :
    (readMain calm (session crc [(calm, .read [str "-file=x"]), (calm, .write [])] (writeMain crc calm fs).files) [str "--dump"]).out =
      exampleText (Examples.ascii "550.00")
        (Examples.ascii "No operation specified. Use --dump to show key-value pairs or --agg to show aggregations.\n")
        (Examples.ascii "example.col") true false := by
  have ha : Asks [str "--dump"] (str "example.col") true false :=
    ⟨[(str "dump", .bool true)], ⟨_, [], (List.append_nil _).symm, .switch (str "dump") _ (by decide) (.inr rfl) .nil, .nil⟩,
      by decide, by decide, by decide⟩
  have := C75_session crc fs rfl calm_nothing (cmds := [(calm, .read [str "-file=x"]), (calm, .write [])])
    (fun c hc args _ => .inl (by
      simp only [List.mem_cons, List.not_mem_nil, or_false] at hc
      rcases hc with rfl | rfl <;> exact calm_nothing)) calm ha
  exact this.2 (this.1 calm_nothing.1 rfl)

/-- A world in which all writes fail. -/
def full : World := { calm with write := fun _ => some 0 }

/-- A world in which exactly one write fails: that of the first ID. -/
def glitch : World := { calm with write := fun n => if n = 27 then some 0 else none }

/-- The file `write_example` leaves behind. -/
def leftBy (w : World) (crc : Bytes → UInt64) : Bytes := (writeFile w crc ⟨1, 45, 100, 1000, 5500⟩ ⟨⟨[], 0⟩, 0⟩).2.file.bytes

theorem writeMain_left (crc : Bytes → UInt64) {w : World} (fs : Files) (hc : w.creatable (str "example.col") = true) :
    (writeMain crc w fs).files (str "example.col") = some (leftBy w crc) := by
  unfold writeMain leftBy
  dsimp only
  rw [if_neg (by rw [hc]; decide), stats_ok]
  dsimp only
  split
  · rename_i h
    rw [h]; dsimp only; exact put_same _ _ _
  · rename_i h
    rw [h]; dsimp only; exact put_same _ _ _

theorem line_ghost : fmtNat (100 : UInt64).toNat ++ [9] ++ Cli.fmtInt 274877906945 ++ [10] = str "100\t274877906945\n" := by
  have e100 : fmtNat 100 = str "100" := by simp [fmtNat]; decide
  have e : (100 : UInt64).toNat = 100 := rfl
  have e2 : Int64.toInt 274877906945 = 274877906945 := by decide +kernel
  rw [e, e100]
  unfold Cli.fmtInt
  rw [e2]
  simp [fmtNat]
  decide

theorem dump_lines (fmtAvg : Avg → Bytes) {file : Bytes} (hl : 324 ≤ file.length) {ids : List UInt64} {values : List Int64} {s : Stats}
    (hi : Examples.getIDs 10 (file.drop 0xa0) = .ok ids) (hv : Examples.getValues 10 (file.drop 0xf0) = .ok values)
    (hs : Examples.stats ids values = .ok s) : ∃ A B, Examples.dump fmtAvg file =
      .ok (A ++ ((ids.zip values).map fun p => fmtNat p.1.toNat ++ [9] ++ Cli.fmtInt p.2 ++ [10]).flatten ++ B) := by
  rw [Examples.dump_eq fmtAvg hl hi hv hs]
  generalize (List.map (fun p : UInt64 × Int64 => fmtNat p.1.toNat ++ [9] ++ Cli.fmtInt p.2 ++ [10]) (ids.zip values)).flatten = X
  simp only [List.append_assoc]
  exact ⟨str "ID\tValue\n" ++ str "--\t-----\n", _, congrArg Res.ok (List.append_assoc _ _ _).symm⟩

/-- **C75, refuted.** "If `write_example` ends with status 0, `example.col` holds the ten pairs" is false. On a full disk it ends with
status 0 and leaves a file that cannot be read. If only the write of the first ID fails, it ends with status 0, and `read_example --dump`
ends with status 0 too but shows a pair that was never written. -/
theorem C75_refuted (fs : Files) :
    ((writeMain (fun _ => 0) full fs).stop.status = 0 ∧
      (readMain calm (writeMain (fun _ => 0) full fs).files []).stop.status = 1) ∧
    ((writeMain (fun _ => 0) glitch fs).stop.status = 0 ∧
      (readMain calm (writeMain (fun _ => 0) glitch fs).files [str "--dump"]).stop.status = 0 ∧
      ∃ before after, (readMain calm (writeMain (fun _ => 0) glitch fs).files [str "--dump"]).out =
        before ++ str "\n100\t274877906945\n" ++ after) := by
  refine ⟨⟨?_, ?_⟩, ?_, ?_⟩
  · obtain ⟨_, h, _⟩ := C75_lossy (fun _ => 0) (w := full) fs rfl (fun _ => ⟨rfl, rfl⟩)
    exact h
  · rw [readMain_asks C75_usage.1]
    unfold readFile
    rw [writeMain_left _ fs rfl]
    have e : leftBy full (fun _ => 0) = [] := by decide +kernel
    rw [e]
    dsimp only
    rw [if_neg (by decide)]
    rfl
  · obtain ⟨_, h, _⟩ := C75_lossy (fun _ => 0) (w := glitch) fs rfl (fun _ => ⟨rfl, rfl⟩)
    exact h
  · have ha : Asks [str "--dump"] (str "example.col") true false :=
      ⟨[(str "dump", .bool true)], ⟨_, [], (List.append_nil _).symm, .switch (str "dump") _ (by decide) (.inr rfl) .nil, .nil⟩,
        by decide, by decide, by decide⟩
    rw [readMain_asks ha]
    unfold readFile
    rw [writeMain_left _ fs rfl]
    have ho : Examples.openFile (leftBy glitch fun _ => 0) = .ok ⟨⟨1, 1⟩, []⟩ := by decide +kernel
    have hi : Examples.getIDs 10 ((leftBy glitch fun _ => 0).drop 0xa0) = .ok [5, 10, 15, 20, 25, 30, 35, 40, 45, 100] := by decide +kernel
    have hv : Examples.getValues 10 ((leftBy glitch fun _ => 0).drop 0xf0) =
        .ok [200, 300, 400, 500, 600, 700, 800, 900, 1000, 274877906945] := by decide +kernel
    generalize leftBy glitch (fun _ => 0) = file at ho hi hv
    dsimp only
    rw [if_neg (by decide)]
    have hl := (Examples.openFile_checked ho).1
    obtain ⟨A, B, hd⟩ := dump_lines printAvg hl hi hv (s := ⟨5, 100, 200, 274877906945, 274877912345⟩) (by decide +kernel)
    have hz : ([5, 10, 15, 20, 25, 30, 35, 40, 45, 100] : List UInt64).zip
        ([200, 300, 400, 500, 600, 700, 800, 900, 1000, 274877906945] : List Int64) =
        ([5, 10, 15, 20, 25, 30, 35, 40] : List UInt64).zip ([200, 300, 400, 500, 600, 700, 800, 900] : List Int64) ++
          [(45, 1000), (100, 274877906945)] := rfl
    rw [hz, List.map_append, List.flatten_append] at hd
    simp only [List.map_cons, List.map_nil, List.flatten_cons, List.flatten_nil, List.append_nil] at hd
    rw [line_ghost] at hd
    generalize (List.map (fun p : UInt64 × Int64 => fmtNat p.1.toNat ++ [9] ++ Cli.fmtInt p.2 ++ [10]) (List.zip _ _)).flatten = C at hd
    generalize fmtNat (45 : UInt64).toNat ++ [9] ++ Cli.fmtInt 1000 = D at hd
    have hrun : ∃ before after, Examples.run printAvg noOperation (str "example.col") file true false =
        .ok (before ++ str "\n100\t274877906945\n" ++ after) := by
      unfold Examples.run
      rw [ho, Res.ok_bind, if_pos rfl, hd, Res.ok_bind]
      refine ⟨str "File: " ++ str "example.col" ++ str "\n" ++ str "Version: " ++ fmtNat (1 : UInt32).toNat ++ str "\n" ++
        str "Blocks: " ++ fmtNat (1 : UInt64).toNat ++ str "\n\n" ++ A ++ C ++ D, B, ?_⟩
      have es : str "\n100\t274877906945\n" = [10] ++ str "100\t274877906945\n" := by decide
      rw [es]
      simp only [List.append_assoc, Bool.false_eq_true, if_false, Bool.not_true, Bool.false_and, List.append_nil]
    rcases display_run printAvg calm (writeMain (fun _ => 0) glitch fs).files (str "example.col") file true false with ⟨t, h3, h4⟩ | ⟨_, h3 | h3⟩
    · rw [h4]
      obtain ⟨b, a, hrun⟩ := hrun
      rw [hrun] at h3
      cases h3
      exact ⟨rfl, b, a, rfl⟩
    · obtain ⟨b, a, hrun⟩ := hrun
      exact absurd hrun (h3 _)
    · exact absurd calm_nothing.1 h3

end VibeCol.ExampleCmd
