/-
C80: when is a killed `vibecol write` or `loadtest` import certain to be noticed?
-/
import Verif.Props.Killed
import Verif.Props.CutSimple
namespace VibeCol.KilledCut
set_option linter.unusedSectionVars false
open VibeCol.Killed

section Vibecol
open VibeCol.Cmd VibeCol.Cli
variable {B : Type} [Bitmap B] [LawfulBitmap B]

/-- **C80, no mistake.** If the file that the command would have written contains the magic number nowhere between its header and its
last 24 bytes, then after a kill the output file is what it was, or the complete file, or a file for which every `read` command prints
nothing and ends with a nonzero status. -/
theorem C80_writeDetected {usage : Bytes} {w : World} {fs : Files} {args : List Bytes} {o a b : Bytes} (h : AsksWrite args o a b)
    (hq : w.env.NoFault) (ht : ∀ i, (w.env.clock i).toNat < 2 ^ 48) (hs : (main B usage w fs args).stop = .success)
    {ids : List UInt64} {vals : List Int64} (hm : Means a b ids vals) (hid : ids.length ≤ 2 ^ 27) {full : Bytes}
    (hfull : (main B usage w fs args).files o = some full) (hsz : full.length < 2 ^ 63)
    (hmagic : ∀ p, 60 ≤ p → p + 32 < full.length → ¬ MagicAt full p)
    {fs' : Files} (hk : Killed.Left B usage w fs args fs') :
    (∀ name, name ≠ o → fs' name = fs name) ∧
    (fs' o = fs o ∨ fs' o = some full ∨
      ∀ (w' : World) (rargs : List Bytes) (dump agg : Bool), AsksRead rargs o dump agg →
        (main B usage w' fs' rargs).out = [] ∧ (main B usage w' fs' rargs).stop.status ≠ 0) := by
  refine ⟨write_others h hk, ?_⟩
  cases hk with
  | before => exact .inl rfl
  | during n k =>
    obtain ⟨w1, w2, hist, h2, h2f, hkill⟩ := write_during h hq hs hm hfull
    subst h2f
    rcases C27_detected hq ht (opts := []) (.inl rfl) (by simpa [Call.Bounded] using hid) hist h2 hsz
      (by simp [acked, ackedBy, maxBlocks]) hmagic n k with hx | hx
    · exact .inr (.inl (by rw [hkill, hx]))
    · exact .inr (.inr fun w' rargs dump agg hr => read_rejected (hkill n k) hx w' rargs dump agg hr)

/-- **C80, ordinary numbers.** If IDs and values are below 2^47 in absolute value, and their sum below 2^48, then a killed `vibecol
write` is always noticed. -/
theorem C80_writeTame {usage : Bytes} {w : World} {fs : Files} {args : List Bytes} {o a b : Bytes} (h : AsksWrite args o a b)
    (hq : w.env.NoFault) (ht : ∀ i, (w.env.clock i).toNat < 2 ^ 48) (hs : (main B usage w fs args).stop = .success)
    {ids : List UInt64} {vals : List Int64} (hm : Means a b ids vals) {full : Bytes}
    (hfull : (main B usage w fs args).files o = some full) (hsz : full.length < 2 ^ 48)
    (htame : Tame (ids, vals)) (hbm : Spaced (Bitmap.toBuffer (ids.foldl Bitmap.set (Bitmap.empty : B))))
    (hbl : (Bitmap.toBuffer (ids.foldl Bitmap.set (Bitmap.empty : B))).length ≤ 2 ^ 30)
    {fs' : Files} (hk : Killed.Left B usage w fs args fs') :
    (∀ name, name ≠ o → fs' name = fs name) ∧
    (fs' o = fs o ∨ fs' o = some full ∨
      ∀ (w' : World) (rargs : List Bytes) (dump agg : Bool), AsksRead rargs o dump agg →
        (main B usage w' fs' rargs).out = [] ∧ (main B usage w' fs' rargs).stop.status ≠ 0) := by
  refine ⟨write_others h hk, ?_⟩
  cases hk with
  | before => exact .inl rfl
  | during n k =>
    obtain ⟨w1, w2, hist, h2, h2f, hkill⟩ := write_during h hq hs hm hfull
    subst h2f
    have hb : bitmapOf B (acked [(Call.write ids vals, Except.ok ())]) = ids.foldl Bitmap.set (Bitmap.empty : B) := by
      simp [acked, ackedBy, bitmapOf, idsOf]
    have hfew : ids.length ≤ 2 ^ 24 := htame.few
    rcases C27_fixedWidth hq ht (opts := []) (.inl rfl) (by simp [Call.Bounded]; omega) (by simp) hist h2 hsz
      (by simp [acked, ackedBy, maxBlocks]) (by simpa [acked, ackedBy] using htame) (by rw [hb]; exact hbm) (by rw [hb]; exact hbl) n k with hx | hx
    · exact .inr (.inl (by rw [hkill, hx]))
    · exact .inr (.inr fun w' rargs dump agg hr => read_rejected (hkill n k) hx w' rargs dump agg hr)

/-- The command of the usage text, killed anywhere: always noticed. -/
theorem C80_writeUsage (usage : Bytes) (fs fs' : Files)
    (hk : Killed.Left IdSet usage Cmd.quietWorld fs [str "write", str "-o", str "output.col", str "-ids", str "1,2,3", str "-values", str "100,200,300"] fs') :
    ∃ full, (main IdSet usage Cmd.quietWorld fs [str "write", str "-o", str "output.col", str "-ids", str "1,2,3", str "-values", str "100,200,300"]).files
        (str "output.col") = some full ∧
      (fs' (str "output.col") = fs (str "output.col") ∨ fs' (str "output.col") = some full ∨
        ∀ (w' : World) (rargs : List Bytes) (dump agg : Bool), AsksRead rargs (str "output.col") dump agg →
          (main IdSet usage w' fs' rargs).out = [] ∧ (main IdSet usage w' fs' rargs).stop.status ≠ 0) := by
  have hm : Means (str "1,2,3") (str "100,200,300") [1, 2, 3] [100, 200, 300] := by
    rw [means_iff]
    decide +kernel
  obtain ⟨h1, h2⟩ := (C68_capacity (B := IdSet) (usage := usage) (w := Cmd.quietWorld) (fs := fs) C68_usageWrite.1 quietEnv_noFault rfl hm
    (by decide) idSet_small).1 (by decide) (by decide) (by decide)
  obtain ⟨full, hf, _⟩ := C80_writeExample usage fs fs' hk
  refine ⟨full, hf, (C80_writeTame C68_usageWrite.1 quietEnv_noFault (fun i => by show (1700000000 : UInt64).toNat < _; decide) h1 hm hf
      ?_ ⟨by decide, by decide, by decide, by decide, by decide⟩ ?_ (by decide) hk).2⟩
  · obtain ⟨w1, w2, hist, h3, h3f, _⟩ := write_during C68_usageWrite.1 quietEnv_noFault h1 hm hf
    rw [← h3f]
    exact Nat.lt_of_le_of_lt (finalized_length hist (by decide) (by unfold NoMismatch; decide) (by
      intro ev hev
      rw [List.mem_singleton] at hev
      subst hev
      simp) h3 _ (idSet_buffer _)) (by decide)
  · show Spaced (([3, 2, 1].map le64).flatten)
    rw [← List.flatMap_def]
    refine Spaced.flatMap _ _ fun x hx => Spaced.small x.toNat ?_
    revert x
    decide

end Vibecol

section LoadTest
open VibeCol.Cmd (Files)
open VibeCol.LoadCmd VibeCol.LoadTest VibeCol.SimpleCrash VibeCol.CutSimple
variable {B : Type} [Bitmap B] [LawfulBitmap B]

/-- **C80, no mistake.** If the file that an import would have written contains the magic number nowhere between its header and its
last 24 bytes, then after a kill the file is what it was, or the complete file, or a file for which every `aggregate` command ends with
a nonzero status. -/
theorem C80_importDetected {w : World} {fs : Files} {args : List Bytes} {a : ImportArgs} (h : AsksImport w.now args a)
    (hsort : LawfulSort w.env.sort) (hq : w.env.NoFault) (ht : ∀ i, (w.env.clock i).toNat < 2 ^ 48)
    (hs : (main B w fs args).stop.status = 0) {full : Bytes} (hfull : (main B w fs args).files a.file = some full)
    (hsz : full.length ≤ maxFileSize) (hmagic : ∀ p, 60 ≤ p → p + 32 < full.length → ¬ MagicAt full p)
    {fs' : Files} (hk : Killed.LeftLoad B w fs args fs') :
    (∀ name, name ≠ a.file → fs' name = fs name) ∧
    (fs' a.file = fs a.file ∨ fs' a.file = some full ∨
      ∀ (w' : World) (rargs : List Bytes) (skip : Bool) (par : Int64), AsksAggregate rargs a.file skip par →
        (main B w' fs' rargs).stop.status ≠ 0) := by
  refine ⟨import_others h hk, ?_⟩
  cases hk with
  | before => exact .inl rfl
  | during n k =>
    obtain ⟨batches, sw, sw2, hist, h2, h2f, hb, hnoclose, hkill⟩ := import_during h hq hs hfull
    subst h2f
    rcases C79_detected hq ht hsort (LoadTest.options_enc a.blockSize) hb hnoclose hist h2 hsz hmagic n k with hx | hx
    · exact .inr (.inl (by rw [hkill, hx]))
    · exact .inr (.inr fun w' rargs skip par hr => aggregate_rejected (hkill n k) hx w' rargs skip par hr)

end LoadTest
end VibeCol.KilledCut
