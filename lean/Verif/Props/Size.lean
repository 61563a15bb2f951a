/-
C43: how large files get, and that without faults everything goes through.
-/
import Verif.Props.RoundTrip
namespace VibeCol
variable {B : Type} [Bitmap B] [LawfulBitmap B]

omit [Bitmap B] [LawfulBitmap B] in
theorem Chain.length_le {e : UInt32} {lo hi : Nat} {blks : List Blk} (h : Chain e lo blks hi) (hok : ∀ b ∈ blks, b.OK e) :
    hi ≤ lo + 4175 * blks.length + 20 * (idsOf (blks.map Blk.pairs)).length := by
  induction blks generalizing lo with
  | nil => exact Nat.le_of_eq (show lo = hi from h).symm
  | cons b bs ih =>
    obtain ⟨h1, h2⟩ := h
    have h3 := ih h2 fun b hb => hok b (List.mem_cons_of_mem _ hb)
    have h4 := Blk.size_le e b (hok b (List.mem_cons_self ..))
    simp only [Blk.stop] at h3
    simp only [idsOf, List.map_cons, List.flatMap_cons, List.length_append, List.length_cons, Blk.pairs] at h3 ⊢
    omega

/-- **C43.** A file finalized once, at the end, is linear in what it holds: at most 20 bytes per
pair, 4231 bytes per block (header, padding, index entry), the serialized bitmap, and 4191
bytes besides. -/
theorem C43_size {env : Env} {opts : List WriterOption} {log : Log} {file : Bytes}
    (h : Finalized B env opts log file) (henc : SymEnc (chosenEncoding opts)) (honce : ∀ ev ∈ log, ev.1 ≠ .finalize) :
    file.length ≤ 4191 + 20 * (idsOf (acked log)).length + 4231 * (acked log).length +
      (Bitmap.toBuffer (bitmapOf B (acked log))).length := by
  obtain ⟨hd, blks, bo, fs, hc⟩ := h.contents henc
  have h1 := (hc.chain honce).length_le hc.ok.ok
  have h2 := hc.ok.tight
  have h3 := hc.ok.length
  have h4 := hc.count
  rw [hc.pairs] at h1
  omega

/-- **C43.** Without I/O faults every sequence of calls in a symmetric encoding goes through: no call
reports an I/O error, `Finalize` at the end returns nil, and (also with `Finalize` calls in between)
the file is no larger than `sizeBound`. -/
theorem C43_progress {env : Env} (hn : env.NoFault) (opts : List WriterOption)
    (henc : SymEnc (chosenEncoding opts)) (calls : List Call) (hb : ∀ c ∈ calls, c.Bounded) (K : Nat)
    (hK : ∀ L : List UInt64, L.length ≤ totalPairs calls →
      (Bitmap.toBuffer (L.foldl Bitmap.set (Bitmap.empty : B))).length ≤ K) :
    ∃ (log : Log) (w w' : Writer B), History B env opts calls log w ∧ NoIOError log ∧
      finalize env w = (.ok (), w') ∧ w'.file.bytes.length ≤
        64 + (calls.length + 1) * (4175 + K + 56 * calls.length) + 20 * totalPairs calls := by
  obtain ⟨log, w, hh, hno⟩ := history_noFault (B := B) hn opts calls hb
  have hmis := history_noMismatch hh hb henc.allMatch hno.finalize
  obtain ⟨blks, hi, hc, hp, ho, _⟩ := history_clean' hh hb hmis hno
  obtain ⟨w', hf⟩ := finalize_noFault hn hi hc ho
  exact ⟨log, w, w', hh, hno, hf, finalized_length hh hb hmis hno hf K hK⟩

/-- Non-vacuity: the history with full blocks. -/
example : ∃ file, Finalized IdSet quietEnv fullOpts fullLog file ∧ file.length ≤ 4191 + 20 * 5 + 4231 * 3 + 8 * 5 := by
  obtain ⟨file, h⟩ := full_finalized
  refine ⟨file, h, ?_⟩
  have h1 := C43_size h (.inr (.inl rfl)) (by decide)
  have h2 := idSet_buffer 5 (idsOf (acked fullLog)) (by decide)
  have h3 : (idsOf (acked fullLog)).length = 5 := rfl
  have h4 : (acked fullLog).length = 3 := rfl
  unfold bitmapOf at h1
  omega

/-- Non-vacuity of `C43_progress`. -/
example : ∃ (log : Log) (w w' : Writer IdSet), History IdSet quietEnv exampleOpts exampleCalls log w ∧ NoIOError log ∧
    finalize quietEnv w = (.ok (), w') := by
  obtain ⟨log, w, w', h1, h2, h3, _⟩ := C43_progress (B := IdSet) quietEnv_noFault exampleOpts
    (by unfold SymEnc; decide) exampleCalls (by decide) (8 * totalPairs exampleCalls) (idSet_buffer _)
  exact ⟨log, w, w', h1, h2, h3⟩

end VibeCol
