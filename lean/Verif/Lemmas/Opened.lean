/-
From a finalized file to its reader.
-/
import Verif.Lemmas.Hist
import Verif.Lemmas.Reads
import Verif.Spec.Files
namespace VibeCol
variable {B : Type} [Bitmap B]

theorem runCalls_fst (env : Env) (calls : List Call) (w : Writer B) :
    (runCalls env calls w).1.map Prod.fst = calls := by
  induction calls generalizing w with
  | nil => rfl
  | cons c cs ih =>
    show (c :: (runCalls env cs (c.run env w).2).1.map Prod.fst) = _
    rw [ih]

theorem History.calls_eq {env : Env} {opts calls log} {w : Writer B} (h : History B env opts calls log w) :
    calls = log.map Prod.fst := by
  obtain ⟨w0, _, hrun⟩ := h.created
  have := runCalls_fst env calls w0
  rw [hrun] at this
  exact this.symm

theorem History.bounded {env : Env} {opts calls log} {w : Writer B} (h : History B env opts calls log w)
    (hb : ∀ ev ∈ log, ev.1.Bounded) : ∀ c ∈ calls, c.Bounded := by
  intro c hc
  rw [h.calls_eq] at hc
  obtain ⟨ev, hev, rfl⟩ := List.mem_map.1 hc
  exact hb ev hev

theorem runCalls_append (env : Env) (as bs : List Call) (w : Writer B) :
    runCalls env (as ++ bs) w = ((runCalls env as w).1 ++ (runCalls env bs (runCalls env as w).2).1,
      (runCalls env bs (runCalls env as w).2).2) := by
  induction as generalizing w with
  | nil => rfl
  | cons a as ih =>
    show ((a, (a.run env w).1) :: (runCalls env (as ++ bs) (a.run env w).2).1,
      (runCalls env (as ++ bs) (a.run env w).2).2) = _
    rw [ih]; rfl

/-- Cutting a history at one of its calls. -/
theorem History.split {env : Env} {opts calls log} {w : Writer B} (h : History B env opts calls log w)
    {pre post : Log} {c : Call} {r : Result} (hl : log = pre ++ (c, r) :: post) :
    ∃ wi : Writer B, History B env opts (pre.map Prod.fst) pre wi ∧ (c.run env wi).1 = r ∧
      runCalls env (post.map Prod.fst) (c.run env wi).2 = (post, w) := by
  have hcalls := h.calls_eq
  obtain ⟨w0, hnew, hrun⟩ := h.created
  subst hl
  rw [hcalls, List.map_append, List.map_cons, runCalls_append] at hrun
  have h1 := congrArg Prod.fst hrun
  have h2 := congrArg Prod.snd hrun
  dsimp only at h1 h2
  have hlen : (runCalls env (pre.map Prod.fst) w0).1.length = pre.length := by
    have := congrArg List.length (runCalls_fst env (pre.map Prod.fst) w0)
    simpa using this
  obtain ⟨h3, h4⟩ := List.append_inj h1 hlen
  refine ⟨(runCalls env (pre.map Prod.fst) w0).2, ⟨w0, hnew, Prod.ext h3 rfl⟩, ?_, ?_⟩
  · exact congrArg Prod.snd (List.cons.inj h4).1
  · exact Prod.ext (List.cons.inj h4).2 h2

/-- What is in a finalized file, for any encoding. -/
theorem Finalized.fileOK [LawfulBitmap B] {env : Env} {opts log} {file : Bytes}
    (h : Finalized B env opts log file) : ∃ hd blks buf bo fs,
      FileOK file hd (chosenEncoding opts) blks buf bo fs ∧ blks.map Blk.pairs = acked log ∧
      hd.blockSizeTarget = chosenBlockSize opts ∧
      ∀ b ∈ blks, b.size (chosenEncoding opts) ≤ (chosenBlockSize opts).toNat ∨ b.ids.length = 1 := by
  obtain ⟨calls, w, w', hh, hf, rfl⟩ := h.made
  obtain ⟨blks, extra, hi, hp, ho, he, ht, hfit⟩ :=
    history_faulty hh (hh.bounded h.bounded) h.noIOError.finalize
  obtain ⟨_, _, _, _, _, hok, _⟩ := wp_ok (finalize_inv env w blks extra hi) hf
  obtain ⟨hd, bo, fs, hok, htgt, hbo⟩ := hok h.size
  rw [he] at hok
  exact ⟨hd, blks, _, bo, fs, hok, hp.eq_acked h.noIOError, htgt.trans ht,
    fun b hb => by have := hfit b hb; rwa [he, ht] at this⟩

/-- What is in a finalized file. -/
structure Contents (B : Type) [Bitmap B] (file : Bytes) (opts : List WriterOption) (log : Log) (hd : FileHeader)
    (blks : List Blk) (bo fs : Nat) : Prop where
  ok : FileOK file hd (chosenEncoding opts) blks (Bitmap.toBuffer (bitmapOf B (acked log))) bo fs
  pairs : blks.map Blk.pairs = acked log
  fit : ∀ b ∈ blks, b.size (chosenEncoding opts) ≤ (chosenBlockSize opts).toNat ∨ b.ids.length = 1
  chain : (∀ ev ∈ log, ev.1 ≠ .finalize) → Chain (chosenEncoding opts) 64 blks bo
  target : hd.blockSizeTarget = chosenBlockSize opts

theorem blkIDs_eq (blks : List Blk) : blkIDs blks = idsOf (blks.map Blk.pairs) := by
  simp [blkIDs, idsOf, List.flatMap_map, Blk.pairs]

theorem mem_idsOf (blocks : List Block) (x : UInt64) : x ∈ idsOf blocks ↔ ∃ b ∈ blocks, x ∈ b.1 := by
  simp [idsOf, List.mem_flatMap]

/-- The bitmap of all IDs contains exactly them. -/
theorem contains_bitmapOf [LawfulBitmap B] (blocks : List Block) (x : UInt64) :
    Bitmap.contains (bitmapOf B blocks) x = true ↔ x ∈ idsOf blocks := by
  rw [bitmapOf, contains_foldl_set, LawfulBitmap.contains_empty]; simp

theorem Finalized.contents' [LawfulBitmap B] {env : Env} {opts log} {file : Bytes}
    (h : Finalized B env opts log file) (hmis : NoMismatch log) :
    ∃ hd blks bo fs, Contents B file opts log hd blks bo fs := by
  obtain ⟨calls, w, w', hh, hf, rfl⟩ := h.made
  obtain ⟨blks, hi, hc, hp, ho, he, ht, hfit, hchain, hg⟩ :=
    history_clean' hh (hh.bounded h.bounded) hmis h.noIOError
  obtain ⟨_, _, _, _, _, hok, _⟩ := wp_ok (finalize_inv env w blks [] hi) hf
  obtain ⟨hd, bo, fs, hok, htgt, hbo⟩ := hok h.size
  rw [he, hg, blkIDs_eq, hp] at hok
  refine ⟨hd, blks, bo, fs, ⟨hok, hp, ?_, ?_, htgt.trans ht⟩⟩
  · intro b hb; have := hfit b hb; rwa [he, ht] at this
  · intro hn
    rw [← he, hbo]
    refine hchain ?_
    intro hc
    rw [hh.calls_eq] at hc
    obtain ⟨ev, hev, heq⟩ := List.mem_map.1 hc
    exact hn ev hev heq

theorem Finalized.noMismatch [LawfulBitmap B] {env : Env} {opts log} {file : Bytes}
    (h : Finalized B env opts log file) (henc : AllMatch (chosenEncoding opts)) : NoMismatch log := by
  obtain ⟨calls, w, w', hh, hf, rfl⟩ := h.made
  exact history_noMismatch hh (hh.bounded h.bounded) henc h.noIOError.finalize

theorem Finalized.contents [LawfulBitmap B] {env : Env} {opts log} {file : Bytes}
    (h : Finalized B env opts log file) (henc : SymEnc (chosenEncoding opts)) :
    ∃ hd blks bo fs, Contents B file opts log hd blks bo fs :=
  h.contents' (h.noMismatch henc.allMatch)

theorem Contents.count {file : Bytes} {opts log hd blks} {bo fs}
    (h : Contents B file opts log hd blks bo fs) : blks.length = (acked log).length := by
  rw [← h.pairs, List.length_map]

theorem Contents.newReader {file : Bytes} {opts log hd blks} {bo fs}
    (h : Contents B file opts log hd blks bo fs) (hn : (acked log).length ≤ maxBlocks) :
    newReader (B := B) file = .ok (okReader file hd (chosenEncoding opts) blks) := by
  have := h.count
  unfold maxBlocks at hn
  exact h.ok.newReader (by omega)

theorem Contents.reads {file : Bytes} {opts log hd blks} {bo fs}
    (h : Contents B file opts log hd blks bo fs) (henc : SymEnc (chosenEncoding opts))
    (hn : (acked log).length ≤ maxBlocks) :
    Reads (okReader (B := B) file hd (chosenEncoding opts) blks) (acked log) := by
  have := h.ok.reads (B := B) henc (by rw [h.count]; exact hn)
  rw [show (blks.map fun b => (b.ids, b.vals)) = acked log from h.pairs] at this
  exact this

/-- The reader of a finalized file delivers the acknowledged blocks. -/
theorem Finalized.reads [LawfulBitmap B] {env : Env} {opts log} {file : Bytes}
    (h : Finalized B env opts log file) (henc : SymEnc (chosenEncoding opts))
    (hn : (acked log).length ≤ maxBlocks) (r : Reader B) (hr : newReader file = .ok r) :
    Reads r (acked log) := by
  obtain ⟨hd, blks, bo, fs, hc⟩ := h.contents henc
  have h1 := hc.newReader hn
  rw [hr] at h1
  cases h1
  exact hc.reads henc hn

/-- The index of a finalized file in any encoding describes the acknowledged blocks. -/
theorem Finalized.indexed [LawfulBitmap B] {env : Env} {opts log} {file : Bytes}
    (h : Finalized B env opts log file) (hn : (acked log).length ≤ maxBlocks) (r : Reader B)
    (hr : newReader file = .ok r) : Indexed r (acked log) := by
  obtain ⟨hd, blks, buf, bo, fs, hok, hp, _⟩ := h.fileOK
  have hl : blks.length = (acked log).length := by rw [← hp, List.length_map]
  have h1 := hok.newReader (B := B) (by unfold maxBlocks at hn; omega)
  rw [hr] at h1
  cases h1
  have := hok.indexed (B := B) (by omega)
  rw [show (blks.map fun b => (b.ids, b.vals)) = acked log from hp] at this
  exact this

end VibeCol
