/-
C20-C23, C39: `SimpleWriter`.
-/
import Verif.Lemmas.Simple
import Verif.Props.Aggregation
set_option linter.unusedSimpArgs false
namespace VibeCol
variable {B : Type} [Bitmap B]

/-- Files up to this size (292 GiB) have at most `maxBlocks` blocks, because blocks are padded
to 4096 bytes. -/
def maxFileSize : Nat := 4096 * maxBlocks

theorem Laid.count {e : UInt32} {lo hi : Nat} {bs : List Blk} (h : Laid e lo bs hi) (hok : ∀ b ∈ bs, b.OK e) :
    lo / 4096 + bs.length ≤ hi / 4096 := by
  induction bs generalizing lo with
  | nil => exact Nat.div_le_div_right h
  | cons b bs ih =>
    have h1 := ih h.2 (fun b' hb' => hok b' (List.mem_cons_of_mem _ hb'))
    have h2 := Blk.stop_aligned e b
    have h3 := h.1
    have h4 : b.off < b.stop e := by
      unfold Blk.stop
      have : 0 < b.size e := by
        unfold Blk.size padded Blk.img
        rw [List.length_append, image_length]
        omega
      omega
    rw [List.length_cons]
    omega

theorem FileOK.few {bytes : Bytes} {h : FileHeader} {e : UInt32} {blks : List Blk} {buf : Bytes} {bo fs : Nat}
    (H : FileOK bytes h e blks buf bo fs) (hs : bytes.length ≤ maxFileSize) : blks.length ≤ maxBlocks := by
  have h1 := H.laid.count H.ok
  have h2 := H.bmFits
  have h3 := H.fsLe
  unfold maxFileSize at hs
  omega

/-- After a `Close` that returned nil the `SimpleWriter` is closed. -/
theorem closed_of_log (env : Env) (cs : List SWCall) (sw : SimpleWriter B)
    (h : (SWCall.close, Except.ok ()) ∈ (runSW env cs sw).1) : (runSW env cs sw).2.closed = true := by
  induction cs generalizing sw with
  | nil => cases h
  | cons c cs ih =>
    rw [runSW_cons] at h ⊢
    rcases List.mem_cons.1 h with h | h
    · have hc : c = .close := (Prod.mk.inj h).1.symm
      have hr : (c.run env sw).1 = .ok () := (Prod.mk.inj h).2.symm
      subst hc
      have hcl : (SWCall.run env .close sw).2.closed = true := by
        simp only [SWCall.run] at hr ⊢
        unfold SimpleWriter.close at hr ⊢
        split
        · assumption
        · rename_i hno
          rw [if_neg hno] at hr
          rcases hfl : flushIfNeeded env true sw with ⟨r1, sw1⟩
          rw [hfl] at hr
          cases r1 with
          | error e => cases hr
          | ok u =>
            simp only at hr ⊢
            rcases hff : finalizeAndClose env sw1.writer with ⟨r2, w2⟩
            rw [hff] at hr
            cases r2 with
            | error e => cases hr
            | ok u => rfl
      obtain ⟨h1, _⟩ := closed_run env cs _ hcl
      simp only [h1]
      exact hcl
    · exact ih _ h

/-- Sorted batches together are a permutation of the batches. -/
theorem Each.perm {as bs : List (List Pair)} (h : Each SortedBatch as bs) : bs.flatten.Perm as.flatten := by
  induction h with
  | nil => exact .refl _
  | cons h _ ih =>
    rw [List.flatten_cons, List.flatten_cons]
    exact h.perm.append ih

variable [LawfulBitmap B]

/-- The finalized file of a closed `SimpleWriter` and its reader. -/
theorem SWClosed.reads {opts : List WriterOption} {sw : SimpleWriter B} {S : List Pair} {blks : List Blk}
    (h : SWClosed opts sw S blks) (henc : SymEnc (chosenEncoding opts))
    (hsize : sw.writer.file.bytes.length ≤ maxFileSize) :
    ∃ r : Reader B, newReader sw.writer.file.bytes = .ok r ∧ Reads r (blks.map Blk.pairs) ∧
      r.encodingType = chosenEncoding opts ∧ AllPairs r S ∧
      ((Bitmap.toBuffer (bitmapOfPairs B S)).length < 2 ^ 32 →
        ∃ g, (getGlobalIDBitmap r).1 = .ok g ∧ ∀ x, Bitmap.contains g x = true ↔ ∃ v, (x, v) ∈ S) := by
  obtain ⟨hd, bo, fs, hok⟩ := h.file (by unfold maxFileSize maxBlocks at hsize; omega)
  have hfew := hok.few hsize
  have hR := hok.reads (B := B) henc hfew
  refine ⟨_, hok.newReader (B := B) (by unfold maxBlocks at hfew; omega), hR, hok.enc, ?_, ?_⟩
  · refine ⟨_, hR.toIndexed.count_toNat, hR.read, ?_⟩
    rw [h.stream]
    simp [blkPairs, List.flatMap_map]
  · intro hbuf
    refine ⟨_, hok.bitmap (B := B) hbuf _ rfl rfl rfl, ?_⟩
    intro x
    rw [LawfulBitmap.contains_fromBuffer_toBuffer, bitmapOfPairs, contains_foldl_set, LawfulBitmap.contains_empty]
    simp

/-- **C20.** After any calls on a `SimpleWriter` of which none failed with an I/O error and
one was a `Close` that returned nil, the file opens, and reading all its blocks in order yields
the concatenation of all accepted batches in call order, each in ascending ID order. -/
theorem C20_stream {env : Env} (hs : LawfulSort env.sort) {opts : List WriterOption} {calls : List SWCall}
    {log : SWLog} {sw : SimpleWriter B} (h : SWHistory B env opts calls log sw)
    (henc : SymEnc (chosenEncoding opts)) (hb : ∀ c ∈ calls, c.Bounded) (hno : SWNoIOError log)
    (hclose : (SWCall.close, Except.ok ()) ∈ log) (hsize : sw.writer.file.bytes.length ≤ maxFileSize) :
    ∃ (r : Reader B) (stored : List (List Pair)), newReader sw.writer.file.bytes = .ok r ∧
      Each SortedBatch (accepted log) stored ∧ AllPairs r stored.flatten := by
  obtain ⟨stored, blks, h1, h2⟩ := h.result hs henc hb hno
  have hcl : sw.closed = true := by
    obtain ⟨sw0, _, hr⟩ := h.created
    have := closed_of_log env calls sw0 (by rw [hr]; exact hclose)
    rwa [hr] at this
  rcases h2 with h2 | h2
  · rw [h2.isOpen] at hcl; cases hcl
  · obtain ⟨r, hr, _, _, hp, _⟩ := h2.reads henc hsize
    exact ⟨r, stored, hr, h1, hp⟩

/-- **C20, C43.** The same with a bound on the number of pairs instead of the file size: the file
takes at most 4251 bytes per accepted pair, 4191 bytes in addition and the bytes of the bitmap;
and the ID bitmap of the file contains exactly the accepted IDs. -/
theorem C20_sized {env : Env} (hs : LawfulSort env.sort) {opts : List WriterOption} {calls : List SWCall}
    {log : SWLog} {sw : SimpleWriter B} (h : SWHistory B env opts calls log sw)
    (henc : SymEnc (chosenEncoding opts)) (hb : ∀ c ∈ calls, c.Bounded) (hno : SWNoIOError log)
    (hclose : (SWCall.close, Except.ok ()) ∈ log) (hfew : (accepted log).flatten.length ≤ 7 * 10 ^ 7)
    (hbuf : ∀ L : List UInt64, L.length = (accepted log).flatten.length →
      (Bitmap.toBuffer (L.foldl Bitmap.set (Bitmap.empty : B))).length < 2 ^ 32) :
    ∃ (r : Reader B) (stored : List (List Pair)), newReader sw.writer.file.bytes = .ok r ∧
      Each SortedBatch (accepted log) stored ∧ AllPairs r stored.flatten ∧
      sw.writer.file.bytes.length ≤ 4191 + 4251 * (accepted log).flatten.length +
        (Bitmap.toBuffer (bitmapOfPairs B stored.flatten)).length ∧
      ∃ g, (getGlobalIDBitmap r).1 = .ok g ∧ ∀ x, Bitmap.contains g x = true ↔ ∃ v, (x, v) ∈ (accepted log).flatten := by
  obtain ⟨stored, blks, h1, h2⟩ := h.result hs henc hb hno
  have hcl : sw.closed = true := by
    obtain ⟨sw0, _, hr⟩ := h.created
    have := closed_of_log env calls sw0 (by rw [hr]; exact hclose)
    rwa [hr] at this
  rcases h2 with h2 | h2
  · rw [h2.isOpen] at hcl; cases hcl
  have hperm := h1.perm
  have hlen := hperm.length_eq
  have hb2 := hbuf (stored.flatten.map Prod.fst) (by rw [List.length_map, hlen])
  have hsz := h2.size
  obtain ⟨r, hr, _, _, hp, hg⟩ := h2.reads henc (by
    have : (Bitmap.toBuffer (bitmapOfPairs B stored.flatten)).length < 2 ^ 32 := hb2
    unfold maxFileSize maxBlocks
    omega)
  refine ⟨r, stored, hr, h1, hp, by rw [hlen] at hsz; exact hsz, ?_⟩
  obtain ⟨g, hg1, hg2⟩ := hg hb2
  refine ⟨g, hg1, fun x => ?_⟩
  rw [hg2]
  exact ⟨fun ⟨v, hv⟩ => ⟨v, hperm.mem_iff.1 hv⟩, fun ⟨v, hv⟩ => ⟨v, hperm.mem_iff.2 hv⟩⟩

/-- **C21.** At every moment without an I/O error so far, `TotalItems()` plus the number of
buffered pairs is the number of accepted pairs, the buffer has fewer than 1000 pairs, and after
a `Close` that returned nil `TotalItems()` is the number of accepted pairs. -/
theorem C21_accounting {env : Env} (hs : LawfulSort env.sort) {opts : List WriterOption} {calls : List SWCall}
    {log : SWLog} {sw : SimpleWriter B} (h : SWHistory B env opts calls log sw)
    (henc : SymEnc (chosenEncoding opts)) (hb : ∀ c ∈ calls, c.Bounded) (hno : SWNoIOError log) :
    sw.totalItems + sw.pendingIDs.length = (accepted log).flatten.length ∧ sw.pendingIDs.length < 1000 ∧
    ((SWCall.close, Except.ok ()) ∈ log → sw.totalItems = (accepted log).flatten.length ∧ sw.pendingIDs = []) := by
  obtain ⟨stored, blks, h1, h2⟩ := h.result hs henc hb hno
  have hlen : stored.flatten.length = (accepted log).flatten.length := h1.perm.length_eq
  rcases h2 with h2 | h2
  · refine ⟨?_, h2.few, ?_⟩
    · rw [← hlen, h2.stream, List.length_append, h2.total]
      simp only [SimpleWriter.pending, List.length_zip, h2.lens]
      omega
    · intro hclose
      obtain ⟨sw0, _, hr⟩ := h.created
      have := closed_of_log env calls sw0 (by rw [hr]; exact hclose)
      rw [hr, h2.isOpen] at this
      cases this
  · have ht := h2.total
    have hn := h2.none
    refine ⟨by rw [← hlen, ht, hn]; rfl, by rw [hn]; exact Nat.zero_lt_succ _, fun _ => ⟨by rw [← hlen, ht], hn⟩⟩

/-- **C21.** At every moment of a history without I/O errors, `TotalItems()` is the number of
pairs in the blocks on disk: a file finalized at that moment contains exactly so many pairs. -/
theorem C21_persisted {env : Env} (hs : LawfulSort env.sort) {opts : List WriterOption} {calls : List SWCall}
    {log : SWLog} {sw : SimpleWriter B} (h : SWHistory B env opts calls log sw)
    (henc : SymEnc (chosenEncoding opts)) (hb : ∀ c ∈ calls, c.Bounded) (hno : SWNoIOError log)
    (hopen : sw.closed = false) (w' : Writer B) (hf : finalize env sw.writer = (.ok (), w'))
    (hsize : w'.file.bytes.length ≤ maxFileSize) :
    ∃ (r : Reader B) (ps : List Pair), newReader w'.file.bytes = .ok r ∧ AllPairs r ps ∧ ps.length = sw.totalItems := by
  obtain ⟨stored, blks, h1, h2⟩ := h.result hs henc hb hno
  rcases h2 with h2 | h2
  · obtain ⟨_, _, _, _, _, hok, _⟩ := wp_ok (finalize_inv env sw.writer blks [] h2.inv) hf
    obtain ⟨hd, bo, fs, hok, _⟩ := hok (by unfold maxFileSize maxBlocks at hsize; omega)
    rw [h2.enc] at hok
    have hfew := hok.few hsize
    have hR := hok.reads (B := B) henc hfew
    refine ⟨_, blkPairs blks, hok.newReader (B := B) (by unfold maxBlocks at hfew; omega), ⟨_, hR.toIndexed.count_toNat, hR.read, ?_⟩, h2.total.symm⟩
    simp [blkPairs, List.flatMap_map]
  · rw [h2.isClosed] at hopen; cases hopen

omit [LawfulBitmap B] in
/-- **C22.** After a `Close` that returned nil, whatever happened before (I/O errors
included) and whatever is called afterwards: `Write` and `SetTargetBlockSize` return an error,
`Close` returns nil, and nothing changes. -/
theorem C22_closed (env : Env) (before after : List SWCall) (sw0 : SimpleWriter B)
    (hclose : (SWCall.close, Except.ok ()) ∈ (runSW env before sw0).1) :
    (runSW env (before ++ after) sw0).2 = (runSW env before sw0).2 ∧
    (runSW env (before ++ after) sw0).1 = (runSW env before sw0).1 ++
      after.map fun c => (c, match c with | .close => .ok () | _ => .error .closed) := by
  have hcl := closed_of_log env before sw0 hclose
  have happ : ∀ (as bs : List SWCall) (sw : SimpleWriter B), runSW env (as ++ bs) sw =
      ((runSW env as sw).1 ++ (runSW env bs (runSW env as sw).2).1, (runSW env bs (runSW env as sw).2).2) := by
    intro as bs
    induction as with
    | nil => intro sw; rfl
    | cons a as ih => intro sw; rw [List.cons_append, runSW_cons, runSW_cons, ih]; rfl
  have hrun : ∀ (cs : List SWCall) (sw : SimpleWriter B), sw.closed = true →
      (runSW env cs sw).1 = cs.map fun c => (c, match c with | .close => .ok () | _ => .error .closed) := by
    intro cs sw hc
    induction cs with
    | nil => rfl
    | cons c cs ih =>
      obtain ⟨h1, h2⟩ := closed_call env c sw hc
      rw [runSW_cons, h1, ih, h2]; rfl
  rw [happ]
  exact ⟨(closed_run env after _ hcl).1, by rw [hrun after _ hcl]⟩

omit [LawfulBitmap B] in
/-- **C39.** In every state, for every batch, under every fault schedule and for every implementation
of `sort.Slice`: `Write` of a batch is the same as `Write` of that batch brought into ascending ID
order, every value still with its ID. -/
theorem C39_sorted (env : Env) (hs : LawfulSort env.sort) (ids : List UInt64) (vals : List Int64)
    (hl : ids.length = vals.length) (sw : SimpleWriter B) :
    ∃ sids svals, sids.length = svals.length ∧ SortedBatch (ids.zip vals) (sids.zip svals) ∧
      sw.write env ids vals = sw.write env sids svals := by
  obtain ⟨h1, h2, h3⟩ := storedBatch_spec env hs ids vals hl
  refine ⟨(storedBatch env ids vals).1, (storedBatch env ids vals).2, by omega, h1, ?_⟩
  have hsorted : isSorted (storedBatch env ids vals).1 = true := by
    rw [isSorted_iff]
    have hz : ((storedBatch env ids vals).1.zip (storedBatch env ids vals).2).map Prod.fst = (storedBatch env ids vals).1 :=
      List.map_fst_zip (by omega)
    rw [← hz, List.pairwise_map]
    exact h1.sorted
  by_cases ho : sw.closed = true
  · simp [SimpleWriter.write, ho]
  · have ho : sw.closed = false := by simpa using ho
    by_cases hne : ids.length = 0
    · have e1 : (storedBatch env ids vals).1.length = 0 := by omega
      simp [SimpleWriter.write, ho, hl, h3, e1, hne, hl ▸ hne]
    · have hst : storedBatch env (storedBatch env ids vals).1 (storedBatch env ids vals).2 = storedBatch env ids vals := by
        generalize storedBatch env ids vals = b at hsorted
        unfold storedBatch
        rw [hsorted]
        rfl
      rw [write_eq env ids vals sw ho hl hne, write_eq env _ _ sw ho (by omega) (by omega), hst]

omit [LawfulBitmap B] in
/-- **C39.** As long as fewer than 1000 pairs are buffered, `Write` appends the batch in ascending ID
order to the buffer and changes nothing else. -/
theorem C39_buffer (env : Env) (hs : LawfulSort env.sort) (ids : List UInt64) (vals : List Int64)
    (hl : ids.length = vals.length) (sw : SimpleWriter B) (ho : sw.closed = false)
    (hsmall : sw.pendingIDs.length + ids.length < 1000) :
    ∃ sids svals, SortedBatch (ids.zip vals) (sids.zip svals) ∧ sids.length = ids.length ∧ svals.length = ids.length ∧
      sw.write env ids vals = (.ok (), { sw with pendingIDs := sw.pendingIDs ++ sids, pendingValues := sw.pendingValues ++ svals }) := by
  obtain ⟨h1, h2, h3⟩ := storedBatch_spec env hs ids vals hl
  refine ⟨_, _, h1, h2, h3, ?_⟩
  by_cases hne : ids.length = 0
  · have e1 : ids = [] := List.eq_nil_of_length_eq_zero hne
    have e2 : vals = [] := List.eq_nil_of_length_eq_zero (by omega)
    subst e1 e2
    have e : sw.write env [] [] = (.ok (), sw) := by simp [SimpleWriter.write, ho]
    rw [e]
    simp [storedBatch, isSorted]
  · rw [write_eq env ids vals sw ho hl hne, flushIfNeeded_eq]
    have e : (sw.pendingIDs ++ (storedBatch env ids vals).1).length = sw.pendingIDs.length + ids.length := by
      rw [List.length_append, h2]
    dsimp only
    rw [e, if_neg (by omega), if_neg (by simp; omega)]

/-- Non-vacuity of C39: a batch that is not in order. -/
example : SortedBatch [(3, 30), (1, 10), (2, 20)] [(1, 10), (2, 20), (3, 30)] := by
  refine ⟨by decide, by decide, ?_⟩
  intro h
  exact absurd h (by decide)

end VibeCol
