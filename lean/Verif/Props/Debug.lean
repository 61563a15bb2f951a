import Verif.Model.Debug
import Verif.Spec.Debug
import Verif.Props.Split
import Verif.Props.Blocks
import Verif.Props.Format
import Verif.Props.Cli
/-! # C57: `DebugInfo` -/
namespace VibeCol
open Cli (str fmtNat fmtInt Decimal SignedDecimal Each2)
open Debug (Row Describes DescribesFile rowsAt shown text)
variable {B : Type} [Bitmap B] [LawfulBitmap B]

theorem fmtHex_magic : fmtHex magicNumber.toNat = text "5642455F434F4C00" := by
  have h : magicNumber.toNat = 0x5642455F434F4C00 := rfl
  rw [h]
  have big : ∀ n, 16 ≤ n → fmtHex n = fmtHex (n / 16) ++ [hexDigit (n % 16)] := by
    intro n hn
    rw [fmtHex, if_neg (by omega)]
  iterate 15 rw [big _ (by decide)]
  rw [fmtHex, if_pos (by decide)]
  decide +kernel

theorem shown_doc (v : Int64) : (uint64ToInt64 (int64ToUint64 v)).toInt = shown v.toInt := by
  unfold shown
  by_cases h : v = minInt64Value
  · subst h
    decide
  · rw [uint64ToInt64_int64ToUint64 v h, if_neg]
    intro hv
    exact h (Int64.toInt_inj.1 hv)

/-- The row of a block. -/
def rowOf (e : UInt32) (i : Nat) (b : Blk) : Row := ⟨i, b.off, b.size e, Doc.pairs b.pairs⟩

/-- The rows of blocks numbered from `i`. -/
def rowsOf (e : UInt32) : Nat → List Blk → List Row
  | _, [] => []
  | i, b :: bs => rowOf e i b :: rowsOf e (i + 1) bs

theorem debugEntry_spec {e : UInt32} (i : Nat) (b : Blk) (h : b.OK e) (ho : b.off < 2 ^ 64) :
    Describes (debugEntry i (b.entry e)) (rowOf e i b) := by
  have h1 : b.ids ≠ [] := List.ne_nil_of_length_pos h.ne
  have h2 : b.vals ≠ [] := List.ne_nil_of_length_pos (by have := h.len; have := h.ne; omega)
  have hs := b.size_lt e h
  have hb := h.bound
  obtain ⟨e1, e2⟩ := min_nat_doc b.ids h1
  obtain ⟨e3, e4⟩ := min_int_doc b.vals h2
  have e5 := sum_doc b.vals
  have d := fun n => (Cli.fmtNat_decimal n).1
  have f1 : (b.entry e).blockOffset.toNat = b.off := by
    show (UInt64.ofNat b.off).toNat = _
    rw [UInt64.toNat_ofNat']; omega
  have f2 : (b.entry e).blockSize.toNat = b.size e := by
    show (UInt32.ofNat (b.size e)).toNat = _
    rw [UInt32.toNat_ofNat']; omega
  have f3 : (b.entry e).count.toNat = b.ids.length := by
    show (UInt32.ofNat b.ids.length).toNat = _
    rw [UInt32.toNat_ofNat']; omega
  have f4 : (b.entry e).minID.toNat = (b.ids.map UInt64.toNat).min?.getD 0 := e1
  have f5 : (b.entry e).maxID.toNat = (b.ids.map UInt64.toNat).max?.getD 0 := e2
  have d6 : SignedDecimal (fmtInt (uint64ToInt64 (b.entry e).minValue)) _ := Cli.fmtInt_decimal _
  have d7 : SignedDecimal (fmtInt (uint64ToInt64 (b.entry e).maxValue)) _ := Cli.fmtInt_decimal _
  have d8 : SignedDecimal (fmtInt (uint64ToInt64 (b.entry e).sum)) _ := Cli.fmtInt_decimal _
  have f6 : (uint64ToInt64 (b.entry e).minValue).toInt = shown ((b.vals.map Int64.toInt).min?.getD 0) := by
    rw [← e3]; exact shown_doc _
  have f7 : (uint64ToInt64 (b.entry e).maxValue).toInt = shown ((b.vals.map Int64.toInt).max?.getD 0) := by
    rw [← e4]; exact shown_doc _
  have f8 : (uint64ToInt64 (b.entry e).sum).toInt = shown (Doc.wrapS (b.vals.map Int64.toInt).sum) := by
    rw [← e5]; exact shown_doc _
  rw [f6] at d6
  rw [f7] at d7
  rw [f8] at d8
  have hlen : (rowOf e i b).pairs.1.length = b.ids.length := by simp [rowOf, Doc.pairs, Blk.pairs]
  refine ⟨fmtNat i, fmtNat b.off, fmtNat (b.size e), fmtNat b.ids.length, fmtNat ((b.ids.map UInt64.toNat).min?.getD 0),
    fmtNat ((b.ids.map UInt64.toNat).max?.getD 0), _, _, _, d _, d _, d _, ?_, d _, d _, d6, d7, d8, ?_⟩
  · rw [hlen]; exact d _
  · unfold debugEntry
    rw [f1, f2, f3, f4, f5]
    have s1 : text "\n        ID range: " = str "\n" ++ str "        ID range: " := by decide +kernel
    have s2 : text "\n        Value range: " = str "\n" ++ str "        Value range: " := by decide +kernel
    rw [s1, s2]
    simp only [List.append_assoc]
    rfl

theorem debugEntries_spec {e : UInt32} (blks : List Blk) (h : ∀ b ∈ blks, b.OK e) (ho : ∀ b ∈ blks, b.off < 2 ^ 64) (i : Nat) :
    ∃ lines, debugEntries i (blks.map (Blk.entry e)) = lines.flatten ∧ Each2 Describes lines (rowsOf e i blks) := by
  induction blks generalizing i with
  | nil => exact ⟨[], rfl, .nil⟩
  | cons b bs ih =>
    obtain ⟨lines, h1, h2⟩ := ih (fun c hc => h c (List.mem_cons_of_mem _ hc)) (fun c hc => ho c (List.mem_cons_of_mem _ hc)) (i + 1)
    refine ⟨debugEntry i (b.entry e) :: lines, ?_, .cons (debugEntry_spec i b (h b (List.mem_cons_self ..)) (ho b (List.mem_cons_self ..))) h2⟩
    rw [List.map_cons, debugEntries, h1, List.flatten_cons]

theorem rowsOf_length (e : UInt32) (i : Nat) (blks : List Blk) : (rowsOf e i blks).length = blks.length := by
  induction blks generalizing i with
  | nil => rfl
  | cons b bs ih => simp [rowsOf, ih]

theorem rowsOf_pairs (e : UInt32) (i : Nat) (blks : List Blk) : (rowsOf e i blks).map Row.pairs = (blks.map Blk.pairs).map Doc.pairs := by
  induction blks generalizing i with
  | nil => rfl
  | cons b bs ih => simp [rowsOf, rowOf, ih]

theorem rowsOf_index {e : UInt32} (i : Nat) (blks : List Blk) (h : ∀ b ∈ blks, b.OK e) :
    (blks.map fun b => entryBytes (b.entry e)).flatten =
      (rowsOf e i blks).flatMap fun x => Doc.entry x.off x.size x.pairs.1 x.pairs.2 := by
  induction blks generalizing i with
  | nil => rfl
  | cons b bs ih =>
    rw [List.map_cons, List.flatten_cons, ih (i + 1) (fun c hc => h c (List.mem_cons_of_mem _ hc)), entry_doc b (h b (List.mem_cons_self ..))]
    rfl

theorem rowsOf_num (e : UInt32) (i : Nat) (blks : List Blk) : (rowsOf e i blks).map Row.num = List.range' i blks.length := by
  induction blks generalizing i with
  | nil => rfl
  | cons b bs ih => simp [rowsOf, rowOf, ih, List.range'_succ]

theorem rowsOf_once {e : UInt32} (he : RegularEnc e) {lo hi i : Nat} {blks : List Blk} (hch : Chain e lo blks hi) (h : ∀ b ∈ blks, b.OK e) :
    rowsOf e i blks = rowsAt e.toNat i lo ((blks.map Blk.pairs).map Doc.pairs) := by
  induction blks generalizing lo i with
  | nil => rfl
  | cons b bs ih =>
    obtain ⟨rfl, hch⟩ := hch
    have hb := h b (List.mem_cons_self ..)
    have h1 : b.ids ≠ [] := List.ne_nil_of_length_pos hb.ne
    have h2 : b.vals ≠ [] := List.ne_nil_of_length_pos (by have := hb.len; have := hb.ne; omega)
    have hsz : (Doc.filledBlock e.toNat b.off (Doc.pairs b.pairs)).length = b.size e := by
      show (Doc.filledBlock e.toNat b.off (Doc.pairs (b.ids, b.vals))).length = _
      rw [← filledBlock_doc he b.off b.ids b.vals h1 h2]
      rfl
    rw [List.map_cons, List.map_cons, rowsAt]
    rw [hsz, rowsOf, ih hch (fun c hc => h c (List.mem_cons_of_mem _ hc))]
    rfl

/-- The blocks in the file and the text shown for them. -/
theorem Finalized.debug {env : Env} {opts : List WriterOption} {log : Log} {file : Bytes}
    (h : Finalized B env opts log file) (he : RegularEnc (chosenEncoding opts)) (hn : (acked log).length ≤ maxBlocks) (r : Reader B)
    (hr : newReader file = .ok r) :
    ∃ (fs : Nat) (blks : List Blk), DescribesFile (debugInfo r) (chosenEncoding opts).toNat (rowsOf (chosenEncoding opts) 0 blks) ∧
      blks.map Blk.pairs = acked log ∧ (∀ b ∈ blks, b.OK (chosenEncoding opts)) ∧
      file.drop fs = Doc.footer blks.length ((rowsOf (chosenEncoding opts) 0 blks).flatMap fun x => Doc.entry x.off x.size x.pairs.1 x.pairs.2) ∧
      ((∀ ev ∈ log, ev.1 ≠ .finalize) → ∃ hi, Chain (chosenEncoding opts) 64 blks hi) := by
  have hmis := h.noMismatch he.allMatch
  obtain ⟨calls, w, w', hh, hf, rfl⟩ := h.made
  have hb := hh.bounded h.bounded
  obtain ⟨blks, hi, hc, hp, ho, henc, ht, _, hchain, hg⟩ := history_clean' hh hb hmis h.noIOError
  obtain ⟨i, hfb⟩ := finalize_clock hi hc hf
  obtain ⟨_, _, _, _, _, hok, _⟩ := wp_ok (finalize_inv env w blks [] hi) hf
  obtain ⟨hd, bo, fs, hok, htgt, hbo⟩ := hok h.size
  rw [henc] at hok
  have hl : blks.length = (acked log).length := by rw [← hp, List.length_map]
  unfold maxBlocks at hn
  have hr' := hok.newReader (B := B) (by omega)
  rw [hr] at hr'
  obtain rfl := Res.ok.inj hr'
  have hcomp : hd.compressionType = 0 := by
    have h1 := parseHeader_fields (w'.file.bytes.take 60) hd (by rw [List.take_take]; have := hok.hdr; rw [slice_zero_take] at this; exact this)
    have h2 := parseHeader_fields (w'.file.bytes.take 60) (finHeader (env.clock i) w) (by
      rw [List.take_take, hfb]
      have hl := headerFields_length (finHeader (env.clock i) w)
      rw [List.append_assoc, List.append_assoc, List.append_assoc, take_append_len _ _ _ (by rw [hl]; rfl)])
    rw [h1] at h2
    rw [h2]
    rfl
  refine ⟨fs, blks, ?_, hp, hok.ok, ?_, ?_⟩
  · have hoff : ∀ b ∈ blks, b.off < 2 ^ 64 := by
      intro b hb
      have h1 := (hok.laid.mem b hb).2
      have h2 := hok.bmFits
      have h3 := hok.fsLe
      have h4 := hok.small
      unfold Blk.stop at h1
      omega
    obtain ⟨lines, hl1, hl2⟩ := debugEntries_spec blks hok.ok hoff 0
    have d := fun n => (Cli.fmtNat_decimal n).1
    refine ⟨fmtNat blks.length, fmtNat (chosenEncoding opts).toNat, fmtNat (4 + 56 * blks.length), lines, ?_, d _, ?_, hl2, ?_⟩
    · rw [rowsOf_length]; exact d _
    · rw [rowsOf_length]; exact d _
    · have k1 : (okReader (B := B) w'.file.bytes hd (chosenEncoding opts) blks).header = hd := rfl
      have k2 : (okReader (B := B) w'.file.bytes hd (chosenEncoding opts) blks).footerMeta.footerSize.toNat = 4 + 56 * blks.length := by
        show (UInt64.ofNat _).toNat = _
        rw [UInt64.toNat_ofNat']; omega
      have k3 : (okReader (B := B) w'.file.bytes hd (chosenEncoding opts) blks).footerMeta.magic = magicNumber := rfl
      have k4 : (okReader (B := B) w'.file.bytes hd (chosenEncoding opts) blks).blockIndex = blks.map (Blk.entry (chosenEncoding opts)) := rfl
      have k5 : hd.blockCount.toNat = blks.length := by
        rw [hok.count, UInt64.toNat_ofNat']; omega
      have e1 : fmtNat (version : UInt32).toNat = [49] := by
        have : (version : UInt32).toNat = 1 := rfl
        rw [this]; simp [fmtNat]
      have e0 : fmtNat (0 : UInt32).toNat = [48] := by
        have : (0 : UInt32).toNat = 0 := rfl
        rw [this]; simp [fmtNat]
      unfold debugInfo
      rw [k1, k2, k3, k4, hok.magic, hok.ver, hok.enc, k5, hcomp, fmtHex_magic, hl1, List.length_map, e1, e0]
      have s1 : text "File header: Magic=0x5642455F434F4C00, Version=1, BlockCount=" =
          str "File header: Magic=0x" ++ (text "5642455F434F4C00" ++ (str ", Version=" ++ ([49] ++ str ", BlockCount="))) := by decide +kernel
      have s2 : text "\n    Encoding: Type=" = str "\n" ++ str "    Encoding: Type=" := by decide +kernel
      have s3 : text ", Compression=0\n    Footer: Size=" = str ", Compression=" ++ ([48] ++ (str "\n" ++ str "    Footer: Size=")) := by decide +kernel
      have s4 : text ", Magic=0x5642455F434F4C00\n    Block index entries: " =
          str ", Magic=0x" ++ (text "5642455F434F4C00" ++ (str "\n" ++ str "    Block index entries: ")) := by decide +kernel
      rw [s1, s2, s3, s4]
      simp only [List.append_assoc]
      rfl
  · have hil : ((blks.map fun b => entryBytes (b.entry (chosenEncoding opts))).flatten).length = 56 * blks.length := by
      rw [flatten_map_eq _ _ 56 (fun b => entryBytes_length _)]; omega
    rw [hok.foot, ← rowsOf_index 0 blks hok.ok, num_ofNat32, meta_doc]
    unfold Doc.footer
    rw [hil]
    simp only [List.append_assoc]
  · intro hfirst
    have hnf : Call.finalize ∉ calls := by
      intro hc
      rw [hh.calls_eq] at hc
      obtain ⟨ev, hev, heq⟩ := List.mem_map.1 hc
      exact hfirst ev hev heq
    have := hchain hnf
    rw [henc] at this
    exact ⟨_, this⟩

/-- **C57.** `DebugInfo` of a finalized file shows exactly what is in it: the header, and for each block the offset and the size that its
index entry has (`rows` is read off the footer), the count, the ranges of IDs and values and the sum. -/
theorem C57_debug {env : Env} {opts : List WriterOption} {log : Log} {file : Bytes}
    (h : Finalized B env opts log file) (he : RegularEnc (chosenEncoding opts)) (hn : (acked log).length ≤ maxBlocks) (r : Reader B)
    (hr : newReader file = .ok r) :
    ∃ (fs : Nat) (rows : List Row), DescribesFile (debugInfo r) (chosenEncoding opts).toNat rows ∧
      rows.map Row.num = List.range (acked log).length ∧ rows.map Row.pairs = (acked log).map Doc.pairs ∧
      file.drop fs = Doc.footer (acked log).length (rows.flatMap fun x => Doc.entry x.off x.size x.pairs.1 x.pairs.2) := by
  obtain ⟨fs, blks, h1, h2, h3, h4, _⟩ := h.debug he hn r hr
  have hl : blks.length = (acked log).length := by rw [← h2, List.length_map]
  refine ⟨fs, _, h1, ?_, ?_, hl ▸ h4⟩
  · rw [rowsOf_num, hl, List.range_eq_range']
  · rw [rowsOf_pairs, h2]

/-- **C57.** If the file was finalized once, offsets and sizes are those of blocks lying one after the other from offset 64 on. -/
theorem C57_once {env : Env} {opts : List WriterOption} {log : Log} {file : Bytes}
    (h : Finalized B env opts log file) (he : RegularEnc (chosenEncoding opts)) (hn : (acked log).length ≤ maxBlocks)
    (hfirst : ∀ ev ∈ log, ev.1 ≠ .finalize) (r : Reader B) (hr : newReader file = .ok r) :
    DescribesFile (debugInfo r) (chosenEncoding opts).toNat (rowsAt (chosenEncoding opts).toNat 0 64 ((acked log).map Doc.pairs)) := by
  obtain ⟨fs, blks, h1, h2, h3, _, h4⟩ := h.debug he hn r hr
  obtain ⟨hi, hch⟩ := h4 hfirst
  rw [← h2, ← rowsOf_once he hch h3]
  exact h1

/-- Non-vacuity of C57: a file with three blocks. -/
example : ∃ (file : Bytes) (r : Reader IdSet), newReader file = .ok r ∧
    DescribesFile (debugInfo r) (chosenEncoding fullOpts).toNat (rowsAt (chosenEncoding fullOpts).toNat 0 64 ((acked fullLog).map Doc.pairs)) := by
  obtain ⟨file, h⟩ := full_finalized
  obtain ⟨r, hr, _⟩ := C29_accessors h (by decide)
  refine ⟨file, r, hr, C57_once h ?_ (by decide) ?_ r hr⟩
  · unfold RegularEnc; decide
  · intro ev hev hc
    simp only [fullLog, List.mem_cons, List.not_mem_nil, or_false] at hev
    rcases hev with rfl | rfl | rfl <;> cases hc

end VibeCol
