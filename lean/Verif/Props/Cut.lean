/-
C27: what an interrupted session leaves is a prefix of the finished file, apart from the part of the header that `Finalize` writes
again; so a file is mistaken for a finished one only if the finished file contains the magic number somewhere in its middle.
-/
import Verif.Lemmas.Cuts
import Verif.Props.Crash
import Verif.Props.Format
set_option linter.unusedSectionVars false
namespace VibeCol
variable {B : Type} [Bitmap B] [LawfulBitmap B]
open Cuts (Front)

/-- After every prefix of a session without faults the cursor is at the end of the file. -/
theorem session_end {env : Env} (hq : env.NoFault) {opts : List WriterOption} (henc : SymEnc (chosenEncoding opts)) {calls : List Call}
    (hb : ∀ c ∈ calls, c.Bounded) {w0 : Writer B} (hnew : newWriter opts env = (.ok (), w0)) (pre suf : List Call)
    (he : calls = pre ++ suf) : Cuts.Cuts.End (runCalls env pre w0).2.file := by
  have hb' : ∀ c ∈ pre, c.Bounded := fun c hc => hb c (by rw [he]; exact List.mem_append_left _ hc)
  obtain ⟨hi0, _, ho0, _⟩ := newWriter_inv hnew
  have hno := runCalls_noFault env hq pre hb' w0 ho0 [] [] hi0
  obtain ⟨blks, hi, hc, _⟩ := history_clean (B := B) (env := env) (opts := opts) (calls := pre) ⟨w0, hnew, rfl⟩ hb' henc hno
  exact ⟨hc.atEnd, Nat.le_trans hi.pos64 hi.posLe⟩

/-- Byte 60 to 63 of a new file are zero. -/
theorem start_drop (t : UInt64) (opts : List WriterOption) : (startBytes t opts).drop 60 = [0, 0, 0, 0] := by
  have := headerFields_length (newFileHeader t 0 (chosenBlockSize opts) (chosenEncoding opts))
  rw [startBytes, List.drop_append, this, List.drop_eq_nil_of_le (by omega)]; rfl

/-- What an interrupted `NewWriter` leaves is a prefix of what it would have written. -/
theorem newWriter_front {env : Env} {opts : List WriterOption} {w0 : Writer B} (hnew : newWriter opts env = (.ok (), w0)) (n k : Nat) :
    Front (newWriter (B := B) opts (env.crashAt n k)).2.file.bytes w0.file.bytes := by
  obtain ⟨t, hs⟩ := wp_ok (writeHeader_spec env opts) hnew
  have h64 := fun t => startBytes_length t opts
  have hz := fun t => start_drop t opts
  have hw0 : w0.file.bytes = startBytes (env.clock t) opts := by rw [hs.file]
  have h := writeHeader_spec (B := B) (env.crashAt n k) opts
  have key : ∀ (i j : Nat) (x : Bytes), x = (startBytes ((env.crashAt n k).clock i) opts).take j → Front x w0.file.bytes := by
    rintro i j x rfl
    unfold Front
    rw [hw0, hz, List.drop_take, hz]
    exact List.take_prefix _ _
  rcases hr : (newWriter (B := B) opts (env.crashAt n k)) with ⟨r, wc⟩
  cases r with
  | ok u =>
    obtain ⟨i, hs'⟩ := wp_ok h hr
    exact key i 64 _ (by
      show wc.file.bytes = _
      rw [hs'.file, List.take_of_length_le (by rw [h64]; exact Nat.le_refl _)])
  | error e =>
    obtain ⟨_, _, i, j, hs'⟩ := wp_error h hr
    exact key i j _ (by show wc.file.bytes = _; rw [hs'.file])

/-- Byte 60 of every file that has grown from a new one is zero. -/
theorem front_60 {env : Env} {opts : List WriterOption} {w0 : Writer B} (hnew : newWriter opts env = (.ok (), w0)) {full : Bytes}
    (hw : Front w0.file.bytes full) : full[60]? = some 0 := by
  obtain ⟨t, hs⟩ := wp_ok (writeHeader_spec env opts) hnew
  have hw0 : w0.file.bytes = startBytes (env.clock t) opts := by rw [hs.file]
  unfold Front at hw
  rw [hw0, start_drop] at hw
  obtain ⟨x, hx⟩ := hw
  rw [show (60 : Nat) = 60 + 0 from rfl, ← List.getElem?_drop, ← hx]
  rfl

/-- **C27.** Wherever a session is interrupted, the file it leaves is, from byte 60 on, a prefix of the file that the whole session
produces: what has been written is never changed later, except for the header. -/
theorem C27_prefix {env : Env} (hq : env.NoFault) {opts : List WriterOption} (henc : SymEnc (chosenEncoding opts)) {calls : List Call}
    (hb : ∀ c ∈ calls, c.Bounded) {log : Log} {w w2 : Writer B} (h : History B env opts calls log w)
    (h2 : finalize env w = (.ok (), w2)) (n k : Nat) :
    (crashedFile B opts calls env n k).drop 60 <+: w2.file.bytes.drop 60 := by
  obtain ⟨w0, hnew, hrun⟩ := h.created
  have hb2 : ∀ c ∈ calls ++ [Call.finalize], c.Bounded := by
    intro c hc
    rcases List.mem_append.1 hc with hc | hc
    · exact hb c hc
    · rw [List.mem_singleton] at hc; subst hc; trivial
  have hends := fun pre suf he => session_end hq henc hb2 hnew pre suf he
  have hall : (runCalls env (calls ++ [.finalize]) w0).2 = w2 := by rw [runCalls_finalize, hrun, h2]
  by_cases hn0 : n < w0.opNo
  · have hcr : n < (newWriter (B := B) opts (env.crashAt n k)).2.opNo :=
      newWriter_crash hq opts n k (by rw [hnew]; exact hn0)
    have hpre : Front (newWriter (B := B) opts (env.crashAt n k)).2.file.bytes w2.file.bytes := by
      have hw := Cuts.calls_full hq (calls ++ [.finalize]) w0 hends
      rw [hall] at hw
      exact (newWriter_front hnew n k).trans hw
    unfold crashedFile
    generalize newWriter (B := B) opts (env.crashAt n k) = res at hcr hpre ⊢
    obtain ⟨r, wc⟩ := res
    cases r with
    | error e => exact hpre
    | ok u =>
      dsimp only
      rw [runCalls_dead (env.crashAt n k) (calls ++ [Call.finalize]) wc (dead_crashAt env n k wc hcr)]
      exact hpre
  · have hsame : newWriter (B := B) opts (env.crashAt n k) = (.ok (), w0) := by
      rw [newWriter_agree env opts n k (by rw [hnew]; exact Nat.le_of_not_lt hn0), hnew]
    unfold crashedFile
    rw [hsame]
    dsimp only
    by_cases hn1 : n < (runCalls env (calls ++ [.finalize]) w0).2.opNo
    · have := Cuts.calls_cut hq (calls ++ [.finalize]) w0 hends n k (Nat.le_of_not_lt hn0) hn1
      rw [hall] at this
      exact this
    · rw [runCalls_agree env _ w0 n k (Nat.le_of_not_lt hn1), hall]
      exact List.prefix_refl _

/-- An interruption of `NewWriter` is detected; a later one leaves at least the 64 bytes of the header. -/
theorem crashed_start {env : Env} (hq : env.NoFault) (ht : ∀ i, (env.clock i).toNat < 2 ^ 48) {opts : List WriterOption}
    (hk : KnownEnc (chosenEncoding opts)) (calls : List Call) (n k : Nat) :
    Rejected B (crashedFile B opts calls env n k) ∨ 64 ≤ (crashedFile B opts calls env n k).length := by
  obtain ⟨w0, hnew⟩ := newWriter_ok (B := B) env hq opts
  by_cases hn0 : n < w0.opNo
  · left
    have hcr : n < (newWriter (B := B) opts (env.crashAt n k)).2.opNo :=
      newWriter_crash hq opts n k (by rw [hnew]; exact hn0)
    have hrej : Rejected B (newWriter (B := B) opts (env.crashAt n k)).2.file.bytes :=
      C27_newWriter (env.crashAt n k) opts hk ht
    unfold crashedFile
    generalize newWriter (B := B) opts (env.crashAt n k) = res at hcr hrej ⊢
    obtain ⟨r, wc⟩ := res
    cases r with
    | error e => exact hrej
    | ok u =>
      have hd := runCalls_dead (env.crashAt n k) (calls ++ [.finalize]) wc (dead_crashAt env n k wc hcr)
      dsimp only
      rw [hd]
      exact hrej
  · right
    have hsame : newWriter (B := B) opts (env.crashAt n k) = (.ok (), w0) := by
      rw [newWriter_agree env opts n k (by rw [hnew]; exact Nat.le_of_not_lt hn0), hnew]
    unfold crashedFile
    rw [hsame]
    dsimp only
    obtain ⟨hi, _⟩ := newWriter_inv hnew
    exact Nat.le_trans (Nat.le_trans hi.pos64 hi.posLe) ((Crashable.calls (calls ++ [.finalize])).grow (env.crashAt n k) w0)

/-- Byte 60 of every finished file is zero. -/
theorem finished_60 {env : Env} (hq : env.NoFault) {opts : List WriterOption} (henc : SymEnc (chosenEncoding opts)) {calls : List Call}
    (hb : ∀ c ∈ calls, c.Bounded) {log : Log} {w w2 : Writer B} (h : History B env opts calls log w)
    (h2 : finalize env w = (.ok (), w2)) : w2.file.bytes[60]? = some 0 := by
  obtain ⟨w0, hnew, hrun⟩ := h.created
  have hb2 : ∀ c ∈ calls ++ [Call.finalize], c.Bounded := by
    intro c hc
    rcases List.mem_append.1 hc with hc | hc
    · exact hb c hc
    · rw [List.mem_singleton] at hc; subst hc; trivial
  have hends := fun pre suf he => session_end hq henc hb2 hnew pre suf he
  have hall : (runCalls env (calls ++ [.finalize]) w0).2 = w2 := by rw [runCalls_finalize, hrun, h2]
  have hw := Cuts.calls_full hq (calls ++ [.finalize]) w0 hends
  rw [hall] at hw
  exact front_60 hnew hw

/-- The bytes of the magic number are found in the file at this position. -/
def MagicAt (file : Bytes) (p : Nat) : Prop := (file.drop p).take 8 = le64 magicNumber

/-- A part of the finished file ends with the magic number only if the finished file has it in its middle. -/
theorem no_mistake {f full : Bytes} (hp : f.drop 60 <+: full.drop 60) (hl : f.length + 24 < full.length) (h64 : 64 ≤ f.length)
    (h60 : full[60]? = some 0) (hmagic : ∀ p, 60 ≤ p → p + 32 < full.length → ¬ MagicAt full p) (hm : EndsWithMagic f) : False := by
  obtain ⟨x, hx⟩ := hp
  have hat : ∀ i, 60 ≤ i → i < f.length → f[i]? = full[i]? := by
    intro i h1 h2
    have e : ∀ l : Bytes, l[i]? = (l.drop 60)[i - 60]? := fun l => by rw [List.getElem?_drop]; congr 1; omega
    rw [e f, e full, ← hx, List.getElem?_append_left (by rw [List.length_drop]; omega)]
  have hnz : ∀ j, 1 ≤ j → j < 8 → (le64 magicNumber)[j]? ≠ some 0 := by
    rw [magic_bytes]
    intro j h1 h2
    rcases j with _ | _ | _ | _ | _ | _ | _ | _ | j <;> simp at h1 h2 ⊢
  by_cases h68 : f.length < 68
  · have := hm.at (60 - (f.length - 8))
    rw [show f.length - 8 + (60 - (f.length - 8)) = 60 by omega, hat 60 (by omega) (by omega), h60] at this
    exact hnz _ (by omega) (by omega) this.symm
  · refine hmagic (f.length - 8) (by omega) (by omega) ?_
    unfold MagicAt
    unfold EndsWithMagic at hm
    rw [← hm]
    refine List.ext_getElem? fun i => ?_
    rw [List.getElem?_take, List.getElem?_drop, List.getElem?_drop]
    split
    · exact (hat _ (by omega) (by omega)).symm
    · rw [List.getElem?_eq_none (by omega)]

/-- **C27.** If the finished file contains the magic number nowhere between its header and its last 24 bytes, then no interruption
can be mistaken: what is left either is the finished file or is rejected by `NewReader`. -/
theorem C27_detected {env : Env} (hq : env.NoFault) (ht : ∀ i, (env.clock i).toNat < 2 ^ 48)
    {opts : List WriterOption} (henc : SymEnc (chosenEncoding opts)) {calls : List Call}
    (hb : ∀ c ∈ calls, c.Bounded) {log : Log} {w w2 : Writer B} (h : History B env opts calls log w)
    (h2 : finalize env w = (.ok (), w2)) (hsz : w2.file.bytes.length < 2 ^ 63) (hn : (acked log).length ≤ maxBlocks)
    (hmagic : ∀ p, 60 ≤ p → p + 32 < w2.file.bytes.length → ¬ MagicAt w2.file.bytes p) (n k : Nat) :
    crashedFile B opts calls env n k = w2.file.bytes ∨ Rejected B (crashedFile B opts calls env n k) := by
  have hp := C27_prefix hq henc hb h h2 n k
  rcases C27_whole hq ht henc hb h h2 hsz hn n k with h1 | h1 | ⟨hl, hm⟩
  · exact .inl h1
  · exact .inr h1
  · have h60 := finished_60 hq henc hb h h2
    rcases crashed_start (B := B) hq ht henc.known calls n k with hs | h64
    · exact .inr hs
    exact (no_mistake hp hl h64 h60 hmagic hm).elim

/-! ### Numbers of fixed width -/

/-- The bytes of the magic number other than the zero it starts with: `LOC_EBV`. -/
def magicBytes : List UInt8 := [0x4C, 0x4F, 0x43, 0x5F, 0x45, 0x42, 0x56]

/-- From every position one comes, within seven bytes, to a byte that does not occur in `LOC_EBV`. -/
def Spaced (l : Bytes) : Prop := ∀ p, p < l.length → ∃ i b, p ≤ i ∧ i < p + 7 ∧ l[i]? = some b ∧ b ∉ magicBytes

/-- IDs and values below 2^47 in absolute value, a sum below 2^48, and not more than 2^24 pairs. -/
structure Tame (b : Block) : Prop where
  ids : ∀ x ∈ b.1, x.toNat < 2 ^ 47
  vals : ∀ v ∈ b.2, v.toInt.natAbs < 2 ^ 47
  sum : (b.2.map Int64.toInt).sum.natAbs < 2 ^ 48
  few : b.1.length ≤ 2 ^ 24
  same : b.2.length = b.1.length

namespace Spaced

theorem nil : Spaced [] := fun p h => by cases h

theorem append {a b : Bytes} (ha : Spaced a) (hb : Spaced b) : Spaced (a ++ b) := by
  intro p hp
  by_cases h : p < a.length
  · obtain ⟨i, x, h1, h2, h3, h4⟩ := ha p h
    refine ⟨i, x, h1, h2, ?_, h4⟩
    rw [List.getElem?_append_left (List.getElem?_eq_some_iff.1 h3).1]
    exact h3
  · rw [List.length_append] at hp
    obtain ⟨i, x, h1, h2, h3, h4⟩ := hb (p - a.length) (by omega)
    refine ⟨i + a.length, x, by omega, by omega, ?_, h4⟩
    rw [List.getElem?_append_right (by omega), Nat.add_sub_cancel]
    exact h3

theorem flatMap {α : Type} (l : List α) (f : α → Bytes) (h : ∀ x ∈ l, Spaced (f x)) : Spaced (l.flatMap f) := by
  induction l with
  | nil => exact nil
  | cons x xs ih =>
    rw [List.flatMap_cons]
    exact append (h x (by simp)) (ih fun y hy => h y (by simp [hy]))

theorem zeros (n : Nat) : Spaced (List.replicate n 0) := by
  intro p hp
  rw [List.length_replicate] at hp
  exact ⟨p, 0, Nat.le_refl _, by omega, by rw [List.getElem?_replicate, if_pos hp], by decide⟩

/-- A byte by its number. -/
theorem byte_safe (n : Nat) (h : n % 256 ≤ 0x41 ∨ 0x60 ≤ n % 256) : UInt8.ofNat (n % 256) ∉ magicBytes := by
  have : ∀ m, m < 256 → (m ≤ 0x41 ∨ 0x60 ≤ m) → UInt8.ofNat m ∉ magicBytes := by
    intro m hm hc hmem
    have hx : (UInt8.ofNat m).toNat = m := by rw [UInt8.toNat_ofNat']; omega
    simp only [magicBytes, List.mem_cons, List.not_mem_nil, or_false] at hmem
    rcases hmem with e | e | e | e | e | e | e <;> rw [e] at hx <;> simp at hx <;> omega
  exact this _ (Nat.mod_lt _ (by decide)) h

theorem num4 (n : Nat) (h : n < 2 ^ 30 + 2 ^ 24) : Spaced (Doc.num 4 n) := by
  have h3 := byte_safe (n / 256 / 256 / 256) (by omega)
  intro p hp
  have hp : p < 4 := by simpa [Doc.num] using hp
  exact ⟨3, _, by omega, by omega, rfl, h3⟩

theorem num8 (n : Nat) (h6 : n / 2 ^ 48 % 256 ≤ 0x41 ∨ 0x60 ≤ n / 2 ^ 48 % 256)
    (h7 : n / 2 ^ 56 % 256 ≤ 0x41 ∨ 0x60 ≤ n / 2 ^ 56 % 256) : Spaced (Doc.num 8 n) := by
  have e6 : n / 256 / 256 / 256 / 256 / 256 / 256 = n / 2 ^ 48 := by omega
  have e7 : n / 256 / 256 / 256 / 256 / 256 / 256 / 256 = n / 2 ^ 56 := by omega
  have b6 := byte_safe (n / 256 / 256 / 256 / 256 / 256 / 256) (by rw [e6]; exact h6)
  have b7 := byte_safe (n / 256 / 256 / 256 / 256 / 256 / 256 / 256) (by rw [e7]; exact h7)
  intro p hp
  have hp : p < 8 := by simpa [Doc.num] using hp
  by_cases h : p ≤ 6
  · exact ⟨6, _, h, by omega, rfl, b6⟩
  · exact ⟨7, _, by omega, by omega, rfl, b7⟩

theorem small (n : Nat) (h : n < 2 ^ 48) : Spaced (Doc.num 8 n) := num8 n (by omega) (by omega)

theorem signed (x : Int) (h : x.natAbs < 2 ^ 48) : Spaced (Doc.num 8 (Doc.signMagnitude x)) := by
  unfold Doc.signMagnitude
  split
  · exact small _ (by omega)
  · exact num8 _ (by omega) (by omega)

theorem wrapped (x : Int) (h : x.natAbs < 2 ^ 48) : Spaced (Doc.num 8 (Doc.wrapU x)) := by
  unfold Doc.wrapU
  by_cases h0 : 0 ≤ x
  · rw [Int.emod_eq_of_lt h0 (by omega)]
    exact small _ (by omega)
  · have : (x % 2 ^ 64).toNat = 2 ^ 64 - x.natAbs := by
      rw [← Int.add_emod_right, Int.emod_eq_of_lt (by omega) (by omega)]; omega
    rw [this]
    exact num8 _ (by omega) (by omega)

theorem fill (n : Nat) : Spaced (Doc.pageFill n) := zeros _

end Spaced

theorem min_bound {l : List Nat} {n : Nat} (h0 : 0 < n) (h : ∀ x ∈ l, x < n) : l.min?.getD 0 < n := by
  cases hm : l.min? with
  | none => exact h0
  | some m => exact h m (List.min?_mem hm)

theorem max_bound {l : List Nat} {n : Nat} (h0 : 0 < n) (h : ∀ x ∈ l, x < n) : l.max?.getD 0 < n := by
  cases hm : l.max? with
  | none => exact h0
  | some m => exact h m (List.max?_mem hm)

theorem minI_bound {l : List Int} {n : Nat} (h0 : 0 < n) (h : ∀ x ∈ l, x.natAbs < n) : (l.min?.getD 0).natAbs < n := by
  cases hm : l.min? with
  | none => exact h0
  | some m => exact h m (List.min?_mem hm)

theorem maxI_bound {l : List Int} {n : Nat} (h0 : 0 < n) (h : ∀ x ∈ l, x.natAbs < n) : (l.max?.getD 0).natAbs < n := by
  cases hm : l.max? with
  | none => exact h0
  | some m => exact h m (List.max?_mem hm)

/-- What `Tame` says, in mathematical integers. -/
structure TameD (b : Doc.Pairs) : Prop where
  ids : ∀ x ∈ b.1, x < 2 ^ 47
  vals : ∀ v ∈ b.2, v.natAbs < 2 ^ 47
  sum : b.2.sum.natAbs < 2 ^ 48
  few : b.1.length ≤ 2 ^ 24
  same : b.2.length = b.1.length

theorem Tame.doc {b : Block} (h : Tame b) : TameD (Doc.pairs b) where
  ids x hx := by
    obtain ⟨y, hy, rfl⟩ := List.mem_map.1 hx
    exact h.ids y hy
  vals x hx := by
    obtain ⟨y, hy, rfl⟩ := List.mem_map.1 hx
    exact h.vals y hy
  sum := h.sum
  few := by rw [Doc.pairs, List.length_map]; exact h.few
  same := by rw [Doc.pairs, List.length_map, List.length_map]; exact h.same

theorem wrapS_small (x : Int) (h : x.natAbs < 2 ^ 48) : Doc.wrapS x = x := by
  unfold Doc.wrapS
  rw [Int.emod_eq_of_lt (by omega) (by omega)]; omega

theorem deltas_bound {l : List Int} (h : ∀ x ∈ l, x.natAbs < 2 ^ 47) : ∀ d ∈ Doc.deltas l, d.natAbs < 2 ^ 48 := by
  intro d hd
  cases l with
  | nil => cases hd
  | cons x xs =>
    rcases List.mem_cons.1 hd with rfl | hd
    · have := h d (by simp); omega
    · obtain ⟨i, hi⟩ := List.mem_iff_getElem?.1 hd
      rw [List.getElem?_zipWith] at hi
      cases h1 : (x :: xs)[i]? with
      | none => simp [h1] at hi
      | some a =>
        cases h2 : xs[i]? with
        | none => simp [h1, h2] at hi
        | some b =>
          simp [h1, h2] at hi
          have := h a (List.mem_of_getElem? h1)
          have := h b (List.mem_cons_of_mem _ (List.mem_of_getElem? h2))
          omega

open Spaced in
theorem idData_spaced {e : Nat} (he : e < 4) {ids : List Nat} (h : ∀ x ∈ ids, x < 2 ^ 47) : Spaced (Doc.idData e ids) := by
  have hv : Doc.isVarint e = false := by
    unfold Doc.isVarint
    have : e ≠ 4 := by omega
    have : e ≠ 7 := by omega
    simp [*]
  unfold Doc.idData
  simp only [hv, Bool.false_eq_true, if_false]
  split
  · rw [List.flatMap_map]
    refine flatMap _ _ fun x hx => wrapped x (deltas_bound ?_ x hx)
    intro y hy
    obtain ⟨z, hz, rfl⟩ := List.mem_map.1 hy
    exact h z hz
  · exact flatMap _ _ fun x hx => small x (by have := h x hx; omega)

open Spaced in
theorem valueData_spaced {e : Nat} (he : e < 4) {vals : List Int} (h : ∀ x ∈ vals, x.natAbs < 2 ^ 47) : Spaced (Doc.valueData e vals) := by
  have hv : Doc.isVarint e = false := by
    unfold Doc.isVarint
    have : e ≠ 4 := by omega
    have : e ≠ 7 := by omega
    simp [*]
  unfold Doc.valueData
  simp only [hv, Bool.false_eq_true, if_false]
  split
  · rw [List.flatMap_map]
    refine flatMap _ _ fun x hx => ?_
    have := deltas_bound h x hx
    rw [wrapS_small x this]
    exact wrapped x this
  · exact flatMap _ _ fun x hx => wrapped x (by have := h x hx; omega)

open Spaced in
theorem stats_spaced {b : Doc.Pairs} (h : TameD b) : Spaced (Doc.stats b.1 b.2) := by
  unfold Doc.stats
  refine append (append (append (append (append ?_ ?_) ?_) ?_) ?_) ?_
  · have := min_bound (n := 2 ^ 47) (by decide) h.ids
    exact small _ (by omega)
  · have := max_bound (n := 2 ^ 47) (by decide) h.ids
    exact small _ (by omega)
  · have := minI_bound (n := 2 ^ 47) (by decide) h.vals
    exact signed _ (by omega)
  · have := maxI_bound (n := 2 ^ 47) (by decide) h.vals
    exact signed _ (by omega)
  · rw [wrapS_small _ h.sum]
    exact signed _ h.sum
  · exact num4 _ (by have := h.few; omega)

theorem idData_length {e : Nat} (he : e < 4) (ids : List Nat) : (Doc.idData e ids).length = 8 * ids.length := by
  have hv : Doc.isVarint e = false := by
    unfold Doc.isVarint
    have : e ≠ 4 := by omega
    have : e ≠ 7 := by omega
    simp [*]
  have hd : ∀ l : List Int, (Doc.deltas l).length = l.length := by
    intro l; cases l with
    | nil => rfl
    | cons x xs => simp [Doc.deltas]
  have hf : ∀ l : List Nat, (l.flatMap fun x => Doc.num 8 x).length = 8 * l.length := by
    intro l; induction l with
    | nil => rfl
    | cons x xs ih => rw [List.flatMap_cons, List.length_append, ih, List.length_cons]; simp [Doc.num]; omega
  unfold Doc.idData
  simp only [hv, Bool.false_eq_true, if_false]
  rw [hf]
  split
  · rw [List.length_map, hd, List.length_map]
  · rfl

theorem valueData_length {e : Nat} (he : e < 4) (vals : List Int) : (Doc.valueData e vals).length = 8 * vals.length := by
  have hv : Doc.isVarint e = false := by
    unfold Doc.isVarint
    have : e ≠ 4 := by omega
    have : e ≠ 7 := by omega
    simp [*]
  have hd : ∀ l : List Int, (Doc.deltas l).length = l.length := by
    intro l; cases l with
    | nil => rfl
    | cons x xs => simp [Doc.deltas]
  have hf : ∀ l : List Int, (l.flatMap fun x => Doc.num 8 (Doc.wrapU x)).length = 8 * l.length := by
    intro l; induction l with
    | nil => rfl
    | cons x xs ih => rw [List.flatMap_cons, List.length_append, ih, List.length_cons]; simp [Doc.num]; omega
  unfold Doc.valueData
  simp only [hv, Bool.false_eq_true, if_false]
  rw [hf]
  split
  · rw [List.length_map, hd]
  · rfl

open Spaced in
theorem block_spaced {e : Nat} (he : e < 4) {b : Doc.Pairs} (h : TameD b) : Spaced (Doc.block e b.1 b.2) := by
  have hf := h.few
  have hs := h.same
  unfold Doc.block
  rw [idData_length he, valueData_length he]
  have z := num4 0 (by decide)
  refine append (append (append (append (append (append (append (append (stats_spaced h) (num4 e (by omega))) z) z) z) z) ?_) ?_) ?_
  · exact append (append (append z (num4 _ (by omega))) (num4 _ (by omega))) (num4 _ (by omega))
  · exact idData_spaced he h.ids
  · exact valueData_spaced he h.vals

theorem block_length {e : Nat} (he : e < 4) (b : Doc.Pairs) : (Doc.block e b.1 b.2).length = 80 + 8 * b.1.length + 8 * b.2.length := by
  unfold Doc.block Doc.stats
  simp only [List.length_append, idData_length he, valueData_length he]
  simp [Doc.num]

open Spaced in
theorem blocksAt_spaced {e : Nat} (he : e < 4) (bs : List Doc.Pairs) (h : ∀ b ∈ bs, TameD b) (off : Nat) : Spaced (Doc.blocksAt e off bs) := by
  induction bs generalizing off with
  | nil => exact nil
  | cons b bs ih =>
    exact append (append (block_spaced he (h b (by simp))) (fill _)) (ih (fun b' hb' => h b' (by simp [hb'])) _)

open Spaced in
theorem indexAt_spaced {e : Nat} (he : e < 4) (bs : List Doc.Pairs) (h : ∀ b ∈ bs, TameD b) (off : Nat)
    (hl : off + (Doc.blocksAt e off bs).length < 2 ^ 48) : Spaced (Doc.indexAt e off bs) := by
  induction bs generalizing off with
  | nil => exact nil
  | cons b bs ih =>
    have hb := h b (by simp)
    have hf := hb.few
    have hs := hb.same
    simp only [Doc.blocksAt, List.length_append] at hl
    refine append (append (append (small _ (by omega)) (num4 _ ?_)) (stats_spaced hb)) (ih (fun b' hb' => h b' (by simp [hb'])) _ ?_)
    · rw [List.length_append, block_length he, Doc.pageFill, List.length_replicate]
      omega
    · rw [List.length_append]
      omega

/-- In a file of `Spaced` bytes the magic number is not found. -/
theorem Spaced.no_magic {H body tail : Bytes} (hH : H.length = 60) (h : Spaced body) (p : Nat) (h1 : 60 ≤ p)
    (h2 : p + 8 ≤ 60 + body.length) : ¬ MagicAt (H ++ body ++ tail) p := by
  intro hm
  obtain ⟨i, b, h3, h4, h5, h6⟩ := h (p + 1 - 60) (by omega)
  have hi := (List.getElem?_eq_some_iff.1 h5).1
  have : (((H ++ body ++ tail).drop p).take 8)[i + 60 - p]? = some b := by
    rw [List.getElem?_take, if_pos (by omega), List.getElem?_drop, List.append_assoc, List.getElem?_append_right (by omega),
      List.getElem?_append_left (by omega), ← h5]
    congr 1; omega
  unfold MagicAt at hm
  rw [hm, magic_bytes] at this
  have hj : i + 60 - p = 1 ∨ i + 60 - p = 2 ∨ i + 60 - p = 3 ∨ i + 60 - p = 4 ∨ i + 60 - p = 5 ∨ i + 60 - p = 6 ∨ i + 60 - p = 7 := by omega
  apply h6
  rcases hj with e | e | e | e | e | e | e <;> rw [e] at this <;> simp at this <;> rw [← this] <;> decide

open Spaced in
/-- The documented file: between the header and the last 24 bytes there is no magic number. -/
theorem file_no_magic {e target time : Nat} (he : e < 4) (bs : List Doc.Pairs) (h : ∀ b ∈ bs, TameD b) (data : Bytes)
    (hd : Spaced data) (hdl : data.length ≤ 2 ^ 30) (hn : bs.length ≤ 2 ^ 30)
    (hl : (Doc.file e target time bs data).length < 2 ^ 48) (p : Nat) (h1 : 60 ≤ p)
    (h2 : p + 32 < (Doc.file e target time bs data).length) : ¬ MagicAt (Doc.file e target time bs data) p := by
  obtain ⟨H, tail, body, hH, ht, hb, hfile⟩ : ∃ H tail body, H.length = 60 ∧ tail.length = 24 ∧ Spaced body ∧
      Doc.file e target time bs data = H ++ body ++ tail := by
    unfold Doc.file at hl ⊢
    dsimp only at hl ⊢
    generalize hbody : Doc.header _ _ _ _ _ _ ++ _ ++ _ = bod at hl ⊢
    refine ⟨(Doc.num 8 Doc.magic ++ Doc.num 4 1 ++ Doc.num 4 0 ++ Doc.num 8 bs.length ++ Doc.num 4 target ++ Doc.num 4 0 ++ Doc.num 4 e ++
      Doc.num 8 time ++ Doc.num 8 (64 + (Doc.blocksAt e 64 bs).length) ++ Doc.num 8 (Doc.bitmap data).length),
      Doc.num 8 (4 + (Doc.indexAt e 64 bs).length) ++ Doc.num 8 0 ++ Doc.num 8 Doc.magic,
      Doc.num 4 0 ++ Doc.blocksAt e 64 bs ++ (Doc.num 4 data.length ++ data) ++ Doc.pageFill bod.length ++ (Doc.num 4 bs.length ++ Doc.indexAt e 64 bs),
      ?_, ?_, ?_, ?_⟩
    · simp [Doc.num]
    · simp [Doc.num]
    · have hlen : 64 + (Doc.blocksAt e 64 bs).length < 2 ^ 48 := by
        rw [← hbody] at hl
        simp only [List.length_append, Doc.header] at hl
        simp [Doc.num] at hl
        omega
      exact append (append (append (append (num4 0 (by decide)) (blocksAt_spaced he bs h 64)) (append (num4 _ (by omega)) hd)) (fill _))
        (append (num4 _ (by omega)) (indexAt_spaced he bs h 64 hlen))
    · rw [← hbody]
      unfold Doc.header Doc.footer Doc.bitmap
      simp only [List.append_assoc]
  rw [hfile] at h2 ⊢
  refine no_magic hH hb p h1 ?_
  simp only [List.length_append] at h2
  omega

/-- **C27.** With an encoding of fixed width (raw, or delta for both) and moderate numbers - IDs and values below 2^47, sums below 2^48, blocks
of at most 2^24 pairs, a serialized bitmap in which no seven bytes in a row are all bytes of the magic number - no interruption of a
session that calls `Finalize` once, at the end, can be mistaken: what is left either is the finished file or is rejected. -/
theorem C27_fixedWidth {env : Env} (hq : env.NoFault) (ht : ∀ i, (env.clock i).toNat < 2 ^ 48)
    {opts : List WriterOption} (henc : chosenEncoding opts = encRaw ∨ chosenEncoding opts = encDeltaBoth) {calls : List Call}
    (hb : ∀ c ∈ calls, c.Bounded) (hnf : Call.finalize ∉ calls) {log : Log} {w w2 : Writer B} (h : History B env opts calls log w)
    (h2 : finalize env w = (.ok (), w2)) (hsz : w2.file.bytes.length < 2 ^ 48) (hn : (acked log).length ≤ maxBlocks)
    (htame : ∀ b ∈ acked log, Tame b) (hbm : Spaced (Bitmap.toBuffer (bitmapOf B (acked log))))
    (hbl : (Bitmap.toBuffer (bitmapOf B (acked log))).length ≤ 2 ^ 30) (n k : Nat) :
    crashedFile B opts calls env n k = w2.file.bytes ∨ Rejected B (crashedFile B opts calls env n k) := by
  have hsym : SymEnc (chosenEncoding opts) := by
    rcases henc with e | e <;> rw [e] <;> unfold SymEnc <;> decide
  have hreg : RegularEnc (chosenEncoding opts) := by
    rcases henc with e | e <;> rw [e] <;> unfold RegularEnc <;> decide
  have henc : (chosenEncoding opts).toNat < 4 := by
    rcases henc with e | e <;> rw [e] <;> decide
  refine C27_detected hq ht hsym hb h h2 (by omega) hn ?_ n k
  obtain ⟨w0, hnew, hrun⟩ := h.created
  obtain ⟨hi0, _, ho0, _⟩ := newWriter_inv hnew
  have hno : NoIOError log := by
    have := runCalls_noFault env hq calls hb w0 ho0 [] [] hi0
    rw [hrun] at this; exact this
  have hbev : ∀ ev ∈ log, ev.1.Bounded := by
    intro ev hev
    refine hb _ ?_
    rw [h.calls_eq]; exact List.mem_map_of_mem hev
  obtain ⟨i, hfile⟩ := C47_bytes (B := B) (env := env) (opts := opts) (log := log) (file := w2.file.bytes)
    ⟨⟨_, _, _, h, h2, rfl⟩, hno, hbev, by omega⟩ hreg (by
      intro ev hev he
      apply hnf
      rw [h.calls_eq, ← he]
      exact List.mem_map_of_mem hev)
  intro p h3 h4
  rw [hfile] at hsz h4 ⊢
  refine file_no_magic henc _ ?_ _ hbm hbl ?_ hsz p h3 h4
  · intro b hb
    obtain ⟨c, hc, rfl⟩ := List.mem_map.1 hb
    exact (htame c hc).doc
  · rw [List.length_map]
    unfold maxBlocks at hn
    omega

/-- The session of the example below: two blocks and a size estimate. -/
def tameLog : Log := [(.write [5, 1] [7, -3], .ok ()), (.estimate [1] [2], .ok ()), (.write [70368744177664] [-70368744177664], .ok ())]

/-- Non-vacuity of `C27_fixedWidth` (and so of `C27_detected` and `C27_prefix`): all hypotheses hold of a session with two blocks. -/
example : ∃ (calls : List Call) (w w2 : Writer IdSet), quietEnv.NoFault ∧ (∀ i, (quietEnv.clock i).toNat < 2 ^ 48) ∧
    chosenEncoding [] = encRaw ∧ (∀ c ∈ calls, c.Bounded) ∧ Call.finalize ∉ calls ∧
    History IdSet quietEnv [] calls tameLog w ∧ finalize quietEnv w = (.ok (), w2) ∧ w2.file.bytes.length < 2 ^ 48 ∧
    (acked tameLog).length = 2 ∧ (∀ b ∈ acked tameLog, Tame b) ∧ Spaced (Bitmap.toBuffer (bitmapOf IdSet (acked tameLog))) ∧
    (Bitmap.toBuffer (bitmapOf IdSet (acked tameLog))).length ≤ 2 ^ 30 := by
  have hb : ∀ c ∈ tameLog.map Prod.fst, c.Bounded := by decide
  obtain ⟨w0, h0⟩ := newWriter_ok (B := IdSet) quietEnv quietEnv_noFault []
  have hlog : (runCalls quietEnv (tameLog.map Prod.fst) (newWriter (B := IdSet) [] quietEnv).2).1 = tameLog := by decide +kernel
  have hh : History IdSet quietEnv [] (tameLog.map Prod.fst) tameLog (runCalls quietEnv (tameLog.map Prod.fst) w0).2 := by
    generalize tameLog = l at hlog ⊢
    refine ⟨w0, h0, ?_⟩
    rw [h0] at hlog
    exact Prod.ext hlog rfl
  have hno : NoIOError tameLog := by
    intro ev hev
    simp only [tameLog, List.mem_cons, List.not_mem_nil, or_false] at hev
    rcases hev with rfl | rfl | rfl <;> simp
  have hmis : NoMismatch tameLog := by unfold NoMismatch; decide
  obtain ⟨blks, hi, hc, hp, ho, he, ht, hfit, hchain, hg⟩ := history_clean' hh hb hmis hno
  obtain ⟨w', hf⟩ := finalize_noFault quietEnv_noFault hi hc ho
  refine ⟨_, _, w', quietEnv_noFault, fun i => by show (1700000000 : UInt64).toNat < _; decide, rfl, hb, by decide, hh, hf,
    Nat.lt_of_le_of_lt (finalized_length hh hb hmis hno hf _ (idSet_buffer _)) (by decide), by decide, ?_, ?_, by decide⟩
  · intro b hb
    have : b = ([5, 1], [7, -3]) ∨ b = ([70368744177664], [-70368744177664]) := by
      simpa [acked, ackedBy, tameLog] using hb
    rcases this with rfl | rfl
    · exact ⟨by decide, by decide, by decide, by decide, by decide⟩
    · exact ⟨by decide, by decide, by decide, by decide, by decide⟩
  · have hs : ∀ x : UInt64, x.toNat < 2 ^ 48 → Spaced (le64 x) := by
      intro x hx
      exact Spaced.small x.toNat hx
    show Spaced (((bitmapOf IdSet (acked tameLog)).ids.map le64).flatten)
    rw [← List.flatMap_def]
    refine Spaced.flatMap _ _ fun x hx => hs x ?_
    revert x
    decide

end VibeCol
