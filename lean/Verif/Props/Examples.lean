import Verif.Model.Examples
import Verif.Spec.Examples
import Verif.Lemmas.Format
import Verif.Props.Cli
import Verif.Props.Robust
/-! # C56: the example programs

`write_example` always writes the same file, up to clock and checksums; `read_example` reads it back.
`C56_file` and `C56_roundtrip` hold for every clock and checksum function: they have no hypotheses. `C56_dump` and `C56_foreign`
are about files that open; `example_opens` is one. -/
namespace VibeCol.Examples
open VibeCol.Cli (str fmtNat fmtInt)
open VibeCol.Doc (num)

/-! ### write_example -/

theorem put_end (b d : Bytes) : put ⟨b, b.length⟩ d = ⟨b ++ d, (b ++ d).length⟩ := by
  unfold put
  simp only [List.length_append, File.mk.injEq, and_true]
  cases d with
  | nil => simp [writeAt]
  | cons x xs => simp [writeAt]

theorem puts_end (b : Bytes) (ds : List Bytes) : puts ⟨b, b.length⟩ ds = ⟨b ++ ds.flatten, (b ++ ds.flatten).length⟩ := by
  induction ds generalizing b with
  | nil => simp [puts]
  | cons d ds ih =>
    show puts (put ⟨b, b.length⟩ d) ds = _
    rw [put_end, ih, List.flatten_cons, List.append_assoc]

theorem put_over (a x c d : Bytes) (h : x.length = d.length) : put ⟨a ++ x ++ c, a.length⟩ d = ⟨a ++ d ++ c, (a ++ d).length⟩ := by
  unfold put
  simp only [List.length_append, File.mk.injEq, and_true]
  cases d with
  | nil =>
    have : x = [] := List.eq_nil_of_length_eq_zero h
    simp [writeAt, this]
  | cons y ys => simp [writeAt, ← h, List.drop_append]

theorem sample_stats : stats sampleIDs sampleValues = .ok ⟨1, 45, 100, 1000, 5500⟩ := by decide +kernel

/-- The block header up to the checksum. -/
def blockHead : Bytes :=
  num 8 1 ++ num 8 45 ++ num 8 100 ++ num 8 1000 ++ num 8 5500 ++ num 4 10 ++ num 4 0 ++ num 4 0 ++ num 4 160 ++ num 4 160

/-- The layout. -/
def layout : Bytes := num 4 0 ++ num 4 80 ++ num 4 80 ++ num 4 80

/-- **C56.** For every clock and checksum function, `write_example` writes exactly this file, of 396 bytes. -/
theorem C56_file (crc : Bytes → UInt64) (now : UInt64) :
    ∃ f, writeFile crc now = .ok (f, 396) ∧ f.bytes = exampleFile crc now ∧ f.bytes.length = 396 := by
  unfold writeFile
  rw [sample_stats]
  rw [Res.ok_bind]
  extract_lets f1 blockStart f2 checksumPos f3 f4 dataStart f5 f6 dataEnd f7
  have e1 : f1 = ⟨fileHeader now.toNat, (fileHeader now.toNat).length⟩ := by
    refine (puts_end [] _).trans ?_
    have : ([] : Bytes) ++ [le64 magic, le32 1, le32 0, le64 1, le32 (4 * 1024), le32 0, le32 0, le64 now, List.replicate 24 0].flatten =
        fileHeader now.toNat := by
      simp only [List.nil_append, List.flatten_cons, List.flatten_nil, List.append_nil, num_le64, num_le32, fileHeader, List.append_assoc]
      rfl
    rw [this]
  have l1 : (fileHeader now.toNat).length = 68 := by simp [fileHeader, num_length]
  clear_value f1
  have e2 : f2 = ⟨fileHeader now.toNat ++ blockHead, (fileHeader now.toNat ++ blockHead).length⟩ := by
    show puts f1 _ = _
    rw [e1]
    refine (puts_end _ _).trans ?_
    rfl
  have l2 : (fileHeader now.toNat ++ blockHead).length = 128 := by
    rw [List.length_append, l1]; rfl
  clear_value f2
  subst e1
  generalize hP : fileHeader now.toNat ++ blockHead = P at e2 l2
  have e3 : f3 = ⟨P ++ (num 8 0 ++ List.replicate 8 0), (P ++ (num 8 0 ++ List.replicate 8 0)).length⟩ := by
    show puts f2 _ = _
    rw [e2]
    exact puts_end _ _
  have hcs : checksumPos = 128 := by
    show f2.pos = 128
    rw [e2]
    exact l2
  clear_value f3 checksumPos
  subst e2 hcs
  have e4 : f4 = ⟨P ++ (num 8 0 ++ List.replicate 8 0) ++ layout, (P ++ (num 8 0 ++ List.replicate 8 0) ++ layout).length⟩ := by
    show puts f3 _ = _
    rw [e3]
    exact puts_end _ _
  have hds : dataStart = 160 := by
    show f4.pos = 160
    rw [e4]
    simp only [List.length_append, l2]
    rfl
  clear_value f4 dataStart
  subst e3 hds
  have e6 : f6 = ⟨P ++ num 8 0 ++ (List.replicate 8 0 ++ layout ++ blockData), 320⟩ := by
    show puts (puts f4 _) _ = _
    rw [e4, puts_end, puts_end, File.mk.injEq]
    have hb : (sampleIDs.map le64).flatten ++ (sampleValues.map leI64).flatten = blockData := by decide +kernel
    constructor
    · rw [← hb]
      simp only [List.append_assoc]
    · simp only [List.length_append, l2]
      rfl
  clear_value f5
  clear_value f6
  subst e4
  have hT : (List.replicate 8 0 ++ layout ++ blockData).length = 184 := by decide +kernel
  have hde : dataEnd = 320 := by
    show f6.pos = 320
    rw [e6]
  have hbs : blockStart = 64 := rfl
  have e7 : f7 = ⟨P ++ num 8 0 ++ (List.replicate 8 0 ++ layout ++ blockData), 160⟩ := by
    show seek f6 160 = _
    rw [e6]
    rfl
  clear_value f7 dataEnd blockStart
  subst e6 e7 hde hbs
  have hr : read ⟨P ++ num 8 0 ++ (List.replicate 8 0 ++ layout ++ blockData), 160⟩ (320 - 160) =
      (blockData, ⟨P ++ num 8 0 ++ (List.replicate 8 0 ++ layout ++ blockData), 320⟩) := by
    have hd : (P ++ num 8 0 ++ (List.replicate 8 0 ++ layout ++ blockData)).drop 160 = blockData := by
      rw [← List.append_assoc, ← List.append_assoc, List.drop_left']
      simp only [List.length_append, l2]
      rfl
    have hl : blockData.length = 160 := by decide +kernel
    simp only [read, hd]
    rw [List.take_of_length_le (by omega), hl]
  rw [hr]
  generalize hT' : List.replicate 8 0 ++ layout ++ blockData = T at hT
  dsimp -zeta only
  extract_lets c g1 g2 g3 footerStart g4 g5 footerEnd footerSize g6 g7 cs g8 g9
  have hc : (le64 c).length = 8 := le64_length c
  have e2 : g2 = ⟨P ++ le64 c ++ T, (P ++ le64 c).length⟩ := by
    show put ⟨P ++ num 8 0 ++ T, 128⟩ (le64 c) = _
    rw [← l2]
    exact put_over _ _ _ _ rfl
  clear_value g2
  generalize hQ : P ++ le64 c ++ T = Q at e2
  have lQ : Q.length = 320 := by rw [← hQ]; simp only [List.length_append, l2, hc, hT]
  have e3 : g3 = ⟨Q, Q.length⟩ := by
    show seek g2 g2.bytes.length = _
    rw [e2]; rfl
  clear_value g3
  subst e2 e3
  have e5 : g5 = ⟨Q ++ index, (Q ++ index).length⟩ := by
    show puts (puts ⟨Q, Q.length⟩ _) _ = _
    rw [puts_end, puts_end]
    have : ∀ a b : Bytes, a ++ b = index → (⟨Q ++ a ++ b, (Q ++ a ++ b).length⟩ : File) = ⟨Q ++ index, (Q ++ index).length⟩ := by
      intro a b h
      rw [List.append_assoc, h]
    exact this _ _ (by decide +kernel)
  have li : index.length = 60 := by decide +kernel
  have lR : (Q ++ index).length = 380 := by rw [List.length_append, lQ, li]
  have hfe : footerEnd = 380 := by
    show g5.pos = 380
    rw [e5]
    exact lR
  clear_value footerSize footerEnd
  clear_value g5
  subst e5 hfe
  generalize hR : Q ++ index = R at lR
  have e7 : g7 = ⟨R ++ le64 (UInt64.ofNat footerSize) ++ [], 0⟩ := by
    show seek (put _ _) 0 = _
    rw [hR, put_end, List.append_nil]
    rfl
  clear_value g7
  subst e7
  have hr2 : read ⟨R ++ le64 (UInt64.ofNat footerSize) ++ [], 0⟩ 380 = (R, ⟨R ++ le64 (UInt64.ofNat footerSize) ++ [], R.length⟩) := by
    simp only [read, List.drop_zero, Nat.zero_add]
    rw [List.append_assoc, List.take_left' lR]
  have e9 : g9 = ⟨R ++ le64 (crc R) ++ le64 magic, (R ++ le64 (crc R) ++ le64 magic).length⟩ := by
    show put (put (read _ _).2 (le64 (crc (read _ _).1))) _ = _
    rw [hr2]
    dsimp only
    rw [put_over R (le64 (UInt64.ofNat footerSize)) [] (le64 (crc R)) (by simp), List.append_nil, put_end]
  clear_value g9
  subst e9
  have hbytes : R ++ le64 (crc R) ++ le64 magic = exampleFile crc now := by
    have hfront : R = fileHeader now.toNat ++ block (crc blockData).toNat ++ index := by
      rw [← hR, ← hQ, ← hP, ← hT', num_le64]
      simp only [block, blockHead, layout, List.append_assoc, c]
    unfold exampleFile
    dsimp only
    rw [← hfront, num_le64, num_le64]
    rfl
  have hlen : (R ++ le64 (crc R) ++ le64 magic).length = 396 := by
    rw [List.length_append, List.length_append, lR, le64_length, le64_length]
  refine ⟨⟨R ++ le64 (crc R) ++ le64 magic, 396⟩, ?_, hbytes, hlen⟩
  simp only [hlen]

/-! ### read_example -/

theorem get32_ok (x : UInt32) (b : Bytes) : get32 (le32 x ++ b) = .ok (x, b) := by
  unfold get32
  rw [if_pos (by simp), rd32_of_slice (le32 x ++ b) 0 x (by simp)]
  simp

theorem get64_ok (x : UInt64) (b : Bytes) : get64 (le64 x ++ b) = .ok (x, b) := by
  unfold get64
  rw [if_pos (by simp), rd64_of_slice (le64 x ++ b) 0 x (by simp)]
  simp

theorem getI64_ok (x : Int64) (b : Bytes) : getI64 (leI64 x ++ b) = .ok (x, b) := by
  unfold getI64
  rw [if_pos (by simp), rd64_of_slice (leI64 x ++ b) 0 x.toUInt64 (by simp [leI64])]
  simp

theorem get32_any {b : Bytes} (h : 4 ≤ b.length) : get32 b = .ok (rd32 b 0, b.drop 4) := if_pos h
theorem get64_any {b : Bytes} (h : 8 ≤ b.length) : get64 b = .ok (rd64 b 0, b.drop 8) := if_pos h
theorem getI64_any {b : Bytes} (h : 8 ≤ b.length) : getI64 b = .ok ((rd64 b 0).toInt64, b.drop 8) := if_pos h

theorem getIDs_any (n : Nat) (b : Bytes) (h : 8 * n ≤ b.length) :
    getIDs n b = .ok ((List.range n).map fun i => rd64 b (8 * i)) := by
  induction n generalizing b with
  | zero => rfl
  | succ n ih =>
    simp only [getIDs]
    rw [get64_any (by omega), Res.ok_bind]
    dsimp only
    rw [ih (b.drop 8) (by simp only [List.length_drop]; omega), Res.ok_bind, List.range_succ_eq_map, List.map_cons, List.map_map]
    have : ∀ i, rd64 (b.drop 8) (8 * i) = rd64 b (8 * (i + 1)) := by
      intro i
      unfold rd64
      rw [List.drop_drop, Nat.mul_add, Nat.add_comm 8]
    simp only [this]
    rfl

theorem getValues_any (n : Nat) (b : Bytes) (h : 8 * n ≤ b.length) :
    getValues n b = .ok ((List.range n).map fun i => (rd64 b (8 * i)).toInt64) := by
  induction n generalizing b with
  | zero => rfl
  | succ n ih =>
    simp only [getValues]
    rw [getI64_any (by omega), Res.ok_bind]
    dsimp only
    rw [ih (b.drop 8) (by simp only [List.length_drop]; omega), Res.ok_bind, List.range_succ_eq_map, List.map_cons, List.map_map]
    have : ∀ i, rd64 (b.drop 8) (8 * i) = rd64 b (8 * (i + 1)) := by
      intro i
      unfold rd64
      rw [List.drop_drop, Nat.mul_add, Nat.add_comm 8]
    simp only [this]
    rfl

/-- What a file that opens is like. -/
theorem openFile_checked {file : Bytes} {o : Opened} (h : openFile file = .ok o) :
    324 ≤ file.length ∧ rd64 file 0 = magic := by
  unfold openFile at h
  obtain ⟨hd, h1, h⟩ := Res.bind_ok h
  obtain ⟨es, h2, _⟩ := Res.bind_ok h
  constructor
  · unfold readFooter at h2
    split at h2
    · cases h2
    · obtain ⟨⟨m, _⟩, _, h2⟩ := Res.bind_ok h2
      dsimp only at h2
      split at h2
      · cases h2
      · obtain ⟨⟨n, b⟩, h3, _⟩ := Res.bind_ok h2
        unfold get32 at h3
        split at h3
        · rename_i h4
          simp only [List.length_drop] at h4
          omega
        · cases h3
  · unfold readFileHeader at h1
    obtain ⟨⟨m, b⟩, h3, h1⟩ := Res.bind_ok h1
    dsimp only at h1
    split at h1
    · cases h1
    · rename_i hm
      unfold get64 at h3
      split at h3
      · simp only [Res.ok.injEq, Prod.mk.injEq] at h3
        rw [h3.1]
        exact Decidable.not_not.1 hm
      · cases h3

theorem lines_spec (l : List (UInt64 × Int64)) :
    Cli.Each2 Cli.PairLine (l.map fun p => fmtNat p.1.toNat ++ ([9] ++ (fmtInt p.2 ++ [10]))) l := by
  induction l with
  | nil => exact .nil
  | cons p l ih =>
    exact .cons ⟨_, _, by simp only [List.append_assoc], (Cli.fmtNat_decimal _).1, Cli.fmtInt_decimal _⟩ ih

theorem dump_eq (fmtAvg : Avg → Bytes) {file : Bytes} (hl : 324 ≤ file.length) {ids : List UInt64} {values : List Int64} {s : Stats}
    (hi : getIDs 10 (file.drop 0xa0) = .ok ids) (hv : getValues 10 (file.drop 0xf0) = .ok values) (hs : stats ids values = .ok s) :
    dump fmtAvg file = .ok (str "ID\tValue\n" ++ str "--\t-----\n" ++
      ((ids.zip values).map fun p => fmtNat p.1.toNat ++ [9] ++ fmtInt p.2 ++ [10]).flatten ++
      str "\nBlock Statistics (computed from data):\n" ++
      str "Count: " ++ fmtNat 10 ++ str "\n" ++
      str "Min ID: " ++ fmtNat s.minID.toNat ++ str ", Max ID: " ++ fmtNat s.maxID.toNat ++ str "\n" ++
      str "Min Value: " ++ fmtInt s.minValue ++ str ", Max Value: " ++ fmtInt s.maxValue ++ str "\n" ++
      str "Sum: " ++ fmtInt s.sum ++ str "\n" ++
      str "Average: " ++ fmtAvg (.quot s.sum 10) ++ str "\n\n") := by
  have g32 : ∀ n, n + 4 ≤ 324 → get32 (file.drop n) = .ok (rd32 (file.drop n) 0, file.drop (n + 4)) := by
    intro n hn
    rw [get32_any (by simp only [List.length_drop]; omega), List.drop_drop]
  have g64 : ∀ n, n + 8 ≤ 324 → get64 (file.drop n) = .ok (rd64 (file.drop n) 0, file.drop (n + 8)) := by
    intro n hn
    rw [get64_any (by simp only [List.length_drop]; omega), List.drop_drop]
  have gI64 : ∀ n, n + 8 ≤ 324 → getI64 (file.drop n) = .ok ((rd64 (file.drop n) 0).toInt64, file.drop (n + 8)) := by
    intro n hn
    rw [getI64_any (by simp only [List.length_drop]; omega), List.drop_drop]
  unfold dump
  simp only [g64, gI64, g32, Res.ok_bind, List.drop_drop, Nat.reduceAdd, Nat.reduceLeDiff, hi, hv, hs]

/-- **C56.** `read_example` does not look where the pairs are, nor how many there are: whatever file it opens, `--dump` succeeds and
shows the ten 8-byte numbers at offset 160 as IDs and those at offset 240 as values. -/
theorem C56_dump {fmtAvg : Avg → Bytes} {file : Bytes} {o : Opened} (h : openFile file = .ok o) :
    ∃ text lines, dump fmtAvg file = .ok (str "ID\tValue\n--\t-----\n" ++ lines.flatten ++ text) ∧
      Cli.Each2 Cli.PairLine lines ((List.range 10).map fun i => (rd64 file (160 + 8 * i), (rd64 file (240 + 8 * i)).toInt64)) := by
  obtain ⟨hl, _⟩ := openFile_checked h
  have hi := getIDs_any 10 (file.drop 0xa0) (by simp only [List.length_drop]; omega)
  have hv := getValues_any 10 (file.drop 0xf0) (by simp only [List.length_drop]; omega)
  have hrd : ∀ a i, rd64 (file.drop a) i = rd64 file (a + i) := by
    intro a i
    unfold rd64
    rw [List.drop_drop]
  simp only [hrd] at hi hv
  obtain ⟨st, hst⟩ : ∃ st, stats (List.map (fun i => rd64 file (160 + 8 * i)) (List.range 10))
      (List.map (fun i => (rd64 file (240 + 8 * i)).toInt64) (List.range 10)) = .ok st := ⟨_, rfl⟩
  rw [dump_eq fmtAvg hl hi hv hst]
  have hz : (List.map (fun i => rd64 file (160 + 8 * i)) (List.range 10)).zip
      (List.map (fun i => (rd64 file (240 + 8 * i)).toInt64) (List.range 10)) =
      (List.range 10).map fun i => (rd64 file (160 + 8 * i), (rd64 file (240 + 8 * i)).toInt64) := by
    rw [List.zip_map']
  rw [hz]
  have e3 : str "ID\tValue\n--\t-----\n" = str "ID\tValue\n" ++ str "--\t-----\n" := by rw [← Cli.str_append]; rfl
  rw [e3]
  simp only [List.append_assoc]
  exact ⟨_, _, rfl, lines_spec _⟩


theorem rd64_zero_of_take {b : Bytes} {x : UInt64} (h : b.take 8 = le64 x) : rd64 b 0 = x :=
  rd64_of_slice b 0 x (by simpa using h)

/-- **C56.** The library and the example programs do not read each other's files: no byte string is accepted by both readers,
and each rejects what the other accepts because of the magic number. -/
theorem C56_foreign {B : Type} [Bitmap B] {file : Bytes} (hsmall : file.length < 2 ^ 63) :
    (∀ r : Reader B, newReader file = .ok r → openFile file = .err .badMagic) ∧
    (∀ o, openFile file = .ok o → newReader (B := B) file = .err .badMagic) := by
  have hne : magicNumber ≠ magic := by decide
  constructor
  · intro r hr
    obtain ⟨hl, hm, _⟩ := C26_validation file hsmall r hr
    unfold openFile readFileHeader
    rw [get64_any (by omega), Res.ok_bind]
    dsimp only
    rw [rd64_zero_of_take hm, if_pos hne]
    rfl
  · intro o ho
    obtain ⟨hl, hm⟩ := openFile_checked ho
    have h : readHeader file = .err .badMagic := by
      unfold readHeader
      rw [show (0 : Int64) = Int64.ofNat 0 from rfl, readBytesAt_ok file 0 headerSize (by simp [headerSize]; omega) hsmall, Res.ok_bind]
      have hp : (parseHeader (slice file 0 headerSize)).magic = magic := by
        rw [← hm]
        show rd64 (slice file 0 headerSize) 0 = rd64 file 0
        simp [rd64, slice, headerSize, List.take_take]
      dsimp only
      rw [hp, if_pos (fun h => hne h.symm)]
    unfold newReader
    rw [h]
    rfl

/-! ### reading the example file -/

theorem getNum32 (n : Nat) (b : Bytes) : get32 (num 4 n ++ b) = .ok (UInt32.ofNat n, b) := by
  rw [← num_ofNat32, get32_ok]
theorem getNum64 (n : Nat) (b : Bytes) : get64 (num 8 n ++ b) = .ok (UInt64.ofNat n, b) := by
  rw [← num_ofNat64, get64_ok]
theorem getNumI64 (n : Nat) (b : Bytes) : getI64 (num 8 n ++ b) = .ok ((UInt64.ofNat n).toInt64, b) := by
  rw [← num_ofNat64, ← getI64_ok]
  rfl

theorem header_length (now : Nat) : (fileHeader now).length = 68 := by simp [fileHeader, num_length]
theorem block_length (c : Nat) : (block c).length = 252 := by
  have : blockData.length = 160 := by decide +kernel
  simp [block, num_length, this]
theorem index_length : index.length = 60 := by decide +kernel

theorem example_opens (crc : Bytes → UInt64) (now : UInt64) :
    openFile (exampleFile crc now) = .ok { header := ⟨1, 1⟩, entries := [⟨100, 1000, 5500, 10⟩] } := by
  have hd : readFileHeader (exampleFile crc now) = .ok ⟨1, 1⟩ := by
    unfold exampleFile fileHeader readFileHeader
    simp only [List.append_assoc, getNum64, getNum32, Res.ok_bind]
    rfl
  have hf : readFooter (exampleFile crc now) = .ok [⟨100, 1000, 5500, 10⟩] := by
    unfold exampleFile
    dsimp only
    generalize crc (fileHeader now.toNat ++ block (crc blockData).toNat ++ index) = c2
    have e2 : ∀ rest, List.drop 0x140 (fileHeader now.toNat ++ block (crc blockData).toNat ++ index ++ rest) = index ++ rest := by
      intro rest
      rw [List.append_assoc, List.drop_left']
      rw [List.length_append, header_length, block_length]
    have hl : (fileHeader now.toNat ++ block (crc blockData).toNat ++ index ++ num 8 c2.toNat ++ num 8 vibescol).length = 396 := by
      simp only [List.length_append, header_length, block_length, index_length, num_length]
    unfold readFooter
    rw [if_neg (by omega), hl, List.drop_left' (by simp only [List.length_append, header_length, block_length, index_length, num_length]),
      List.append_assoc _ (num 8 _), e2]
    have : num 8 vibescol = num 8 vibescol ++ [] := by rw [List.append_nil]
    rw [this, getNum64]
    simp only [Res.ok_bind, index, List.append_assoc, getNum32]
    rw [if_neg (by decide)]
    show readEntries 1 _ = _
    simp only [readEntries, getNum64, getNum32, getNumI64, Res.ok_bind]
    rfl
  unfold openFile
  rw [hd, hf]
  rfl

theorem getIDs_ok (l : List UInt64) (b : Bytes) : getIDs l.length ((l.map le64).flatten ++ b) = .ok l := by
  induction l with
  | nil => rfl
  | cons x l ih =>
    simp only [List.length_cons, getIDs, List.map_cons, List.flatten_cons, List.append_assoc, get64_ok, Res.ok_bind, ih]

theorem getValues_ok (l : List Int64) (b : Bytes) : getValues l.length ((l.map leI64).flatten ++ b) = .ok l := by
  induction l with
  | nil => rfl
  | cons x l ih =>
    simp only [List.length_cons, getValues, List.map_cons, List.flatten_cons, List.append_assoc, getI64_ok, Res.ok_bind, ih]

theorem example_split (crc : Bytes → UInt64) (now : UInt64) :
    ∃ pre post, exampleFile crc now = pre ++ ((sampleIDs.map le64).flatten ++ ((sampleValues.map leI64).flatten ++ post)) ∧ pre.length = 160 := by
  have e1 : (samplePairs.flatMap fun p => num 8 p.1) = (sampleIDs.map le64).flatten := by decide +kernel
  have e2 : (samplePairs.flatMap fun p => num 8 p.2) = (sampleValues.map leI64).flatten := by decide +kernel
  rw [← e1, ← e2]
  refine ⟨fileHeader now.toNat ++ num 8 1 ++ num 8 45 ++ num 8 100 ++ num 8 1000 ++ num 8 5500 ++ num 4 10 ++ num 4 0 ++ num 4 0 ++
    num 4 160 ++ num 4 160 ++ num 8 (crc blockData).toNat ++ List.replicate 8 0 ++ num 4 0 ++ num 4 80 ++ num 4 80 ++ num 4 80,
    index ++ num 8 (crc (fileHeader now.toNat ++ block (crc blockData).toNat ++ index)).toNat ++ num 8 vibescol, ?_, ?_⟩
  · unfold exampleFile
    dsimp only
    generalize num 8 (crc (fileHeader now.toNat ++ block (crc blockData).toNat ++ index)).toNat = t
    generalize (crc blockData).toNat = u
    simp only [block, blockData, List.append_assoc]
  · simp [header_length, num_length]

theorem example_ids (crc : Bytes → UInt64) (now : UInt64) : getIDs 10 ((exampleFile crc now).drop 0xa0) = .ok sampleIDs := by
  obtain ⟨pre, post, e, hl⟩ := example_split crc now
  rw [e, List.drop_left' hl]
  exact getIDs_ok sampleIDs _

theorem example_values (crc : Bytes → UInt64) (now : UInt64) : getValues 10 ((exampleFile crc now).drop 0xf0) = .ok sampleValues := by
  obtain ⟨pre, post, e, hl⟩ := example_split crc now
  rw [e, ← List.append_assoc, List.drop_left' (by rw [List.length_append, hl]; rfl)]
  exact getValues_ok sampleValues _

theorem fmtInt_nat (v : Int64) (n : Nat) (h : v.toInt = n) : fmtInt v = fmtNat n := by
  unfold fmtInt
  rw [h, if_neg (by omega)]
  rfl

/-- **C56.** Reading the file that `write_example` writes, `read_example` prints this text. -/
theorem C56_roundtrip (fmtAvg : Avg → Bytes) (usage name : Bytes) (crc : Bytes → UInt64) (now : UInt64) (dump agg : Bool) :
    run fmtAvg usage name (exampleFile crc now) dump agg = .ok (exampleText (fmtAvg (.quot 5500 10)) usage name dump agg) := by
  have hl : 324 ≤ (exampleFile crc now).length := (openFile_checked (example_opens crc now)).1
  have e1 : fmtNat 1 = [49] := by simp [fmtNat]
  have e5 : fmtNat 5 = [53] := by simp [fmtNat]
  have e10 : fmtNat 10 = [49, 48] := by simp [fmtNat]
  have e15 : fmtNat 15 = [49, 53] := by simp [fmtNat]
  have e20 : fmtNat 20 = [50, 48] := by simp [fmtNat]
  have e25 : fmtNat 25 = [50, 53] := by simp [fmtNat]
  have e30 : fmtNat 30 = [51, 48] := by simp [fmtNat]
  have e35 : fmtNat 35 = [51, 53] := by simp [fmtNat]
  have e40 : fmtNat 40 = [52, 48] := by simp [fmtNat]
  have e45 : fmtNat 45 = [52, 53] := by simp [fmtNat]
  have i100 : fmtInt 100 = [49, 48, 48] := by rw [fmtInt_nat 100 100 (by decide)]; simp [fmtNat]
  have i200 : fmtInt 200 = [50, 48, 48] := by rw [fmtInt_nat 200 200 (by decide)]; simp [fmtNat]
  have i300 : fmtInt 300 = [51, 48, 48] := by rw [fmtInt_nat 300 300 (by decide)]; simp [fmtNat]
  have i400 : fmtInt 400 = [52, 48, 48] := by rw [fmtInt_nat 400 400 (by decide)]; simp [fmtNat]
  have i500 : fmtInt 500 = [53, 48, 48] := by rw [fmtInt_nat 500 500 (by decide)]; simp [fmtNat]
  have i600 : fmtInt 600 = [54, 48, 48] := by rw [fmtInt_nat 600 600 (by decide)]; simp [fmtNat]
  have i700 : fmtInt 700 = [55, 48, 48] := by rw [fmtInt_nat 700 700 (by decide)]; simp [fmtNat]
  have i800 : fmtInt 800 = [56, 48, 48] := by rw [fmtInt_nat 800 800 (by decide)]; simp [fmtNat]
  have i900 : fmtInt 900 = [57, 48, 48] := by rw [fmtInt_nat 900 900 (by decide)]; simp [fmtNat]
  have i1000 : fmtInt 1000 = [49, 48, 48, 48] := by rw [fmtInt_nat 1000 1000 (by decide)]; simp [fmtNat]
  have i5500 : fmtInt 5500 = [53, 53, 48, 48] := by rw [fmtInt_nat 5500 5500 (by decide)]; simp [fmtNat]
  have hd : Examples.dump fmtAvg (exampleFile crc now) = .ok (ascii "ID\tValue\n--\t-----\n1\t100\n5\t200\n10\t300\n15\t400\n20\t500\n25\t600\n30\t700\n35\t800\n40\t900\n45\t1000\n" ++
      ascii "\nBlock Statistics (computed from data):\nCount: 10\nMin ID: 1, Max ID: 45\nMin Value: 100, Max Value: 1000\nSum: 5500\nAverage: " ++
      fmtAvg (.quot 5500 10) ++ ascii "\n\n") := by
    rw [dump_eq fmtAvg hl (example_ids crc now) (example_values crc now) sample_stats]
    dsimp only
    generalize fmtAvg (.quot 5500 10) = avg
    have m1 : (1 : UInt64).toNat = 1 := rfl
    have m45 : (45 : UInt64).toNat = 45 := rfl
    have hlines : (sampleIDs.zip sampleValues).map (fun p => fmtNat p.1.toNat ++ [9] ++ fmtInt p.2 ++ [10]) =
        [fmtNat 1 ++ [9] ++ fmtInt 100 ++ [10], fmtNat 5 ++ [9] ++ fmtInt 200 ++ [10], fmtNat 10 ++ [9] ++ fmtInt 300 ++ [10],
         fmtNat 15 ++ [9] ++ fmtInt 400 ++ [10], fmtNat 20 ++ [9] ++ fmtInt 500 ++ [10], fmtNat 25 ++ [9] ++ fmtInt 600 ++ [10],
         fmtNat 30 ++ [9] ++ fmtInt 700 ++ [10], fmtNat 35 ++ [9] ++ fmtInt 800 ++ [10], fmtNat 40 ++ [9] ++ fmtInt 900 ++ [10],
         fmtNat 45 ++ [9] ++ fmtInt 1000 ++ [10]] := rfl
    rw [hlines, m1, m45]
    simp only [e1, e5, e10, e15, e20, e25, e30, e35, e40, e45, i100, i200, i300, i400, i500, i600, i700, i800, i900, i1000, i5500]
    have hs : str "ID\tValue\n" ++ str "--\t-----\n" ++
        [[49] ++ [9] ++ [49, 48, 48] ++ [10], [53] ++ [9] ++ [50, 48, 48] ++ [10], [49, 48] ++ [9] ++ [51, 48, 48] ++ [10],
         [49, 53] ++ [9] ++ [52, 48, 48] ++ [10], [50, 48] ++ [9] ++ [53, 48, 48] ++ [10], [50, 53] ++ [9] ++ [54, 48, 48] ++ [10],
         [51, 48] ++ [9] ++ [55, 48, 48] ++ [10], [51, 53] ++ [9] ++ [56, 48, 48] ++ [10], [52, 48] ++ [9] ++ [57, 48, 48] ++ [10],
         [52, 53] ++ [9] ++ [49, 48, 48, 48] ++ [10]].flatten ++
        str "\nBlock Statistics (computed from data):\n" ++ str "Count: " ++ [49, 48] ++ str "\n" ++
        str "Min ID: " ++ [49] ++ str ", Max ID: " ++ [52, 53] ++ str "\n" ++
        str "Min Value: " ++ [49, 48, 48] ++ str ", Max Value: " ++ [49, 48, 48, 48] ++ str "\n" ++
        str "Sum: " ++ [53, 53, 48, 48] ++ str "\n" ++ str "Average: " =
        ascii "ID\tValue\n--\t-----\n1\t100\n5\t200\n10\t300\n15\t400\n20\t500\n25\t600\n30\t700\n35\t800\n40\t900\n45\t1000\n" ++
        ascii "\nBlock Statistics (computed from data):\nCount: 10\nMin ID: 1, Max ID: 45\nMin Value: 100, Max Value: 1000\nSum: 5500\nAverage: " := by
      decide +kernel
    rw [hs]
    rfl
  have ha : aggregate fmtAvg [⟨100, 1000, 5500, 10⟩] =
      ascii "Aggregate Statistics (from metadata only):\nCount: 10\nMin: 100\nMax: 1000\nSum: 5500\nAverage: " ++ fmtAvg (.quot 5500 10) ++ ascii "\n" := by
    have ht : totals [⟨100, 1000, 5500, 10⟩] = ⟨100, 1000, 5500, 10⟩ := by decide +kernel
    unfold aggregate
    rw [ht]
    dsimp only
    rw [if_pos (by decide)]
    have m10 : (10 : UInt32).toNat = 10 := rfl
    rw [m10]
    generalize fmtAvg (.quot 5500 10) = avg
    simp only [e10, i100, i1000, i5500]
    have hs : str "Aggregate Statistics (from metadata only):\n" ++ str "Count: " ++ [49, 48] ++ str "\n" ++
        str "Min: " ++ [49, 48, 48] ++ str "\n" ++ str "Max: " ++ [49, 48, 48, 48] ++ str "\n" ++
        str "Sum: " ++ [53, 53, 48, 48] ++ str "\n" ++ str "Average: " =
        ascii "Aggregate Statistics (from metadata only):\nCount: 10\nMin: 100\nMax: 1000\nSum: 5500\nAverage: " := by decide +kernel
    rw [hs]
    rfl
  have hh : str "File: " ++ name ++ str "\n" ++ str "Version: " ++ fmtNat 1 ++ str "\n" ++ str "Blocks: " ++ fmtNat 1 ++ str "\n\n" =
      ascii "File: " ++ name ++ ascii "\nVersion: 1\nBlocks: 1\n\n" := by
    rw [e1]
    have hs : str "\n" ++ (str "Version: " ++ ([49] ++ (str "\n" ++ (str "Blocks: " ++ ([49] ++ str "\n\n"))))) =
      ascii "\nVersion: 1\nBlocks: 1\n\n" := by decide +kernel
    rw [← hs]
    simp only [List.append_assoc]
    rfl
  unfold run exampleText
  rw [example_opens, Res.ok_bind]
  have hh' : str "File: " ++ name ++ str "\n" ++ str "Version: " ++ fmtNat (1 : UInt32).toNat ++ str "\n" ++ str "Blocks: " ++
    fmtNat (1 : UInt64).toNat ++ str "\n\n" = ascii "File: " ++ name ++ ascii "\nVersion: 1\nBlocks: 1\n\n" := hh
  dsimp only
  rw [hh', ha]
  cases dump <;> cases agg
  · simp [Res.ok_bind]
  · simp [Res.ok_bind]
  · simp [Res.ok_bind, hd]
  · simp [Res.ok_bind, hd]

end VibeCol.Examples
