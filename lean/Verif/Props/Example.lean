/-
A concrete instance of everything the theorems quantify over, used to show that their
hypotheses can be met: a lawful bitmap (a list of IDs), an environment without faults, and
finalized files.
-/
import Verif.Lemmas.Progress
import Verif.Lemmas.Stats
namespace VibeCol

/-- A bitmap as a list of IDs. -/
structure IdSet where
  ids : List UInt64

instance : Bitmap IdSet where
  empty := ⟨[]⟩
  set b x := ⟨x :: b.ids⟩
  contains b x := b.ids.elem x
  or a b := ⟨a.ids ++ b.ids⟩
  minimum b := (calculateMinMaxUint64 b.ids).1
  maximum b := (calculateMinMaxUint64 b.ids).2
  toBuffer b := (b.ids.map le64).flatten
  fromBuffer buf := ⟨decodeFixedIDs buf (buf.length / 8)⟩

instance : LawfulBitmap IdSet where
  contains_empty x := rfl
  contains_set b x y := by
    show List.elem y (x :: b.ids) = (x == y || List.elem y b.ids)
    rw [List.elem_cons]
    congr 1
    exact Bool.beq_comm
  contains_or a b x := by
    show List.elem x (a.ids ++ b.ids) = (List.elem x a.ids || List.elem x b.ids)
    simp
  minimum_le b x h := by
    have hx : x ∈ b.ids := List.elem_iff.1 h
    exact ((minMaxUint64_spec b.ids (List.ne_nil_of_mem hx)).2.2 x hx).1
  le_maximum b x h := by
    have hx : x ∈ b.ids := List.elem_iff.1 h
    exact ((minMaxUint64_spec b.ids (List.ne_nil_of_mem hx)).2.2 x hx).2
  contains_fromBuffer_toBuffer b x := by
    show List.elem x (decodeFixedIDs (List.map le64 b.ids).flatten ((List.map le64 b.ids).flatten.length / 8)) =
      List.elem x b.ids
    rw [flatten_map_eq le64 b.ids 8 le64_length, Nat.mul_div_cancel _ (by decide), decodeFixedIDs_enc]

/-- Insertion into a list sorted by ID. -/
def insertByID (p : UInt64 × Int64) : List (UInt64 × Int64) → List (UInt64 × Int64)
  | [] => [p]
  | q :: qs => if p.1 ≤ q.1 then p :: q :: qs else q :: insertByID p qs

/-- A sorting function. -/
def sortByInsertion (l : List (UInt64 × Int64)) : List (UInt64 × Int64) := l.foldr insertByID []

theorem insertByID_perm (p : UInt64 × Int64) (l : List (UInt64 × Int64)) : (insertByID p l).Perm (p :: l) := by
  induction l with
  | nil => exact .refl _
  | cons q qs ih =>
    unfold insertByID
    split
    · exact .refl _
    · exact (ih.cons q).trans (.swap p q qs)

theorem insertByID_sorted (p : UInt64 × Int64) (l : List (UInt64 × Int64))
    (h : l.Pairwise (fun a b => a.1 ≤ b.1)) : (insertByID p l).Pairwise (fun a b => a.1 ≤ b.1) := by
  induction l with
  | nil => exact List.pairwise_singleton _ _
  | cons q qs ih =>
    unfold insertByID
    cases h with
    | cons h1 h2 =>
      split
      · rename_i hp
        refine .cons ?_ (.cons h1 h2)
        intro x hx
        rcases List.mem_cons.1 hx with rfl | hx
        · exact hp
        · exact UInt64.le_trans hp (h1 x hx)
      · rename_i hp
        refine .cons ?_ (ih h2)
        intro x hx
        rcases List.mem_cons.1 ((insertByID_perm p qs).mem_iff.1 hx) with rfl | hx
        · exact UInt64.le_of_lt (UInt64.not_le.1 hp)
        · exact h1 x hx

theorem sortByInsertion_lawful : LawfulSort sortByInsertion := by
  intro l
  unfold sortByInsertion
  induction l with
  | nil => exact ⟨.nil, .nil⟩
  | cons p ps ih =>
    exact ⟨(insertByID_perm p _).trans (ih.1.cons p), insertByID_sorted p _ ih.2⟩

/-- An environment in which nothing fails. -/
def quietEnv : Env where
  fault _ := none
  clock _ := 1700000000
  sort := sortByInsertion

theorem quietEnv_noFault : quietEnv.NoFault := fun _ => rfl

theorem idSet_foldl (L : List UInt64) (b : IdSet) : (L.foldl Bitmap.set b).ids.length = b.ids.length + L.length := by
  induction L generalizing b with
  | nil => rfl
  | cons x L ih =>
    rw [List.foldl_cons, ih]
    show (x :: b.ids).length + _ = _
    simp only [List.length_cons]; omega

theorem idSet_buffer (N : Nat) (L : List UInt64) (h : L.length ≤ N) :
    (Bitmap.toBuffer (L.foldl Bitmap.set (Bitmap.empty : IdSet))).length ≤ 8 * N := by
  show ((L.foldl Bitmap.set (Bitmap.empty : IdSet)).ids.map le64).flatten.length ≤ _
  rw [flatten_map_eq le64 _ 8 le64_length, idSet_foldl]
  show (([] : List UInt64).length + L.length) * 8 ≤ _
  rw [List.length_nil]; omega

deriving instance DecidableEq for Except
deriving instance DecidableEq for Call

instance : DecidablePred Call.Bounded := fun c => match c with
  | .write ids _ => inferInstanceAs (Decidable (ids.length ≤ 2 ^ 27))
  | .estimate ids _ => inferInstanceAs (Decidable (ids.length ≤ 2 ^ 27))
  | .finalize => .isTrue trivial

/-- Two blocks, a rejected call and a `Finalize` in between. -/
def exampleCalls : List Call :=
  [.write [3, 1, 2] [30, -10, 20], .write [1] [], .finalize, .write [5, 1] [7, -9223372036854775807]]

/-- Delta and varint encoding, default block size. -/
def exampleOpts : List WriterOption := [.withEncoding encVarIntBoth]

/-- What the caller sees. -/
def exampleLog : Log :=
  [(.write [3, 1, 2] [30, -10, 20], .ok ()), (.write [1] [], .error .lengthMismatch), (.finalize, .ok ()),
   (.write [5, 1] [7, -9223372036854775807], .ok ())]

theorem exampleLog_eq :
    (runCalls quietEnv exampleCalls (newWriter (B := IdSet) exampleOpts quietEnv).2).1 = exampleLog := by
  decide +kernel

/-- A history in which blocks fill up. -/
def fullCalls : List Call := [.write [3, 1, 2] [30, -10, 20], .write [1, 2] [-10, 20], .write [2] [20]]

/-- Delta encoding, a block size of 4095 bytes. -/
def fullOpts : List WriterOption := [.withBlockSize 4095, .withEncoding encDeltaBoth]

/-- What the caller sees. -/
def fullLog : Log :=
  [(.write [3, 1, 2] [30, -10, 20], .ok ()), (.write [1, 2] [-10, 20], .error (.blockFull 1)),
   (.write [2] [20], .ok ())]

theorem fullLog_eq :
    (runCalls quietEnv fullCalls (newWriter (B := IdSet) fullOpts quietEnv).2).1 = fullLog := by
  decide +kernel

/-- A way to finalized files: evaluate the results of the calls. -/
theorem finalized_of_log (opts : List WriterOption) (calls : List Call) (log : Log)
    (hb : ∀ c ∈ calls, c.Bounded)
    (hlog : (runCalls quietEnv calls (newWriter (B := IdSet) opts quietEnv).2).1 = log)
    (hmis : NoMismatch log) (hsize : sizeBound calls (8 * totalPairs calls) < 2 ^ 63) :
    ∃ file, Finalized IdSet quietEnv opts log file := by
  obtain ⟨w0, h0⟩ := newWriter_ok (B := IdSet) quietEnv quietEnv_noFault opts
  have hh : History IdSet quietEnv opts calls log (runCalls quietEnv calls w0).2 := by
    refine ⟨w0, h0, ?_⟩
    rw [h0] at hlog
    rw [← hlog]
  exact hh.finalized quietEnv_noFault hb hmis (8 * totalPairs calls) (idSet_buffer _) hsize

/-- The example history leads to a finalized file. -/
theorem example_finalized : ∃ file, Finalized IdSet quietEnv exampleOpts exampleLog file :=
  finalized_of_log exampleOpts exampleCalls exampleLog
    (by decide)
    exampleLog_eq (by unfold NoMismatch; decide) (by decide)

/-- So does the one with full blocks. -/
theorem full_finalized : ∃ file, Finalized IdSet quietEnv fullOpts fullLog file :=
  finalized_of_log fullOpts fullCalls fullLog
    (by decide)
    fullLog_eq (by unfold NoMismatch; decide) (by decide)

end VibeCol
