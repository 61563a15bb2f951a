/-
Specification vocabulary for the command line program: what its arguments mean, and what decimal
numbers and lines of output look like. Nothing here refers to the model of the code.
-/
import Verif.Model.Prim
namespace VibeCol.Cli

/-- The number a string of ASCII digits stands for. -/
def digitsValue (s : Bytes) : Nat := s.foldl (fun n c => 10 * n + (c.toNat - 48)) 0

/-- `s` is a non-empty string of ASCII digits. -/
def Digits (s : Bytes) : Prop := s ≠ [] ∧ ∀ c ∈ s, 48 ≤ c.toNat ∧ c.toNat ≤ 57

/-- `s` is how `n` is written: digits, no superfluous zero in front. -/
structure Decimal (s : Bytes) (n : Nat) : Prop where
  digits : Digits s
  value : digitsValue s = n
  short : s.head? = some 48 → s = [48]

/-- The same with a minus sign for negative numbers. -/
inductive SignedDecimal : Bytes → Int → Prop where
  | pos (s : Bytes) (n : Nat) (h : Decimal s n) : SignedDecimal s n
  | neg (s : Bytes) (n : Nat) (h : Decimal s n) (hn : n ≠ 0) : SignedDecimal (45 :: s) (-n)

/-- UTF-8 encodings of the white space characters: U+0009..U+000D, U+0020, U+0085, U+00A0, U+1680,
U+2000..U+200A, U+2028, U+2029, U+202F, U+205F, U+3000. -/
def spaceChars : List Bytes :=
  [[9], [10], [11], [12], [13], [32], [0xC2, 0x85], [0xC2, 0xA0], [0xE1, 0x9A, 0x80],
   [0xE2, 0x80, 0x80], [0xE2, 0x80, 0x81], [0xE2, 0x80, 0x82], [0xE2, 0x80, 0x83], [0xE2, 0x80, 0x84],
   [0xE2, 0x80, 0x85], [0xE2, 0x80, 0x86], [0xE2, 0x80, 0x87], [0xE2, 0x80, 0x88], [0xE2, 0x80, 0x89],
   [0xE2, 0x80, 0x8A], [0xE2, 0x80, 0xA8], [0xE2, 0x80, 0xA9], [0xE2, 0x80, 0xAF], [0xE2, 0x81, 0x9F],
   [0xE3, 0x80, 0x80]]

/-- A string of white space characters. -/
inductive Spaces : Bytes → Prop where
  | nil : Spaces []
  | cons (c s : Bytes) (hc : c ∈ spaceChars) (hs : Spaces s) : Spaces (c ++ s)

/-- A field of the `-ids` argument denotes `n`: digits, with white space around them. -/
def DenotesID (field : Bytes) (n : UInt64) : Prop :=
  ∃ l d r, field = l ++ d ++ r ∧ Spaces l ∧ Spaces r ∧ Digits d ∧ digitsValue d = n.toNat

/-- A field of the `-values` argument denotes `v`: digits with an optional sign in front, with
white space around them. -/
def DenotesValue (field : Bytes) (v : Int64) : Prop :=
  ∃ l sign d r, field = l ++ sign ++ d ++ r ∧ Spaces l ∧ Spaces r ∧ Digits d ∧
    ((sign = [] ∨ sign = [43]) ∧ (digitsValue d : Int) = v.toInt ∨
      sign = [45] ∧ -(digitsValue d : Int) = v.toInt)

/-- The fields `fs` of an argument, separated by commas. -/
def FieldsOf (arg : Bytes) (fs : List Bytes) : Prop :=
  fs ≠ [] ∧ (∀ f ∈ fs, (44 : UInt8) ∉ f) ∧ arg = [(44 : UInt8)].intercalate fs

/-- Two lists of the same length, related element by element. -/
inductive Each2 {α β : Type} (R : α → β → Prop) : List α → List β → Prop where
  | nil : Each2 R [] []
  | cons {a b as bs} (h : R a b) (hs : Each2 R as bs) : Each2 R (a :: as) (b :: bs)

/-- The arguments `-ids` and `-values` stand for these IDs and values. -/
def Means (idsArg valuesArg : Bytes) (ids : List UInt64) (values : List Int64) : Prop :=
  ids.length = values.length ∧
  (∃ fs, FieldsOf idsArg fs ∧ Each2 DenotesID fs ids) ∧
  (∃ fs, FieldsOf valuesArg fs ∧ Each2 DenotesValue fs values)

/-- A line showing a pair: ID, TAB, value. -/
def PairLine (line : Bytes) (p : UInt64 × Int64) : Prop :=
  ∃ a b, line = a ++ [9] ++ b ++ [10] ∧ Decimal a p.1.toNat ∧ SignedDecimal b p.2.toInt

end VibeCol.Cli
