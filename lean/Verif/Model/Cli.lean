/-
cmd/vibecol/main.go (cited as main.go), with the parts of Go's standard library it uses for reading numbers
(strings.Split, strings.TrimSpace, strconv.ParseUint, strconv.ParseInt) and for printing them
(fmt's %d). Flag parsing is in `Model/CommandLine.lean`; usage texts are not modelled; the text of error messages is replaced
by their data; `%.2f` of the average is a parameter. The input file of `read` is a byte list; failing reads are in
`Model/ProgramsIO.lean`.
-/
import Verif.Model.Writer
import Verif.Model.Aggregate
namespace VibeCol.Cli

/-- An ASCII string literal as bytes. -/
def str (s : String) : Bytes := s.toList.map fun c => UInt8.ofNat c.toNat

/-! ### strings -/

/-- `strings.Split(s, ",")` (main.go:59-60): always at least one field. -/
def split : Bytes → List Bytes
  | [] => [[]]
  | c :: cs => if c = 44 then [] :: split cs else
      match split cs with
      | [] => [[c]]
      | f :: fs => (c :: f) :: fs

/-- The length of the encoding of a `unicode.IsSpace` character at the start of `s`, 0 if there is
none: TAB, LF, VT, FF, CR, space, U+0085, U+00A0, U+1680, U+2000..U+200A, U+2028, U+2029, U+202F,
U+205F, U+3000. -/
def spaceLen : Bytes → Nat
  | [] => 0
  | a :: s =>
    if (9 ≤ a ∧ a ≤ 13) ∨ a = 32 then 1 else
    match s with
    | [] => 0
    | b :: s =>
      if a = 0xC2 ∧ (b = 0x85 ∨ b = 0xA0) then 2 else
      match s with
      | [] => 0
      | c :: _ =>
        if (a = 0xE1 ∧ b = 0x9A ∧ c = 0x80) ∨
           (a = 0xE2 ∧ b = 0x80 ∧ ((0x80 ≤ c ∧ c ≤ 0x8A) ∨ c = 0xA8 ∨ c = 0xA9 ∨ c = 0xAF)) ∨
           (a = 0xE2 ∧ b = 0x81 ∧ c = 0x9F) ∨ (a = 0xE3 ∧ b = 0x80 ∧ c = 0x80) then 3 else 0

/-- The same at the end of a string, which is given backwards. (`utf8.DecodeLastRuneInString`
finds such a character exactly if the string ends with its encoding.) -/
def spaceLenRev : Bytes → Nat
  | [] => 0
  | c :: s =>
    if (9 ≤ c ∧ c ≤ 13) ∨ c = 32 then 1 else
    match s with
    | [] => 0
    | b :: s =>
      if b = 0xC2 ∧ (c = 0x85 ∨ c = 0xA0) then 2 else
      match s with
      | [] => 0
      | a :: _ =>
        if (a = 0xE1 ∧ b = 0x9A ∧ c = 0x80) ∨
           (a = 0xE2 ∧ b = 0x80 ∧ ((0x80 ≤ c ∧ c ≤ 0x8A) ∨ c = 0xA8 ∨ c = 0xA9 ∨ c = 0xAF)) ∨
           (a = 0xE2 ∧ b = 0x81 ∧ c = 0x9F) ∨ (a = 0xE3 ∧ b = 0x80 ∧ c = 0x80) then 3 else 0

theorem spaceLen_le (s : Bytes) : spaceLen s ≤ s.length := by
  unfold spaceLen
  split
  · simp
  · split
    · simp
    · split
      · simp
      · split
        · simp
        · split
          · simp
          · split <;> simp

theorem spaceLenRev_le (s : Bytes) : spaceLenRev s ≤ s.length := by
  unfold spaceLenRev
  split
  · simp
  · split
    · simp
    · split
      · simp
      · split
        · simp
        · split
          · simp
          · split <;> simp

/-- Removes space characters as long as the string starts with one. -/
def strip (len : Bytes → Nat) (s : Bytes) : Bytes :=
  if 0 < len s ∧ 0 < s.length then strip len (s.drop (len s)) else s
termination_by s.length
decreasing_by simp only [List.length_drop]; omega

/-- `strings.TrimSpace(s)` (main.go:73, 82): its fast path for ASCII and
`TrimFunc(s, unicode.IsSpace)` give the same string. -/
def trimSpace (s : Bytes) : Bytes := (strip spaceLenRev (strip spaceLen s).reverse).reverse

/-! ### strconv -/

/-- `strconv.ErrSyntax` and `strconv.ErrRange`. -/
inductive NumErr where
  | syntax
  | range
deriving DecidableEq, Repr

/-- The loop of `strconv.ParseUint(s, 10, 64)`: `n` is the number read so far. The digit values of
letters are at least the base, which is a syntax error, like that of all other characters.
1844674407370955162 is `maxUint64/10 + 1`. -/
def parseUintLoop : Bytes → UInt64 → Except NumErr UInt64
  | [], n => .ok n
  | c :: cs, n =>
    if c < 48 ∨ 57 < c then .error .syntax else
    if n ≥ 1844674407370955162 then .error .range else
    let n10 := n * 10
    let n1 := n10 + (c - 48).toUInt64
    if n1 < n10 then .error .range else parseUintLoop cs n1

/-- `strconv.ParseUint(s, 10, 64)` (main.go:73). -/
def parseUint (s : Bytes) : Except NumErr UInt64 :=
  if s = [] then .error .syntax else parseUintLoop s 0

/-- `strconv.ParseInt(s, 10, 64)` (main.go:82). When `ParseUint` reports `ErrRange` it returns the
greatest number, which is out of the range of `int64`. -/
def parseInt (s : Bytes) : Except NumErr Int64 :=
  match s with
  | [] => .error .syntax
  | c :: cs =>
    let neg := c = 45
    let digits := if c = 43 ∨ c = 45 then cs else c :: cs
    match parseUint digits with
    | .error .syntax => .error .syntax
    | .error .range => .error .range
    | .ok un =>
      if ¬ neg ∧ un ≥ 9223372036854775808 then .error .range else
      if neg ∧ un > 9223372036854775808 then .error .range else
      .ok (if neg then -un.toInt64 else un.toInt64)

/-! ### fmt -/

/-- `%d` of a number that is not negative. -/
def fmtNat (n : Nat) : Bytes :=
  if n < 10 then [UInt8.ofNat (48 + n)] else fmtNat (n / 10) ++ [UInt8.ofNat (48 + n % 10)]
termination_by n

/-- `%d` of an `int64`. -/
def fmtInt (v : Int64) : Bytes :=
  if v.toInt < 0 then 45 :: fmtNat v.toInt.natAbs else fmtNat v.toInt.natAbs

/-! ### write -/

/-- The messages printed before `os.Exit(1)`. -/
inductive Failure where
  | countMismatch (ids values : Nat)
  | parseID (field : Bytes) (e : NumErr)
  | parseValue (field : Bytes) (e : NumErr)
  | create (e : Err)
  | write (e : Err)
  | finalize (e : Err)
  | open (e : Err)
  | pairs (block : UInt32) (e : Err)
deriving DecidableEq, Repr

/-- The conversion loops (main.go:72-88): the first field that is not a number ends the program. -/
def parseFields {α : Type} (parse : Bytes → Except NumErr α) (fail : Bytes → NumErr → Failure) :
    List Bytes → Except Failure (List α)
  | [] => .ok []
  | f :: fs =>
    match parse (trimSpace f) with
    | .error e => .error (fail f e)
    | .ok x =>
      match parseFields parse fail fs with
      | .error e => .error e
      | .ok xs => .ok (x :: xs)

/-- What a run of `vibecol write` leaves: a message, the exit status 0 or 1 with its reason, and
the output file if it was opened, that is, created or truncated. -/
structure WriteRun (B : Type) where
  exit : Except Failure Bytes
  output : Option (Writer B)

section C
variable {B : Type} [Bitmap B]

/-- `runWrite` (main.go:57-111). -/
def runWrite (env : Env) (outputFile idsStr valuesStr : Bytes) : WriteRun B :=
  let idsStrArr := split idsStr
  let valuesStrArr := split valuesStr
  if idsStrArr.length ≠ valuesStrArr.length then
    ⟨.error (.countMismatch idsStrArr.length valuesStrArr.length), none⟩
  else
  match parseFields parseUint .parseID idsStrArr with
  | .error e => ⟨.error e, none⟩
  | .ok ids =>
  match parseFields parseInt .parseValue valuesStrArr with
  | .error e => ⟨.error e, none⟩
  | .ok values =>
  match newWriter (B := B) [] env with
  | (.error e, w) => ⟨.error (.create e), some w⟩
  | (.ok _, w) =>
  match writeBlock ids values env w with
  | (.error e, w) => ⟨.error (.write e), some (fclose env w).2⟩
  | (.ok _, w) =>
  match finalizeAndClose env w with
  | (.error e, w) => ⟨.error (.finalize e), some w⟩
  | (.ok _, w) =>
    ⟨.ok (str "Wrote file with " ++ fmtNat ids.length ++ str " entries to " ++ outputFile ++ str "\n"), some w⟩

/-! ### read -/

/-- The text printed so far, and why the program stopped, if it did: `os.Exit(1)` with a message, or
a panic. -/
inductive Stopped where
  | failed (f : Failure)
  | panicked
deriving DecidableEq, Repr

/-- Printing the pairs of a block (main.go:145-147); `values[j]` panics out of range. -/
def printPairs : List UInt64 → List Int64 → Bytes × Option Stopped
  | [], _ => ([], none)
  | _ :: _, [] => ([], some .panicked)
  | id :: ids, v :: vs =>
    let (out, e) := printPairs ids vs
    (fmtNat id.toNat ++ [9] ++ fmtInt v ++ [10] ++ out, e)

/-- The loop over the blocks (main.go:137-148), with `fuel` blocks to go, from block `i` on. -/
def dumpLoop (r : Reader B) : Nat → UInt32 → Bytes × Option Stopped
  | 0, _ => ([], none)
  | fuel + 1, i =>
    match getPairs r i.toUInt64 with
    | .panic => ([], some .panicked)
    | .err e => ([], some (.failed (.pairs i e)))
    | .ok (ids, values) =>
      match printPairs ids values with
      | (out, some e) => (out, some e)
      | (out, none) =>
        let (rest, e) := dumpLoop r fuel (i + 1)
        (out ++ rest, e)

/-- The lines printed for `--agg` (main.go:154-159). -/
def aggText (fmtAvg : Avg → Bytes) (res : AggregateResult) : Bytes :=
  str "Aggregate Statistics (from metadata only):\n" ++
  str "Count: " ++ fmtNat res.count ++ str "\n" ++
  str "Min: " ++ fmtInt res.min ++ str "\n" ++
  str "Max: " ++ fmtInt res.max ++ str "\n" ++
  str "Sum: " ++ fmtInt res.sum ++ str "\n" ++
  str "Average: " ++ fmtAvg res.avg ++ str "\n"

/-- `runRead` (main.go:113-167; `Aggregate` returns no error). `usage` is the text printed if no operation is given. -/
def runRead (fmtAvg : Avg → Bytes) (usage : Bytes) (sched : Sched) (inputFile : Bytes) (file : Bytes)
    (dumpKV aggregate : Bool) : Bytes × Option Stopped :=
  match newReader (B := B) file with
  | .panic => ([], some .panicked)
  | .err e => ([], some (.failed (.open e)))
  | .ok r =>
    let head := str "File: " ++ inputFile ++ str "\n" ++
      str "Version: " ++ fmtNat r.version.toNat ++ str "\n" ++
      str "Blocks: " ++ fmtNat r.blockCount.toNat ++ str "\n\n"
    let (dump, e) := if dumpKV then
        let (out, e) := dumpLoop r r.blockCount.toUInt32.toNat 0
        (str "ID\tValue\n" ++ str "--\t-----\n" ++ out ++ (if e.isNone then str "\n" else []), e)
      else ([], none)
    match e with
    | some e => (head ++ dump, some e)
    | none =>
      if aggregate then
        match VibeCol.aggregate sched r with
        | .panic => (head ++ dump, some .panicked)
        | .err _ => (head ++ dump, some .panicked)
        | .ok res => (head ++ dump ++ aggText fmtAvg res, none)
      else (head ++ dump ++ (if dumpKV then [] else usage), none)

end C
end VibeCol.Cli
