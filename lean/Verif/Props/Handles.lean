/-
C89: the files a process has open.
-/
import Verif.Lemmas.Open
import Verif.Spec.Handles
import Verif.Props.Closing
import Verif.Props.SimpleClosed
import Verif.Props.Faults
import Verif.Props.ReadFaults
import Verif.Props.SimpleFaults
namespace VibeCol.Handles
open VibeCol.Closing
variable {B : Type} [Bitmap B]

/-! ### The constructors -/

omit [Bitmap B] in
/-- The model of `NewReader` with its file returns what the model without it returns. -/
theorem newReaderFile_fst (fail : Nat → Bool) (file : Bytes) : (newReaderFile (B := B) fail file).1 = newReaderIO fail file := by
  unfold newReaderFile newReaderIO
  split
  · rfl
  · split
    · rfl
    · show _ = Res.bind _ _
      cases readHeaderIO (fail 2) file with
      | panic => rfl
      | err e => rfl
      | ok hd =>
        show _ = Res.bind (readFooterIO (fun n => fail (n + 3)) file hd) _
        dsimp only
        cases readFooterIO (fun n => fail (n + 3)) file hd with
        | panic => rfl
        | err e => rfl
        | ok x => rfl

omit [Bitmap B] in
theorem start_open (opts : List WriterOption) (w : Writer B) : (opts.foldl (fun w o => o.apply w) w).fileOpen = w.fileOpen := by
  induction opts generalizing w with
  | nil => rfl
  | cons o opts ih =>
    rw [List.foldl_cons, ih]
    cases o <;> rfl

theorem newWriter_open (opts : List WriterOption) (env : Env) : (newWriter (B := B) opts env).2.fileOpen = true := by
  unfold newWriter
  rw [Steady.writeHeader, start_open]
  rfl

/-- The model of `NewSimpleWriter` with its file returns what the model without it returns. -/
theorem newSimpleWriterFile_fst (opts : List WriterOption) (env : Env) :
    (newSimpleWriterFile (B := B) true opts env).1 = newSimpleWriter opts env := by
  unfold newSimpleWriterFile newWriterFile newSimpleWriter
  rw [if_neg (by decide)]
  generalize newWriter (B := B) opts env = res
  obtain ⟨r, w⟩ := res
  cases r <;> rfl

/-- **C89.** A constructor that returns an error leaves no file open; one that returns an object leaves the object's file open.
(`none`: the file could not even be opened.) -/
theorem C89_constructors (opts : List WriterOption) (creates : Bool) (env : Env) (fail : Nat → Bool) (file : Bytes) :
    (∀ e, (newWriterFile (B := B) creates opts env).1 = .error e →
      (newWriterFile (B := B) creates opts env).2 = none ∨ (newWriterFile (B := B) creates opts env).2 = some false) ∧
    (∀ w, (newWriterFile (B := B) creates opts env).1 = .ok w → (newWriterFile (B := B) creates opts env).2 = some true ∧ w.fileOpen = true) ∧
    (∀ e, (newSimpleWriterFile (B := B) creates opts env).1 = .error e →
      (newSimpleWriterFile (B := B) creates opts env).2 = none ∨ (newSimpleWriterFile (B := B) creates opts env).2 = some false) ∧
    (∀ sw, (newSimpleWriterFile (B := B) creates opts env).1 = .ok sw →
      (newSimpleWriterFile (B := B) creates opts env).2 = some true ∧ sw.writer.fileOpen = true) ∧
    (∀ e, (newReaderFile (B := B) fail file).1 = .err e → (newReaderFile (B := B) fail file).2 = none ∨ (newReaderFile (B := B) fail file).2 = some false) ∧
    (∀ r, (newReaderFile (B := B) fail file).1 = .ok r → (newReaderFile (B := B) fail file).2 = some true) := by
  have hw : (∀ e, (newWriterFile (B := B) creates opts env).1 = .error e →
      (newWriterFile (B := B) creates opts env).2 = none ∨ (newWriterFile (B := B) creates opts env).2 = some false) ∧
    (∀ w, (newWriterFile (B := B) creates opts env).1 = .ok w →
      (newWriterFile (B := B) creates opts env).2 = some true ∧ w.fileOpen = true) := by
    have ho := newWriter_open (B := B) opts env
    unfold newWriterFile
    split
    · exact ⟨fun _ _ => .inl rfl, fun _ h => by cases h⟩
    · generalize newWriter (B := B) opts env = res at ho ⊢
      obtain ⟨r, w⟩ := res
      cases r with
      | error e => exact ⟨fun _ _ => .inr (congrArg some (fclose_facts env w).2.2.2), fun _ h => by cases h⟩
      | ok u =>
        refine ⟨fun _ h => (by cases h), fun w' h => ?_⟩
        cases h
        exact ⟨congrArg some ho, ho⟩
  refine ⟨hw.1, hw.2, ?_, ?_, ?_⟩
  · unfold newSimpleWriterFile
    generalize newWriterFile (B := B) creates opts env = res at hw
    obtain ⟨r, o⟩ := res
    cases r with
    | error e => exact fun _ _ => hw.1 e rfl
    | ok w => exact fun _ h => by cases h
  · unfold newSimpleWriterFile
    generalize newWriterFile (B := B) creates opts env = res at hw
    obtain ⟨r, o⟩ := res
    cases r with
    | error e => exact fun _ h => by cases h
    | ok w =>
      intro sw h
      cases h
      exact hw.2 w rfl
  · unfold newReaderFile
    split
    · exact ⟨fun _ _ => .inl rfl, fun _ h => by cases h⟩
    · split
      · exact ⟨fun _ _ => .inr rfl, fun _ h => by cases h⟩
      · cases readHeaderIO (fail 2) file with
        | panic => exact ⟨fun _ h => (by cases h), fun _ h => by cases h⟩
        | err e => exact ⟨fun _ _ => .inr rfl, fun _ h => by cases h⟩
        | ok hd =>
          dsimp only
          cases readFooterIO (fun n => fail (n + 3)) file hd with
          | panic => exact ⟨fun _ h => (by cases h), fun _ h => by cases h⟩
          | err e => exact ⟨fun _ _ => .inr rfl, fun _ h => by cases h⟩
          | ok x => exact ⟨fun _ h => (by cases h), fun _ _ => rfl⟩

/-! ### The methods -/

theorem finalizeAndClose_open (env : Env) (w : Writer B) :
    ((finalizeAndClose env w).1 = .ok () → (finalizeAndClose env w).2.fileOpen = false) ∧
    (w.fileOpen = false → (finalizeAndClose env w).2.fileOpen = false) := by
  have hs := Steady.finalize (B := B) env w
  unfold finalizeAndClose
  rw [WM.bind_def]
  generalize finalize env w = res at hs ⊢
  obtain ⟨r, w'⟩ := res
  cases r with
  | error e => exact ⟨fun h => (by cases h), fun h => hs.trans h⟩
  | ok u => exact ⟨fun _ => (fclose_facts env w').2.2.2, fun _ => (fclose_facts env w').2.2.2⟩

/-- A method of a `Writer` and its file. -/
theorem writer_open (c : WCall) (env : Env) (w : Writer B) :
    (w.fileOpen = false → (c.run env w).2.fileOpen = false) ∧
    (c = .close → (c.run env w).2.fileOpen = false) ∧
    (c = .finalizeAndClose → (c.run env w).1 = .ok () → (c.run env w).2.fileOpen = false) ∧
    (c ≠ .close → c ≠ .finalizeAndClose → (c.run env w).2.fileOpen = w.fileOpen) := by
  cases c with
  | call c =>
    have h := Steady.call (B := B) c env w
    exact ⟨fun h' => h.trans h', fun h => (by cases h), fun h => (by cases h), fun _ _ => h⟩
  | close =>
    have h := (fclose_facts env w).2.2.2
    exact ⟨fun _ => h, fun _ => h, fun h => (by cases h), fun h => absurd rfl h⟩
  | finalizeAndClose =>
    obtain ⟨h1, h2⟩ := finalizeAndClose_open env w
    exact ⟨h2, fun h => (by cases h), fun _ => h1, fun _ h => absurd rfl h⟩

/-- What `SimpleWriter.Close` says of the file: once the writer says it is closed, it is. -/
def Sound (sw : SimpleWriter B) : Prop := sw.closed = true → sw.writer.fileOpen = false

/-- A method of a `SimpleWriter` and its file. -/
theorem simple_open (c : SWCall) (env : Env) (sw : SimpleWriter B) (hsw : Sound sw) :
    Sound (c.run env sw).2 ∧
    (sw.writer.fileOpen = false → (c.run env sw).2.writer.fileOpen = false) ∧
    (c = .close → (c.run env sw).1 = .ok () → (c.run env sw).2.writer.fileOpen = false) ∧
    (c ≠ .close → (c.run env sw).2.writer.fileOpen = sw.writer.fileOpen) := by
  cases c with
  | setTarget n =>
    show Sound (setTargetBlockSize n sw).2 ∧ (_ → (setTargetBlockSize n sw).2.writer.fileOpen = _) ∧ _ ∧
      (_ → (setTargetBlockSize n sw).2.writer.fileOpen = _)
    unfold setTargetBlockSize
    split
    · exact ⟨hsw, id, fun h => (by cases h), fun _ => rfl⟩
    · exact ⟨hsw, id, fun h => (by cases h), fun _ => rfl⟩
  | write ids vals =>
    have key : (sw.write env ids vals).2.writer.fileOpen = sw.writer.fileOpen ∧ (sw.write env ids vals).2.closed = sw.closed := by
      unfold SimpleWriter.write
      split
      · exact ⟨rfl, rfl⟩
      · split
        · exact ⟨rfl, rfl⟩
        · split
          · exact ⟨rfl, rfl⟩
          · dsimp only
            split <;> rw [Steady.flush, SimpleClosed.flush_closed] <;> exact ⟨rfl, rfl⟩
    obtain ⟨k1, k2⟩ := key
    exact ⟨fun h => k1.trans (hsw (k2.symm.trans h)), fun h => k1.trans h, fun h => (by cases h), fun _ => k1⟩
  | close =>
    show Sound (sw.close env).2 ∧ (_ → (sw.close env).2.writer.fileOpen = _) ∧ (_ → (sw.close env).1 = _ → (sw.close env).2.writer.fileOpen = _) ∧ _
    have hf := Steady.flush env true sw
    have hc := SimpleClosed.flush_closed env true sw
    unfold SimpleWriter.close
    split
    · rename_i h
      exact ⟨hsw, id, fun _ _ => hsw h, fun h => absurd rfl h⟩
    · rename_i hcl
      generalize flushIfNeeded env true sw = res at hf hc ⊢
      obtain ⟨r, sw'⟩ := res
      cases r with
      | error e =>
        exact ⟨fun h => absurd (hc.symm.trans h) hcl, fun h => hf.trans h, fun _ h => (by cases h), fun h => absurd rfl h⟩
      | ok u =>
        dsimp only at hf hc ⊢
        obtain ⟨f1, f2⟩ := finalizeAndClose_open env sw'.writer
        generalize finalizeAndClose env sw'.writer = res at f1 f2 ⊢
        obtain ⟨r, w'⟩ := res
        cases r with
        | error e =>
          exact ⟨fun h => absurd (hc.symm.trans h) hcl, fun h => f2 (hf.trans h), fun _ h => (by cases h), fun h => absurd rfl h⟩
        | ok u =>
          exact ⟨fun _ => f1 rfl, fun _ => f1 rfl, fun _ _ => f1 rfl, fun h => absurd rfl h⟩

/-- A method of a `Reader` and its file. -/
theorem reader_open (c : IOCall B) (s : OpenReader B) :
    (s.isOpen = false → (c.run s).2.isOpen = false) ∧ (∀ b, c = .close b → (c.run s).2.isOpen = false) ∧
    ((∀ b, c ≠ .close b) → (c.run s).2.isOpen = s.isOpen) := by
  cases c with
  | close b => exact ⟨fun _ => rfl, fun _ _ => rfl, fun h => absurd rfl (h b)⟩
  | _ => exact ⟨id, fun _ h => (by cases h), fun _ => rfl⟩

/-! ### The process -/

/-- All `SimpleWriter`s of the process are `Sound`. -/
def Good (p : Process B) : Prop := ∀ (i : Nat) (sw : SimpleWriter B), p.objects[i]? = some (.simple sw) → Sound sw

/-- What one deed does to the objects. -/
structure Effect (p p' : Process B) (ev : Deed B × Outcome) : Prop where
  good : Good p'
  len : p'.objects.length = p.objects.length + created [ev]
  old : ∀ i o, p.objects[i]? = some o → ∃ o', p'.objects[i]? = some o' ∧ (o.isOpen = false → o'.isOpen = false) ∧
    (Closes i ev → o'.isOpen = false) ∧ (¬ MayClose i ev → o'.isOpen = o.isOpen)
  fresh : ∀ i, p.objects[i]? = none → ¬ Closes i ev ∧ ∀ o', p'.objects[i]? = some o' → o'.isOpen = true
  lost : ev.2 ≠ .panicked → (∀ b ∈ p.lost, b = false) → ∀ b ∈ p'.lost, b = false

omit [Bitmap B] in
theorem Effect.none (p : Process B) (hp : Good p) (ev : Deed B × Outcome) (hc : created [ev] = 0) (h : ∀ i, ¬ Closes i ev) : Effect p p ev :=
  ⟨hp, by rw [hc]; rfl, fun i o h' => ⟨o, h', id, fun hx => absurd hx (h i), fun _ => rfl⟩,
    fun i hi => ⟨h i, fun o' ho => by rw [hi] at ho; cases ho⟩, fun _ h => h⟩

omit [Bitmap B] in
/-- A constructor that returned an object. -/
theorem Effect.create (p : Process B) (hp : Good p) (d : Deed B) (n : Nat) (o : Object B) (b : Option Bool) (ho : o.isOpen = true)
    (hs : ∀ sw, o = .simple sw → Sound sw) (h : ∀ i, ¬ Closes i (d, .created n)) :
    Effect p (p.add (some o, b)) (d, .created n) := by
  refine ⟨fun i sw hi => ?_, by simp [Process.add, created], fun i o' hi => ⟨o', ?_, id, fun hx => absurd hx (h i), fun _ => rfl⟩, fun i hi => ⟨h i, fun o' ho' => ?_⟩,
    fun _ h => h⟩
  · change (p.objects ++ [o])[i]? = _ at hi
    rw [List.getElem?_append] at hi
    split at hi
    · exact hp i sw hi
    · refine hs sw ?_
      rw [List.getElem?_singleton] at hi
      split at hi
      · exact Option.some.inj hi
      · cases hi
  · show (p.objects ++ [o])[i]? = _
    rw [List.getElem?_append_left (List.getElem?_eq_some_iff.1 hi).1]
    exact hi
  · change (p.objects ++ [o])[i]? = _ at ho'
    rw [List.getElem?_append_right (List.getElem?_eq_none_iff.1 hi), List.getElem?_singleton] at ho'
    split at ho'
    · cases ho'; exact ho
    · cases ho'

omit [Bitmap B] in
/-- A constructor that returned an error. -/
theorem Effect.fail (p : Process B) (hp : Good p) (d : Deed B) (b : Option Bool) (hb : b = Option.none ∨ b = some false)
    (h : ∀ i, ¬ Closes i (d, .failed)) : Effect p (p.add (Option.none, b)) (d, .failed) := by
  rcases hb with rfl | rfl
  · exact .none p hp _ rfl h
  · refine ⟨hp, rfl, fun i o h' => ⟨o, h', id, fun hx => absurd hx (h i), fun _ => rfl⟩,
      fun i hi => ⟨h i, fun o' ho => ?_⟩, fun _ h => ?_⟩
    · change p.objects[i]? = _ at ho
      rw [hi] at ho; cases ho
    · intro b hb
      rcases List.mem_append.1 hb with hb | hb
      · exact h b hb
      · exact List.mem_singleton.1 hb

omit [Bitmap B] in
/-- A method of object `j`. -/
theorem Effect.set (p : Process B) (hp : Good p) (ev : Deed B × Outcome) (j : Nat) (o o' : Object B) (hj : p.objects[j]? = some o)
    (hc : created [ev] = 0) (hs : ∀ sw, o' = .simple sw → Sound sw) (hcl : ∀ i, Closes i ev → i = j)
    (h1 : o.isOpen = false → o'.isOpen = false) (h2 : Closes j ev → o'.isOpen = false) (h3 : ¬ MayClose j ev → o'.isOpen = o.isOpen) :
    Effect p { p with objects := p.objects.set j o' } ev := by
  have hjl := (List.getElem?_eq_some_iff.1 hj).1
  refine ⟨fun i sw hi => ?_, by rw [hc]; exact List.length_set, fun i a hi => ?_, fun i hi => ⟨fun hx => ?_, fun a ha => ?_⟩, fun _ h => h⟩
  · change (p.objects.set j o')[i]? = _ at hi
    by_cases hij : j = i
    · subst hij
      rw [List.getElem?_set_self hjl] at hi
      exact hs sw (Option.some.inj hi)
    · rw [List.getElem?_set_ne hij] at hi
      exact hp i sw hi
  · show ∃ a', (p.objects.set j o')[i]? = some a' ∧ _
    by_cases hij : j = i
    · subst hij
      rw [hj] at hi
      cases hi
      exact ⟨o', List.getElem?_set_self hjl, h1, h2, h3⟩
    · exact ⟨a, by rw [List.getElem?_set_ne hij]; exact hi, id, fun hx => absurd (hcl i hx).symm hij, fun _ => rfl⟩
  · rw [hcl i hx, hj] at hi
    cases hi
  · change (p.objects.set j o')[i]? = _ at ha
    have : (p.objects.set j o')[i]? = Option.none := by
      rw [List.getElem?_eq_none_iff, List.length_set]
      exact List.getElem?_eq_none_iff.1 hi
    rw [this] at ha
    cases ha

omit [Bitmap B] in
/-- What closing readers does. -/
theorem closeReaders_spec (failing : Nat → Bool) (is : List Nat) (os : List (Object B)) :
    (closeReaders failing is os).length = os.length ∧
    ∀ (i : Nat) (o : Object B), os[i]? = some o → ∃ o', (closeReaders failing is os)[i]? = some o' ∧ (o.isOpen = false → o'.isOpen = false) ∧
      (i ∉ is → o' = o) ∧ (∀ sw, o' = .simple sw → o = .simple sw) ∧ ((∃ s, o = .reader s) → ∃ s', o' = .reader s') ∧
      (i ∈ is → (∃ s, o = .reader s) → o'.isOpen = false) := by
  induction is generalizing os with
  | nil => exact ⟨rfl, fun i o h => ⟨o, h, id, fun _ => rfl, fun _ h => h, id, fun h => by cases h⟩⟩
  | cons j is ih =>
    unfold closeReaders
    split
    · rename_i s hj
      obtain ⟨i1, i2⟩ := ih (os.set j (.reader (closeReader (failing j) s).2))
      refine ⟨by rw [i1, List.length_set], fun i o hi => ?_⟩
      by_cases hij : j = i
      · subst hij
        rw [hj] at hi
        cases hi
        obtain ⟨o', h1, h2, h3, h4, h5, h6⟩ := i2 j (.reader (closeReader (failing j) s).2)
          (List.getElem?_set_self (List.getElem?_eq_some_iff.1 hj).1)
        exact ⟨o', h1, fun _ => h2 rfl, fun h => absurd (List.mem_cons_self ..) h, fun sw hs => (by cases h4 sw hs),
          fun _ => h5 ⟨_, rfl⟩, fun _ _ => h2 rfl⟩
      · obtain ⟨o', h1, h2, h3, h4, h5, h6⟩ := i2 i o (by rw [List.getElem?_set_ne hij]; exact hi)
        refine ⟨o', h1, h2, fun h => h3 fun hm => h (List.mem_cons_of_mem _ hm), h4, h5, fun h => h6 ?_⟩
        rcases List.mem_cons.1 h with h | h
        · exact absurd h.symm hij
        · exact h
    · rename_i hj
      obtain ⟨i1, i2⟩ := ih os
      refine ⟨i1, fun i o hi => ?_⟩
      obtain ⟨o', h1, h2, h3, h4, h5, h6⟩ := i2 i o hi
      refine ⟨o', h1, h2, fun h => h3 fun hm => h (List.mem_cons_of_mem _ hm), h4, h5, fun h hr => h6 ?_ hr⟩
      rcases List.mem_cons.1 h with h | h
      · subst h
        obtain ⟨s, rfl⟩ := hr
        exact absurd hi (hj s)
      · exact h

/-- Every deed has its effect. -/
theorem effect (d : Deed B) (p : Process B) (hp : Good p) : Effect p (d.act p).2 (d, (d.act p).1) := by
  cases d with
  | newWriter creates opts env =>
    obtain ⟨h1, h2, _⟩ := C89_constructors (B := B) opts creates env (fun _ => false) []
    unfold Deed.act
    dsimp only
    generalize newWriterFile (B := B) creates opts env = res at h1 h2 ⊢
    obtain ⟨r, o⟩ := res
    cases r with
    | error e => exact .fail p hp _ _ (h1 e rfl) fun i h => h
    | ok w => exact .create p hp _ _ _ o (h2 w rfl).2 (fun _ h => by cases h) fun i h => h
  | newSimple creates opts env =>
    obtain ⟨_, _, h1, h2, _⟩ := C89_constructors (B := B) opts creates env (fun _ => false) []
    have h3 : ∀ sw, (newSimpleWriterFile (B := B) creates opts env).1 = .ok sw → sw.closed = false := by
      unfold newSimpleWriterFile
      split
      · intro _ h; cases h
      · intro _ h; cases h; rfl
    unfold Deed.act
    dsimp only
    generalize newSimpleWriterFile (B := B) creates opts env = res at h1 h2 h3 ⊢
    obtain ⟨r, o⟩ := res
    cases r with
    | error e => exact .fail p hp _ _ (h1 e rfl) fun i h => h
    | ok w =>
      refine .create p hp _ _ _ o (h2 w rfl).2 (fun sw h => ?_) fun i h => h
      cases h
      intro hc
      rw [h3 w rfl] at hc
      cases hc
  | newReader fail file =>
    obtain ⟨_, _, _, _, h1, h2⟩ := C89_constructors (B := B) [] true quietEnv fail file
    unfold Deed.act
    dsimp only
    generalize newReaderFile (B := B) fail file = res at h1 h2 ⊢
    obtain ⟨r, o⟩ := res
    cases r with
    | err e => exact .fail p hp _ _ (h1 e rfl) fun i h => h
    | ok w =>
      have := h2 w rfl
      dsimp only at this
      subst this
      exact .create p hp _ _ _ (some true) rfl (fun _ h => by cases h) fun i h => h
    | panic =>
      refine ⟨?_, ?_, fun i a h' => ⟨a, ?_, id, fun hx => hx.elim, fun _ => rfl⟩, fun i hi => ⟨fun h => h, fun o' ho => ?_⟩, fun h => absurd rfl h⟩
      · cases o <;> exact hp
      · cases o <;> rfl
      · cases o <;> exact h'
      · have : p.objects[i]? = some o' := by cases o <;> exact ho
        rw [hi] at this
        cases this
  | onWriter j env c =>
    unfold Deed.act
    dsimp only
    split
    · rename_i w hj
      obtain ⟨h1, h2, h3, h4⟩ := writer_open c env w
      refine .set p hp _ j _ _ hj rfl (fun _ h => by cases h) ?_ h1 ?_ ?_
      · intro i hi
        cases c with
        | call c => exact hi.elim
        | close => exact hi.symm
        | finalizeAndClose =>
          generalize (WCall.finalizeAndClose.run env w).1 = r at hi
          cases r with
          | error e => exact hi.elim
          | ok u => exact hi.symm
      · intro hi
        cases c with
        | call c => exact hi.elim
        | close => exact h2 rfl
        | finalizeAndClose =>
          refine h3 rfl ?_
          generalize (WCall.finalizeAndClose.run env w).1 = r at hi
          cases r with
          | error e => exact hi.elim
          | ok u => rfl
      · intro hi
        refine h4 ?_ ?_
        · rintro rfl
          exact hi (.inl rfl)
        · rintro rfl
          exact hi (.inr rfl)
    · exact .none p hp _ rfl fun i h => by
        cases c with
        | _ => exact h
  | onSimple j env c =>
    unfold Deed.act
    dsimp only
    split
    · rename_i sw hj
      obtain ⟨h0, h1, h3, h4⟩ := simple_open c env sw (hp j sw hj)
      refine .set p hp _ j _ _ hj rfl (fun _ h => by cases h; exact h0) ?_ h1 ?_ ?_
      · intro i hi
        cases c with
        | write ids vals => exact hi.elim
        | setTarget n => exact hi.elim
        | close =>
          generalize (SWCall.close.run env sw).1 = r at hi
          cases r with
          | error e => exact hi.elim
          | ok u => exact hi.symm
      · intro hi
        cases c with
        | write ids vals => exact hi.elim
        | setTarget n => exact hi.elim
        | close =>
          refine h3 rfl ?_
          generalize (SWCall.close.run env sw).1 = r at hi
          cases r with
          | error e => exact hi.elim
          | ok u => rfl
      · intro hi
        refine h4 ?_
        rintro rfl
        exact hi (.inr rfl)
    · exact .none p hp _ rfl fun i h => by
        cases c with
        | _ => exact h
  | onReader j c =>
    unfold Deed.act
    dsimp only
    split
    · rename_i s hj
      obtain ⟨h1, h2, h3⟩ := reader_open c s
      refine .set p hp _ j _ _ hj rfl (fun _ h => by cases h) ?_ h1 ?_ ?_
      · intro i hi
        cases c with
        | close b => exact hi.symm
        | _ => exact hi.elim
      · intro hi
        cases c with
        | close b => exact h2 b rfl
        | _ => exact hi.elim
      · intro hi
        refine h3 ?_
        rintro b rfl
        exact hi (.inl rfl)
    · exact .none p hp _ rfl fun i h => by
        cases c with
        | _ => exact h
  | closeStack is failing =>
    unfold Deed.act
    dsimp only
    split
    · rename_i hall
      rw [List.all_eq_true] at hall
      obtain ⟨h1, h2⟩ := closeReaders_spec failing is p.objects
      have hr : ∀ i ∈ is, ∃ s, p.objects[i]? = some (.reader s) := by
        intro i hi
        have := hall i hi
        unfold isReader at this
        split at this
        · rename_i s hs
          exact ⟨s, hs⟩
        · cases this
      refine ⟨fun i sw hi => ?_, h1, fun i o hi => ?_, fun i hi => ⟨fun hx => ?_, fun o' ho => ?_⟩, fun _ h => h⟩
      · have hl : i < p.objects.length := by rw [← h1]; exact (List.getElem?_eq_some_iff.1 hi).1
        obtain ⟨o', g1, _, _, g4, _⟩ := h2 i p.objects[i] (List.getElem?_eq_getElem hl)
        change (closeReaders failing is p.objects)[i]? = _ at hi
        rw [g1] at hi
        have := g4 sw (Option.some.inj hi)
        exact hp i sw (by rw [List.getElem?_eq_getElem hl, this])
      · obtain ⟨o', g1, g2, g3, _, _, g6⟩ := h2 i o hi
        refine ⟨o', g1, g2, fun hm => g6 hm ?_, fun hm => ?_⟩
        · obtain ⟨s, hs⟩ := hr i hm
          rw [hi] at hs
          exact ⟨s, Option.some.inj hs⟩
        · rw [g3 fun h => hm (.inl h)]
      · obtain ⟨s, hs⟩ := hr i hx
        rw [hi] at hs
        cases hs
      · have : (closeReaders failing is p.objects)[i]? = Option.none := by
          rw [List.getElem?_eq_none_iff, h1]
          exact List.getElem?_eq_none_iff.1 hi
        change (closeReaders failing is p.objects)[i]? = _ at ho
        rw [this] at ho
        cases ho
    · exact .none p hp _ rfl fun i h => h

/-- The calls of a log, from any point on. -/
theorem run_spec (ds : List (Deed B)) (p : Process B) (hp : Good p) :
    (p.run ds).2.objects.length = p.objects.length + created (p.run ds).1 ∧
    (∀ i o, p.objects[i]? = some o → ∃ o', (p.run ds).2.objects[i]? = some o' ∧ (o.isOpen = false → o'.isOpen = false) ∧
      ((∃ ev ∈ (p.run ds).1, Closes i ev) → o'.isOpen = false) ∧ ((∀ ev ∈ (p.run ds).1, ¬ MayClose i ev) → o'.isOpen = o.isOpen)) ∧
    (∀ i o', p.objects[i]? = none → (p.run ds).2.objects[i]? = some o' →
      ((∃ ev ∈ (p.run ds).1, Closes i ev) → o'.isOpen = false) ∧ ((∀ ev ∈ (p.run ds).1, ¬ MayClose i ev) → o'.isOpen = true)) ∧
    ((∀ ev ∈ (p.run ds).1, ev.2 ≠ .panicked) → (∀ b ∈ p.lost, b = false) → ∀ b ∈ (p.run ds).2.lost, b = false) := by
  induction ds generalizing p with
  | nil =>
    refine ⟨rfl, fun i o h => ⟨o, h, id, fun ⟨ev, h, _⟩ => (by cases h), fun _ => rfl⟩, fun i o' h h' => ?_, fun _ h => h⟩
    change p.objects[i]? = some o' at h'
    rw [h] at h'
    cases h'
  | cons d ds ih =>
    have he := effect d p hp
    have hrun : p.run (d :: ds) = ((d, (d.act p).1) :: ((d.act p).2.run ds).1, ((d.act p).2.run ds).2) := rfl
    obtain ⟨i1, i2, i3, i4⟩ := ih (d.act p).2 he.good
    generalize (d.act p).2 = p1 at *
    generalize (d.act p).1 = o1 at *
    generalize p1.run ds = rest at *
    obtain ⟨log, p2⟩ := rest
    rw [hrun]
    dsimp only at i1 i2 i3 i4 ⊢
    refine ⟨?_, fun i o hi => ?_, fun i o' hi ho' => ?_, fun h => ?_⟩
    · rw [i1, he.len, Nat.add_assoc]
      congr 1
      cases o1 <;> simp [created, Nat.add_comm]
    · obtain ⟨o1', h1, h2, h3, h4⟩ := he.old i o hi
      obtain ⟨o2, g1, g2, g3, g4⟩ := i2 i o1' h1
      refine ⟨o2, g1, fun h => g2 (h2 h), ?_, fun h => ?_⟩
      · rintro ⟨ev, hev, hc⟩
        rcases List.mem_cons.1 hev with rfl | hev
        · exact g2 (h3 hc)
        · exact g3 ⟨ev, hev, hc⟩
      · rw [g4 fun ev hev => h ev (List.mem_cons_of_mem _ hev), h4 (h _ (List.mem_cons_self ..))]
    · obtain ⟨f1, f2⟩ := he.fresh i hi
      cases h1 : p1.objects[i]? with
      | none =>
        obtain ⟨g1, g2⟩ := i3 i o' h1 ho'
        refine ⟨?_, fun h => g2 fun ev hev => h ev (List.mem_cons_of_mem _ hev)⟩
        rintro ⟨ev, hev, hc⟩
        rcases List.mem_cons.1 hev with rfl | hev
        · exact absurd hc f1
        · exact g1 ⟨ev, hev, hc⟩
      | some a =>
        obtain ⟨o2, g1, g2, g3, g4⟩ := i2 i a h1
        rw [ho'] at g1
        cases g1
        refine ⟨?_, fun h => ?_⟩
        · rintro ⟨ev, hev, hc⟩
          rcases List.mem_cons.1 hev with rfl | hev
          · exact absurd hc f1
          · exact g3 ⟨ev, hev, hc⟩
        · rw [g4 fun ev hev => h ev (List.mem_cons_of_mem _ hev), f2 a h1]
    · exact fun hl => i4 (fun ev hev => h ev (List.mem_cons_of_mem _ hev)) (he.lost (h _ (List.mem_cons_self ..)) hl)

omit [Bitmap B] in
theorem good_start : Good (⟨[], []⟩ : Process B) := fun i sw h => by
  change ([] : List (Object B))[i]? = _ at h
  rw [List.getElem?_nil] at h
  cases h

/-- **C89.** Whatever a process does with any number of writers, readers and stacks of readers, and whatever fails: as long as no `NewReader`
panics, the open files are exactly those of objects, at most one per object; the file of an object is closed once one of its `Closes` calls
has returned; and until one of its `MayClose` calls it is open. -/
theorem C89_accounting (ds : List (Deed B)) (log : List (Deed B × Outcome)) (p : Process B) (h : Process.run ds ⟨[], []⟩ = (log, p)) :
    p.objects.length = created log ∧
    (∀ i o, p.objects[i]? = some o → (∃ ev ∈ log, Closes i ev) → o.isOpen = false) ∧
    (∀ i o, p.objects[i]? = some o → (∀ ev ∈ log, ¬ MayClose i ev) → o.isOpen = true) ∧
    ((∀ ev ∈ log, ev.2 ≠ .panicked) → p.openFiles = (p.objects.filter Object.isOpen).length) := by
  obtain ⟨h1, _, h3, h4⟩ := run_spec ds ⟨[], []⟩ good_start
  rw [h] at h1 h3 h4
  refine ⟨by rw [h1]; exact Nat.zero_add _, fun i o hi => (h3 i o List.getElem?_nil hi).1, fun i o hi => (h3 i o List.getElem?_nil hi).2, fun hp => ?_⟩
  have := h4 hp (fun b hb => by cases hb)
  unfold Process.openFiles
  have hnil : p.lost.filter id = [] := List.filter_eq_nil_iff.2 fun b hb => by rw [this b hb]; exact Bool.false_ne_true
  rw [hnil]
  rfl

/-- **C89.** If the process has closed every object it got, it has no file open. -/
theorem C89_allClosed (ds : List (Deed B)) (log : List (Deed B × Outcome)) (p : Process B) (h : Process.run ds ⟨[], []⟩ = (log, p))
    (hp : ∀ ev ∈ log, ev.2 ≠ .panicked) (hall : ∀ i, i < created log → ∃ ev ∈ log, Closes i ev) : p.openFiles = 0 := by
  obtain ⟨h1, h2, _, h4⟩ := C89_accounting ds log p h
  rw [h4 hp, List.length_eq_zero_iff, List.filter_eq_nil_iff]
  intro o ho
  obtain ⟨i, hi, rfl⟩ := List.mem_iff_getElem.1 ho
  rw [h2 i _ (List.getElem?_eq_getElem hi) (hall i (by omega))]
  exact Bool.false_ne_true

/-! ### A `SimpleWriter` that cannot be closed -/

/-- More positions than blocks, and at least one block: `Finalize` fails. -/
def Torn (w : Writer B) : Prop := 0 < w.blockCount ∧ w.blockCount < w.blockPositions.length

omit [Bitmap B] in
theorem torn_moved {w w' : Writer B} (h : Torn w) (hm : Moved (counters w) (counters w')) : Torn w' := by
  unfold Torn at *
  unfold Moved counters at hm
  simp only [Prod.mk.injEq] at hm
  omega

theorem flush_torn (env : Env) (force : Bool) (sw : SimpleWriter B) (h : Torn sw.writer) : Torn (flushIfNeeded env force sw).2.writer := by
  induction hn : sw.pendingIDs.length using Nat.strongRecOn generalizing sw with
  | _ n ih =>
    unfold flushIfNeeded
    split
    · exact h
    · dsimp only
      generalize (if (!force) = true then decide (sw.pendingIDs.length ≥ 1000) else force) = sh
      split
      · have hst := torn_moved h (writeBlock_moved (B := B) sw.pendingIDs sw.pendingValues env sw.writer)
        split
        · rename_i k w' hw
          have hb := writeBlock_blockFull_bounds _ _ _ _ _ _ hw
          rw [hw] at hst
          exact ih (sw.pendingIDs.length - k) (by omega) _ hst (by simp [List.length_drop])
        · rename_i _ hw
          rw [hw] at hst
          exact hst
        · rename_i hw
          rw [hw] at hst
          exact hst
      · exact h

theorem finalizeAndClose_torn (env : Env) (w : Writer B) (h : Torn w) :
    (∃ e, (finalizeAndClose env w).1 = .error e) ∧ Torn (finalizeAndClose env w).2 ∧ (finalizeAndClose env w).2.fileOpen = w.fileOpen := by
  have hs := Steady.finalize (B := B) env w
  have hc := Frame.finalize (B := B) env w
  have hok := finalize_ok_counters env w
  unfold finalizeAndClose
  rw [WM.bind_def]
  generalize finalize env w = res at hs hc hok ⊢
  obtain ⟨r, w'⟩ := res
  cases r with
  | error e => exact ⟨⟨e, rfl⟩, torn_moved h (.inl hc), hs⟩
  | ok u =>
    have := hok rfl
    unfold Torn at h
    omega

/-- A `SimpleWriter` that is `Torn` and open stays so. -/
theorem simple_torn (env : Env) (c : SWCall) (sw : SimpleWriter B) (ho : sw.closed = false) (h : Torn sw.writer) :
    (c.run env sw).2.closed = false ∧ Torn (c.run env sw).2.writer ∧ (c.run env sw).2.writer.fileOpen = sw.writer.fileOpen ∧
      (c = .close → ∃ e, (c.run env sw).1 = .error e) := by
  cases c with
  | setTarget n =>
    show (setTargetBlockSize n sw).2.closed = _ ∧ Torn (setTargetBlockSize n sw).2.writer ∧ (setTargetBlockSize n sw).2.writer.fileOpen = _ ∧ _
    unfold setTargetBlockSize
    split
    · exact ⟨ho, h, rfl, fun h => by cases h⟩
    · exact ⟨ho, h, rfl, fun h => by cases h⟩
  | write ids vals =>
    refine ⟨?_, ?_, ?_, fun h => by cases h⟩ <;> simp only [SWCall.run] <;> unfold SimpleWriter.write
    · split
      · exact ho
      · split
        · exact ho
        · split
          · exact ho
          · dsimp only
            split <;> rw [SimpleClosed.flush_closed] <;> exact ho
    · split
      · exact h
      · split
        · exact h
        · split
          · exact h
          · dsimp only
            split <;> exact flush_torn _ _ _ h
    · split
      · rfl
      · split
        · rfl
        · split
          · rfl
          · dsimp only
            split <;> rw [Steady.flush]
  | close =>
    show (sw.close env).2.closed = _ ∧ Torn (sw.close env).2.writer ∧ (sw.close env).2.writer.fileOpen = _ ∧ (_ → ∃ e, (sw.close env).1 = .error e)
    have hf := Steady.flush env true sw
    have hc := SimpleClosed.flush_closed env true sw
    have ht := flush_torn env true sw h
    unfold SimpleWriter.close
    rw [if_neg (by rw [ho]; exact Bool.false_ne_true)]
    generalize flushIfNeeded env true sw = res at hf hc ht ⊢
    obtain ⟨r, sw'⟩ := res
    cases r with
    | error e => exact ⟨hc.trans ho, ht, hf, fun _ => ⟨e, rfl⟩⟩
    | ok u =>
      dsimp only at hf hc ht ⊢
      obtain ⟨⟨e, f1⟩, f2, f3⟩ := finalizeAndClose_torn env sw'.writer ht
      generalize finalizeAndClose env sw'.writer = res at f1 f2 f3 ⊢
      obtain ⟨r, w'⟩ := res
      dsimp only at f1
      subst f1
      exact ⟨hc.trans ho, f2, f3.trans hf, fun _ => ⟨e, rfl⟩⟩

theorem torn_run (env : Env) (cs : List SWCall) (sw : SimpleWriter B) (ho : sw.closed = false) (h : Torn sw.writer) :
    ((runSW env cs sw).2.closed = false ∧ Torn (runSW env cs sw).2.writer) ∧
    (runSW env cs sw).2.writer.fileOpen = sw.writer.fileOpen ∧ ∀ ev ∈ (runSW env cs sw).1, ev.1 = .close → ∃ e, ev.2 = .error e := by
  induction cs generalizing sw with
  | nil => exact ⟨⟨ho, h⟩, rfl, fun ev h => by cases h⟩
  | cons c cs ih =>
    obtain ⟨h1, h2, h3, h4⟩ := simple_torn env c sw ho h
    obtain ⟨i0, i1, i2⟩ := ih _ h1 h2
    rw [runSW_cons]
    refine ⟨i0, i1.trans h3, fun ev hev hc => ?_⟩
    rcases List.mem_cons.1 hev with rfl | hev
    · exact h4 hc
    · exact i2 ev hev hc

/-- The program never complains about positions. -/
def Never {α : Type} (m : WM B α) : Prop := ∀ env w, (m env w).1 ≠ .error .positionTracking

namespace Never
variable {α β : Type}
omit [Bitmap B]

theorem bind {m : WM B α} {f : α → WM B β} (hm : Never m) (hf : ∀ a, Never (f a)) : Never (m >>= f) := by
  intro env w
  rw [WM.bind_def]
  have h := hm env w
  generalize m env w = res at h ⊢
  obtain ⟨r, w'⟩ := res
  cases r with
  | ok a => exact hf a env w'
  | error e => exact fun hx => h (by cases hx; rfl)

theorem ite {c : Prop} [Decidable c] {a b : WM B α} (ha : Never a) (hb : Never b) : Never (if c then a else b) := by
  split <;> assumption

theorem of {m : WM B α} (h : Plain m) : Never m := fun env w => (h env w).2

theorem pure (a : α) : Never (Pure.pure a : WM B α) := of (.pure a)
theorem throw (e : Err) (he : e ≠ .positionTracking) : Never (WM.throw e : WM B α) := of (.throw e he)
theorem get : Never (WM.get : WM B _) := of .get
theorem modify (f : Writer B → Writer B) : Never (WM.modify f) := fun _ _ h => by cases h
theorem seekCur : Never (VibeCol.seekCur : WM B _) := of .seekCur
theorem fwrite (d : Bytes) : Never (VibeCol.fwrite d : WM B _) := of (.fwrite d)
theorem fwriteAll (d : List Bytes) : Never (VibeCol.fwriteAll d : WM B _) := of (.fwriteAll d)
theorem fsync : Never (VibeCol.fsync : WM B _) := of .fsync
theorem seekRel (o : Int) : Never (VibeCol.seekRel o : WM B _) := of (.fileOp _ fun F h => by
  dsimp only at h
  split at h <;> cases h)

theorem varLoop {T : Type} (enc : T → Bytes) (l : List T) (s : UInt32) : encodeVarLoop enc l s ≠ .error .positionTracking := by
  induction l generalizing s with
  | nil => simp [encodeVarLoop]
  | cons d ds ih =>
    simp only [encodeVarLoop]
    split
    · simp
    · split
      · simp
      · rename_i e he
        intro h
        exact ih _ (by rw [he]; exact h)

theorem data {T : Type} (e : UInt32) (data : List T) (f : List T → List T) (g : T → Bytes) :
    encodeData e data f g ≠ .error .positionTracking := by
  intro h
  unfold encodeData at h
  simp only at h
  split at h
  · rename_i e' he
    split at he
    · simp at he
    · split at he
      · simp at he
      · simp at he h; subst he; simp at h
  · split at h
    · simp at h
    · split at h
      · rename_i e' he
        simp at h; subst h
        exact varLoop _ _ _ he
      · split at h <;> simp at h

theorem lift {r : Except Err α} (h : r ≠ .error .positionTracking) : Never (WM.lift r : WM B α) := by
  intro env w
  cases r with
  | ok a => intro hx; cases hx
  | error e => exact fun hx => h (by cases hx; rfl)

theorem estimate (ids : List UInt64) (vals : List Int64) : Never (estimateBlockSize ids vals : WM B Nat) := by
  unfold estimateBlockSize
  exact ite (throw _ (by simp)) (ite (throw _ (by simp)) (bind get fun _ => bind (lift (data _ _ _ _)) fun _ =>
    bind (lift (data _ _ _ _)) fun _ => bind seekCur fun _ => pure _))

theorem search (ids : List UInt64) (vals : List Int64) (fuel i o : Nat) : Never (findOptimal ids vals fuel i o : WM B Nat) := by
  induction fuel generalizing i o with
  | zero => exact pure _
  | succ fuel ih =>
    intro env w
    simp only [findOptimal]
    generalize estimateBlockSize (ids.take i) (vals.take i) env w = res
    obtain ⟨r, w'⟩ := res
    cases r with
    | error e => intro h; cases h
    | ok size =>
      dsimp only
      split
      · exact ih _ _ env w'
      · intro h; cases h

theorem header (a b c d e : UInt64) (n : UInt32) : Never (writeBlockHeader a b c d e n : WM B Nat) := by
  unfold writeBlockHeader
  exact bind seekCur fun _ => bind get fun _ => bind (fwriteAll _) fun _ => bind seekCur fun _ =>
    ite (throw _ (by simp)) (pure _)

theorem internal [Bitmap B] (ids : List UInt64) (vals : List Int64) : Never (writeBlockInternal ids vals : WM B _) := by
  unfold writeBlockInternal
  refine bind (modify _) fun _ => bind get fun _ => bind (lift (data _ _ _ _)) fun _ => bind (lift (data _ _ _ _)) fun _ => bind seekCur fun bs => ?_
  refine bind (modify _) fun _ => bind (header _ _ _ _ _ _) fun _ => bind (fwrite _) fun _ => bind (fwrite _) fun _ =>
    bind seekCur fun _ => bind (fwrite _) fun _ => bind (seekRel _) fun _ => ite (throw _ (by simp)) (ite (throw _ (by simp)) (ite (throw _ (by simp)) ?_))
  refine bind (fwrite _) fun _ => bind seekCur fun _ => bind (fwriteAll _) fun _ => ite (throw _ (by simp)) ?_
  refine bind (fwriteAll _) fun _ => ite (throw _ (by simp)) (bind seekCur fun _ => ite (bind (fwrite _) fun _ => ?_) ?_)
  · exact ite (throw _ (by simp)) (bind (modify _) fun _ => fsync)
  · exact ite (throw _ (by simp)) (bind (modify _) fun _ => fsync)

theorem block [Bitmap B] (ids : List UInt64) (vals : List Int64) : Never (writeBlock ids vals : WM B _) := by
  unfold writeBlock
  exact ite (throw _ (by simp)) (ite (throw _ (by simp)) (bind (estimate _ _) fun _ => bind get fun _ =>
    ite (bind (search _ _ _ _ _) fun _ => bind (internal _ _) fun _ => throw _ (by simp)) (internal _ _)))

theorem flush [Bitmap B] (env : Env) (force : Bool) (sw : SimpleWriter B) : (flushIfNeeded env force sw).1 ≠ .error .positionTracking := by
  induction hn : sw.pendingIDs.length using Nat.strongRecOn generalizing sw with
  | _ n ih =>
    unfold flushIfNeeded
    split
    · intro h; cases h
    · dsimp only
      generalize (if (!force) = true then decide (sw.pendingIDs.length ≥ 1000) else force) = sh
      split
      · have hst := block (B := B) sw.pendingIDs sw.pendingValues env sw.writer
        split
        · rename_i k w' hw
          have hb := writeBlock_blockFull_bounds _ _ _ _ _ _ hw
          exact ih (sw.pendingIDs.length - k) (by omega) _ (by simp [List.length_drop])
        · rename_i _ hw
          rw [hw] at hst
          exact fun h => hst (by cases h; rfl)
        · intro h; cases h
      · intro h; cases h

end Never

/-- Positions never fall behind blocks. -/
def Ahead (w : Writer B) : Prop := w.blockCount ≤ w.blockPositions.length

omit [Bitmap B] in
theorem ahead_moved {w w' : Writer B} (h : Ahead w) (hm : Moved (counters w) (counters w')) : Ahead w' := by
  unfold Ahead at *
  unfold Moved counters at hm
  simp only [Prod.mk.injEq] at hm
  omega

theorem flush_ahead (env : Env) (force : Bool) (sw : SimpleWriter B) (h : Ahead sw.writer) : Ahead (flushIfNeeded env force sw).2.writer := by
  induction hn : sw.pendingIDs.length using Nat.strongRecOn generalizing sw with
  | _ n ih =>
    unfold flushIfNeeded
    split
    · exact h
    · dsimp only
      generalize (if (!force) = true then decide (sw.pendingIDs.length ≥ 1000) else force) = sh
      split
      · have hst := ahead_moved h (writeBlock_moved (B := B) sw.pendingIDs sw.pendingValues env sw.writer)
        split
        · rename_i k w' hw
          have hb := writeBlock_blockFull_bounds _ _ _ _ _ _ hw
          rw [hw] at hst
          exact ih (sw.pendingIDs.length - k) (by omega) _ hst (by simp [List.length_drop])
        · rename_i _ hw
          rw [hw] at hst
          exact hst
        · rename_i hw
          rw [hw] at hst
          exact hst
      · exact h

theorem finalize_shut (env : Env) (w : Writer B) (h : w.fileOpen = false) : (finalize env w).1 = .error .io := by
  have h1 : seekCur env w = (.error .io, { w with opNo := w.opNo + 1 }) := by
    unfold seekCur WM.fileOp
    rw [if_pos h]
  unfold finalize writeGlobalIDBitmap
  rw [WM.bind_def, WM.bind_def, h1]

/-- A call on a `SimpleWriter`: positions stay ahead, and a complaint about positions leaves it open for ever. -/
theorem simple_ahead (env : Env) (c : SWCall) (sw : SimpleWriter B) (h : Ahead sw.writer) :
    Ahead (c.run env sw).2.writer ∧ (c = .close → (c.run env sw).1 = .error .positionTracking →
      (c.run env sw).2.closed = false ∧ Torn (c.run env sw).2.writer ∧ (c.run env sw).2.writer.fileOpen = true) := by
  cases c with
  | setTarget n =>
    refine ⟨?_, fun h => by cases h⟩
    show Ahead (setTargetBlockSize n sw).2.writer
    unfold setTargetBlockSize
    split <;> exact h
  | write ids vals =>
    refine ⟨?_, fun h => by cases h⟩
    simp only [SWCall.run]
    unfold SimpleWriter.write
    split
    · exact h
    · split
      · exact h
      · split
        · exact h
        · dsimp only
          split <;> exact flush_ahead _ _ _ h
  | close =>
    show Ahead (sw.close env).2.writer ∧ (_ → (sw.close env).1 = _ → (sw.close env).2.closed = _ ∧ Torn (sw.close env).2.writer ∧
      (sw.close env).2.writer.fileOpen = _)
    have hf := Steady.flush env true sw
    have hc := SimpleClosed.flush_closed env true sw
    have ht := flush_ahead env true sw h
    have hn := Never.flush env true sw
    unfold SimpleWriter.close
    split
    · exact ⟨h, fun _ h => by cases h⟩
    · rename_i hcl
      generalize flushIfNeeded env true sw = res at hf hc ht hn ⊢
      obtain ⟨r, sw'⟩ := res
      cases r with
      | error e => exact ⟨ht, fun _ h => absurd h hn⟩
      | ok u =>
        dsimp only at hf hc ht ⊢
        have hs := Steady.finalize (B := B) env sw'.writer
        have hco := Frame.finalize (B := B) env sw'.writer
        have htr := finalize_tracking_counters env sw'.writer
        have hsh := finalize_shut env sw'.writer
        unfold finalizeAndClose
        rw [WM.bind_def]
        generalize finalize env sw'.writer = res at hs hco htr hsh ⊢
        obtain ⟨r, w'⟩ := res
        cases r with
        | error e =>
          refine ⟨ahead_moved ht (.inl hco), fun _ he => ?_⟩
          cases he
          obtain ⟨t1, t2⟩ := htr w' rfl
          refine ⟨?_, torn_moved (w := sw'.writer) ⟨t1, ?_⟩ (.inl hco), hs.trans ?_⟩
          · cases hx : sw.closed with
            | true => exact absurd hx hcl
            | false => exact hc.trans hx
          · unfold Ahead at ht; omega
          · cases hx : sw'.writer.fileOpen with
            | true => rfl
            | false => cases hsh hx
        | ok u =>
          dsimp only at hs hco ⊢
          have hclose : ((fclose env w').1 = .ok () ∨ (fclose env w').1 = .error .io) := (fclose_facts env w').1
          have hcc : counters (fclose env w').2 = counters w' := by
            unfold fclose
            dsimp only
            split
            · rfl
            · split <;> rfl
          have ha := ahead_moved ht (.inl (hcc.trans hco))
          generalize fclose env w' = res at hclose ha ⊢
          obtain ⟨r, w2⟩ := res
          cases r with
          | ok u => exact ⟨ha, fun _ h => by cases h⟩
          | error e =>
            refine ⟨ha, fun _ h => ?_⟩
            cases h
            rcases hclose with h | h <;> cases h

/-- A `SimpleWriter` one of whose `Close` calls has complained about positions. -/
theorem complained (env : Env) (cs : List SWCall) (sw : SimpleWriter B) (h : Ahead sw.writer)
    (hev : (SWCall.close, Except.error Err.positionTracking) ∈ (runSW env cs sw).1) :
    (runSW env cs sw).2.closed = false ∧ Torn (runSW env cs sw).2.writer ∧ (runSW env cs sw).2.writer.fileOpen = true := by
  induction cs generalizing sw with
  | nil => cases hev
  | cons c cs ih =>
    obtain ⟨h1, h2⟩ := simple_ahead env c sw h
    rw [runSW_cons] at hev ⊢
    rcases List.mem_cons.1 hev with hev | hev
    · injection hev with e1 e2
      obtain ⟨g1, g2, g3⟩ := h2 e1.symm e2.symm
      obtain ⟨⟨i1, i2⟩, i3, _⟩ := torn_run env cs _ g1 g2
      exact ⟨i1, i2, i3.trans g3⟩
    · exact ih _ h1 hev

omit [Bitmap B] in
theorem start_counters (opts : List WriterOption) (w : Writer B) : counters (opts.foldl (fun w o => o.apply w) w) = counters w := by
  induction opts generalizing w with
  | nil => rfl
  | cons o opts ih =>
    rw [List.foldl_cons, ih]
    cases o <;> rfl

/-- **C89.** A `SimpleWriter` whose `Close` has once reported a position tracking mismatch (which happens when a `WriteBlock` inside it had failed
halfway, even if everything works again) can never be closed: whatever is called on it from then on, under whatever faults or without any, every
`Close` returns an error and the file stays open. -/
theorem C89_stuck {env : Env} {opts : List WriterOption} {calls : List SWCall} {log : SWLog} {sw : SimpleWriter B}
    (h : SWHistory B env opts calls log sw) (hev : (SWCall.close, Except.error Err.positionTracking) ∈ log) :
    sw.writer.fileOpen = true ∧ ∀ (env' : Env) (more : List SWCall), (runSW env' more sw).2.writer.fileOpen = true ∧
      ∀ ev ∈ (runSW env' more sw).1, ev.1 = .close → ∃ e, ev.2 = .error e := by
  obtain ⟨sw0, h0, hr⟩ := h.created
  have ha : Ahead sw0.writer := by
    unfold newSimpleWriter at h0
    have hc : counters (newWriter (B := B) opts env).2 = (0, 0) := by
      unfold newWriter
      refine Eq.trans ?_ (start_counters opts (initWriter (B := B)))
      have hfr : Frame (writeHeader : WM B Unit) := by
        unfold writeHeader
        exact .bind .seekCur fun _ => .bind .now fun _ => .bind .get fun _ => .bind (.fwriteAll _) fun _ => .bind (.fwrite _) fun _ =>
          .bind .seekCur fun _ => .ite (.throw _) (.pure _)
      exact hfr env _
    generalize newWriter (B := B) opts env = res at h0 hc
    obtain ⟨r, w⟩ := res
    cases r with
    | error e => cases h0
    | ok u =>
      cases h0
      show w.blockCount ≤ w.blockPositions.length
      simp only [counters, Prod.mk.injEq] at hc
      omega
  obtain ⟨h1, h2, h3⟩ := complained env calls sw0 ha (by rw [hr]; exact hev)
  rw [hr] at h1 h2 h3
  refine ⟨h3, fun env' more => ?_⟩
  obtain ⟨_, g1, g2⟩ := torn_run env' more sw h1 h2
  exact ⟨g1.trans h3, g2⟩

/-! ### Examples -/

/-- The calls of the example below: the second block fails halfway in the first `Close`. -/
def tornCalls : List SWCall := [.setTarget 1, .write [1, 2] [10, 20], .close, .close]

def tornLog : SWLog := [(.setTarget 1, .ok ()), (.write [1, 2] [10, 20], .ok ()), (.close, .error .io), (.close, .error .positionTracking)]

/-- A case that meets the hypotheses of `C89_stuck`: a single file operation fails once. -/
theorem C89_stuck_example : ∃ sw : SimpleWriter IdSet, SWHistory IdSet (faultAt 45) [] tornCalls tornLog sw ∧ sw.writer.fileOpen = true := by
  have h : ((newSimpleWriter (B := IdSet) [] (faultAt 45)).map fun sw => (runSW (faultAt 45) tornCalls sw).1) = .ok tornLog := by decide +kernel
  generalize faultAt 45 = env at h ⊢
  cases h0 : newSimpleWriter (B := IdSet) [] env with
  | error e => rw [h0] at h; cases h
  | ok sw0 =>
    rw [h0] at h
    have h1 : (runSW env tornCalls sw0).1 = tornLog := Except.ok.inj h
    have hh : SWHistory IdSet env [] tornCalls tornLog (runSW env tornCalls sw0).2 := ⟨sw0, h0, Prod.ext h1 rfl⟩
    exact ⟨_, hh, (C89_stuck hh (by decide)).1⟩

deriving instance DecidableEq for Outcome

/-- The deeds of the example below. -/
def exampleDeeds : List (Deed IdSet) :=
  [.newWriter true [] (faultAt 3), .newReader (fun _ => false) [1, 2, 3], .newWriter true [] quietEnv, .newSimple true [] quietEnv,
   .onSimple 1 quietEnv (.write [2, 1] [20, 10]), .onWriter 0 quietEnv (.call (.write [7] [70])), .onSimple 1 quietEnv .close,
   .onWriter 0 quietEnv .close, .onWriter 0 quietEnv .close]

/-- A case that meets the hypotheses of `C89_allClosed`: two constructors fail, two objects are closed, one of them twice. -/
theorem C89_example : ∃ log p, Process.run exampleDeeds ⟨[], []⟩ = (log, p) ∧
    log.map Prod.snd = [.failed, .failed, .created 0, .created 1, .result (.ok ()), .result (.ok ()), .result (.ok ()), .result (.ok ()), .result (.error .io)] ∧
    (∀ ev ∈ log, ev.2 ≠ .panicked) ∧ (∀ i, i < created log → ∃ ev ∈ log, Closes i ev) ∧ p.openFiles = 0 ∧
    (Process.run (exampleDeeds.take 6) ⟨[], []⟩).2.openFiles = 2 := by
  have ho : (Process.run exampleDeeds ⟨[], []⟩).1.map Prod.snd =
    [.failed, .failed, .created 0, .created 1, .result (.ok ()), .result (.ok ()), .result (.ok ()), .result (.ok ()), .result (.error .io)] := by decide +kernel
  have h2 : (Process.run (exampleDeeds.take 6) ⟨[], []⟩).2.openFiles = 2 := by decide +kernel
  have hd : (Process.run exampleDeeds ⟨[], []⟩).1.map Prod.fst = exampleDeeds := rfl
  generalize hrun : Process.run exampleDeeds (⟨[], []⟩ : Process IdSet) = out at ho hd
  obtain ⟨log, p⟩ := out
  dsimp only at ho hd
  have hlog : log = exampleDeeds.zip
      [.failed, .failed, .created 0, .created 1, .result (.ok ()), .result (.ok ()), .result (.ok ()), .result (.ok ()), .result (.error .io)] := by
    rw [← ho, ← hd]
    exact (List.zip_unzip log).symm.trans (by rw [List.unzip_eq_map])
  have hp : ∀ ev ∈ log, ev.2 ≠ .panicked := by
    intro ev hev h
    have : ev.2 ∈ log.map Prod.snd := List.mem_map_of_mem hev
    rw [ho, h] at this
    exact absurd this (by decide)
  have hall : ∀ i, i < created log → ∃ ev ∈ log, Closes i ev := by
    rw [hlog]
    intro i hi
    change i < 2 at hi
    obtain rfl | rfl : i = 0 ∨ i = 1 := by omega
    · exact ⟨(.onWriter 0 quietEnv .close, .result (.ok ())), List.mem_of_getElem? (i := 7) rfl, rfl⟩
    · exact ⟨(.onSimple 1 quietEnv .close, .result (.ok ())), List.mem_of_getElem? (i := 6) rfl, rfl⟩
  exact ⟨log, p, rfl, ho, hp, hall, C89_allClosed _ _ _ hrun hp hall, h2⟩

end VibeCol.Handles
