/-
Weakest preconditions for writer methods: `wp m Q E env w` says that running `m` from `w`
either returns a value and a state satisfying `Q`, or an error and a state satisfying `E`.
-/
import Verif.Lemmas.BlockFull
import Verif.Lemmas.Bytes
namespace VibeCol
variable {B α β : Type}

/-- Postcondition on both outcomes. -/
def wp (m : WM B α) (Q : α → Writer B → Prop) (E : Err → Writer B → Prop) (env : Env)
    (w : Writer B) : Prop :=
  match m env w with
  | (.ok a, w') => Q a w'
  | (.error e, w') => E e w'

/-- Something can go wrong outside the program: the file is closed or an operation is
scheduled to fail. -/
def Faulty (env : Env) (w : Writer B) : Prop := w.fileOpen = false ∨ ∃ n k, env.fault n = some k

theorem wp_bind {m : WM B α} {f : α → WM B β} {Q E env} {w : Writer B}
    (h : wp m (fun a w' => wp (f a) Q E env w') E env w) : wp (m >>= f) Q E env w := by
  unfold wp at *
  rw [WM.bind_def]
  rcases hm : m env w with ⟨r, w'⟩
  rw [hm] at h
  cases r <;> exact h

theorem wp_pure {a : α} {Q : α → Writer B → Prop} {E env w} (h : Q a w) :
    wp (pure a : WM B α) Q E env w := h

theorem wp_get {Q : Writer B → Writer B → Prop} {E env w} (h : Q w w) :
    wp (WM.get : WM B _) Q E env w := h

theorem wp_modify {f : Writer B → Writer B} {Q : Unit → Writer B → Prop} {E env w}
    (h : Q () (f w)) : wp (WM.modify f) Q E env w := h

theorem wp_throw {e : Err} {Q : α → Writer B → Prop} {E env w} (h : E e w) :
    wp (WM.throw e : WM B α) Q E env w := h

theorem wp_lift_ok {r : Except Err α} {a : α} {Q : α → Writer B → Prop} {E env w}
    (hr : r = .ok a) (h : Q a w) : wp (WM.lift r : WM B α) Q E env w := by
  subst hr; exact h

theorem wp_lift_error {r : Except Err α} {e : Err} {Q : α → Writer B → Prop} {E env w}
    (hr : r = .error e) (h : E e w) : wp (WM.lift r : WM B α) Q E env w := by
  subst hr; exact h

theorem wp_mono {m : WM B α} {Q Q' : α → Writer B → Prop} {E E' : Err → Writer B → Prop} {env w}
    (h : wp m Q E env w) (hQ : ∀ a w', Q a w' → Q' a w') (hE : ∀ e w', E e w' → E' e w') :
    wp m Q' E' env w := by
  unfold wp at *
  rcases hm : m env w with ⟨r, w'⟩
  rw [hm] at h
  cases r
  · exact hE _ _ h
  · exact hQ _ _ h

theorem wp_now [Bitmap B] {Q : UInt64 → Writer B → Prop} {E env} {w : Writer B}
    (h : ∀ t, Q t w) : wp (now : WM B _) Q E env w := h _

theorem wp_now' [Bitmap B] {Q : UInt64 → Writer B → Prop} {E env} {w : Writer B}
    (h : Q (env.clock w.opNo) w) : wp (now : WM B _) Q E env w := h

/-- Extract the outcome from a `wp` fact. -/
theorem wp_ok {m : WM B α} {Q : α → Writer B → Prop} {E env w a w'}
    (h : wp m Q E env w) (hr : m env w = (.ok a, w')) : Q a w' := by
  unfold wp at h; rw [hr] at h; exact h

theorem wp_error {m : WM B α} {Q : α → Writer B → Prop} {E env w e w'}
    (h : wp m Q E env w) (hr : m env w = (.error e, w')) : E e w' := by
  unfold wp at h; rw [hr] at h; exact h

/-- The file after a complete write of `d` at the cursor. -/
def File.put (f : File) (d : Bytes) : File :=
  { bytes := writeAt f.bytes f.pos d, pos := f.pos + d.length }

@[simp] theorem File.put_nil (f : File) : f.put [] = f := by
  simp [File.put, writeAt]

theorem File.put_put (f : File) (d e : Bytes) (h : f.pos ≤ f.bytes.length) :
    (f.put d).put e = f.put (d ++ e) := by
  simp only [File.put, File.mk.injEq]
  refine ⟨writeAt_writeAt _ _ _ _ h, ?_⟩
  simp; omega

theorem File.put_bound (f : File) (d : Bytes) (h : f.pos ≤ f.bytes.length) :
    (f.put d).pos ≤ (f.put d).bytes.length := by
  simp only [File.put, writeAt_length _ _ _ h]; omega

theorem wp_fileOp {f : File → Except Err (α × File)} {Q : α → Writer B → Prop} {E env w}
    (hok : ∀ a file o, w.fileOpen = true → f w.file = .ok (a, file) →
      Q a { w with opNo := o, file := file })
    (herr : ∀ e o, w.fileOpen = true → f w.file = .error e → E e { w with opNo := o })
    (hio : ∀ o, Faulty env w → E .io { w with opNo := o }) :
    wp (WM.fileOp f) Q E env w := by
  unfold wp WM.fileOp
  by_cases hc : w.fileOpen = false
  · simp only [hc, if_true]; exact hc ▸ hio _ (.inl hc)
  · simp only [if_neg hc]
    have hopen : w.fileOpen = true := by cases h : w.fileOpen <;> simp_all
    rcases hf : env.fault w.opNo with _ | k
    · rcases hr : f w.file with e | ⟨a, file⟩
      · exact herr e _ hopen hr
      · exact hok a file _ hopen hr
    · exact hio _ (.inr ⟨_, _, hf⟩)

theorem wp_seekCur {Q : Nat → Writer B → Prop} {E env w}
    (hok : ∀ o, w.fileOpen = true → Q w.file.pos { w with opNo := o })
    (hio : ∀ o, Faulty env w → E .io { w with opNo := o }) : wp (seekCur : WM B Nat) Q E env w := by
  apply wp_fileOp
  · intro a file o ho h; simp at h; obtain ⟨rfl, rfl⟩ := h; exact hok o ho
  · intro e o _ h; simp at h
  · exact hio

theorem wp_seekRel {off : Int} {Q : Nat → Writer B → Prop} {E env w}
    (hnn : 0 ≤ (w.file.pos : Int) + off)
    (hok : ∀ o, w.fileOpen = true → Q ((w.file.pos : Int) + off).toNat
      { w with opNo := o, file := { w.file with pos := ((w.file.pos : Int) + off).toNat } })
    (hio : ∀ o, Faulty env w → E .io { w with opNo := o }) : wp (seekRel off : WM B Nat) Q E env w := by
  apply wp_fileOp
  · intro a file o ho h
    rw [if_neg (by omega)] at h
    simp at h; obtain ⟨rfl, rfl⟩ := h; exact hok o ho
  · intro e o _ h
    rw [if_neg (by omega)] at h; simp at h
  · exact hio

theorem wp_seekStart {Q : Nat → Writer B → Prop} {E env w}
    (hok : ∀ o, w.fileOpen = true → Q 0 { w with opNo := o, file := { w.file with pos := 0 } })
    (hio : ∀ o, Faulty env w → E .io { w with opNo := o }) : wp (seekStart : WM B Nat) Q E env w := by
  apply wp_fileOp
  · intro a file o ho h; simp at h; obtain ⟨rfl, rfl⟩ := h; exact hok o ho
  · intro e o _ h; simp at h
  · exact hio

theorem wp_seekEnd {Q : Nat → Writer B → Prop} {E env w}
    (hok : ∀ o, w.fileOpen = true → Q w.file.bytes.length
      { w with opNo := o, file := { w.file with pos := w.file.bytes.length } })
    (hio : ∀ o, Faulty env w → E .io { w with opNo := o }) : wp (seekEnd : WM B Nat) Q E env w := by
  apply wp_fileOp
  · intro a file o ho h; simp at h; obtain ⟨rfl, rfl⟩ := h; exact hok o ho
  · intro e o _ h; simp at h
  · exact hio

theorem wp_fsync {Q : Unit → Writer B → Prop} {E env w}
    (hok : ∀ o d, w.fileOpen = true → Q () { w with opNo := o, disk := d })
    (hio : ∀ o, Faulty env w → E .io { w with opNo := o }) : wp (fsync : WM B Unit) Q E env w := by
  unfold wp fsync
  by_cases hc : w.fileOpen = false
  · simp only [hc, if_true]; exact hc ▸ hio _ (.inl hc)
  · simp only [if_neg hc]
    have hopen : w.fileOpen = true := by cases h : w.fileOpen <;> simp_all
    rcases hf : env.fault w.opNo with _ | k
    · exact hok _ _ hopen
    · exact hio _ (.inr ⟨_, _, hf⟩)

theorem wp_fwrite {d : Bytes} {Q : Nat → Writer B → Prop} {E env w}
    (hok : ∀ o dk, w.fileOpen = true → Q d.length { w with opNo := o, disk := dk, file := w.file.put d })
    (hio : ∀ o dk k, Faulty env w → E .io { w with opNo := o, disk := dk, file := w.file.put (d.take k) }) :
    wp (fwrite d : WM B Nat) Q E env w := by
  unfold wp fwrite
  by_cases hc : w.fileOpen = false
  · simp only [hc, if_true]
    have := hio (w.opNo + 1) w.disk 0 (.inl hc)
    simpa [hc] using this
  · simp only [if_neg hc]
    have hopen : w.fileOpen = true := by cases h : w.fileOpen <;> simp_all
    rcases hf : env.fault w.opNo with _ | k
    · exact hok _ _ hopen
    · exact hio _ _ k (.inr ⟨_, _, hf⟩)

theorem wp_fwriteAll {ds : List Bytes} {Q : Nat → Writer B → Prop} {E env} {w : Writer B}
    (hpos : w.file.pos ≤ w.file.bytes.length)
    (hok : ∀ o dk, (ds ≠ [] → w.fileOpen = true) →
      Q ds.flatten.length { w with opNo := o, disk := dk, file := w.file.put ds.flatten })
    (hio : ∀ o dk k, Faulty env w → E .io { w with opNo := o, disk := dk, file := w.file.put (ds.flatten.take k) }) :
    wp (fwriteAll ds : WM B Nat) Q E env w := by
  induction ds generalizing w Q with
  | nil =>
    have := hok w.opNo w.disk (by simp)
    simpa [fwriteAll, wp, WM.pure_def] using this
  | cons d ds ih =>
    unfold fwriteAll
    refine wp_bind (wp_fwrite ?_ ?_)
    · intro o dk ho
      refine wp_bind (ih (File.put_bound _ _ hpos) ?_ ?_)
      · intro o' dk' _
        refine wp_pure ?_
        have := hok o' dk' (fun _ => ho)
        simp only [List.flatten_cons, List.length_append] at this
        simpa [File.put_put _ _ _ hpos] using this
      · intro o' dk' k hF
        have hF' : Faulty env w := hF
        have := hio o' dk' (d.length + k) hF'
        simp only [List.flatten_cons, List.take_length_add_append] at this
        simpa [File.put_put _ _ _ hpos] using this
    · intro o dk k hF
      by_cases hk : k ≤ d.length
      · have := hio o dk k hF
        simpa [List.take_append_of_le_length hk] using this
      · have := hio o dk d.length hF
        simp only [List.flatten_cons, List.take_append_length] at this
        rw [List.take_of_length_le (by omega)]
        exact this

theorem wp_ite {c : Prop} [Decidable c] {a b : WM B α} {Q : α → Writer B → Prop} {E env w}
    (ha : c → wp a Q E env w) (hb : ¬ c → wp b Q E env w) : wp (if c then a else b) Q E env w := by
  by_cases h : c
  · rw [if_pos h]; exact ha h
  · rw [if_neg h]; exact hb h

theorem NoFault.not_faulty {env : Env} {w : Writer B} (h : env.NoFault) (ho : w.fileOpen = true) :
    ¬ Faulty env w := by
  rintro (hc | ⟨n, k, hk⟩)
  · rw [ho] at hc; cases hc
  · rw [h n] at hk; cases hk

end VibeCol

namespace VibeCol
variable {B : Type}

/-- `w'` is `base` with file `f` (and some operation count and disk). -/
def St (base : Writer B) (f : File) (w' : Writer B) : Prop :=
  ∃ o d, w' = { base with opNo := o, disk := d, file := f }

theorem St.refl (w : Writer B) : St w w.file w := ⟨w.opNo, w.disk, rfl⟩

theorem St.faulty {base w' : Writer B} {f env} (h : St base f w') (hF : Faulty env w') :
    Faulty env base := by obtain ⟨o, d, rfl⟩ := h; exact hF
theorem St.open {base w' : Writer B} {f} (h : St base f w') : w'.fileOpen = base.fileOpen := by
  obtain ⟨o, d, rfl⟩ := h; rfl
theorem St.gl {base w' : Writer B} {f} (h : St base f w') : w'.globalIDs = base.globalIDs := by
  obtain ⟨o, d, rfl⟩ := h; rfl
theorem St.file {base w' : Writer B} {f} (h : St base f w') : w'.file = f := by
  obtain ⟨o, d, rfl⟩ := h; rfl
theorem St.enc {base w' : Writer B} {f} (h : St base f w') : w'.encodingType = base.encodingType := by
  obtain ⟨o, d, rfl⟩ := h; rfl

section rules
variable {env : Env} {base w : Writer B} {f : File} {E : Err → Writer B → Prop}

theorem st_seekCur {Q : Nat → Writer B → Prop} (h : St base f w)
    (hok : ∀ w', St base f w' → base.fileOpen = true → Q f.pos w')
    (hio : ∀ w', St base f w' → Faulty env base → E .io w') : wp (seekCur : WM B Nat) Q E env w := by
  have hf := h.file
  refine wp_seekCur (fun o ho => ?_) (fun o hF => hio _ ?_ (h.faulty hF))
  · rw [hf]; refine hok _ ?_ (h.open ▸ ho); obtain ⟨_, _, rfl⟩ := h; exact ⟨_, _, rfl⟩
  · obtain ⟨_, _, rfl⟩ := h; exact ⟨_, _, rfl⟩

theorem st_seekRel {off : Int} {Q : Nat → Writer B → Prop} (h : St base f w)
    (hnn : 0 ≤ (f.pos : Int) + off)
    (hok : ∀ w', St base { f with pos := ((f.pos : Int) + off).toNat } w' → base.fileOpen = true →
      Q ((f.pos : Int) + off).toNat w')
    (hio : ∀ w', St base f w' → Faulty env base → E .io w') :
    wp (seekRel off : WM B Nat) Q E env w := by
  have hf := h.file
  refine wp_seekRel (by rw [hf]; exact hnn) (fun o ho => ?_) (fun o hF => hio _ ?_ (h.faulty hF))
  · rw [hf]; refine hok _ ?_ (h.open ▸ ho); obtain ⟨_, _, rfl⟩ := h; exact ⟨_, _, rfl⟩
  · obtain ⟨_, _, rfl⟩ := h; exact ⟨_, _, rfl⟩

theorem st_seekStart {Q : Nat → Writer B → Prop} (h : St base f w)
    (hok : ∀ w', St base { f with pos := 0 } w' → base.fileOpen = true → Q 0 w')
    (hio : ∀ w', St base f w' → Faulty env base → E .io w') : wp (seekStart : WM B Nat) Q E env w := by
  have hf := h.file
  refine wp_seekStart (fun o ho => ?_) (fun o hF => hio _ ?_ (h.faulty hF))
  · refine hok _ ?_ (h.open ▸ ho); obtain ⟨_, _, rfl⟩ := h; exact ⟨_, _, rfl⟩
  · obtain ⟨_, _, rfl⟩ := h; exact ⟨_, _, rfl⟩

theorem st_seekEnd {Q : Nat → Writer B → Prop} (h : St base f w)
    (hok : ∀ w', St base { f with pos := f.bytes.length } w' → base.fileOpen = true →
      Q f.bytes.length w')
    (hio : ∀ w', St base f w' → Faulty env base → E .io w') : wp (seekEnd : WM B Nat) Q E env w := by
  have hf := h.file
  refine wp_seekEnd (fun o ho => ?_) (fun o hF => hio _ ?_ (h.faulty hF))
  · rw [hf]; refine hok _ ?_ (h.open ▸ ho); obtain ⟨_, _, rfl⟩ := h; exact ⟨_, _, rfl⟩
  · obtain ⟨_, _, rfl⟩ := h; exact ⟨_, _, rfl⟩

theorem st_fsync {Q : Unit → Writer B → Prop} (h : St base f w)
    (hok : ∀ w', St base f w' → base.fileOpen = true → Q () w')
    (hio : ∀ w', St base f w' → Faulty env base → E .io w') : wp (fsync : WM B Unit) Q E env w := by
  refine wp_fsync (fun o _ ho => ?_) (fun o hF => hio _ ?_ (h.faulty hF))
  · refine hok _ ?_ (h.open ▸ ho); obtain ⟨_, _, rfl⟩ := h; exact ⟨_, _, rfl⟩
  · obtain ⟨_, _, rfl⟩ := h; exact ⟨_, _, rfl⟩

theorem st_fwrite {d : Bytes} {Q : Nat → Writer B → Prop} (h : St base f w)
    (hok : ∀ w', St base (f.put d) w' → base.fileOpen = true → Q d.length w')
    (hio : ∀ w' k, St base (f.put (d.take k)) w' → Faulty env base → E .io w') :
    wp (fwrite d : WM B Nat) Q E env w := by
  have hf := h.file
  refine wp_fwrite (fun o _ ho => ?_) (fun o _ k hF => hio _ k ?_ (h.faulty hF))
  · rw [hf]; refine hok _ ?_ (h.open ▸ ho); obtain ⟨_, _, rfl⟩ := h; exact ⟨_, _, rfl⟩
  · rw [hf]; obtain ⟨_, _, rfl⟩ := h; exact ⟨_, _, rfl⟩

theorem st_fwriteAll {ds : List Bytes} {Q : Nat → Writer B → Prop} (h : St base f w)
    (hpos : f.pos ≤ f.bytes.length)
    (hok : ∀ w', St base (f.put ds.flatten) w' → Q ds.flatten.length w')
    (hio : ∀ w' k, St base (f.put (ds.flatten.take k)) w' → Faulty env base → E .io w') :
    wp (fwriteAll ds : WM B Nat) Q E env w := by
  have hf := h.file
  refine wp_fwriteAll (by rw [hf]; exact hpos) (fun o _ ho => ?_)
    (fun o _ k hF => hio _ k ?_ (h.faulty hF))
  · rw [hf]; refine hok _ ?_; obtain ⟨_, _, rfl⟩ := h; exact ⟨_, _, rfl⟩
  · rw [hf]; obtain ⟨_, _, rfl⟩ := h; exact ⟨_, _, rfl⟩

end rules
end VibeCol
