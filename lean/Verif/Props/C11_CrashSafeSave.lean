import Verif.Session.Lemmas
import Verif.Kdbx.Toy
/-!
# C11: `save` to a path is crash-safe
-/
namespace Verif.Props
open Verif

/-- A path whose last component is `<something>.tmp`. -/
def NamedTmp (p : PPath) : Prop := ∃ dir stem, stem ≠ [] ∧ p.parts = dir ++ [stem ++ ".tmp".toList]

/-- What a session would write: the bytes built from its content and credentials. -/
def newContent (P : Prims) (s : Session) (tk : Option Bytes) (out : Bytes) : Prop :=
  ∃ k, s.kdbx = some k ∧
    (buildKdbx P { password := s.password, keyfile := s.keyfile, transformedKey := tk } k).1 = .ok out

/-- At every point of a save, also of one that fails for whatever reason, the target holds its
previous content or the complete new database, and files other than the target and the temporary
file are untouched. -/
theorem C11_crash_safe (P : Prims) (o : Os) (fs : Fs) (s : Session) (f : Option Filename)
    (tk : Option Bytes) (p : Str) (ht : s.target f = some (.path p))
    (hn : ¬ NamedTmp (PPath.ofStr p)) (hr : o.renameOk = true) (hf : o.Faithful) :
    ∀ x ∈ (s.save P o fs f tk).run.states,
      (x (PPath.ofStr p) = fs (PPath.ofStr p) ∨
        ∃ out, newContent P s tk out ∧ x (PPath.ofStr p) = some out) ∧
      ∀ q, q ≠ PPath.ofStr p → (PPath.ofStr p).withTmp ≠ .ok q → x q = fs q := by
  cases hk : s.kdbx with
  | none =>
    intro x hx
    unfold Session.save at hx
    rw [hk] at hx
    simp only [List.mem_singleton] at hx
    rw [hx]
    exact ⟨.inl rfl, fun _ _ _ => rfl⟩
  | some k =>
    cases hw : (PPath.ofStr p).withTmp with
    | error e =>
      intro x hx
      unfold Session.save at hx
      rw [hk] at hx
      simp only [ht, hw, List.mem_singleton] at hx
      rw [hx]
      exact ⟨.inl rfl, fun _ _ _ => rfl⟩
    | ok tmp =>
      have hne : tmp ≠ PPath.ofStr p := fun h => withTmp_ne _ hn (h ▸ hw)
      intro x hx
      cases ho : o.openOk with
      | true =>
        rw [save_path hk ht ho] at hx
        obtain ⟨h1, h2⟩ := saveFile_states hw hne hr hf x hx
        refine ⟨h1.imp_right ?_, fun q a b => h2 q a (fun e => b (e ▸ rfl))⟩
        rintro ⟨out, h3, h4⟩
        exact ⟨out, ⟨k, hk, h3⟩, h4⟩
      | false =>
        rw [save_path_refused hk ht ho] at hx
        have h := (saveFile_refused hw ho).2 x hx
        exact ⟨.inl (h _ (Ne.symm hne)), fun q _ b => h q (fun e => b (e ▸ rfl))⟩

/-- A save that meets no error installs the new database and leaves no temporary file. -/
theorem C11_completed (P : Prims) (o : Os) (fs : Fs) (s : Session) (f : Option Filename)
    (tk : Option Bytes) (p : Str) (tmp : PPath) (out : Bytes) (ht : s.target f = some (.path p))
    (hn : ¬ NamedTmp (PPath.ofStr p)) (hw : (PPath.ofStr p).withTmp = .ok tmp)
    (hb : newContent P s tk out) (hr : o.renameOk = true) (hf : o.Faithful)
    (ho : o.openOk = true) (hi : o.ioError = none) :
    (s.save P o fs f tk).run.result = .ok () ∧
    (s.save P o fs f tk).run.final (PPath.ofStr p) = some out ∧
    (s.save P o fs f tk).run.final tmp = none ∧
    ∀ q, q ≠ PPath.ofStr p → q ≠ tmp → (s.save P o fs f tk).run.final q = fs q := by
  obtain ⟨k, hk, hb⟩ := hb
  have hne : tmp ≠ PPath.ofStr p := fun h => withTmp_ne _ hn (h ▸ hw)
  rw [save_path hk ht ho, hb]
  obtain ⟨h1, h2⟩ := saveFile_ok (fs := fs) (out := out) hw ho hr hi hf
  rw [if_neg hne] at h2
  rw [h2]
  refine ⟨h1, ?_, ?_, ?_⟩
  · rw [Fs.set_ne _ _ (Ne.symm hne), Fs.set_same]
  · rw [Fs.set_same]
  · intro q a b
    rw [Fs.set_ne _ _ b, Fs.set_ne _ _ a]

/-- Finding: a database named `*.tmp` is its own temporary file, so it is truncated in place and a
crash at that point loses it. -/
theorem C11_not_for_tmp (P : Prims) (o : Os) (fs : Fs) (s : Session) (f : Option Filename)
    (tk : Option Bytes) (p : Str) (k : Kdbx) (hk : s.kdbx = some k) (ht : s.target f = some (.path p))
    (hw : (PPath.ofStr p).withTmp = .ok (PPath.ofStr p)) (ho : o.openOk = true) :
    ∃ x ∈ (s.save P o fs f tk).run.states, x (PPath.ofStr p) = some [] := by
  rw [save_path hk ht ho]
  refine ⟨fs.set (PPath.ofStr p) (some []), ?_, Fs.set_same _ _ _⟩
  unfold Os.saveFile
  rw [hw]
  simp only [ho, if_true]
  have h : ∀ ps : List Bytes, fs.set (PPath.ofStr p) (some []) ∈ appendStates fs (PPath.ofStr p) [] ps := by
    intro ps
    cases ps <;> simp [appendStates]
  cases o.writes (buildKdbx P { password := s.password, keyfile := s.keyfile, transformedKey := tk } k).1 with
  | mk ps r =>
    cases r with
    | error e => exact List.mem_cons_of_mem _ (List.mem_append_left _ (h ps))
    | ok u => exact List.mem_cons_of_mem _ (List.mem_append_left _ (h ps))

/-- Paths ending in `.tmp` do have this form. -/
example : (PPath.ofStr "backup/keys.tmp".toList).withTmp = .ok (PPath.ofStr "backup/keys.tmp".toList) := by
  decide

/-- Finding: where renaming over the target is impossible (a target bind-mounted on its own, say)
`shutil.move` truncates the target and copies, so a crash there loses the database. -/
theorem C11_not_without_rename (P : Prims) (o : Os) (fs : Fs) (s : Session) (f : Option Filename)
    (tk : Option Bytes) (p : Str) (out : Bytes) (tmp : PPath) (ht : s.target f = some (.path p))
    (hw : (PPath.ofStr p).withTmp = .ok tmp) (hb : newContent P s tk out)
    (ho : o.openOk = true) (hi : o.ioError = none) (hr : o.renameOk = false) :
    ∃ x ∈ (s.save P o fs f tk).run.states, x (PPath.ofStr p) = some [] := by
  obtain ⟨k, hk, hb⟩ := hb
  rw [save_path hk ht ho, hb]
  have h : ∀ (f : Fs) (ps : List Bytes),
      f.set (PPath.ofStr p) (some []) ∈ appendStates f (PPath.ofStr p) [] ps := by
    intro f ps
    cases ps <;> simp [appendStates]
  refine ⟨(fs.set tmp (some (o.pieces out).flatten)).set (PPath.ofStr p) (some []), ?_, Fs.set_same _ _ _⟩
  unfold Os.saveFile
  rw [hw]
  simp only [ho, if_true, Os.writes, hi]
  refine List.mem_append_right _ ?_
  unfold Os.move
  simp only [hr, Bool.false_eq_true, if_false]
  cases o.copyError with
  | some n => exact List.mem_cons_of_mem _ (h _ _)
  | none => exact List.mem_cons_of_mem _ (List.mem_append_left _ (h _ _))

/-- Finding: a file that happens to have the name of the temporary file (`db.tmp` beside `db.kdbx`)
is destroyed by every completed save. -/
theorem C11_destroys_tmp (P : Prims) (o : Os) (fs : Fs) (s : Session) (f : Option Filename)
    (tk : Option Bytes) (p : Str) (tmp : PPath) (out : Bytes) (ht : s.target f = some (.path p))
    (hn : ¬ NamedTmp (PPath.ofStr p)) (hw : (PPath.ofStr p).withTmp = .ok tmp)
    (hb : newContent P s tk out) (hr : o.renameOk = true) (hf : o.Faithful)
    (ho : o.openOk = true) (hi : o.ioError = none) (other : Bytes) (_ : fs tmp = some other) :
    (s.save P o fs f tk).run.final tmp = none :=
  (C11_completed P o fs s f tk p tmp out ht hn hw hb hr hf ho hi).2.2.1

/-! ### The hypotheses are met -/

/-- An operating system that writes byte by byte and refuses nothing. -/
def goodOs : Os where
  openOk := true
  pieces b := b.map fun x => [x]
  before := []
  ioError := none
  removeOk := true
  renameOk := true
  copyError := none

theorem goodOs_faithful : goodOs.Faithful := by
  intro b
  show (b.map fun x => [x]).flatten = b
  induction b with
  | nil => rfl
  | cons x xs ih => rw [List.map_cons, List.flatten_cons, ih]; rfl

/-- A session with the example database. -/
def toySession (c : CipherId) (z : Bool) : Session where
  password := Toy.creds.password
  keyfile := Toy.creds.keyfile
  filename := some (.path "dir/my.db.kdbx".toList)
  kdbx := some (Toy.content4 c z)

example : ¬ NamedTmp (PPath.ofStr "dir/my.db.kdbx".toList) ∧
    (PPath.ofStr "dir/my.db.kdbx".toList).withTmp = .ok (PPath.ofStr "dir/my.db.tmp".toList) ∧
    (toySession .aes256 true).target none = some (.path "dir/my.db.kdbx".toList) := by
  refine ⟨?_, by decide, rfl⟩
  rintro ⟨dir, stem, h, hp⟩
  have h1 := congrArg List.getLast? hp
  simp only [List.getLast?_append, List.getLast?_singleton, Option.some_or] at h1
  have h2 : (PPath.ofStr "dir/my.db.kdbx".toList).parts.getLast? = some "my.db.kdbx".toList := by decide
  rw [h2] at h1
  injection h1 with h1
  have h3 := congrArg List.getLast? h1
  rw [List.getLast?_append, show "my.db.kdbx".toList.getLast? = some 'x' from by decide,
    show ".tmp".toList.getLast? = some 'p' from by decide, Option.some_or] at h3
  injection h3 with h3
  revert h3
  decide

example (c : CipherId) (z : Bool) : ∃ out, newContent Toy.prims (toySession c z) none out := by
  obtain ⟨out, h⟩ := Toy.build4 c z
  exact ⟨out, _, rfl, h⟩

end Verif.Props
