import Verif.Props.C11_CrashSafeSave
/-!
# C12: a failing `save` leaves the target and leaves no temporary file
-/
namespace Verif.Props
open Verif

/-- When building the database raises, that exception is what the caller sees, the target keeps its
content, the temporary file is gone and no other file changes. -/
theorem C12_build_fails (P : Prims) (o : Os) (fs : Fs) (s : Session) (f : Option Filename)
    (tk : Option Bytes) (p : Str) (tmp : PPath) (k : Kdbx) (e : PyErr)
    (ht : s.target f = some (.path p))
    (hw : (PPath.ofStr p).withTmp = .ok tmp) (hk : s.kdbx = some k)
    (hb : (buildKdbx P { password := s.password, keyfile := s.keyfile, transformedKey := tk } k).1
      = .error e)
    (ho : o.openOk = true) (hrm : o.removeOk = true) :
    (s.save P o fs f tk).run.result = .error e ∧
    (s.save P o fs f tk).run.final tmp = none ∧
    ∀ q, q ≠ tmp → (s.save P o fs f tk).run.final q = fs q := by
  rw [save_path hk ht ho, hb]
  obtain ⟨h1, h2⟩ := saveFile_error (o := o) (fs := fs) (res := .error e) (ps := o.before) hw ho hrm rfl
  refine ⟨h1, ?_, ?_⟩
  · rw [h2, Fs.set_same]
  · intro q hq
    rw [h2, Fs.set_ne _ _ hq]

/-- In particular the target itself. -/
theorem C12_target_kept (P : Prims) (o : Os) (fs : Fs) (s : Session) (f : Option Filename)
    (tk : Option Bytes) (p : Str) (tmp : PPath) (k : Kdbx) (e : PyErr)
    (ht : s.target f = some (.path p)) (hn : ¬ NamedTmp (PPath.ofStr p))
    (hw : (PPath.ofStr p).withTmp = .ok tmp) (hk : s.kdbx = some k)
    (hb : (buildKdbx P { password := s.password, keyfile := s.keyfile, transformedKey := tk } k).1
      = .error e)
    (ho : o.openOk = true) (hrm : o.removeOk = true) :
    (s.save P o fs f tk).run.final (PPath.ofStr p) = fs (PPath.ofStr p) :=
  (C12_build_fails P o fs s f tk p tmp k e ht hw hk hb ho hrm).2.2 _
    (fun h => withTmp_ne _ hn (h ▸ hw))

/-- The same when writing fails, for example because the disk is full. -/
theorem C12_write_fails (P : Prims) (o : Os) (fs : Fs) (s : Session) (f : Option Filename)
    (tk : Option Bytes) (p : Str) (tmp : PPath) (out : Bytes) (n : Nat)
    (ht : s.target f = some (.path p)) (hw : (PPath.ofStr p).withTmp = .ok tmp)
    (hb : newContent P s tk out) (ho : o.openOk = true) (hrm : o.removeOk = true)
    (hi : o.ioError = some n) :
    (s.save P o fs f tk).run.result = .error .os ∧
    (s.save P o fs f tk).run.final tmp = none ∧
    ∀ q, q ≠ tmp → (s.save P o fs f tk).run.final q = fs q := by
  obtain ⟨k, hk, hb⟩ := hb
  rw [save_path hk ht ho, hb]
  obtain ⟨h1, h2⟩ := saveFile_error (o := o) (fs := fs) (res := .ok out)
    (ps := (o.pieces out).take n) (e := .os) hw ho hrm (by simp only [Os.writes, hi])
  refine ⟨h1, ?_, ?_⟩
  · rw [h2, Fs.set_same]
  · intro q hq
    rw [h2, Fs.set_ne _ _ hq]

/-- When the temporary file cannot even be opened: an error, and only the temporary file's name can
be affected. -/
theorem C12_open_fails (P : Prims) (o : Os) (fs : Fs) (s : Session) (f : Option Filename)
    (tk : Option Bytes) (p : Str) (tmp : PPath) (k : Kdbx) (hk : s.kdbx = some k)
    (ht : s.target f = some (.path p)) (hw : (PPath.ofStr p).withTmp = .ok tmp)
    (ho : o.openOk = false) :
    (s.save P o fs f tk).run.result = .error .os ∧
    ∀ q, q ≠ tmp → (s.save P o fs f tk).run.final q = fs q := by
  rw [save_path_refused hk ht ho]
  obtain ⟨h1, h2⟩ := saveFile_refused (o := o) (fs := fs) (res := .ok []) hw ho
  exact ⟨h1, h2 _ (saveFile_final o fs _ _)⟩

/-- Finding: for a database named `*.tmp` a failing save deletes the database. -/
theorem C12_not_for_tmp (P : Prims) (o : Os) (fs : Fs) (s : Session) (f : Option Filename)
    (tk : Option Bytes) (p : Str) (k : Kdbx) (e : PyErr)
    (ht : s.target f = some (.path p)) (hw : (PPath.ofStr p).withTmp = .ok (PPath.ofStr p))
    (hk : s.kdbx = some k)
    (hb : (buildKdbx P { password := s.password, keyfile := s.keyfile, transformedKey := tk } k).1
      = .error e)
    (ho : o.openOk = true) (hrm : o.removeOk = true) :
    (s.save P o fs f tk).run.final (PPath.ofStr p) = none := by
  rw [save_path hk ht ho, hb]
  obtain ⟨_, h2⟩ := saveFile_error (o := o) (fs := fs) (res := .error e) (ps := o.before) hw ho hrm rfl
  rw [h2, Fs.set_same]

/-- Finding: saving to a stream is not protected: whatever was written before the exception stays in
the stream. -/
theorem C12_not_for_streams (P : Prims) (o : Os) (fs : Fs) (s : Session) (f : Option Filename)
    (tk : Option Bytes) (b : Bytes) (pos : Nat) (k : Kdbx) (e : PyErr)
    (ht : s.target f = some (.stream b pos)) (hk : s.kdbx = some k)
    (hb : (buildKdbx P { password := s.password, keyfile := s.keyfile, transformedKey := tk } k).1
      = .error e) :
    (s.save P o fs f tk).run.result = .error e ∧
    (s.save P o fs f tk).stream = some (writeAt b pos o.before.flatten, pos + o.before.flatten.length) := by
  unfold Session.save
  rw [hk]
  simp only [ht, hb, Os.writes]
  exact ⟨trivial, trivial⟩

/-- A database opened without decrypting cannot be built; so the hypotheses of `C12_build_fails` are
met by the session of C10, and with a key file that has disappeared by this one. -/
example (c : CipherId) (z : Bool) :
    (buildKdbx Toy.prims { Toy.creds with keyfile := .path none } (Toy.content4 c z)).1 = .error .os := by
  rfl

end Verif.Props
