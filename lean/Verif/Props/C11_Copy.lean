import Verif.Props.C11_CrashSafeSave
/-!
# C11, where the operating system refuses to rename

`shutil.move` then copies the temporary file over the target, which is not crash-safe (`C11_not_without_rename`). Nothing is lost
nevertheless: while the target is incomplete, the temporary file is the new database.
-/
namespace Verif.Props
open Verif

/-- At every point of a save, whatever the operating system refuses, the target holds its previous content or the complete new database, or
the temporary file holds the complete new database. Files other than these two are untouched. -/
theorem C11_recoverable (P : Prims) (o : Os) (fs : Fs) (s : Session) (f : Option Filename) (tk : Option Bytes) (p : Str) (tmp : PPath)
    (ht : s.target f = some (.path p)) (hn : ¬ NamedTmp (PPath.ofStr p)) (hw : (PPath.ofStr p).withTmp = .ok tmp) (hf : o.Faithful) :
    ∀ x ∈ (s.save P o fs f tk).run.states,
      (x (PPath.ofStr p) = fs (PPath.ofStr p) ∨
        ∃ out, newContent P s tk out ∧ (x (PPath.ofStr p) = some out ∨ x tmp = some out)) ∧
      ∀ q, q ≠ PPath.ofStr p → q ≠ tmp → x q = fs q := by
  intro x hx
  cases hr : o.renameOk with
  | true =>
    obtain ⟨h1, h2⟩ := C11_crash_safe P o fs s f tk p ht hn hr hf x hx
    refine ⟨h1.imp_right fun ⟨out, a, b⟩ => ⟨out, a, .inl b⟩, fun q a b => h2 q a fun h => ?_⟩
    rw [hw] at h
    exact b (Except.ok.inj h).symm
  | false =>
    have hne : tmp ≠ PPath.ofStr p := fun h => withTmp_ne _ hn (h ▸ hw)
    have tmpOnly : ∀ v, (fs.set tmp v) (PPath.ofStr p) = fs (PPath.ofStr p) ∧
        ∀ q, q ≠ PPath.ofStr p → q ≠ tmp → (fs.set tmp v) q = fs q :=
      fun v => ⟨Fs.set_ne _ _ (Ne.symm hne), fun q _ b => Fs.set_ne _ _ b⟩
    cases hk : s.kdbx with
    | none =>
      unfold Session.save at hx
      rw [hk] at hx
      rw [List.mem_singleton.mp hx]
      exact ⟨.inl rfl, fun _ _ _ => rfl⟩
    | some k =>
    cases ho : o.openOk with
    | false =>
      rw [save_path_refused hk ht ho] at hx
      have h := (saveFile_refused hw ho).2 x hx
      exact ⟨.inl (h _ (Ne.symm hne)), fun q _ b => h q b⟩
    | true =>
    rw [save_path hk ht ho] at hx
    unfold Os.saveFile at hx
    rw [hw] at hx
    simp only [ho, if_true] at hx
    have clean : ∀ (v : Option Bytes) (e : PyErr), x ∈ (o.cleanup (fs.set tmp v) tmp e).states →
        x (PPath.ofStr p) = fs (PPath.ofStr p) ∧ ∀ q, q ≠ PPath.ofStr p → q ≠ tmp → x q = fs q := by
      intro v e hx
      rcases cleanup_states hx with rfl | rfl
      · exact tmpOnly v
      · exact ⟨(Fs.set_ne _ _ (Ne.symm hne)).trans (tmpOnly v).1, fun q a b => (Fs.set_ne _ _ b).trans ((tmpOnly v).2 q a b)⟩
    cases hb : (buildKdbx P { password := s.password, keyfile := s.keyfile, transformedKey := tk } k).1 with
    | error e =>
      rw [hb] at hx
      simp only [Os.writes, List.cons_append, List.mem_cons, List.mem_append] at hx
      rcases hx with rfl | hx | hx
      · exact ⟨.inl rfl, fun _ _ _ => rfl⟩
      · obtain ⟨n, rfl⟩ := appendStates_mem hx
        exact ⟨.inl (tmpOnly _).1, (tmpOnly _).2⟩
      · exact ⟨.inl (clean _ _ hx).1, (clean _ _ hx).2⟩
    | ok out =>
      rw [hb] at hx
      cases hi : o.ioError with
      | some n =>
        simp only [Os.writes, hi, List.cons_append, List.mem_cons, List.mem_append] at hx
        rcases hx with rfl | hx | hx
        · exact ⟨.inl rfl, fun _ _ _ => rfl⟩
        · obtain ⟨n, rfl⟩ := appendStates_mem hx
          exact ⟨.inl (tmpOnly _).1, (tmpOnly _).2⟩
        · exact ⟨.inl (clean _ _ hx).1, (clean _ _ hx).2⟩
      | none =>
        have hnew : newContent P s tk out := ⟨k, hk, hb⟩
        have copied : ∀ v, (((fs.set tmp (some out)).set (PPath.ofStr p) v) (PPath.ofStr p) = fs (PPath.ofStr p) ∨
            ∃ out', newContent P s tk out' ∧ (((fs.set tmp (some out)).set (PPath.ofStr p) v) (PPath.ofStr p) = some out' ∨
              ((fs.set tmp (some out)).set (PPath.ofStr p) v) tmp = some out')) ∧
            ∀ q, q ≠ PPath.ofStr p → q ≠ tmp → ((fs.set tmp (some out)).set (PPath.ofStr p) v) q = fs q :=
          fun v => ⟨.inr ⟨out, hnew, .inr (by rw [Fs.set_ne _ _ hne, Fs.set_same])⟩,
            fun q a b => by rw [Fs.set_ne _ _ a, Fs.set_ne _ _ b]⟩
        simp only [Os.writes, hi, List.cons_append, List.mem_cons, List.mem_append] at hx
        rcases hx with rfl | hx | hx
        · exact ⟨.inl rfl, fun _ _ _ => rfl⟩
        · obtain ⟨n, rfl⟩ := appendStates_mem hx
          exact ⟨.inl (tmpOnly _).1, (tmpOnly _).2⟩
        · unfold Os.move at hx
          simp only [hr, Bool.false_eq_true, if_false, hf out] at hx
          cases hc : o.copyError with
          | some n =>
            rw [hc] at hx
            rcases List.mem_cons.mp hx with rfl | hx
            · exact ⟨.inl (tmpOnly _).1, (tmpOnly _).2⟩
            · obtain ⟨m, rfl⟩ := appendStates_mem hx
              exact copied _
          | none =>
            rw [hc] at hx
            simp only [List.cons_append, List.mem_cons, List.mem_append, List.not_mem_nil, or_false] at hx
            rcases hx with rfl | hx | hx
            · exact ⟨.inl (tmpOnly _).1, (tmpOnly _).2⟩
            · obtain ⟨m, rfl⟩ := appendStates_mem hx
              exact copied _
            · subst hx
              unfold Os.remove
              rw [Fs.set_ne _ _ hne, Fs.set_same]
              simp only
              cases o.removeOk with
              | false => exact copied _
              | true =>
                simp only [if_true]
                refine ⟨.inr ⟨out, hnew, .inl ?_⟩, fun q a b => ?_⟩
                · rw [Fs.set_ne _ _ (Ne.symm hne), Fs.set_same]
                · rw [Fs.set_ne _ _ b, Fs.set_ne _ _ a, Fs.set_ne _ _ b]

/-- How such a save ends, if the bytes could be built and written. Copied completely, the new database is in place and the temporary file is
gone, or still there if it cannot be removed, with an `OSError`. Copied in part, the save raises `OSError`, and the new database is in the
temporary file. -/
theorem C11_copied (P : Prims) (o : Os) (fs : Fs) (s : Session) (f : Option Filename) (tk : Option Bytes) (p : Str) (tmp : PPath) (out : Bytes)
    (ht : s.target f = some (.path p)) (hn : ¬ NamedTmp (PPath.ofStr p)) (hw : (PPath.ofStr p).withTmp = .ok tmp) (hf : o.Faithful)
    (hb : newContent P s tk out) (ho : o.openOk = true) (hi : o.ioError = none) (hr : o.renameOk = false) :
    (o.copyError = none → (s.save P o fs f tk).run.final (PPath.ofStr p) = some out ∧
      (s.save P o fs f tk).run.result = (if o.removeOk then .ok () else .error .os) ∧
      (s.save P o fs f tk).run.final tmp = (if o.removeOk then none else some out)) ∧
    (∀ n, o.copyError = some n → (s.save P o fs f tk).run.final (PPath.ofStr p) = some ((o.pieces out).take n).flatten ∧
      (s.save P o fs f tk).run.result = .error .os ∧ (s.save P o fs f tk).run.final tmp = some out) := by
  have hne : tmp ≠ PPath.ofStr p := fun h => withTmp_ne _ hn (h ▸ hw)
  obtain ⟨k, hk, hb⟩ := hb
  rw [save_path hk ht ho, hb]
  unfold Os.saveFile
  rw [hw]
  simp only [ho, if_true, Os.writes, hi]
  unfold Os.move
  simp only [hr, Bool.false_eq_true, if_false, hf out]
  constructor
  · intro hc
    rw [hc]
    simp only
    unfold Os.remove
    rw [Fs.set_ne _ _ hne, Fs.set_same]
    cases o.removeOk with
    | false => exact ⟨Fs.set_same _ _ _, rfl, by simp only [Bool.false_eq_true, if_false]; rw [Fs.set_ne _ _ hne, Fs.set_same]⟩
    | true =>
      simp only [if_true]
      exact ⟨by rw [Fs.set_ne _ _ (Ne.symm hne), Fs.set_same], trivial, Fs.set_same _ _ _⟩
  · intro n hc
    rw [hc]
    exact ⟨Fs.set_same _ _ _, rfl, by simp only; rw [Fs.set_ne _ _ hne, Fs.set_same]⟩

/-- An operating system that does not rename and stops copying after three bytes. -/
def fullOs : Os := { goodOs with renameOk := false, copyError := some 3 }

theorem fullOs_faithful : fullOs.Faithful := goodOs_faithful

/-- The sample session saves there: the target is cut off after three bytes. -/
example : fullOs.openOk = true ∧ fullOs.ioError = none ∧ fullOs.renameOk = false ∧ fullOs.copyError = some 3 ∧
    (∃ out, newContent Toy.prims (toySession .aes256 true) none out) :=
  ⟨rfl, rfl, rfl, rfl, let ⟨out, h⟩ := Toy.build4 .aes256 true; ⟨out, _, rfl, h⟩⟩

end Verif.Props
