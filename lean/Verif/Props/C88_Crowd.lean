import Verif.Spec.Crowd
import Verif.Props.C69_Life
/-!
# C88: several objects for one file
-/
namespace Verif.Props
open Verif XPath Spec Api

variable {P : Prims} {env : Env} {p : PPath} {hdr : Header}

/-- All objects are in order, and so is the file. -/
theorem crowd_alive (hP : P.Lawful) (hv : hdr.value.major = 3 ∨ hdr.value.major = 4) (hn : ¬ NamedTmp p) {fs0 fs : Fs} {x0 : Obj} {xs0 xs : Objs}
    {v0 v : Shown} (h0 : Started P env p hdr fs0 x0 v0) (e : xs0 = Objs.only x0) (h : Crowd P env p hdr fs0 xs0 v0 fs xs v) :
    Kept P hdr (fs p) v ∧ ∀ i x, xs i = some x → Alive P env p hdr fs x v := by
  induction h with
  | refl =>
    subst e
    have hA : Alive P env p hdr fs0 x0 v0 := by
      cases h0 with
      | opened h => exact alive_start h
      | made h => exact made_start hP hn h
    refine ⟨hA.disk, fun i x hi => ?_⟩
    unfold Objs.only at hi
    split at hi
    · rw [← Option.some.inj hi]; exact hA
    · cases hi
  | act i x a _ hi ha ih =>
    obtain ⟨_, h2⟩ := ih
    have hA := alive_step hP hv hn (h2 i x hi) a ha
    refine ⟨hA.disk, fun j y hj => ?_⟩
    unfold Objs.put at hj
    split at hj
    · rw [← Option.some.inj hj]; exact hA
    · have hB := h2 j y hj
      exact ⟨hB.named, hB.kdbx, hB.key, hA.disk⟩
  | join i x w _ _ ho ih =>
    obtain ⟨h1, h2⟩ := ih
    refine ⟨h1, fun j y hj => ?_⟩
    unfold Objs.put at hj
    split at hj
    · rw [← Option.some.inj hj]
      have hB := alive_start (env := env) ho
      exact ⟨hB.named, hB.kdbx, hB.key, h1⟩
    · exact h2 j y hj
  | leave i _ ih =>
    obtain ⟨h1, h2⟩ := ih
    refine ⟨h1, fun j y hj => ?_⟩
    unfold Objs.put at hj
    split at hj
    · cases hj
    · exact h2 j y hj

/-- Whatever is done with any number of objects, in any order: the file is the database as the object that last saved it had
it, under the credentials that object had. -/
theorem C88_file (hP : P.Lawful) (hv : hdr.value.major = 3 ∨ hdr.value.major = 4) (hn : ¬ NamedTmp p) {fs0 fs : Fs} {x0 : Obj} {xs : Objs}
    {v0 v : Shown} (h0 : Started P env p hdr fs0 x0 v0) (h : Crowd P env p hdr fs0 (.only x0) v0 fs xs v) : Holds P hdr (fs p) v :=
  (crowd_alive hP hv hn h0 rfl h).1.holds

/-- If everything stops while one of them does something, the file is that, or, in a save, the database as this object has it. -/
theorem C88_crash (hP : P.Lawful) (hv : hdr.value.major = 3 ∨ hdr.value.major = 4) (hn : ¬ NamedTmp p) {fs0 fs : Fs} {x0 : Obj} {xs : Objs}
    {v0 v : Shown} (h0 : Started P env p hdr fs0 x0 v0) (h : Crowd P env p hdr fs0 (.only x0) v0 fs xs v) {i : Nat} {x : Obj}
    (hi : xs i = some x) {a : Act} (ha : Act.Ok P env p v fs x a) :
    ∀ s ∈ (a.run P env fs x).states, Holds P hdr (s p) v ∨ ∃ o f tk, a = .save o f tk ∧ Holds P hdr (s p) (shownBy x tk) :=
  alive_crash hP hv hn ((crowd_alive hP hv hn h0 rfl h).2 i x hi) ha

/-- `reload` brings an object to the state in which any object last saved the file, provided its credentials open the file; its
own changes are gone. -/
theorem C88_reload (hP : P.Lawful) (hv : hdr.value.major = 3 ∨ hdr.value.major = 4) (hn : ¬ NamedTmp p) {fs0 fs : Fs} {x0 : Obj} {xs : Objs}
    {v0 v : Shown} (h0 : Started P env p hdr fs0 x0 v0) (h : Crowd P env p hdr fs0 (.only x0) v0 fs xs v) {i : Nat} {x : Obj}
    (hi : xs i = some x) (hc : ∀ b, fs p = some b → openBytes P (credsOf x none) true b = openBytes P v.creds true b) (left : Nat) :
    (Act.run P env fs x (.reload left)).result = .ok () ∧
    (docEl (Act.run P env fs x (.reload left)).obj.db.heap).bind (content (Act.run P env fs x (.reload left)).obj.db) = v.tree ∧
    (hdr.value.major = 4 → (Act.run P env fs x (.reload left)).obj.db.binaries = v.binaries) :=
  let r := alive_reload ((crowd_alive hP hv hn h0 rfl h).2 i x hi) hc left
  ⟨r.1, r.2.1, r.2.2.1⟩

/-- KDBX4: when another object has changed the credentials and saved, `reload` raises `CredentialsError`, and the object keeps
its tree and its own credentials. -/
theorem C88_locked_out (hP : P.Lawful) (hv : hdr.value.major = 4) (hn : ¬ NamedTmp p) {fs0 fs : Fs} {x0 : Obj} {xs : Objs}
    {v0 v : Shown} (h0 : Started P env p hdr fs0 x0 v0) (h : Crowd P env p hdr fs0 (.only x0) v0 fs xs v) {i : Nat} {x : Obj}
    (hi : xs i = some x) {d : DynHeader} {seed tk tk' : Bytes}
    (hd : hdr.value.dyn = some d) (hs : d.raw .masterSeed = .ok seed) (hk : (computeTransformed4 P v.creds d).1 = .ok tk)
    (hk' : (computeTransformed4 P (credsOf x none) d).1 = .ok tk')
    (hne : headerMac P seed tk hdr.data ≠ headerMac P seed tk' hdr.data) (left : Nat) :
    (Act.run P env fs x (.reload left)).result = .error .credentials ∧
    (Act.run P env fs x (.reload left)).obj.db = x.db ∧
    credsOf (Act.run P env fs x (.reload left)).obj none = credsOf x none := by
  have hA := (crowd_alive hP (.inr hv) hn h0 rfl h).2 i x hi
  obtain ⟨b, hb, ho⟩ := alive_refused hP hv hA hd hs hk hk' hne
  obtain ⟨q, hq1, hq2, hq3⟩ := hA.named
  obtain ⟨kf, hkf, hr⟩ := reload_run (P := P) hq1 hq2 (by rw [hq3]; exact hb) left
  rw [creds_open, ho] at hr
  dsimp only at hr
  have e1 : Act.run P env fs x (.reload left) = ⟨[fs], fs, ⟨{ x.session with keyfile := kf }, x.db⟩, .error .credentials⟩ := by
    unfold Act.run
    dsimp only
    rw [hr]
    rfl
  rw [e1]
  refine ⟨rfl, rfl, ?_⟩
  show (⟨x.session.password, unread kf, none⟩ : Creds) = ⟨x.session.password, unread x.session.keyfile, none⟩
  rw [hkf, parse_unread hA.key]

/-- Finding: the last save wins. A save that returns puts its object's tree, binaries and credentials into the file whatever
others have saved since the object was opened; nothing is merged and nothing is reported. -/
theorem C88_last_save_wins (hP : P.Lawful) (hv : hdr.value.major = 3 ∨ hdr.value.major = 4) (hn : ¬ NamedTmp p) {fs0 fs : Fs} {x0 : Obj}
    {xs : Objs} {v0 v : Shown} (h0 : Started P env p hdr fs0 x0 v0) (h : Crowd P env p hdr fs0 (.only x0) v0 fs xs v) {i : Nat} {x : Obj}
    (hi : xs i = some x) {o : Os} (hr : o.renameOk = true) (ho : o.Faithful) (tk : Option Bytes)
    (hs : (Act.run P env fs x (.save o none tk)).result = .ok ()) :
    Holds P hdr ((Act.run P env fs x (.save o none tk)).fs p) (shownBy x tk) := by
  have hA := (crowd_alive hP hv hn h0 rfl h).2 i x hi
  obtain ⟨q, hq1, hq2, hq3⟩ := hA.named
  have ht : x.session.target none = some (.path q) := by
    unfold Session.target
    exact hq1
  have ha : Act.Ok P env p v fs x (.save o none tk) := by
    intro q' hq'
    rw [ht] at hq'
    have := Filename.path.inj (Option.some.inj hq')
    subst this
    rw [if_pos hq3]
    exact ⟨hr, ho⟩
  have := alive_step hP hv hn hA _ ha
  have hw : Act.saves P env p fs x (.save o none tk) = some tk := by
    unfold Act.saves
    simp only [ht, hq3, hs, and_self, if_true]
  rw [hw] at this
  exact Kept.holds this.disk

/-- Hence an update of another object is lost: whatever object `j` saves, when `i`, which has not reloaded, saves after it, the
file is what it would be had `j` not saved: the tree, binaries and credentials of `i`, the former password among them. -/
theorem C88_lost_update (hP : P.Lawful) (hv : hdr.value.major = 3 ∨ hdr.value.major = 4) (hn : ¬ NamedTmp p) {fs0 fs : Fs} {x0 : Obj}
    {xs : Objs} {v0 v : Shown} (h0 : Started P env p hdr fs0 x0 v0) (h : Crowd P env p hdr fs0 (.only x0) v0 fs xs v) {i j : Nat} {x y : Obj}
    (hi : xs i = some x) (hj : xs j = some y) (hij : i ≠ j) {a : Act} (ha : Act.Ok P env p v fs y a)
    {o : Os} (hr : o.renameOk = true) (ho : o.Faithful) (tk : Option Bytes)
    (hs : (Act.run P env (a.run P env fs y).fs x (.save o none tk)).result = .ok ()) :
    Holds P hdr ((Act.run P env (a.run P env fs y).fs x (.save o none tk)).fs p) (shownBy x tk) := by
  refine C88_last_save_wins hP hv hn h0 (.act j y a h hj ha) (i := i) (x := x) ?_ hr ho tk hs
  unfold Objs.put
  rw [if_neg hij]
  exact hi

/-! ## A case: the database is opened twice, one object changes the password, adds a group and saves, then the other saves -/

def twoObjs : Objs := (Objs.only usedObj).put 1 (some usedObj)

theorem two_crowd : Crowd Toy.prims Sample.env usedPath usedHeader blankFs (.only usedObj) usedShown blankFs twoObjs usedShown :=
  .join 1 usedObj usedShown (.refl _ _ _) rfl used_opened

/-- The first has saved, and the file is its database. -/
theorem two_saved : ∃ xs, Crowd Toy.prims Sample.env usedPath usedHeader blankFs (.only usedObj) usedShown usedSave.fs xs (shownBy used2 none) ∧
    xs 1 = some usedObj ∧ xs 0 = some usedSave.obj := by
  have h1 : Crowd Toy.prims Sample.env usedPath usedHeader blankFs (.only usedObj) usedShown blankFs (twoObjs.put 0 (some used1)) usedShown :=
    Crowd.act 0 usedObj (.call (.setPassword (some "new".toList))) two_crowd rfl ⟨trivial, trivial, nofun⟩
  have h2 : Crowd Toy.prims Sample.env usedPath usedHeader blankFs (.only usedObj) usedShown blankFs
      ((twoObjs.put 0 (some used1)).put 0 (some used2)) usedShown :=
    Crowd.act 0 used1 (.call (.addGroup 6 (some "Work".toList) none none)) h1 rfl
      ⟨show used1.db.heap.tag 6 = "Group".toList by decide +kernel, trivial, nofun⟩
  have hs : Act.saves Toy.prims Sample.env usedPath blankFs used2 (.save goodOs none none) = some none := by decide +kernel
  have h3 := Crowd.act 0 used2 (.save goodOs none none) h2 rfl (fun q hq => by
    have : q = "/lib/blank.kdbx".toList := by
      have e : used2.session.target none = some (.path "/lib/blank.kdbx".toList) := by decide +kernel
      exact (Filename.path.inj (Option.some.inj (e.symm.trans hq))).symm
    subst this
    rw [if_pos (show PPath.ofStr "/lib/blank.kdbx".toList = usedPath from rfl)]
    exact ⟨rfl, goodOs_faithful⟩)
  rw [hs] at h3
  exact ⟨_, h3, rfl, rfl⟩

/-- The other saves: the file is its database again, without the new group and under the old password. -/
example : Holds Toy.prims usedHeader ((Act.run Toy.prims Sample.env usedSave.fs usedObj (.save goodOs none none)).fs usedPath)
    (shownBy usedObj none) ∧ (shownBy usedObj none).creds.password ≠ (shownBy used2 none).creds.password ∧
    (shownBy usedObj none).tree ≠ (shownBy used2 none).tree := by
  obtain ⟨xs, h, h1, _⟩ := two_saved
  exact ⟨C88_last_save_wins Toy.lawful (.inr (by decide +kernel)) used_named (.opened used_opened) h h1 rfl goodOs_faithful none
    (by decide +kernel), by decide +kernel, by decide +kernel⟩

/-- Before that, the other cannot reload: it does not know the new password. -/
example : (Act.run Toy.prims Sample.env usedSave.fs usedObj (.reload 0)).result matches .error .credentials := by
  decide +kernel

/-- With the credentials of the file it can. -/
example : twoObjs 1 = some usedObj ∧ credsOf usedObj none = usedShown.creds := ⟨rfl, by decide +kernel⟩

end Verif.Props
