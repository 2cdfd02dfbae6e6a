import Verif.Spec.Life
import Verif.Session.Lemmas
import Verif.Props.C62_Streams
import Verif.Props.C64_Calls
/-!
# Lemmas about objects in use
-/
namespace Verif
open Api Spec Props

/-! ## Key files -/

theorem unread_composite (P : Prims) (pw : Option Str) (kf : Keyfile) :
    (computeKeyComposite P pw (unread kf)).1 = (computeKeyComposite P pw kf).1 ∧
    unread (computeKeyComposite P pw (unread kf)).2 = unread (computeKeyComposite P pw kf).2 ∧
    (kf.Reusable → unread (computeKeyComposite P pw kf).2 = unread kf) := by
  cases kf with
  | none => exact ⟨rfl, rfl, fun _ => rfl⟩
  | path c =>
    refine ⟨rfl, rfl, fun _ => ?_⟩
    cases c with
    | none => rfl
    | some b =>
      simp only [computeKeyComposite, Keyfile.read]
      cases keyfileComposite P b <;> rfl
  | stream sk b pos =>
    cases sk with
    | false => exact ⟨rfl, rfl, fun h => absurd h (by simp [Keyfile.Reusable])⟩
    | true =>
      simp only [unread, computeKeyComposite, Keyfile.read]
      cases keyfileComposite P b <;> exact ⟨trivial, trivial, fun _ => rfl⟩

/-- Composite keys of key files that differ in the position only. -/
theorem composite_same {P : Prims} {pw : Option Str} {a b : Keyfile} (h : unread a = unread b) :
    (computeKeyComposite P pw a).1 = (computeKeyComposite P pw b).1 ∧
    unread (computeKeyComposite P pw a).2 = unread (computeKeyComposite P pw b).2 := by
  have ha := unread_composite P pw a
  have hb := unread_composite P pw b
  rw [h] at ha
  exact ⟨ha.1.symm.trans hb.1, ha.2.1.symm.trans hb.2.1⟩

theorem transformed3_same {P : Prims} {c c' : Creds} {d : DynHeader} (hp : c.password = c'.password) (hk : unread c.keyfile = unread c'.keyfile)
    (ht : c.transformedKey = c'.transformedKey) : (computeTransformed3 P c d).1 = (computeTransformed3 P c' d).1 := by
  unfold computeTransformed3
  rw [hp, ht]
  cases c'.transformedKey with
  | some k => rfl
  | none =>
    have h := (composite_same (P := P) (pw := c'.password) hk).1
    simp only
    cases h1 : computeKeyComposite P c'.password c.keyfile with
    | mk r1 k1 =>
      cases h2 : computeKeyComposite P c'.password c'.keyfile with
      | mk r2 k2 =>
        rw [h1, h2] at h
        simp only at h
        subst h
        cases r1 <;> rfl

theorem transformed4_same {P : Prims} {c c' : Creds} {d : DynHeader} (hp : c.password = c'.password) (hk : unread c.keyfile = unread c'.keyfile)
    (ht : c.transformedKey = c'.transformedKey) : (computeTransformed4 P c d).1 = (computeTransformed4 P c' d).1 := by
  unfold computeTransformed4
  rw [hp, ht]
  have h := composite_same (P := P) (pw := c'.password) hk
  cases h1 : computeKeyComposite P c'.password c.keyfile with
  | mk r1 k1 =>
    cases h2 : computeKeyComposite P c'.password c'.keyfile with
    | mk r2 k2 =>
      rw [h1, h2] at h
      simp only at h
      obtain ⟨h, hu⟩ := h
      subst h
      cases r1 with
      | error e => rfl
      | ok comp =>
        simp only
        cases d.kdf with
        | error e => rfl
        | ok kd =>
          cases c'.transformedKey with
          | some t => rfl
          | none =>
            simp only
            cases kd.get "$UUID" with
            | error e => rfl
            | ok u =>
              simp only
              split
              · rfl
              · split
                · have h' := (composite_same (P := P) (pw := c'.password) hu).1
                  cases g1 : computeKeyComposite P c'.password k1 with
                  | mk q1 j1 =>
                    cases g2 : computeKeyComposite P c'.password k2 with
                    | mk q2 j2 =>
                      rw [g1, g2] at h'
                      simp only at h'
                      subst h'
                      cases q1 <;> rfl
                · rfl

/-- Opening a file does not depend on where a key-file stream stands. -/
theorem open_same {P : Prims} {c c' : Creds} (hp : c.password = c'.password) (hk : unread c.keyfile = unread c'.keyfile)
    (ht : c.transformedKey = c'.transformedKey) (dec : Bool) (b : Bytes) : openBytes P c dec b = openBytes P c' dec b := by
  have key : (parseKdbx P c dec b).1 = (parseKdbx P c' dec b).1 := by
    unfold parseKdbx
    cases Parser.header "(parsing)" b with
    | error e => rfl
    | ok a =>
      obtain ⟨h, r⟩ := a
      simp only
      cases h.value.dyn with
      | none => rfl
      | some d =>
        simp only
        split
        · have h := transformed3_same (P := P) (d := d) hp hk ht
          cases h1 : computeTransformed3 P c d with
          | mk r1 k1 =>
            cases h2 : computeTransformed3 P c' d with
            | mk r2 k2 =>
              rw [h1, h2] at h
              simp only at h
              subst h
              cases r1 <;> rfl
        · have h := transformed4_same (P := P) (d := d) hp hk ht
          cases h1 : computeTransformed4 P c d with
          | mk r1 k1 =>
            cases h2 : computeTransformed4 P c' d with
            | mk r2 k2 =>
              rw [h1, h2] at h
              simp only at h
              subst h
              cases r1 <;> rfl
  unfold openBytes
  rw [key]

theorem transformed3_unread {P : Prims} {c : Creds} (h : c.keyfile.Reusable) (d : DynHeader) : unread (computeTransformed3 P c d).2 = unread c.keyfile := by
  unfold computeTransformed3
  have h1 := (unread_composite P c.password c.keyfile).2.2 h
  cases c.transformedKey with
  | some k => rfl
  | none =>
    simp only
    cases h2 : computeKeyComposite P c.password c.keyfile with
    | mk r k => rw [h2] at h1; cases r <;> exact h1

theorem transformed4_unread {P : Prims} {c : Creds} (h : c.keyfile.Reusable) (d : DynHeader) : unread (computeTransformed4 P c d).2 = unread c.keyfile := by
  unfold computeTransformed4
  have h1 := (unread_composite P c.password c.keyfile).2.2 h
  have h3 := (composite_again P c.password c.keyfile h).1
  cases h2 : computeKeyComposite P c.password c.keyfile with
  | mk r k =>
    rw [h2] at h1 h3
    simp only at h1 h3
    cases r with
    | error e => exact h1
    | ok comp =>
      simp only
      cases d.kdf with
      | error e => exact h1
      | ok kd =>
        cases c.transformedKey with
        | some t => exact h1
        | none =>
          simp only
          cases kd.get "$UUID" with
          | error e => exact h1
          | ok u =>
            simp only
            split
            · exact h1
            · split
              · rw [h3]; exact h1
              · exact h1

/-- Building leaves a key-file stream at another position at most. -/
theorem build_unread {P : Prims} {c : Creds} (h : c.keyfile.Reusable) (k : Kdbx) :
    unread (buildKdbx P c k).2 = unread c.keyfile ∧ (buildKdbx P c k).2.Reusable := by
  unfold buildKdbx
  split
  · next d b _ _ =>
    split
    · have h1 := transformed3_unread (P := P) h d
      have h2 := (transformed3_again P c d h).2
      cases hc : computeTransformed3 P c d with
      | mk r kf => rw [hc] at h1 h2; cases r <;> exact ⟨h1, h2⟩
    · have h1 := transformed4_unread (P := P) h d
      have h2 := (transformed4_again P c d h).2
      cases hc : computeTransformed4 P c d with
      | mk r kf => rw [hc] at h1 h2; cases r <;> exact ⟨h1, h2⟩
  · exact ⟨rfl, h⟩

/-- So does reading. -/
theorem parse_unread {P : Prims} {c : Creds} (h : c.keyfile.Reusable) {dec : Bool} {b : Bytes} : unread (parseKdbx P c dec b).2 = unread c.keyfile := by
  unfold parseKdbx
  split
  · rfl
  · split
    · rfl
    · next d _ =>
      split
      · have h1 := transformed3_unread (P := P) h d
        cases hc : computeTransformed3 P c d with
        | mk r kf => rw [hc] at h1; cases r <;> exact h1
      · have h1 := transformed4_unread (P := P) h d
        cases hc : computeTransformed4 P c d with
        | mk r kf => rw [hc] at h1; cases r <;> exact h1

/-! ## Saving -/

/-- A save touches the target and its temporary file only. -/
theorem saveFile_touch (o : Os) (fs : Fs) (t : PPath) (res : Except PyErr Bytes) {q : PPath} (hq : q ≠ t) (hn : t.withTmp ≠ .ok q) :
    ∀ x ∈ (o.saveFile fs t res).states, x q = fs q := by
  have app : ∀ (f : Fs) (p : PPath) (ps : List Bytes) (acc : Bytes), q ≠ p → ∀ x ∈ appendStates f p acc ps, x q = f q := by
    intro f p ps
    induction ps with
    | nil =>
      intro acc hp x hx
      rw [appendStates, List.mem_singleton] at hx
      rw [hx, Fs.set_ne _ _ hp]
    | cons b bs ih =>
      intro acc hp x hx
      rw [appendStates, List.mem_cons] at hx
      rcases hx with rfl | hx
      · rw [Fs.set_ne _ _ hp]
      · exact ih _ hp x hx
  unfold Os.saveFile
  cases ht : t.withTmp with
  | error e =>
    intro x hx
    rw [List.mem_singleton.mp hx]
  | ok tmp =>
    have hp : q ≠ tmp := fun e => hn (e ▸ ht)
    have rem : ∀ f : Fs, (o.remove f tmp).1 q = f q := by
      intro f
      unfold Os.remove
      split
      · rfl
      · split
        · exact Fs.set_ne _ _ hp
        · rfl
    have clean : ∀ (f : Fs) (e : PyErr), ∀ x ∈ (o.cleanup f tmp e).states, x q = f q := by
      intro f e x hx
      rcases cleanup_states hx with rfl | rfl
      · rfl
      · exact Fs.set_ne _ _ hp
    simp only
    intro x hx
    split at hx
    · split at hx
      · next ps e _ =>
        simp only [List.cons_append, List.mem_cons, List.mem_append] at hx
        rcases hx with rfl | hx | hx
        · rfl
        · exact app _ _ _ _ hp x hx
        · rw [clean _ _ x hx, Fs.set_ne _ _ hp]
      · next ps _ =>
        simp only [List.cons_append, List.mem_cons, List.mem_append] at hx
        rcases hx with rfl | hx | hx
        · rfl
        · exact app _ _ _ _ hp x hx
        · unfold Os.move at hx
          split at hx
          · simp only [List.mem_cons, List.not_mem_nil, or_false] at hx
            rcases hx with rfl | rfl
            · exact Fs.set_ne _ _ hp
            · split
              · exact Fs.set_ne _ _ hp
              · rw [Fs.set_ne _ _ hp, Fs.set_ne _ _ hq, Fs.set_ne _ _ hp]
          · split at hx
            · simp only [List.mem_cons] at hx
              rcases hx with rfl | hx
              · exact Fs.set_ne _ _ hp
              · rw [app _ _ _ _ hq x hx, Fs.set_ne _ _ hp]
            · simp only [List.cons_append, List.mem_cons, List.mem_append, List.not_mem_nil, or_false] at hx
              rcases hx with rfl | hx | rfl
              · exact Fs.set_ne _ _ hp
              · rw [app _ _ _ _ hq x hx, Fs.set_ne _ _ hp]
              · rw [rem, Fs.set_ne _ _ hq, Fs.set_ne _ _ hp]
    · simp only [List.mem_cons] at hx
      rcases hx with rfl | hx
      · rfl
      · exact clean _ _ x hx

/-- Where renaming works, a save that raises has not touched the target. -/
theorem saveFile_failed {o : Os} {fs : Fs} {t tmp : PPath} {res : Except PyErr Bytes} {e : PyErr} (htmp : t.withTmp = .ok tmp) (hne : tmp ≠ t)
    (hr : o.renameOk = true) (h : (o.saveFile fs t res).result = .error e) : (o.saveFile fs t res).final t = fs t := by
  have clean : ∀ (f : Fs) (e : PyErr), (o.cleanup f tmp e).final t = f t := by
    intro f e
    unfold Os.cleanup Os.remove
    cases f tmp with
    | none => rfl
    | some b =>
      cases o.removeOk
      · rfl
      · exact Fs.set_ne _ _ (Ne.symm hne)
  unfold Os.saveFile at h ⊢
  rw [htmp] at h ⊢
  simp only at h ⊢
  split at h
  · next ho =>
    rw [if_pos ho]
    split at h
    · next ps e' hw =>
      simp only
      rw [clean, Fs.set_ne _ _ (Ne.symm hne)]
    · unfold Os.move at h
      rw [if_pos hr] at h
      cases h
  · next ho =>
    rw [if_neg ho]
    exact clean _ _

/-- What `save` does to the object: the position of a key-file stream. -/
theorem save_session {P : Prims} {o : Os} {fs : Fs} {s : Session} {f : Option Filename} {tk : Option Bytes} {k : Kdbx} {p : Str}
    (hk : s.kdbx = some k) (hf : s.filename = some (.path p)) (hr : s.keyfile.Reusable) :
    ∃ kf, (s.save P o fs f tk).session = { s with keyfile := kf } ∧ unread kf = unread s.keyfile ∧ kf.Reusable := by
  obtain ⟨pw, kf, fn, kd⟩ := s
  simp only at hk hf hr
  subst hk hf
  have hb := build_unread (P := P) (c := ⟨pw, kf, tk⟩) hr k
  unfold Session.save
  dsimp only
  cases ht : Session.target ⟨pw, kf, some (.path p), some k⟩ f with
  | none => exact ⟨kf, rfl, rfl, hr⟩
  | some t =>
    cases t with
    | path q =>
      dsimp only
      split
      · exact ⟨kf, rfl, rfl, hr⟩
      · split
        · exact ⟨_, rfl, hb⟩
        · exact ⟨kf, rfl, rfl, hr⟩
    | stream b pos =>
      refine ⟨_, ?_, hb⟩
      cases f with
      | none => unfold Session.target at ht; cases ht
      | some g =>
        unfold Session.target at ht
        simp only at ht
        split at ht
        · next h => simp [h]
        · cases ht

end Verif
