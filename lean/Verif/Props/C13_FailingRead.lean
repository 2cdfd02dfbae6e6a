import Verif.Props.C11_CrashSafeSave
/-!
# C13: a failing `read` does not replace the open database
-/
namespace Verif.Props
open Verif

/-- When `read` raises, the content of the object is what it was. -/
theorem C13_content_kept (P : Prims) (left : Nat) (fs : Fs) (s s' : Session) (f : Option Filename)
    (c : Creds) (dec : Bool) (e : PyErr) (h : s.read P left fs f c dec = (.error e, s')) :
    s'.kdbx = s.kdbx ∧ s'.tree = s.tree := by
  have hk : s'.kdbx = s.kdbx := by
    unfold Session.read at h
    simp only at h
    cases ht : s.target f with
    | none => rw [ht] at h; cases h; rfl
    | some t =>
      rw [ht] at h
      cases t with
      | path p =>
        simp only at h
        cases hb : fs (PPath.ofStr p) with
        | none => rw [hb] at h; cases h; rfl
        | some b =>
          rw [hb] at h
          simp only at h
          cases hp : parseKdbx P c dec b with
          | mk r kf =>
            rw [hp] at h
            cases r with
            | error e' => cases h; rfl
            | ok x => obtain ⟨k, r⟩ := x; cases h
      | stream b pos =>
        simp only at h
        cases hp : parseKdbx P c dec (b.drop pos) with
        | mk r kf =>
          rw [hp] at h
          cases r with
          | error e' => cases h; rfl
          | ok x => obtain ⟨k, r⟩ := x; cases h
  exact ⟨hk, by unfold Session.tree; rw [hk]⟩

/-- What `save` then writes is built from the previous content, whatever credentials are used. -/
theorem C13_saved_content (P : Prims) (left : Nat) (fs : Fs) (s s' : Session) (f : Option Filename)
    (c : Creds) (dec : Bool) (e : PyErr) (h : s.read P left fs f c dec = (.error e, s'))
    (tk : Option Bytes) (out : Bytes) (hs : newContent P s' tk out) :
    ∃ k, s.kdbx = some k ∧
      (buildKdbx P { password := s'.password, keyfile := s'.keyfile, transformedKey := tk } k).1
        = .ok out := by
  obtain ⟨k, h1, h2⟩ := hs
  rw [(C13_content_kept P left fs s s' f c dec e h).1] at h1
  exact ⟨k, h1, h2⟩

/-- Finding: the object already carries the password and the file name of the failed attempt, so a
following `save` writes the old content to the new name under the new password. -/
theorem C13_credentials_changed (P : Prims) (left : Nat) (fs : Fs) (s : Session) (p : Str)
    (hp : p ≠ []) (hfs : fs (PPath.ofStr p) = none) (c : Creds) (dec : Bool) :
    s.read P left fs (some (.path p)) c dec =
      (.error .os, { s with password := c.password, keyfile := c.keyfile, filename := some (.path p) }) := by
  unfold Session.read Session.target
  have : (Filename.path p).truthy = true := by
    cases p with
    | nil => exact absurd rfl hp
    | cons _ _ => rfl
  simp only [this, if_true, hfs]

/-- A successful `read` of a path: exactly what opening the bytes of the file gives. -/
theorem C13_success (P : Prims) (left : Nat) (fs : Fs) (s : Session) (p : Str)
    (hp : p ≠ []) (b : Bytes) (hfs : fs (PPath.ofStr p) = some b) (c : Creds) (dec : Bool) :
    (∀ e, (s.read P left fs (some (.path p)) c dec).1 = .error e ↔ openBytes P c dec b = .error e) ∧
    (∀ k, openBytes P c dec b = .ok k →
      (s.read P left fs (some (.path p)) c dec).1 = .ok () ∧
      (s.read P left fs (some (.path p)) c dec).2.kdbx = some k ∧
      (s.read P left fs (some (.path p)) c dec).2.password = c.password ∧
      (s.read P left fs (some (.path p)) c dec).2.filename = some (.path p)) := by
  have ht : (Filename.path p).truthy = true := by
    cases p with
    | nil => exact absurd rfl hp
    | cons _ _ => rfl
  unfold Session.read Session.target openBytes
  simp only [ht, if_true, hfs]
  cases hx : parseKdbx P c dec b with
  | mk r kf =>
    cases r with
    | error e =>
      simp only
      exact ⟨fun e' => Iff.rfl |>.trans (by simp), fun k h => (by cases h)⟩
    | ok x =>
      obtain ⟨k, r⟩ := x
      simp only
      refine ⟨fun e => ⟨fun h => (by cases h), fun h => (by cases h)⟩, ?_⟩
      intro k' h
      cases h
      exact ⟨trivial, rfl, trivial, trivial⟩

/-- Reading a file that is not a database fails on a session that has one open. -/
example : ((toySession .aes256 true).read Toy.prims 0 (fun _ => some (List.replicate 8 0))
    (some (.path "x".toList)) Toy.creds true).1 = .error .headerChecksum := by decide +kernel

end Verif.Props
