import Verif.Props.C01_Kdbx4RoundTrip
import Verif.Props.C02_Kdbx3RoundTrip
/-!
# C14: a cached transformed key is interchangeable with the credentials it came from
-/
namespace Verif.Props
open Verif Parser

/-- The key file of these credentials does not stand in the way: there is none, or it can be read
and is a valid key file. -/
def KeyfileFine (P : Prims) (c : Creds) : Prop := ∃ k, (computeKeyComposite P c.password c.keyfile).1 = .ok k

/-- No key file is fine. -/
theorem keyfileFine_none (P : Prims) (pw : Option Str) (t : Option Bytes) :
    KeyfileFine P { password := pw, keyfile := .none, transformedKey := t } := ⟨_, rfl⟩

theorem transformed4_given {P : Prims} {c c' : Creds} {d : DynHeader} {tk : Bytes}
    (h : (computeTransformed4 P c d).1 = .ok tk) (hk : KeyfileFine P c')
    (ht : c'.transformedKey = some tk) : (computeTransformed4 P c' d).1 = .ok tk := by
  have hd : ∃ kd, d.kdf = .ok kd := by
    unfold computeTransformed4 at h
    cases e : computeKeyComposite P c.password c.keyfile with
    | mk r kf =>
      rw [e] at h
      cases r with
      | error e => cases h
      | ok comp =>
        cases e2 : d.kdf with
        | error e => rw [e2] at h; cases h
        | ok kd => exact ⟨kd, rfl⟩
  obtain ⟨kd, hd⟩ := hd
  obtain ⟨comp, hc⟩ := hk
  unfold computeTransformed4
  cases e : computeKeyComposite P c'.password c'.keyfile with
  | mk r kf =>
    rw [e] at hc
    simp only at hc
    subst hc
    simp only [hd, ht]

theorem transformed3_given {P : Prims} {c' : Creds} {d : DynHeader} {tk : Bytes}
    (ht : c'.transformedKey = some tk) : (computeTransformed3 P c' d).1 = .ok tk := by
  unfold computeTransformed3
  rw [ht]

/-- Opening with the key derived from `c` gives exactly the result of opening with `c`, be it a
database or an error, whatever password is given along with the key. (KDBX4 looks at the key file
although the key is given, so it must not fail.) -/
theorem C14_open4 (P : Prims) (c c' : Creds) (dec : Bool) (file r : Bytes) (h : Header) (d : DynHeader)
    (tk : Bytes) (hh : header "(parsing)" file = .ok (h, r)) (hd : h.value.dyn = some d)
    (hv : h.value.major = 4) (hk : (computeTransformed4 P c d).1 = .ok tk)
    (hf : KeyfileFine P c') (ht : c'.transformedKey = some tk) :
    openBytes P c' dec file = openBytes P c dec file := by
  have h' := transformed4_given hk hf ht
  unfold openBytes parseKdbx
  rw [hh]
  simp only [hd]
  rw [if_neg (by omega), if_neg (by omega)]
  cases e : computeTransformed4 P c d with
  | mk r1 k1 =>
    cases e' : computeTransformed4 P c' d with
    | mk r2 k2 =>
      rw [e] at hk; rw [e'] at h'
      simp only at hk h'
      subst hk h'
      rfl

/-- The same for KDBX3, where the key file is not looked at. -/
theorem C14_open3 (P : Prims) (c c' : Creds) (dec : Bool) (file r : Bytes) (h : Header) (d : DynHeader)
    (tk : Bytes) (hh : header "(parsing)" file = .ok (h, r)) (hd : h.value.dyn = some d)
    (hv : h.value.major = 3) (hk : (computeTransformed3 P c d).1 = .ok tk)
    (ht : c'.transformedKey = some tk) :
    openBytes P c' dec file = openBytes P c dec file := by
  have h' : (computeTransformed3 P c' d).1 = .ok tk := transformed3_given ht
  unfold openBytes parseKdbx
  rw [hh]
  simp only [hd]
  rw [if_pos hv, if_pos hv]
  cases e : computeTransformed3 P c d with
  | mk r1 k1 =>
    cases e' : computeTransformed3 P c' d with
    | mk r2 k2 =>
      rw [e] at hk; rw [e'] at h'
      simp only at hk h'
      subst hk h'
      rfl

/-- The `transformed_key` property of an opened database (pykeepass.py:215-218) opens the same file
on its own. -/
theorem C14_cached (P : Prims) (c : Creds) (dec : Bool) (file : Bytes) (k : Kdbx) (b : Body)
    (ho : openBytes P c dec file = .ok k) (hb : k.body = some b)
    (hv : k.header.value.major = 3 ∨ k.header.value.major = 4) :
    openBytes P { password := none, keyfile := .none, transformedKey := some b.transformedKey } dec file =
      .ok k := by
  obtain ⟨rest, hp⟩ := openBytes_ok.mp ho
  rcases hv with hv | hv
  · obtain ⟨d, tk, r, b', g1, g2, g3, g4, g5⟩ := (parse3_ok hv).mp hp
    have : b'.transformedKey = tk := by
      unfold body3 at g4
      obtain ⟨mk, m, _, g6⟩ := bind_ok.mp g4
      split at g6
      · obtain ⟨_, _, _, g6⟩ := bind_ok.mp g6
        obtain ⟨_, _, _, g6⟩ := bind_ok.mp g6
        obtain ⟨_, _, _, g6⟩ := bind_ok.mp g6
        obtain ⟨_, _, _, g6⟩ := bind_ok.mp g6
        obtain ⟨_, _, _, g6⟩ := bind_ok.mp g6
        obtain ⟨rfl, _⟩ := pure_ok.mp g6
        rfl
      · obtain ⟨rfl, _⟩ := pure_ok.mp g6
        rfl
    rw [hb] at g5
    injection g5 with g5
    subst g5
    rw [← ho]
    exact C14_open3 P c _ dec file r k.header d tk g1 g2 hv g3 (by rw [this])
  · obtain ⟨d, tk, r, b', g1, g2, g3, g4, g5⟩ := (parse4_ok hv).mp hp
    have : b'.transformedKey = tk := by
      unfold body4 at g4
      obtain ⟨mk, m, _, g6⟩ := bind_ok.mp g4
      obtain ⟨_, _, _, g6⟩ := bind_ok.mp g6
      split at g6
      · exact absurd g6 fail_ok
      · split at g6
        · obtain ⟨_, _, _, g6⟩ := bind_ok.mp g6
          obtain ⟨_, _, _, g6⟩ := bind_ok.mp g6
          split at g6
          · exact absurd g6 fail_ok
          · obtain ⟨_, _, _, g6⟩ := bind_ok.mp g6
            obtain ⟨_, _, _, g6⟩ := bind_ok.mp g6
            obtain ⟨_, _, _, g6⟩ := bind_ok.mp g6
            obtain ⟨_, _, _, g6⟩ := bind_ok.mp g6
            obtain ⟨_, _, _, g6⟩ := bind_ok.mp g6
            obtain ⟨_, _, _, g6⟩ := bind_ok.mp g6
            obtain ⟨_, _, _, g6⟩ := bind_ok.mp g6
            obtain ⟨rfl, _⟩ := pure_ok.mp g6
            rfl
        · obtain ⟨rfl, _⟩ := pure_ok.mp g6
          rfl
    rw [hb] at g5
    injection g5 with g5
    subst g5
    rw [← ho]
    exact C14_open4 P c _ dec file r k.header d tk g1 g2 hv g3 (keyfileFine_none ..) (by rw [this])

/-- Only a key: no password, no key file. -/
def keyOnly (tk : Bytes) : Creds := { password := none, keyfile := .none, transformedKey := some tk }

/-- No credentials at all. -/
def noCreds : Creds := { password := none, keyfile := .none, transformedKey := none }

/-- `save(transformed_key=tk)` of any opened and edited KDBX4 database, whatever password and
key file it holds: the file opens with `tk` alone. -/
theorem C14_save4 (P : Prims) (hP : P.Lawful) (c0 : Creds) (file : Bytes) (k k' : Kdbx)
    (hopen : openBytes P c0 true file = .ok k) (hver : k.header.value.major = 4)
    (bs : List Bytes) (xml : Xml) (hedit : Edited4 k k' bs xml) (hx : xml.Valid)
    (c : Creds) (hc : c.keyfile.Reusable) (tk : Bytes) (ht : c.transformedKey = some tk) (out : Bytes)
    (hsave : (buildKdbx P c k').1 = .ok out) :
    ∃ k2, openBytes P (keyOnly tk) true out = .ok k2 ∧ Shows4 k2 k.header bs xml.norm := by
  obtain ⟨k2, h1, h2⟩ := C01_roundtrip P hP c0 file k k' hopen hver bs xml hedit hx c hc out
    (buildKdbx P c k').2 (by rw [← hsave]) []
  rw [List.append_nil] at h1
  have hm : k2.header.value.major = 4 := by rw [h2.1]; exact hver
  refine ⟨k2, ?_, h2⟩
  obtain ⟨rest, hp⟩ := openBytes_ok.mp h1
  obtain ⟨d, tk', r, b', g1, g2, g3, g4, g5⟩ := (parse4_ok hm).mp hp
  have : tk' = tk := by
    unfold computeTransformed4 at g3
    split at g3
    · cases g3
    · split at g3
      · cases g3
      · rw [show ({ c with keyfile := (buildKdbx P c k').2 } : Creds).transformedKey = some tk from ht] at g3
        injection g3 with g3
        exact g3.symm
  subst this
  rw [← h1]
  exact C14_open4 P _ (keyOnly tk') true out r k2.header d tk' g1 g2 hm g3 (keyfileFine_none ..) rfl

/-- The same for KDBX3. -/
theorem C14_save3 (P : Prims) (hP : P.Lawful) (c0 : Creds) (file : Bytes) (k k' : Kdbx)
    (hopen : openBytes P c0 true file = .ok k) (hver : k.header.value.major = 3)
    (xml : Xml) (hedit : Edited3 k k' xml) (hx : xml.Valid)
    (c : Creds) (hc : c.keyfile.Reusable) (tk : Bytes) (ht : c.transformedKey = some tk) (out : Bytes)
    (hsave : (buildKdbx P c k').1 = .ok out) :
    ∃ k2, openBytes P (keyOnly tk) true out = .ok k2 ∧ Shows3 k2 k.header xml.norm := by
  obtain ⟨k2, h1, h2⟩ := C02_roundtrip P hP c0 file k k' hopen hver xml hedit hx c hc out
    (buildKdbx P c k').2 (by rw [← hsave])
  have hm : k2.header.value.major = 3 := by rw [h2.1]; exact hver
  refine ⟨k2, ?_, h2⟩
  obtain ⟨rest, hp⟩ := openBytes_ok.mp h1
  obtain ⟨d, tk', r, b', g1, g2, g3, g4, g5⟩ := (parse3_ok hm).mp hp
  have : tk' = tk := by
    unfold computeTransformed3 at g3
    rw [show ({ c with keyfile := (buildKdbx P c k').2 } : Creds).transformedKey = some tk from ht] at g3
    injection g3 with g3
    exact g3.symm
  subst this
  rw [← h1]
  exact C14_open3 P _ (keyOnly tk') true out r k2.header d tk' g1 g2 hm g3 rfl

theorem noCreds_keyfile (P : Prims) (k : Kdbx) : (buildKdbx P noCreds k).2 = .none := by
  have h3 : ∀ d, (computeTransformed3 P noCreds d).2 = .none := fun d => by
    simp only [computeTransformed3, noCreds, computeKeyComposite]
  have h4 : ∀ d, (computeTransformed4 P noCreds d).2 = .none := fun d => by
    unfold computeTransformed4
    simp only [noCreds, computeKeyComposite]
    split
    · rfl
    · split
      · rfl
      · split
        · rfl
        · split <;> rfl
  unfold buildKdbx
  split
  · next d b _ _ =>
    split
    · have := h3 d
      cases e : computeTransformed3 P noCreds d with
      | mk r kf => rw [e] at this; cases r <;> exact this
    · have := h4 d
      cases e : computeTransformed4 P noCreds d with
      | mk r kf => rw [e] at this; cases r <;> exact this
  · rfl

/-- Finding: a database opened with a key alone holds neither password nor key file, and `save()`
does not remember the key: what it writes opens with no credentials at all. -/
theorem C14_save_without_key (P : Prims) (hP : P.Lawful) (tk0 file : Bytes) (k k' : Kdbx)
    (hopen : openBytes P (keyOnly tk0) true file = .ok k) (hver : k.header.value.major = 4)
    (bs : List Bytes) (xml : Xml) (hedit : Edited4 k k' bs xml) (hx : xml.Valid) (out : Bytes)
    (hsave : (buildKdbx P noCreds k').1 = .ok out) :
    ∃ k2, openBytes P noCreds true out = .ok k2 ∧ Shows4 k2 k.header bs xml.norm := by
  obtain ⟨k2, h1, h2⟩ := C01_roundtrip P hP _ file k k' hopen hver bs xml hedit hx noCreds trivial out
    (buildKdbx P noCreds k').2 (by rw [← hsave]) []
  rw [List.append_nil] at h1
  rw [noCreds_keyfile] at h1
  exact ⟨k2, h1, h2⟩

/-- Concrete: the key of the example files opens them. -/
example (c : CipherId) (z : Bool) : ∃ tk k, openBytes Toy.prims (keyOnly tk) true (Toy.file4 c z) = .ok k := by
  obtain ⟨tk, mk, h⟩ := Toy.open4 c z
  exact ⟨_, _, C14_cached _ _ _ _ _ _ h rfl (.inr rfl)⟩
example (c : CipherId) (z : Bool) : ∃ tk k, openBytes Toy.prims (keyOnly tk) true (Toy.file3 c z) = .ok k := by
  obtain ⟨tk, mk, h⟩ := Toy.open3 c z
  exact ⟨_, _, C14_cached _ _ _ _ _ _ h rfl (.inl rfl)⟩

end Verif.Props
