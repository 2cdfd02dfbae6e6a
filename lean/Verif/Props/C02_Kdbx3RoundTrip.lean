import Verif.Kdbx.Toy
/-!
# C02: KDBX3 save/open round-trip
-/
namespace Verif.Props
open Verif Parser

/-- `k'` is the open KDBX3 database `k` after arbitrary edits of its XML tree (which is where KDBX3
keeps binaries too). -/
def Edited3 (k k' : Kdbx) (xml : Xml) : Prop :=
  ∃ b p, k.body = some b ∧ b.payload = some p ∧
    k' = { header := k.header, body := some { b with payload := some { p with xml := xml } } }

/-- What a caller can see of an open KDBX3 database. -/
def Shows3 (k : Kdbx) (hdr : Header) (xml : Xml) : Prop :=
  k.header = hdr ∧ ∃ b p, k.body = some b ∧ b.payload = some p ∧ p.xml = xml

/-- Saving an opened and then edited KDBX3 database under any credentials and opening the bytes with
these credentials gives the header and the tree (empty texts as `None`). -/
theorem C02_roundtrip (P : Prims) (hP : P.Lawful) (c0 : Creds) (file : Bytes) (k k' : Kdbx)
    (hopen : openBytes P c0 true file = .ok k) (hver : k.header.value.major = 3)
    (xml : Xml) (hedit : Edited3 k k' xml) (hx : xml.Valid)
    (c : Creds) (hc : c.keyfile.Reusable) (out : Bytes) (kf : Keyfile)
    (hsave : buildKdbx P c k' = (.ok out, kf)) :
    ∃ k2, openBytes P { c with keyfile := kf } true out = .ok k2 ∧ Shows3 k2 k.header xml.norm := by
  obtain ⟨b, p, hb, hp, rfl⟩ := hedit
  obtain ⟨rest, hparse⟩ := openBytes_ok.mp hopen
  obtain ⟨d, tk0, r, b', h1, h2, h3, h4, h5⟩ := (parse3_ok hver).mp hparse
  let k' : Kdbx := { header := k.header, body := some { b with payload := some { p with xml := xml } } }
  have hk := buildKdbx_ok (P := P) (c := c) (k := k') (d := d) (out := out) h2 rfl
  rw [hsave] at hk
  rcases hk.mp rfl with ⟨_, tk, o, g1, g2, rfl⟩ | ⟨h, _⟩
  · obtain ⟨mk, _, hbody⟩ := body3_build P hP _ _ _ xml hx o g2
    have hkf := buildKdbx_keyfile (P := P) (c := c) (k := k') (d := d) h2 rfl
    rw [hsave] at hkf
    have hver' : k'.header.value.major = 3 := hver
    rw [if_pos hver'] at hkf
    have hagain := (transformed3_again P c d hc).1
    simp only at hkf
    rw [← hkf] at hagain
    let k2 : Kdbx :=
      { header := k.header,
        body := some { transformedKey := tk, masterKey := mk,
                       payload := some { inner := none, xml := xml.norm } } }
    refine ⟨k2, openBytes_ok.mpr ⟨[], (parse3_ok (k := k2) hver).mpr ⟨d, tk, o, _, ?_, h2, ?_, hbody, rfl⟩⟩,
      rfl, _, _, rfl, rfl, rfl⟩
    · exact (header_ok h1).2 _
    · rw [hagain]; exact g1
  · exact absurd hver h

/-- Saving does succeed: for every edit whose compressed XML text is below 2^51 bytes and all
credentials from which a key can be derived with the parameters of the header. -/
theorem C02_save_succeeds (P : Prims) (hP : P.Lawful) (c0 : Creds) (file : Bytes) (k k' : Kdbx)
    (hopen : openBytes P c0 true file = .ok k) (hver : k.header.value.major = 3)
    (xml : Xml) (hedit : Edited3 k k' xml) (c : Creds) (d : DynHeader) (tk : Bytes)
    (hd : k.header.value.dyn = some d)
    (hsize : ∀ z sid x, writeXml P sid d.streamKey xml = .ok x → (compress P z x).length < 2 ^ 51)
    (hc : (computeTransformed3 P c d).1 = .ok tk) :
    ∃ out, (buildKdbx P c k').1 = .ok out := by
  obtain ⟨b, p, hb, hp, rfl⟩ := hedit
  obtain ⟨rest, hparse⟩ := openBytes_ok.mp hopen
  obtain ⟨d', tk0, r, b', h1, h2, h3, h4, h5⟩ := (parse3_ok hver).mp hparse
  rw [hd] at h2
  injection h2 with h2
  subst h2
  obtain ⟨out, hout⟩ := buildBody3_total P hP d tk0 r rest b' h4 tk p.inner xml
    (fun z sid x _ _ hw => hsize z sid x hw)
  exact ⟨_, (buildKdbx_ok (k := { header := k.header, body := some { b with payload := some { p with xml := xml } } })
    hd rfl).mpr (.inl ⟨hver, tk, out, hc, hout, rfl⟩)⟩

/-- With the credentials that opened the database, saving and opening again succeeds. -/
theorem C02_same_credentials (P : Prims) (hP : P.Lawful) (c0 : Creds) (hc0 : c0.keyfile.Reusable)
    (file : Bytes) (k k' : Kdbx)
    (hopen : openBytes P c0 true file = .ok k) (hver : k.header.value.major = 3)
    (xml : Xml) (hedit : Edited3 k k' xml) (hx : xml.Valid)
    (hsize : ∀ d z sid x, k.header.value.dyn = some d → writeXml P sid d.streamKey xml = .ok x →
      (compress P z x).length < 2 ^ 51) :
    let c1 := { c0 with keyfile := (parseKdbx P c0 true file).2 }
    ∃ out, (buildKdbx P c1 k').1 = .ok out ∧
      ∃ k2, openBytes P { c1 with keyfile := (buildKdbx P c1 k').2 } true out = .ok k2 ∧
        Shows3 k2 k.header xml.norm := by
  intro c1
  obtain ⟨rest, hparse⟩ := openBytes_ok.mp hopen
  obtain ⟨d, tk0, r, b', h1, h2, h3, h4, h5⟩ := (parse3_ok hver).mp hparse
  have hkf : (parseKdbx P c0 true file).2 = (computeTransformed3 P c0 d).2 := by
    unfold parseKdbx
    rw [h1]
    simp only [h2, hver]
    rw [if_pos trivial]
    cases ht : computeTransformed3 P c0 d with
    | mk res kf => cases res <;> rfl
  have hag := transformed3_again P c0 d hc0
  have hc1 : computeTransformed3 P c1 d = computeTransformed3 P c0 d := by
    show computeTransformed3 P { c0 with keyfile := (parseKdbx P c0 true file).2 } d = _
    rw [hkf]; exact hag.1
  have hre : c1.keyfile.Reusable := by
    show (parseKdbx P c0 true file).2.Reusable
    rw [hkf]; exact hag.2
  obtain ⟨out, hout⟩ := C02_save_succeeds P hP c0 file k k' hopen hver xml hedit
    c1 d tk0 h2 (fun z sid x => hsize d z sid x h2) (by rw [hc1]; exact h3)
  exact ⟨out, hout, C02_roundtrip P hP c0 file k k' hopen hver xml hedit hx c1 hre out
    (buildKdbx P c1 k').2 (by rw [← hout])⟩

/-- The hypotheses can be met, for every cipher, with and without compression. -/
example (c : CipherId) (z : Bool) : ∃ k k' xml,
    openBytes Toy.prims Toy.creds true (Toy.file3 c z) = .ok k ∧
    k.header.value.major = 3 ∧ Edited3 k k' xml ∧ xml.Valid ∧ xml ≠ xml.norm := by
  obtain ⟨tk, mk, h⟩ := Toy.open3 c z
  exact ⟨_, _, Toy.tree, h, rfl, ⟨_, _, rfl, rfl, rfl⟩, Toy.tree_valid, by decide +kernel⟩

end Verif.Props
