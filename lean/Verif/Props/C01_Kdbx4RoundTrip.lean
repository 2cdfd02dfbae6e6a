import Verif.Kdbx.Toy
/-!
# C01: KDBX4 save/open round-trip
-/
namespace Verif.Props
open Verif Parser

/-- `k'` is the open KDBX4 database `k` after arbitrary edits: the XML tree is now `xml`, the list of
binaries `bs`; the header, the stream settings of the inner header and the keys remembered from
opening are what they were. -/
def Edited4 (k k' : Kdbx) (bs : List Bytes) (xml : Xml) : Prop :=
  ∃ b p ih, k.body = some b ∧ b.payload = some p ∧ p.inner = some ih ∧
    k' = { header := k.header,
           body := some { b with payload := some { inner := some { ih with binaries := bs }, xml := xml } } }

/-- What a caller can see of an open KDBX4 database. -/
def Shows4 (k : Kdbx) (hdr : Header) (bs : List Bytes) (xml : Xml) : Prop :=
  k.header = hdr ∧ ∃ b p ih, k.body = some b ∧ b.payload = some p ∧ p.inner = some ih ∧
    ih.binaries = bs ∧ p.xml = xml

/-- Parsing what was saved leaves exactly what follows it. -/
theorem roundtrip4_parse (P : Prims) (hP : P.Lawful) (c0 : Creds) (file : Bytes) (k k' : Kdbx)
    (hopen : openBytes P c0 true file = .ok k) (hver : k.header.value.major = 4)
    (bs : List Bytes) (xml : Xml) (hedit : Edited4 k k' bs xml) (hx : xml.Valid)
    (c : Creds) (hc : c.keyfile.Reusable) (out : Bytes) (kf : Keyfile)
    (hsave : buildKdbx P c k' = (.ok out, kf)) (suffix : Bytes) :
    ∃ k2, (parseKdbx P { c with keyfile := kf } true (out ++ suffix)).1 = .ok (k2, suffix) ∧
      Shows4 k2 k.header bs xml.norm := by
  obtain ⟨b, p, ih, hb, hp, hih, rfl⟩ := hedit
  obtain ⟨rest, hparse⟩ := openBytes_ok.mp hopen
  obtain ⟨d, tk0, r, b', h1, h2, h3, h4, h5⟩ := (parse4_ok hver).mp hparse
  rw [hb] at h5
  injection h5 with h5
  subst h5
  obtain ⟨mk0, seed, z, cc, iv, blocks, dd, plain, p', s', _, _, _, _, _, _, _, _, _, k11, k12⟩ :=
    (body4_iff P hP ..).mp h4
  subst k12
  injection hp with hp
  subst hp
  obtain ⟨inner, r', sid, xml0, m1, _, _, rfl⟩ := (unpack4_iff ..).mp k11
  injection hih with hih
  subst hih
  have hin := innerOk_binaries (innerHeader_ok m1) bs
  have hk := buildKdbx_ok (P := P) (c := c)
    (k := { header := k.header,
            body := some { transformedKey := tk0, masterKey := mk0,
                           payload := some { inner := some { inner with binaries := bs }, xml := xml } } })
    (d := d) (out := out) h2 rfl
  rw [hsave] at hk
  rcases hk.mp rfl with ⟨h, _⟩ | ⟨_, tk, o, g1, g2, rfl⟩
  · simp only at h; omega
  · obtain ⟨mk, _, hbody⟩ := body4_build P hP _ _ _ _ hin xml hx o suffix g2
    have hkf := buildKdbx_keyfile (P := P) (c := c)
      (k := { header := k.header,
              body := some { transformedKey := tk0, masterKey := mk0,
                             payload := some { inner := some { inner with binaries := bs }, xml := xml } } })
      (d := d) h2 rfl
    rw [hsave] at hkf
    simp only [hver] at hkf
    rw [if_neg (by decide)] at hkf
    have hagain := (transformed4_again P c d hc).1
    rw [← hkf] at hagain
    let k2 : Kdbx :=
      { header := k.header,
        body := some { transformedKey := tk, masterKey := mk,
                       payload := some { inner := some { inner with binaries := bs },
                                         xml := xml.norm } } }
    refine ⟨k2, (parse4_ok (k := k2) hver).mpr ⟨d, tk, o ++ suffix, _, ?_, h2, ?_, hbody, rfl⟩,
      rfl, _, _, _, rfl, rfl, rfl, rfl, rfl⟩
    · rw [List.append_assoc]; exact (header_ok h1).2 _
    · rw [hagain]; exact g1

/-- Saving an opened and then edited KDBX4 database under any credentials and opening the bytes
(followed by any other bytes) with these credentials gives the header, the binaries and the tree
(empty texts as `None`). -/
theorem C01_roundtrip (P : Prims) (hP : P.Lawful) (c0 : Creds) (file : Bytes) (k k' : Kdbx)
    (hopen : openBytes P c0 true file = .ok k) (hver : k.header.value.major = 4)
    (bs : List Bytes) (xml : Xml) (hedit : Edited4 k k' bs xml) (hx : xml.Valid)
    (c : Creds) (hc : c.keyfile.Reusable) (out : Bytes) (kf : Keyfile)
    (hsave : buildKdbx P c k' = (.ok out, kf)) (suffix : Bytes) :
    ∃ k2, openBytes P { c with keyfile := kf } true (out ++ suffix) = .ok k2 ∧
      Shows4 k2 k.header bs xml.norm :=
  have ⟨k2, h, hs⟩ := roundtrip4_parse P hP c0 file k k' hopen hver bs xml hedit hx c hc out kf hsave suffix
  ⟨k2, openBytes_ok.mpr ⟨suffix, h⟩, hs⟩

/-- Saving does succeed: for every edit whose parts fit their length fields (each binary below
4 GiB, the whole below 2^83 bytes) and all credentials from which a key can be derived with the
parameters of the header. -/
theorem C01_save_succeeds (P : Prims) (hP : P.Lawful) (c0 : Creds) (file : Bytes) (k k' : Kdbx)
    (hopen : openBytes P c0 true file = .ok k) (hver : k.header.value.major = 4)
    (bs : List Bytes) (xml : Xml) (hedit : Edited4 k k' bs xml)
    (hbs : ∀ b ∈ bs, b.length < 2 ^ 32)
    (hsize : ∀ b' d z, k'.body = some b' → pack4 P b'.payload = .ok d →
      (compress P z d).length + 16 < 2 ^ 83)
    (c : Creds) (d : DynHeader) (tk : Bytes) (hd : k.header.value.dyn = some d)
    (hc : (computeTransformed4 P c d).1 = .ok tk) :
    ∃ out, (buildKdbx P c k').1 = .ok out := by
  obtain ⟨b, p, ih, hb, hp, hih, rfl⟩ := hedit
  obtain ⟨rest, hparse⟩ := openBytes_ok.mp hopen
  obtain ⟨d', tk0, r, b', h1, h2, h3, h4, h5⟩ := (parse4_ok hver).mp hparse
  rw [hd] at h2
  injection h2 with h2
  subst h2
  rw [hb] at h5
  injection h5 with h5
  subst h5
  obtain ⟨out, hout⟩ := buildBody4_total P hP _ d tk0 r rest b p ih h4 hp hih tk bs xml (by
    intro x hx dd hdd
    rcases List.mem_append.mp hx with hx | hx
    · obtain ⟨bb, hbb, rfl⟩ := List.mem_map.mp hx
      injection hdd with hdd
      subst hdd
      exact hbs _ hbb
    · obtain ⟨_, _, _, _, _, _, _, _, p', _, _, _, _, _, _, _, _, _, _, g11, g12⟩ :=
        (body4_iff P hP ..).mp h4
      subst g12
      injection hp with hp
      subst hp
      obtain ⟨inner, r', sid, xml0, m1, _, _, rfl⟩ := (unpack4_iff ..).mp g11
      injection hih with hih
      subst hih
      exact innerHeader_size m1 x hx dd hdd) (fun z dd _ hpk => hsize _ dd z rfl hpk)
  let k' : Kdbx :=
    { header := k.header,
      body := some { b with payload := some { inner := some { ih with binaries := bs }, xml := xml } } }
  exact ⟨_, (buildKdbx_ok (k := k') hd rfl).mpr
    (.inr ⟨by show k.header.value.major ≠ 3; omega, tk, out, hc, hout, rfl⟩)⟩

/-- With the credentials that opened the database, saving and opening again succeeds. -/
theorem C01_same_credentials (P : Prims) (hP : P.Lawful) (c0 : Creds) (hc0 : c0.keyfile.Reusable)
    (file : Bytes) (k k' : Kdbx)
    (hopen : openBytes P c0 true file = .ok k) (hver : k.header.value.major = 4)
    (bs : List Bytes) (xml : Xml) (hedit : Edited4 k k' bs xml) (hx : xml.Valid)
    (hbs : ∀ b ∈ bs, b.length < 2 ^ 32)
    (hsize : ∀ b' d z, k'.body = some b' → pack4 P b'.payload = .ok d →
      (compress P z d).length + 16 < 2 ^ 83) :
    let c1 := { c0 with keyfile := (parseKdbx P c0 true file).2 }
    ∃ out, (buildKdbx P c1 k').1 = .ok out ∧
      ∃ k2, openBytes P { c1 with keyfile := (buildKdbx P c1 k').2 } true out = .ok k2 ∧
        Shows4 k2 k.header bs xml.norm := by
  intro c1
  obtain ⟨rest, hparse⟩ := openBytes_ok.mp hopen
  obtain ⟨d, tk0, r, b', h1, h2, h3, h4, h5⟩ := (parse4_ok hver).mp hparse
  have hkf : (parseKdbx P c0 true file).2 = (computeTransformed4 P c0 d).2 := by
    unfold parseKdbx
    rw [h1]
    simp only [h2, hver]
    rw [if_neg (by decide)]
    cases ht : computeTransformed4 P c0 d with
    | mk res kf => cases res <;> rfl
  have hag := transformed4_again P c0 d hc0
  have hc1 : computeTransformed4 P c1 d = computeTransformed4 P c0 d := by
    show computeTransformed4 P { c0 with keyfile := (parseKdbx P c0 true file).2 } d = _
    rw [hkf]; exact hag.1
  have hre : c1.keyfile.Reusable := by
    show (parseKdbx P c0 true file).2.Reusable
    rw [hkf]; exact hag.2
  obtain ⟨out, hout⟩ := C01_save_succeeds P hP c0 file k k' hopen hver bs xml hedit hbs hsize
    c1 d tk0 h2 (by rw [hc1]; exact h3)
  refine ⟨out, hout, ?_⟩
  have := C01_roundtrip P hP c0 file k k' hopen hver bs xml hedit hx c1 hre out
    (buildKdbx P c1 k').2 (by rw [← hout]) []
  rw [List.append_nil] at this
  exact this

/-- The hypotheses can be met, for every cipher, with and without compression: the example file,
its tree replaced by one whose root is renamed, an additional binary. -/
example (c : CipherId) (z : Bool) : ∃ k k' bs xml, openBytes Toy.prims Toy.creds true (Toy.file4 c z) = .ok k ∧
    k.header.value.major = 4 ∧ Edited4 k k' bs xml ∧ xml.Valid ∧ bs ≠ [] ∧ xml ≠ xml.norm := by
  obtain ⟨tk, mk, h⟩ := Toy.open4 c z
  exact ⟨_, _, [[0, 1, 2], [1], [0, 7]], Toy.tree, h, rfl, ⟨_, _, _, rfl, rfl, rfl, rfl⟩, Toy.tree_valid,
    by simp, by decide +kernel⟩

end Verif.Props
