import Verif.Kdbx.Info
import Verif.Props.C27_HeaderFields
/-!
# C58: reported algorithms and version match the header
-/
namespace Verif.Props
open Verif Parser Spec

/-- KDF identifiers as the format lists them. -/
def kdfName : List (Bytes × String) :=
  [([0xef, 0x63, 0x6d, 0xdf, 0x8c, 0x29, 0x44, 0x4b, 0x91, 0xf7, 0xa9, 0xa4, 0x03, 0xe3, 0x0a, 0x0c], "argon2"),
   ([0x9e, 0x29, 0x8b, 0x19, 0x56, 0xdb, 0x47, 0x73, 0xb2, 0x3d, 0xfc, 0x3e, 0xc6, 0xf0, 0xa1, 0xe6], "argon2id"),
   ([0xc9, 0xd9, 0xf3, 0x9a, 0x62, 0x8a, 0x44, 0x60, 0xbf, 0x74, 0x0d, 0x08, 0xc1, 0x8a, 0x4f, 0xea], "aeskdf")]

/-- Opening a file that starts with a laid-out header gives a database with this header. -/
theorem opened_header (P : Prims) (c : Creds) (dec : Bool) (v minor : Nat) (fs : List Field) (fin r : Bytes)
    (h : HeaderOk v minor fs fin) (k : Kdbx)
    (ho : openBytes P c dec (headerLayout v minor fs fin ++ r) = .ok k) :
    k.header.value = { minor, major := v, dyn := some (fs.map Field.value ++ [(.end, .raw fin)]) } := by
  obtain ⟨rest, hp⟩ := openBytes_ok.mp ho
  obtain ⟨r', hr'⟩ := parse_header hp
  rw [header_run _ v minor fs fin h r] at hr'
  injection hr' with hr'
  injection hr' with hr' _
  rw [← hr']

/-- The version reported is the one in the file. -/
theorem C58_version (P : Prims) (c : Creds) (dec : Bool) (v minor : Nat) (fs : List Field) (fin r : Bytes)
    (h : HeaderOk v minor fs fin) (k : Kdbx)
    (ho : openBytes P c dec (headerLayout v minor fs fin ++ r) = .ok k) : k.version = (v, minor) := by
  unfold Kdbx.version
  rw [opened_header P c dec v minor fs fin r h k ho]

/-- The cipher reported is the one named in the header. -/
theorem C58_cipher (P : Prims) (c : Creds) (dec : Bool) (v minor : Nat) (fs : List Field) (fin r : Bytes)
    (h : HeaderOk v minor fs fin) (k : Kdbx)
    (ho : openBytes P c dec (headerLayout v minor fs fin ++ r) = .ok k)
    (hn : (fs.map fun f => f.value.1).Nodup) (ci : CipherId) (hf : Field.cipher ci ∈ fs) :
    k.encryptionAlgorithm = .ok (match ci with
      | .aes256 => "aes256" | .chacha20 => "chacha20" | .twofish => "twofish") := by
  have hl := C27_lookup fs fin hn _ hf
  unfold Kdbx.encryptionAlgorithm Kdbx.dynamicHeader
  rw [opened_header P c dec v minor fs fin r h k ho]
  simp only [bind, Except.bind]
  rw [show DynHeader.get (fs.map Field.value ++ [(.end, .raw fin)]) .cipherId = _ from hl]
  cases ci <;> rfl

/-- KDBX 3.1 always uses AES-KDF and its salt is the transform seed. -/
theorem C58_kdbx3 (P : Prims) (c : Creds) (dec : Bool) (fs : List Field) (fin r : Bytes)
    (h : HeaderOk 3 1 fs fin) (k : Kdbx)
    (ho : openBytes P c dec (headerLayout 3 1 fs fin ++ r) = .ok k)
    (hn : (fs.map fun f => f.value.1).Nodup) (seed : Bytes) (hf : Field.transformSeed seed ∈ fs) :
    k.kdfAlgorithm = .ok (some "aeskdf") ∧ k.databaseSalt = .ok (.bytes seed) := by
  have hv := C58_version P c dec 3 1 fs fin r h k ho
  have hl := C27_lookup fs fin hn _ hf
  constructor
  · unfold Kdbx.kdfAlgorithm
    rw [hv, if_pos rfl]; rfl
  · unfold Kdbx.databaseSalt Kdbx.dynamicHeader
    rw [opened_header P c dec 3 1 fs fin r h k ho]
    simp only [bind, Except.bind]
    rw [hv, if_pos rfl]
    unfold DynHeader.raw
    rw [show DynHeader.get (fs.map Field.value ++ [(.end, .raw fin)]) .transformSeed = _ from hl]
    rfl

/-- KDBX 4: the salt is the parameter `S` of the KDF, and for 4.0 the algorithm is the one the
identifier stands for, `None` for an unknown identifier. -/
theorem C58_kdbx4 (P : Prims) (c : Creds) (dec : Bool) (minor : Nat) (fs : List Field) (fin r : Bytes)
    (h : HeaderOk 4 minor fs fin) (k : Kdbx)
    (ho : openBytes P c dec (headerLayout 4 minor fs fin ++ r) = .ok k)
    (hn : (fs.map fun f => f.value.1).Nodup) (version : Bytes) (es : List (Str × Param))
    (hf : Field.kdf version es ∈ fs) (hk : (es.map Prod.fst).Nodup) (u s : Bytes)
    (hu : ("$UUID".toList, Param.bytes u) ∈ es) (hs : ("S".toList, Param.bytes s) ∈ es) :
    k.databaseSalt = .ok (.bytes s) ∧ (minor = 0 → k.kdfAlgorithm = .ok (kdfName.lookup u)) := by
  have hv := C58_version P c dec 4 minor fs fin r h k ho
  obtain ⟨d, h1, h2⟩ := C27_kdf fs fin version es hn hf hk _ hu
  obtain ⟨d', h1', h3⟩ := C27_kdf fs fin version es hn hf hk _ hs
  rw [h1] at h1'
  injection h1' with h1'
  subst h1'
  have h2' : d.get "$UUID" = .ok (.bytes u) := h2
  have h3' : d.get "S" = .ok (.bytes s) := h3
  have hdy : k.dynamicHeader = .ok (fs.map Field.value ++ [(.end, .raw fin)]) := by
    unfold Kdbx.dynamicHeader
    rw [opened_header P c dec 4 minor fs fin r h k ho]
  constructor
  · unfold Kdbx.databaseSalt
    rw [exc_bind_run hdy, hv, if_neg (by simp), exc_bind_run h1, h3']
  · intro hm
    subst hm
    unfold Kdbx.kdfAlgorithm
    rw [hv, if_neg (by decide), if_pos rfl, exc_bind_run hdy, exc_bind_run h1, exc_bind_run h2']
    by_cases e1 : u = uuidArgon2
    · subst e1; rfl
    by_cases e2 : u = uuidArgon2id
    · subst e2; decide
    by_cases e3 : u = uuidAesKdf
    · subst e3; decide
    rw [if_neg (by simpa using e1), if_neg (by simpa using e2), if_neg (by simpa using e3)]
    have l1 : (u == uuidArgon2) = false := by simpa using e1
    have l2 : (u == uuidArgon2id) = false := by simpa using e2
    have l3 : (u == uuidAesKdf) = false := by simpa using e3
    show _ = Except.ok (List.lookup u [(uuidArgon2, _), (uuidArgon2id, _), (uuidAesKdf, _)])
    simp only [List.lookup, l1, l2, l3]
    rfl

/-- Finding: for any version other than 3.1 and 4.0, in particular 4.1 as written by current KeePass
versions and 3.0, `kdf_algorithm` is `None` although a key was derived. -/
theorem C58_other_version (k : Kdbx) (h : k.version ≠ (3, 1)) (h' : k.version ≠ (4, 0)) :
    k.kdfAlgorithm = .ok none := by
  unfold Kdbx.kdfAlgorithm
  rw [if_neg h, if_neg h']; rfl

/-- The example files. -/
example (c : CipherId) (z : Bool) : ∃ k, openBytes Toy.prims Toy.creds true (Toy.file4 c z) = .ok k ∧
    k.version = (4, 0) ∧ k.kdfAlgorithm = .ok (some "argon2") := by
  obtain ⟨tk, mk, h⟩ := Toy.open4 c z
  have hk : Kdbx.kdfAlgorithm { header := Toy.header4 c z, body := none } = .ok (some "argon2") := by
    cases c <;> cases z <;> decide +kernel
  exact ⟨_, h, rfl, hk⟩
example (c : CipherId) (z : Bool) : ∃ k, openBytes Toy.prims Toy.creds true (Toy.file3 c z) = .ok k ∧
    k.version = (3, 1) ∧ k.kdfAlgorithm = .ok (some "aeskdf") := by
  obtain ⟨tk, mk, h⟩ := Toy.open3 c z
  exact ⟨_, h, rfl, rfl⟩

end Verif.Props
