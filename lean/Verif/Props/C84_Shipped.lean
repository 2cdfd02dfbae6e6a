import Verif.Spec.Shipped
import Verif.Props.C18_Create
import Verif.Props.C58_ReportedAlgorithms
import Verif.Props.C04_HeaderVerbatim
/-!
# C84: the header of databases made by `create_database`
-/
namespace Verif.Props
open Verif XPath Spec Api Parser

/-- The bytes that end the header. -/
def shippedEnd : Bytes := [0x0d, 0x0a, 0x0d, 0x0a]

/-- The header of the blank database is laid out as the format prescribes. -/
theorem C84_layout : shippedHeader = headerLayout 4 0 shippedFields shippedEnd := by decide +kernel

theorem shipped_ok : HeaderOk 4 0 shippedFields shippedEnd := by
  refine ⟨Or.inr rfl, by decide, ?_, by decide⟩
  intro f hf
  simp only [shippedFields, List.mem_cons, List.not_mem_nil, or_false] at hf
  rcases hf with rfl | rfl | rfl | rfl | rfl
  · exact ⟨trivial, trivial, by decide +kernel⟩
  · exact ⟨trivial, by show 1 < 2 ^ 32; decide, by decide +kernel⟩
  · exact ⟨trivial, trivial, by decide +kernel⟩
  · exact ⟨trivial, trivial, by decide +kernel⟩
  · refine ⟨rfl, ⟨rfl, List.cons_ne_nil _ _, fun e he => ?_⟩, by decide +kernel⟩
    simp only [List.mem_cons, List.not_mem_nil, or_false] at he
    rcases he with rfl | rfl | rfl | rfl | rfl | rfl
    all_goals exact ⟨by decide +kernel, by unfold Param.Fits; decide⟩

/-- What the header parses to. -/
def shippedParsed : Header :=
  { data := shippedHeader, value := { minor := 0, major := 4, dyn := some (shippedFields.map Field.value ++ [(.end, .raw shippedEnd)]) } }

theorem laid_run {data : Bytes} {v minor : Nat} {fs : List Spec.Field} {fin : Bytes} (hd : data = headerLayout v minor fs fin)
    (h : HeaderOk v minor fs fin) (path : String) (r : Bytes) :
    header path (data ++ r) = .ok (⟨data, minor, v, some (fs.map Spec.Field.value ++ [(.end, .raw fin)])⟩, r) := by
  subst hd
  exact header_run path v minor fs fin h r

theorem shipped_open {P : Prims} {c : Creds} {dec : Bool} {r : Bytes} {k : Kdbx}
    (ho : openBytes P c dec (shippedHeader ++ r) = .ok k) : k.header = shippedParsed := by
  obtain ⟨rest, hp⟩ := openBytes_ok.mp ho
  obtain ⟨r', hr'⟩ := parse_header hp
  rw [laid_run C84_layout shipped_ok] at hr'
  exact (congrArg Prod.fst (Except.ok.inj hr')).symm

/-- That the blank database is a KDBX4 file need not be assumed: the bytes say so. -/
theorem C84_blank {P : Prims} {fs : Fs} {blank : Str} {k : Kdbx} {x : Xml} (h : Shipped P fs blank k x) :
    Blank P fs blank k x ∧ k.version = (4, 0) := by
  obtain ⟨r, h1, h2⟩ := h.file
  have he := shipped_open h2
  exact ⟨⟨h.named, ⟨_, h1, h2⟩, by rw [he]; rfl, h.tree, h.root, h.tidy, h.date⟩, by unfold Kdbx.version; rw [he]; rfl⟩

/-- A file made by `create_database`, with any password and key file, at any path, and any number of times opened, edited and saved since. -/
inductive FromPackage (P : Prims) : Bytes → Prop where
  | mk {o : Os} {env : Env} {fs : Fs} {blank : Str} {k : Kdbx} {x : Xml} {path : Str} {password : Option Str} {keyfile : Keyfile} {f g : Bytes}
      (hs : Shipped P fs blank k x) (hc : ClockOk env k.version) (hk : keyfile.Reusable) (hf : o.Faithful)
      (hn : o.renameOk = true ∨ ¬ NamedTmp (PPath.ofStr path))
      (hr : (createDatabase P o env fs blank (.path path) password keyfile none).run.result = .ok ())
      (hw : (createDatabase P o env fs blank (.path path) password keyfile none).run.final (PPath.ofStr path) = some f)
      (hg : Cycles P f g) : FromPackage P g

/-- Every such file begins with the bytes of the header of the blank database. -/
theorem C84_bytes {P : Prims} (hP : P.Lawful) {g : Bytes} (h : FromPackage P g) : ∃ r, g = shippedHeader ++ r := by
  obtain ⟨hs, hc, hk, hf, hn, hr, hw, hg⟩ := h
  obtain ⟨r, h1, h2⟩ := hs.file
  have he := shipped_open h2
  obtain ⟨out, a1, k2, y, a2, a3, _⟩ := C18_file hP (C84_blank hs).1 hc hk hf hn hr
  rw [hw] at a1
  injection a1 with a1
  subst a1
  obtain ⟨⟨r', hr'⟩, _⟩ := C04_cycles P _ g hg _ _ _ a2
  exact ⟨r', by rw [hr', a3, he]; rfl⟩

/-- Whatever opens such a file sees KDBX 4.0 with AES and Argon2, and the seed, the initialisation vector and the salt of the package. -/
theorem C84_header {P : Prims} (hP : P.Lawful) {g : Bytes} (h : FromPackage P g) {c : Creds} {dec : Bool} {k : Kdbx}
    (ho : openBytes P c dec g = .ok k) :
    k.version = (4, 0) ∧ k.encryptionAlgorithm = .ok "aes256" ∧ k.kdfAlgorithm = .ok (some "argon2") ∧
      k.databaseSalt = .ok (.bytes shippedSalt) ∧ k.header.data = shippedHeader ∧
      ∃ d, k.header.value.dyn = some d ∧ d.compressed = .ok true ∧ d.raw .masterSeed = .ok shippedSeed ∧ d.raw .encryptionIv = .ok shippedIv := by
  obtain ⟨r, rfl⟩ := C84_bytes hP h
  have he := shipped_open ho
  cases k with
  | mk hd b =>
    cases he
    exact ⟨rfl, by rfl, by rfl, by rfl, rfl, _, rfl, by rfl, by rfl, by rfl⟩

/-- The keys of such a file: one computation of Argon2, with parameters that are the same for all of them. -/
theorem C84_key {P : Prims} (hP : P.Lawful) {g : Bytes} (h : FromPackage P g) {c : Creds} (hc : c.transformedKey = none) {k : Kdbx}
    (ho : openBytes P c true g = .ok k) {comp : Bytes} (hk : (computeKeyComposite P c.password c.keyfile).1 = .ok comp) :
    ∃ tk b, P.argon2 false comp shippedSalt 14 65536 2 0x13 = .ok tk ∧ k.body = some b ∧ b.transformedKey = tk ∧
      b.masterKey = P.sha256 (shippedSeed ++ tk) := by
  obtain ⟨r, rfl⟩ := C84_bytes hP h
  have he := shipped_open ho
  obtain ⟨rest, hp⟩ := openBytes_ok.mp ho
  obtain ⟨d, tk, r0, b, g1, g2, g3, g4, g5⟩ := (parse4_ok (by rw [he]; rfl)).mp hp
  obtain ⟨mk, seed, z, cc, iv, blocks, dd, plain, p, s', k1, k2, _, _, _, _, _, _, _, _, k3⟩ := (body4_iff P hP ..).mp g4
  rw [he] at g2
  have hd : d = shippedFields.map Field.value ++ [(.end, .raw shippedEnd)] := (Option.some.inj g2).symm
  subst hd
  refine ⟨tk, b, ?_, g5, by rw [k3], ?_⟩
  · unfold computeTransformed4 at g3
    cases hcc : computeKeyComposite P c.password c.keyfile with
    | mk res kf =>
      rw [hcc] at hk
      simp only at hk
      subst hk
      rw [hcc] at g3
      simp only [hc] at g3
      exact g3
  · rw [k3]
    show mk = _
    have : computeMaster P (shippedFields.map Field.value ++ [(.end, .raw shippedEnd)]) tk = .ok (P.sha256 (shippedSeed ++ tk)) := rfl
    rw [this] at k1
    exact (Except.ok.inj k1).symm

/-- Finding: any two of them that open with the same password have the same keys, whoever made them. -/
theorem C84_same_keys {P : Prims} (hP : P.Lawful) {g g' : Bytes} (h : FromPackage P g) (h' : FromPackage P g') {p : Option Str} {k k' : Kdbx}
    (ho : openBytes P ⟨p, .none, none⟩ true g = .ok k) (ho' : openBytes P ⟨p, .none, none⟩ true g' = .ok k') :
    ∃ b b', k.body = some b ∧ k'.body = some b' ∧ b.transformedKey = b'.transformedKey ∧ b.masterKey = b'.masterKey := by
  obtain ⟨tk, b, a1, a2, a3, a4⟩ := C84_key hP h rfl ho rfl
  obtain ⟨tk', b', e1, e2, e3, e4⟩ := C84_key hP h' rfl ho' rfl
  rw [a1] at e1
  injection e1 with e1
  subst e1
  exact ⟨b, b', a2, e2, a3.trans e3.symm, a4.trans e4.symm⟩

/-! ## A case -/

/-- A blank database with the header of the package. -/
def shippedFile : Bytes :=
  match (buildKdbx Toy.prims blankCreds
      { header := shippedParsed,
        body := some { transformedKey := [], masterKey := [], payload := some { inner := some Toy.inner, xml := blankTree } } }).1 with
  | .ok b => b
  | .error _ => []

def shippedFs : Fs := fun p => if p = PPath.ofStr "/lib/blank.kdbx".toList then some shippedFile else none

def madeToy : Created := createDatabase Toy.prims goodOs Sample.env shippedFs "/lib/blank.kdbx".toList (.path "new.kdbx".toList) (some "pw".toList) .none none

/-- There is such a file. -/
example : ∃ g, FromPackage Toy.prims g := by
  have h : (openBytes Toy.prims blankCreds true shippedFile).toOption.any (fun k => k.version = (4, 0) ∧ k.tree.toOption = some blankTree.norm) = true := by
    decide +kernel
  cases ho : openBytes Toy.prims blankCreds true shippedFile with
  | error e => rw [ho] at h; cases h
  | ok k =>
    rw [ho] at h
    obtain ⟨h1, h2⟩ := of_decide_eq_true h
    have ht : k.tree = .ok blankTree.norm := by
      cases e : k.tree with
      | error _ => rw [e] at h2; cases h2
      | ok t =>
        rw [e] at h2
        exact congrArg Except.ok (Option.some.inj h2)
    obtain ⟨k0, hb, hc⟩ := toy_blank
    have hx := hb.tidy
    have hf : shippedFile = shippedHeader ++ shippedFile.drop 253 := by decide +kernel
    have hs : Shipped Toy.prims shippedFs "/lib/blank.kdbx".toList k blankTree.norm := by
      refine ⟨by decide, ⟨shippedFile.drop 253, ?_, ?_⟩, ht, by decide +kernel, hx, ?_⟩
      · rw [← hf]; exact if_pos rfl
      · rw [← hf]; exact ho
      · intro s hs
        unfold Kdbx.load at hs
        rw [ht] at hs
        injection hs with hs
        rw [← hs]
        have : metaEls (Db.start (Node.ofXml 1 blankTree.norm) (4, 0) [] 0 0).heap "MasterKeyChanged".toList ≠ [] := by decide +kernel
        exact this
    have hv : k0.version = (4, 0) := by
      have := hb.file
      obtain ⟨b, b1, b2⟩ := this
      have e : b = blankFile := by
        rw [show blankFs (PPath.ofStr "/lib/blank.kdbx".toList) = some blankFile from if_pos rfl] at b1
        exact (Option.some.inj b1).symm
      rw [e] at b2
      have g : (openBytes Toy.prims blankCreds true blankFile).toOption.any (fun k => k.version = (4, 0)) = true := by decide +kernel
      rw [b2] at g
      exact of_decide_eq_true g
    have hr : madeToy.run.result.isOk = true ∧ (madeToy.run.final (PPath.ofStr "new.kdbx".toList)).isSome = true := by decide +kernel
    obtain ⟨hr1, hr2⟩ := hr
    obtain ⟨f, hf2⟩ := Option.isSome_iff_exists.mp hr2
    refine ⟨f, .mk (o := goodOs) (env := Sample.env) (path := "new.kdbx".toList) (password := some "pw".toList) (keyfile := .none) hs
      (by rw [h1, ← hv]; exact hc) trivial goodOs_faithful (Or.inl rfl) ?_ ?_ (.refl f)⟩
    · cases e : madeToy.run.result with
      | error _ => rw [e] at hr1; cases hr1
      | ok u => rw [madeToy] at e; exact e
    · rw [madeToy] at hf2
      exact hf2

end Verif.Props
