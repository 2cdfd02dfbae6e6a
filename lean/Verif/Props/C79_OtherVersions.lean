import Verif.Props.C58_ReportedAlgorithms
import Verif.Session.Lemmas
/-!
# C79: files of a major version other than 3 and 4

Such a file is not refused: it opens with every password, shows nothing, and a normal `save` leaves
only its first twelve bytes.
-/
namespace Verif.Props
open Verif Parser Spec

/-- A file of the version `major.minor`: signature, version, anything. -/
def versioned (minor major : Nat) (r : Bytes) : Bytes :=
  [0x03, 0xd9, 0xa2, 0x9a, 0x67, 0xfb, 0x4b, 0xb5] ++ (leBytes 2 minor ++ (leBytes 2 major ++ r))

/-- What is kept of it. -/
def onlyVersion (minor major : Nat) : Kdbx :=
  { header := { data := versioned minor major [], value := { minor, major, dyn := none } }, body := none }

theorem other_parsed (P : Prims) (c : Creds) (dec : Bool) {minor major : Nat} (r : Bytes) (hm : minor < 2 ^ 16)
    (hM : major < 2 ^ 16) (h3 : major ≠ 3) (h4 : major ≠ 4) :
    parseKdbx P c dec (versioned minor major r) = (.ok (onlyVersion minor major, r), c.keyfile) := by
  have e : versioned minor major r = sig1 ++ (sig2 ++ (leBytes 2 minor ++ (leBytes 2 major ++ r))) := rfl
  have hv : headerVal "(parsing) -> header" (versioned minor major r) = .ok ({ minor, major, dyn := none }, r) := by
    rw [e]
    unfold headerVal
    rw [bind_run (bytes_append' (n := 4) sig1 _ rfl), bind_run (bytes_append' (n := 4) sig2 _ rfl),
      if_neg (not_not_intro ⟨rfl, rfl⟩), bind_run (uint_leBytes 2 minor _ hm), bind_run (uint_leBytes 2 major _ hM),
      if_neg h3, if_neg h4]
    rfl
  have hh : header "(parsing)" (versioned minor major r) = .ok ((onlyVersion minor major).header, r) := by
    unfold header
    rw [show "(parsing)" ++ " -> header" = "(parsing) -> header" from rfl, hv]
    have : (versioned minor major r).take ((versioned minor major r).length - r.length) = versioned minor major [] := by
      have e2 : versioned minor major r = versioned minor major [] ++ r := by simp [versioned]
      rw [e2]
      simp
    simp only [this]
    rfl
  unfold parseKdbx
  rw [hh]
  rfl

/-- It opens, whatever follows the version and whatever password, key file or key is given. -/
theorem C79_opens (P : Prims) (c : Creds) (dec : Bool) {minor major : Nat} (r : Bytes) (hm : minor < 2 ^ 16)
    (hM : major < 2 ^ 16) (h3 : major ≠ 3) (h4 : major ≠ 4) :
    ∃ k, openBytes P c dec (versioned minor major r) = .ok k ∧ k.version = (major, minor) :=
  ⟨_, openBytes_ok.mpr ⟨r, by rw [other_parsed P c dec r hm hM h3 h4]⟩, rfl⟩

/-- Nothing can be read from a database opened from such a file: `encryption_algorithm`,
`database_salt`, `payload` and `tree` raise `AttributeError`, `kdf_algorithm` is `None`. -/
theorem C79_nothing (P : Prims) (c : Creds) (dec : Bool) (s : Bytes) (k : Kdbx) (ho : openBytes P c dec s = .ok k)
    (h3 : k.header.value.major ≠ 3) (h4 : k.header.value.major ≠ 4) :
    k.encryptionAlgorithm = .error .attribute ∧ k.databaseSalt = .error .attribute ∧ k.kdfAlgorithm = .ok none ∧
    k.payload = .error .attribute ∧ k.tree = .error .attribute := by
  obtain ⟨rest, hp⟩ := openBytes_ok.mp ho
  unfold parseKdbx at hp
  cases hh : header "(parsing)" s with
  | error e => rw [hh] at hp; cases hp
  | ok x =>
    obtain ⟨hd, r⟩ := x
    rw [hh] at hp
    simp only at hp
    cases hdyn : hd.value.dyn with
    | some d =>
      obtain ⟨r', hr'⟩ := parse_header (openBytes_ok.mp ho).choose_spec
      rw [hh] at hr'
      injection hr' with hr'
      injection hr' with hr' _
      rw [hr'] at hdyn
      rcases (header_dyn (hr' ▸ hh)).mp ⟨d, hdyn⟩ with h | h
      · exact absurd h h3
      · exact absurd h h4
    | none =>
      rw [hdyn] at hp
      injection hp with hp
      injection hp with hp _
      subst hp
      have hk : Kdbx.dynamicHeader { header := hd, body := none } = .error .attribute := by unfold Kdbx.dynamicHeader; rw [hdyn]
      refine ⟨?_, ?_, C58_other_version _ (fun e => h3 (congrArg Prod.fst e)) (fun e => h4 (congrArg Prod.fst e)), rfl, rfl⟩
      · unfold Kdbx.encryptionAlgorithm; rw [hk]; rfl
      · unfold Kdbx.databaseSalt; rw [hk]; rfl

/-- Finding: a normal `save` of the object opened from such a file returns normally and replaces
the file by its first twelve bytes. -/
theorem C79_truncates (P : Prims) (left : Nat) (o : Os) (fs : Fs) (p : Str) (c : Creds) (dec : Bool) {minor major : Nat} {r : Bytes}
    (tmp : PPath) (hm : minor < 2 ^ 16) (hM : major < 2 ^ 16) (h3 : major ≠ 3) (h4 : major ≠ 4) (hp : p ≠ [])
    (hfile : fs (PPath.ofStr p) = some (versioned minor major r))
    (hw : (PPath.ofStr p).withTmp = .ok tmp) (ho : o.openOk = true) (hi : o.ioError = none) (hr : o.renameOk = true) (hf : o.Faithful) :
    (Session.open P left fs (some (.path p)) c dec).1 = .ok () ∧
    ((Session.open P left fs (some (.path p)) c dec).2.save P o fs none none).run.result = .ok () ∧
    (tmp ≠ PPath.ofStr p →
      ((Session.open P left fs (some (.path p)) c dec).2.save P o fs none none).run.final (PPath.ofStr p) =
        some ((versioned minor major r).take 12)) := by
  have ht : Filename.truthy (.path p) = true := by
    cases p with
    | nil => exact absurd rfl hp
    | cons a b => rfl
  have hopen : Session.open P left fs (some (.path p)) c dec =
      (.ok (), { password := c.password, keyfile := c.keyfile, filename := some (.path p), kdbx := some (onlyVersion minor major) }) := by
    unfold Session.open Session.read Session.target
    simp only [ht, if_true, hfile, other_parsed P c dec r hm hM h3 h4]
  rw [hopen]
  refine ⟨rfl, ?_⟩
  have hs := save_path (P := P) (o := o) (fs := fs) (f := none) (tk := none) (p := p) (k := onlyVersion minor major)
    (s := { password := c.password, keyfile := c.keyfile, filename := some (.path p), kdbx := some (onlyVersion minor major) }) rfl rfl ho
  rw [hs]
  have hb : (buildKdbx P { password := c.password, keyfile := c.keyfile, transformedKey := none } (onlyVersion minor major)).1 =
      .ok ((versioned minor major r).take 12) := by
    have e2 : versioned minor major r = versioned minor major [] ++ r := by simp [versioned]
    have hl : (versioned minor major []).length = 12 := by simp [versioned]
    rw [e2, List.take_left' hl]
    rfl
  rw [hb]
  obtain ⟨h1, h2⟩ := saveFile_ok (fs := fs) (out := (versioned minor major r).take 12) hw ho hr hi hf
  refine ⟨h1, fun hne => ?_⟩
  rw [h2, if_neg hne, Fs.set_ne _ _ (Ne.symm hne), Fs.set_same]

/-- A file of version 2.0 with a kilobyte of content loses all of it. -/
example (r : Bytes) (h : r.length = 1000) : (versioned 0 2 r).length = 1012 ∧ ((versioned 0 2 r).take 12).length = 12 := by
  constructor <;> simp [versioned, h]
example : ∃ tmp, (PPath.ofStr "a.kdbx".toList).withTmp = .ok tmp ∧ tmp ≠ PPath.ofStr "a.kdbx".toList := by
  exact ⟨_, rfl, by decide +kernel⟩
example : ∃ k, openBytes Toy.prims { password := some "wrong".toList, keyfile := .none, transformedKey := none } true (versioned 0 2 [1, 2, 3]) = .ok k ∧
    k.header.value.major ≠ 3 ∧ k.header.value.major ≠ 4 := by
  obtain ⟨k, h, hv⟩ := C79_opens Toy.prims { password := some "wrong".toList, keyfile := .none, transformedKey := none } true
    (minor := 0) (major := 2) [1, 2, 3] (by decide) (by decide) (by decide) (by decide)
  have := congrArg Prod.fst hv
  exact ⟨k, h, by rw [show k.header.value.major = 2 from this]; decide, by rw [show k.header.value.major = 2 from this]; decide⟩

end Verif.Props
