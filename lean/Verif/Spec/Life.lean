import Verif.Session.Life
import Verif.Spec.Content
import Verif.Spec.Tidy
import Verif.Kdbx.FileLemmas
import Verif.Spec.Created
import Verif.Session.Create
/-!
# What a file should hold while an object works on it
-/
namespace Verif.Spec
open Verif Api

/-- A key file without the position of a stream that can be rewound. -/
def unread : Keyfile → Keyfile
  | .stream true b _ => .stream true b 0
  | kf => kf

/-- A state of a database: the credentials it is kept under, its tree and its binaries. -/
structure Shown where
  creds : Creds
  tree : Option Xml
  binaries : List Bytes

/-- The credentials of an object, and the transformed key that is handed to `save`. -/
def credsOf (x : Obj) (tk : Option Bytes) : Creds := ⟨x.session.password, unread x.session.keyfile, tk⟩

/-- The tree of an object, with empty texts as `None`. -/
def treeOf (db : Db) : Option Xml := ((docEl db.heap).bind (content db)).map Xml.norm

/-- The state of an object. -/
def shownBy (x : Obj) (tk : Option Bytes) : Shown := ⟨credsOf x tk, treeOf x.db, x.db.binaries⟩

/-- The file is a database in this state: it opens with the credentials and shows the tree and, for KDBX4, the
binaries; its header is the one given. -/
def Holds (P : Prims) (hdr : Header) (file : Option Bytes) (v : Shown) : Prop :=
  ∃ b k, file = some b ∧ openBytes P v.creds true b = .ok k ∧ k.header = hdr ∧ k.tree.toOption = v.tree ∧
    (hdr.value.major = 4 → k.innerBinaries = v.binaries)

/-- What may be done while the database at `p` is watched. Saving to `p` ends with a rename, and what is written is what
reaches the file; saving elsewhere does not use `p` as its temporary file. Key files can be read more than once. Reloading
may fail; that it works under credentials that give another result than those of the file is left out. -/
def Act.Ok (P : Prims) (env : Env) (p : PPath) (v : Shown) (fs : Fs) (x : Obj) : Act → Prop
  | .call c => c.Typed x.db.heap ∧ c.Public ∧ ∀ kf, c ≠ .setKeyfile kf
  | .keyfile kf => kf.Reusable
  | .save o f _ => ∀ q, x.session.target f = some (.path q) →
      if PPath.ofStr q = p then o.renameOk = true ∧ o.Faithful else (PPath.ofStr q).withTmp ≠ .ok p
  | .reload left => (Act.run P env fs x (.reload left)).result = .ok () → ∀ b, fs p = some b →
      openBytes P (credsOf x none) true b = openBytes P v.creds true b

/-- Whether the act is a completed save to `p`. -/
def Act.saves (P : Prims) (env : Env) (p : PPath) (fs : Fs) (x : Obj) (a : Act) : Option (Option Bytes) :=
  match a with
  | .save _ f tk =>
    match x.session.target f with
    | some (.path q) => if PPath.ofStr q = p ∧ (a.run P env fs x).result = .ok () then some tk else none
    | _ => none
  | _ => none

/-- A sequence of acts. `v` is the state of the object when it was last saved to `p` without error, and before that the
state in which it was opened. -/
inductive Life (P : Prims) (env : Env) (p : PPath) : Fs → Obj → Shown → Fs → Obj → Shown → Prop where
  | refl (fs x v) : Life P env p fs x v fs x v
  | step {fs0 x0 v0 fs x v} (a : Act) : Life P env p fs0 x0 v0 fs x v → Act.Ok P env p v fs x a →
      Life P env p fs0 x0 v0 (a.run P env fs x).fs (a.run P env fs x).obj
        (match Act.saves P env p fs x a with
          | some tk => shownBy x tk
          | none => v)

/-- An object has just been opened from the database at `p`, which is what it should be: its elements have names and
texts that can be written. -/
structure Opened (P : Prims) (p : PPath) (hdr : Header) (fs : Fs) (x : Obj) (v : Shown) : Prop where
  run : ∃ c left q k a b z, Session.open P left fs (some (.path q)) c true = (.ok (), x.session) ∧ q ≠ [] ∧ PPath.ofStr q = p ∧
    c.keyfile.Reusable ∧ x.session.kdbx = some k ∧ k.header = hdr ∧ k.load a b = .ok x.db ∧ k.tree = .ok z ∧
    z.tag = "KeePassFile".toList ∧ TidyXml z ∧ v = ⟨⟨c.password, unread c.keyfile, c.transformedKey⟩, some z, k.innerBinaries⟩

/-- An object has just been made by `create_database` at `p` (`Blank`: the blank database that comes with the package). The
object keeps what it was opened from in `session.kdbx`, and the tree with the new date in `db`. -/
structure Made (P : Prims) (env : Env) (p : PPath) (hdr : Header) (fs : Fs) (x : Obj) (v : Shown) : Prop where
  run : ∃ o fs0 blank k y path password keyfile s, Blank P fs0 blank k y ∧ ClockOk env k.version ∧ k.header = hdr ∧ keyfile.Reusable ∧
    o.Faithful ∧ path ≠ [] ∧ PPath.ofStr path = p ∧ (createDatabase P o env fs0 blank (.path path) password keyfile none).run.result = .ok () ∧
    fs = (createDatabase P o env fs0 blank (.path path) password keyfile none).run.final ∧ k.load 0 0 = .ok s ∧
    x = ⟨{ (createDatabase P o env fs0 blank (.path path) password keyfile none).session with kdbx := some k }, (newCredentials env password s).2⟩ ∧
    v = ⟨⟨password, unread keyfile, none⟩, treeOf x.db, k.innerBinaries⟩

/-- The beginning: a database was opened or created. -/
inductive Started (P : Prims) (env : Env) (p : PPath) (hdr : Header) (fs : Fs) (x : Obj) (v : Shown) : Prop where
  | opened (h : Opened P p hdr fs x v)
  | made (h : Made P env p hdr fs x v)

end Verif.Spec
