import Verif.Session.Bridge
import Verif.Spec.Calls
/-!
# A `PyKeePass` object in use: methods, credentials, `save`, `reload`
-/
namespace Verif
open Api Spec

/-- A `PyKeePass` object. `db` is the tree and the binaries that `self.kdbx` holds (pykeepass.py:231-244, 770-775); of
`session.kdbx` only the rest is looked at, its own tree is that of the last `read`. -/
structure Obj where
  session : Session
  db : Db

/-- `self.kdbx` with the tree and binaries as they are now. -/
def Obj.current (x : Obj) : Session := { x.session with kdbx := x.session.kdbx.map fun k => k.store x.db }

/-- Something done with an object. -/
inductive Act where
  /-- a method or property of the object or its elements; the key file is set by `keyfile` -/
  | call (c : Call)
  /-- `kp.keyfile = kf` -/
  | keyfile (kf : Keyfile)
  | save (o : Os) (file : Option Filename) (transformedKey : Option Bytes)
  /-- `left` is the position of a stream after a failing parse -/
  | reload (left : Nat)

/-- What an act does: the states the file system goes through, the last of them, the object afterwards and the outcome. -/
structure Step where
  states : List Fs
  fs : Fs
  obj : Obj
  result : Except PyErr Unit

/-- The password after a call: pykeepass.py:920-923, no other method assigns `_password`. -/
def Obj.password (x : Obj) (db : Db) : Call → Option Str
  | .setPassword _ => db.password
  | _ => x.session.password

/-- Doing it: methods (`Verif.Api`), the setter of `keyfile` (pykeepass.py:930-933), `save` (pykeepass.py:143-182) and
`reload` (pykeepass.py:138-141). Elements held from before a successful `reload` belong to a tree that is no longer that of
the object; calls on them are not modelled. -/
def Act.run (P : Prims) (env : Env) (fs : Fs) (x : Obj) : Act → Step
  | .call c =>
    let r := c.run env x.db
    ⟨[fs], fs, ⟨{ x.session with password := x.password r.2 c }, r.2⟩, r.1⟩
  | .keyfile kf =>
    let r := setKeyfile env none x.db
    ⟨[fs], fs, ⟨{ x.session with keyfile := kf }, r.2⟩, r.1⟩
  | .save o f tk =>
    let r := x.current.save P o fs f tk
    ⟨r.run.states, r.run.final, ⟨{ r.session with kdbx := x.session.kdbx }, x.db⟩, r.run.result⟩
  | .reload left =>
    match x.current.reload P left fs with
    | (.error e, s) => ⟨[fs], fs, ⟨{ s with kdbx := x.session.kdbx }, x.db⟩, .error e⟩
    | (.ok _, s) =>
      match s.kdbx with
      | none => ⟨[fs], fs, ⟨s, x.db⟩, .error .attribute⟩
      | some k =>
        match k.load x.db.ticks x.db.uuids with
        | .error e => ⟨[fs], fs, ⟨s, x.db⟩, .error e⟩
        | .ok db => ⟨[fs], fs, ⟨s, db⟩, .ok ()⟩

end Verif
