import Verif.Session.Fs
import Verif.Kdbx.Info
/-!
# The `PyKeePass` object: `read`, `reload`, `save` (pykeepass.py:65-182)
-/
namespace Verif

/-- The `filename` argument: a path string or a binary stream (content and position). -/
inductive Filename where
  | path (s : Str)
  | stream (content : Bytes) (pos : Nat)
  deriving DecidableEq, Repr

/-- Truth value: only the empty string is false. -/
def Filename.truthy : Filename → Bool
  | .path [] => false
  | _ => true

/-- The attributes of a `PyKeePass` object; `none` is an attribute not yet set. -/
structure Session where
  password : Option Str
  keyfile : Keyfile
  filename : Option Filename
  kdbx : Option Kdbx
  deriving DecidableEq, Repr

/-- `if filename: self.filename = filename else: filename = self.filename`, pykeepass.py:92-95. -/
def Session.target (s : Session) : Option Filename → Option Filename
  | some f => if f.truthy then some f else s.filename
  | none => s.filename

/-- `read`, pykeepass.py:83-136.  `left` is the position of the stream after a failing parse. -/
def Session.read (P : Prims) (left : Nat) (fs : Fs) (s : Session) (filename : Option Filename)
    (c : Creds) (decrypt : Bool) : Except PyErr Unit × Session :=
  let s1 := { s with password := c.password, keyfile := c.keyfile, filename := s.target filename }
  match s1.filename with
  | none => (.error .attribute, s1)
  | some (.path p) =>
    match fs (PPath.ofStr p) with
    | none => (.error .os, s1)
    | some b =>
      match parseKdbx P c decrypt b with
      | (.error e, kf) => (.error (readErr e), { s1 with keyfile := kf })
      | (.ok (k, _), kf) => (.ok (), { s1 with keyfile := kf, kdbx := some k })
  | some (.stream b pos) =>
    match parseKdbx P c decrypt (b.drop pos) with
    | (.error e, kf) =>
      (.error (readErr e), { s1 with keyfile := kf, filename := some (.stream b left) })
    | (.ok (k, r), kf) =>
      (.ok (), { s1 with keyfile := kf, kdbx := some k,
                         filename := some (.stream b (max pos (b.length - r.length))) })

/-- A fresh object before `__init__` runs. -/
def Session.blank : Session := { password := none, keyfile := .none, filename := none, kdbx := none }

/-- `__init__`, pykeepass.py:65-74. -/
def Session.open (P : Prims) (left : Nat) (fs : Fs) (filename : Option Filename) (c : Creds)
    (decrypt : Bool) : Except PyErr Unit × Session :=
  Session.blank.read P left fs filename c decrypt

/-- `reload`, pykeepass.py:138-141: the transformed key is not passed on. -/
def Session.reload (P : Prims) (left : Nat) (fs : Fs) (s : Session) : Except PyErr Unit × Session :=
  s.read P left fs s.filename { password := s.password, keyfile := s.keyfile, transformedKey := none }
    true

/-- Writing bytes into a `BytesIO` at its position. -/
def writeAt (content : Bytes) (pos : Nat) (b : Bytes) : Bytes :=
  if b = [] then content
  else (content ++ List.replicate (pos - content.length) 0).take pos ++ b ++
    content.drop (pos + b.length)

/-- What `save` does: the states of the file system, its outcome, the object afterwards and, for a
stream given as argument, the stream afterwards. -/
structure Saved where
  run : Run
  session : Session
  stream : Option (Bytes × Nat)

/-- `save`, pykeepass.py:143-182.  When no target is given and the object was opened
from a stream, that stream (in `session.filename`) advances; a stream given as argument is taken to
be a different one. -/
def Session.save (P : Prims) (o : Os) (fs : Fs) (s : Session) (filename : Option Filename)
    (transformedKey : Option Bytes) : Saved :=
  match s.kdbx with
  | none => ⟨⟨[fs], fs, .error .attribute⟩, s, none⟩
  | some k =>
    let c : Creds := { password := s.password, keyfile := s.keyfile, transformedKey }
    let own := match filename with
      | some f => !f.truthy
      | none => true
    match s.target filename with
    | none => ⟨⟨[fs], fs, .error .attribute⟩, s, none⟩
    | some (.stream b pos) =>
      let (res, kf) := buildKdbx P c k
      let (ps, r) := o.writes res
      let b' := writeAt b pos ps.flatten
      let pos' := pos + ps.flatten.length
      ⟨⟨[fs], fs, r⟩,
        { s with keyfile := kf, filename := if own then some (.stream b' pos') else s.filename },
        some (b', pos')⟩
    | some (.path p) =>
      match (PPath.ofStr p).withTmp with
      | .error e => ⟨⟨[fs], fs, .error e⟩, s, none⟩
      | .ok _ =>
        if o.openOk then
          let (res, kf) := buildKdbx P c k
          ⟨o.saveFile fs (PPath.ofStr p) res, { s with keyfile := kf }, none⟩
        else ⟨o.saveFile fs (PPath.ofStr p) (.ok []), s, none⟩

/-- `tree`, pykeepass.py:242-244, of the object. -/
def Session.tree (s : Session) : Except PyErr Xml :=
  match s.kdbx with
  | none => .error .attribute
  | some k => k.tree

end Verif
