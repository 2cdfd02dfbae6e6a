import Verif.Session.Bridge
/-!
# `create_database`: `pykeepass.py:1032-1060`
-/
namespace Verif
open Api

/-- The two assignments that make the new credentials those of the object, `pykeepass.py:1056-1057` with the setters
`919-934`: what they do to the tree. The key file itself is kept in the `Session`. -/
def newCredentials (env : Env) (password : Option Str) : M Unit := do
  setPassword env password
  setKeyfile env none

/-- What `create_database` did. -/
structure Created where
  run : Run
  session : Session
  stream : Option (Bytes × Nat)

/-- `create_database`, `pykeepass.py:1032-1060`. `blank` is the path of the blank database that comes with the package
(`BLANK_DATABASE_LOCATION`, `pykeepass.py:33-35`), whose password is `password`. The transformed key is handed to `save` as
its first argument, which is the file name: bytes that are not empty raise `TypeError` in `Path(filename)`, before
anything is written. `filename` is a string or a stream; `Path(None)` is not modelled. -/
def createDatabase (P : Prims) (o : Os) (env : Env) (fs : Fs) (blank : Str) (filename : Filename) (password : Option Str)
    (keyfile : Keyfile) (transformedKey : Option Bytes) : Created :=
  match Session.open P 0 fs (some (.path blank)) { password := some "password".toList, keyfile := .none, transformedKey := none } true with
  | (.error e, s) => ⟨⟨[fs], fs, .error e⟩, s, none⟩
  | (.ok _, s) =>
    match s.kdbx with
    | none => ⟨⟨[fs], fs, .error .attribute⟩, s, none⟩
    | some k =>
      match k.load 0 0 with
      | .error e => ⟨⟨[fs], fs, .error e⟩, s, none⟩
      | .ok db =>
        match newCredentials env password db with
        | (.error e, db') => ⟨⟨[fs], fs, .error e⟩, { s with password := db'.password, filename := some filename, kdbx := some (k.store db') }, none⟩
        | (.ok _, db') =>
          let s' : Session := { password := db'.password, keyfile := keyfile, filename := some filename, kdbx := some (k.store db') }
          match transformedKey with
          | some (_ :: _) => ⟨⟨[fs], fs, .error .type⟩, s', none⟩
          | _ =>
            let r := s'.save P o fs none none
            ⟨r.run, r.session, r.stream⟩

end Verif
