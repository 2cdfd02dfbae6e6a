import Verif.Kdbx.File
/-!
# What an open database reports about its header: `pykeepass.py:184-244`
-/
namespace Verif
namespace Kdbx

/-- `version`, pykeepass.py:185-191. -/
def version (k : Kdbx) : Nat × Nat := (k.header.value.major, k.header.value.minor)

/-- `header.value.dynamic_header`, an attribute access on `None` when there is none. -/
def dynamicHeader (k : Kdbx) : Except PyErr DynHeader :=
  match k.header.value.dyn with
  | some d => .ok d
  | none => .error .attribute

/-- The strings of `CipherId`, common.py:392-398. -/
def cipherName : CipherId → String
  | .aes256 => "aes256" | .twofish => "twofish" | .chacha20 => "chacha20"

/-- `encryption_algorithm`, pykeepass.py:194-197. -/
def encryptionAlgorithm (k : Kdbx) : Except PyErr String := do
  let d ← k.dynamicHeader
  match d.get .cipherId with
  | some (.cipher c) => return cipherName c
  | some _ => throw .type -- not produced by the header parser
  | none => throw .attribute

/-- `kdf_algorithm`, pykeepass.py:200-212; `none` is falling off the end. -/
def kdfAlgorithm (k : Kdbx) : Except PyErr (Option String) := do
  if k.version = (3, 1) then return some "aeskdf"
  else if k.version = (4, 0) then do
    let d ← k.dynamicHeader
    let ps ← d.kdf
    let u ← ps.get "$UUID"
    if u = .bytes uuidArgon2 then return some "argon2"
    else if u = .bytes uuidArgon2id then return some "argon2id"
    else if u = .bytes uuidAesKdf then return some "aeskdf"
    else return none
  else return none

/-- `database_salt`, pykeepass.py:221-229. -/
def databaseSalt (k : Kdbx) : Except PyErr VVal := do
  let d ← k.dynamicHeader
  if k.version = (3, 1) then do
    let s ← d.raw .transformSeed
    return .bytes s
  else do
    let ps ← d.kdf
    ps.get "S"

/-- `payload`, pykeepass.py:232-239 (`body` is `None` for an unknown major version). -/
def payload (k : Kdbx) : Except PyErr Payload :=
  match k.body with
  | none => .error .attribute
  | some b =>
    match b.payload with
    | none => .error .value
    | some p => .ok p

/-- `tree`, pykeepass.py:242-244. -/
def tree (k : Kdbx) : Except PyErr Xml := k.payload.map (·.xml)

end Kdbx
end Verif
