import Verif.Kdbx.Prims
import Verif.Kdbx.Header
import Verif.Base.Base64
/-!
# Key derivation: `common.py:106-188`, `kdbx3.py:55-71`, `kdbx4.py:63-98`
-/
namespace Verif

/-- The `keyfile` argument. `path` carries the content of the file it names (`none`: it cannot be
opened); an empty path is falsy in Python and is `Keyfile.none`. A stream carries its content and
read position. -/
inductive Keyfile where
  | none
  | path (content : Option Bytes)
  | stream (seekable : Bool) (content : Bytes) (pos : Nat)
  deriving DecidableEq, Repr

/-- The keyword arguments `KDBX.parse_stream` / `KDBX.build` receive (pykeepass.py:99-113,159-178). -/
structure Creds where
  password : Option Str
  keyfile : Keyfile
  transformedKey : Option Bytes
  deriving DecidableEq, Repr

/-- Reading the key file, common.py:130-136; returns the bytes and the stream as left behind. -/
def Keyfile.read : Keyfile → Except PyErr Bytes × Keyfile
  | .none => (.ok [], .none)
  | .path Option.none => (.error .os, .path Option.none)
  | .path (some c) => (.ok c, .path (some c))
  | .stream true c _ => (.ok c, .stream true c c.length)
  | .stream false c pos => (.ok (c.drop pos), .stream false c (max pos c.length))

/-- The plain key file branch, common.py:155-171. -/
def plainKeyfile (P : Prims) (b : Bytes) : Except PyErr Bytes :=
  let isHex := intHexOk b
  if b.length = 32 then .ok b
  else if b.length = 64 ∧ isHex = true then
    match unhexlify b with
    | .ok k => .ok k
    | .error _ => .error .os
  else .ok (P.sha256 b)

/-- The XML branch, common.py:139-152, with the exception it leaves by. -/
def xmlKeyfile (P : Prims) (b : Bytes) : Except PyErr Bytes := do
  let tree ← P.xmlFromString b
  let versionElem ← match tree.findPath ["Meta".toList, "Version".toList] with
    | some e => pure e
    | Option.none => throw .attribute
  let dataElem := tree.findPath ["Key".toList, "Data".toList]
  let version ← match versionElem.text with
    | some v => pure v
    | Option.none => throw .attribute
  if "1.0".toList.isPrefixOf version then
    match dataElem with
    | Option.none => throw .attribute
    | some d => match d.text with
      | Option.none => throw .type
      | some t => b64decode t
  else if "2.0".toList.isPrefixOf version then
    match dataElem with
    | Option.none => throw .attribute
    | some d => match d.text with
      | Option.none => throw .attribute
      | some t => do
        let key ← fromHex (pyStrip t)
        match d.attr "Hash".toList with
        | Option.none => throw .key
        | some h => do
          let hash ← fromHex h
          if hash = (P.sha256 key).take 4 then pure key else throw .assertion
  else throw .attribute

/-- The bytes of a key file to the key it contributes, common.py:137-171. -/
def keyfileComposite (P : Prims) (b : Bytes) : Except PyErr Bytes :=
  match xmlKeyfile P b with
  | .ok k => .ok k
  | .error .xmlSyntax => plainKeyfile P b
  | .error .unicodeDecode => plainKeyfile P b
  | .error .attribute => plainKeyfile P b
  | .error e => .error e

/-- The password's contribution, common.py:124-127. -/
def passwordComposite (P : Prims) : Option Str → Bytes
  | some p => P.sha256 (utf8Enc p)
  | Option.none => []

/-- `compute_key_composite`, common.py:119-177. -/
def computeKeyComposite (P : Prims) (password : Option Str) (kf : Keyfile) :
    Except PyErr Bytes × Keyfile :=
  match kf with
  | .none => (.ok (P.sha256 (passwordComposite P password ++ [])), .none)
  | _ =>
    match kf.read with
    | (.error e, kf') => (.error e, kf')
    | (.ok b, kf') =>
      match keyfileComposite P b with
      | .error e => (.error e, kf')
      | .ok k => (.ok (P.sha256 (passwordComposite P password ++ k)), kf')

/-- The loop common.py:112-114. -/
def iterEcb (P : Prims) (key : Bytes) : Nat → Bytes → Bytes
  | 0, x => x
  | n + 1, x => iterEcb P key n (P.aesEcb key x)

/-- `aes_kdf`, common.py:106-116. The data is always a 32-byte hash, so only the key size can be
refused. -/
def aesKdf (P : Prims) (key : Bytes) (rounds : Nat) (composite : Bytes) : Except PyErr Bytes :=
  if AesKeyLen key then .ok (P.sha256 (iterEcb P key rounds composite)) else .error .value

/-- `header.value.dynamic_header.<id>.data` of a bytes field by attribute access. -/
def DynHeader.raw (h : DynHeader) (i : HId) : Except PyErr Bytes :=
  match h.get i with
  | some (.raw b) => .ok b
  | some _ => .error .type
  | Option.none => .error .attribute

/-- `header.value.dynamic_header.transform_rounds.data`. -/
def DynHeader.rounds (h : DynHeader) : Except PyErr Nat :=
  match h.get .transformRounds with
  | some (.rounds n) => .ok n
  | some _ => .error .type
  | Option.none => .error .attribute

/-- `header.value.dynamic_header.kdf_parameters.data.dict`. -/
def DynHeader.kdf (h : DynHeader) : Except PyErr VDict :=
  match h.get .kdfParameters with
  | some (.dict d) => .ok d
  | some _ => .error .type
  | Option.none => .error .attribute

/-- `kdf_parameters[k].value`. -/
def VDict.get (d : VDict) (k : String) : Except PyErr VVal :=
  match dictGet d.items k.toList with
  | some v => .ok v
  | Option.none => .error .key

/-- Using a value as an integer (`bool` is a subclass of `int`). -/
def VVal.asInt : VVal → Except PyErr Int
  | .int v => .ok v
  | .bool b => .ok (if b then 1 else 0)
  | _ => .error .type

/-- Using a value as bytes. -/
def VVal.asBytes : VVal → Except PyErr Bytes
  | .bytes b => .ok b
  | _ => .error .type

/-- kdbx4.py:57 -/
def uuidArgon2 : Bytes := [0xef, 0x63, 0x6d, 0xdf, 0x8c, 0x29, 0x44, 0x4b, 0x91, 0xf7, 0xa9, 0xa4,
  0x03, 0xe3, 0x0a, 0x0c]
/-- kdbx4.py:58 -/
def uuidArgon2id : Bytes := [0x9e, 0x29, 0x8b, 0x19, 0x56, 0xdb, 0x47, 0x73, 0xb2, 0x3d, 0xfc, 0x3e,
  0xc6, 0xf0, 0xa1, 0xe6]
/-- kdbx4.py:59, kdbx3.py:51 -/
def uuidAesKdf : Bytes := [0xc9, 0xd9, 0xf3, 0x9a, 0x62, 0x8a, 0x44, 0x60, 0xbf, 0x74, 0x0d, 0x08,
  0xc1, 0x8a, 0x4f, 0xea]

/-- `compute_transformed` of KDBX3, kdbx3.py:55-71. -/
def computeTransformed3 (P : Prims) (c : Creds) (h : DynHeader) : Except PyErr Bytes × Keyfile :=
  match c.transformedKey with
  | some k => (.ok k, c.keyfile)
  | Option.none =>
    match computeKeyComposite P c.password c.keyfile with
    | (.error e, kf) => (.error e, kf)
    | (.ok comp, kf) =>
      (do
        let seed ← h.raw .transformSeed
        let rounds ← h.rounds
        aesKdf P seed rounds comp, kf)

/-- The Argon2 branch, kdbx4.py:75-84, in evaluation order. -/
def argon2Branch (P : Prims) (d : VDict) (comp : Bytes) : Except PyErr Bytes := do
  let salt ← d.get "S"
  let u ← d.get "$UUID"
  let t ← d.get "I"
  let m ← (← d.get "M").asInt
  let p ← d.get "P"
  let v ← d.get "V"
  P.argon2 (u == .bytes uuidArgon2id) comp (← salt.asBytes) (← t.asInt) (m / 1024) (← p.asInt)
    (← v.asInt)

/-- The AES-KDF branch, kdbx4.py:90-94. -/
def aesBranch (P : Prims) (d : VDict) (comp : Bytes) : Except PyErr Bytes := do
  let s ← d.get "S"
  let r ← d.get "R"
  let seed ← s.asBytes
  if ¬ AesKeyLen seed then throw .value
  let rounds ← r.asInt
  aesKdf P seed rounds.toNat comp

/-- `compute_transformed` of KDBX4, kdbx4.py:63-98: the composite key is computed first in every
case, and a second time (reading the key file again) for AES-KDF. -/
def computeTransformed4 (P : Prims) (c : Creds) (h : DynHeader) : Except PyErr Bytes × Keyfile :=
  match computeKeyComposite P c.password c.keyfile with
  | (.error e, kf) => (.error e, kf)
  | (.ok comp, kf) =>
    match h.kdf with
    | .error e => (.error e, kf)
    | .ok d =>
      match c.transformedKey with
      | some k => (.ok k, kf)
      | Option.none =>
        match d.get "$UUID" with
        | .error e => (.error e, kf)
        | .ok u =>
          if u = .bytes uuidArgon2 ∨ u = .bytes uuidArgon2id then (argon2Branch P d comp, kf)
          else if u = .bytes uuidAesKdf then
            match computeKeyComposite P c.password kf with
            | (.error e, kf2) => (.error e, kf2)
            | (.ok comp2, kf2) => (aesBranch P d comp2, kf2)
          else (.error .exception, kf)

/-- `compute_master`, common.py:180-188. -/
def computeMaster (P : Prims) (h : DynHeader) (transformed : Bytes) : Except PyErr Bytes := do
  let seed ← h.raw .masterSeed
  return P.sha256 (seed ++ transformed)

end Verif
