import Verif.Kdbx.Key
import Verif.Kdbx.Protect
import Verif.Kdbx.Inner
/-!
# Whole files: `KDBX` (kdbx.py:13-35), `Body` (kdbx3.py:184-198, kdbx4.py:286-312),
`UnpackedPayload` (kdbx3.py:158-179, kdbx4.py:272-281), and the error mapping of
`PyKeePass.read` (pykeepass.py:97-136)
-/
namespace Verif

/-- Decrypted payload: inner header (KDBX4 only) and XML tree. -/
structure Payload where
  inner : Option InnerHeader
  xml : Xml
  deriving DecidableEq, Repr

/-- `body`: the keys that were computed and the payload (`none` when `decrypt=False`). -/
structure Body where
  transformedKey : Bytes
  masterKey : Bytes
  payload : Option Payload
  deriving DecidableEq, Repr

/-- A parsed file (`self.kdbx`). `body` is `none` for an unknown major version. -/
structure Kdbx where
  header : Header
  body : Option Body
  deriving DecidableEq, Repr

/-- `dynamic_header.cipher_id.data` through a `this` path (`KeyError` when absent). -/
def DynHeader.cipher (h : DynHeader) : Except PyErr CipherId :=
  match h.get .cipherId with
  | some (.cipher c) => .ok c
  | some _ => .error .type
  | none => .error .key

/-- `dynamic_header.compression_flags.data.compression` through a `this` path. -/
def DynHeader.compressed (h : DynHeader) : Except PyErr Bool :=
  match h.get .compressionFlags with
  | some (.flag b) => .ok b
  | some _ => .error .type
  | none => .error .key

/-- `dynamic_header.protected_stream_id.data` through a `this` path (KDBX3). -/
def DynHeader.streamId (h : DynHeader) : Except PyErr StreamId :=
  match h.get .protectedStreamId with
  | some (.stream s) => .ok s
  | some _ => .error .type
  | none => .error .key

/-- `dynamic_header.protected_stream_key.data` through a `this` path (KDBX3). -/
def DynHeader.streamKey (h : DynHeader) : Except PyErr Bytes :=
  match h.get .protectedStreamKey with
  | some (.raw b) => .ok b
  | some _ => .error .type
  | none => .error .key

/-- Salsa20 nonce, common.py:260. -/
def salsaNonce : Bytes := [0xE8, 0x30, 0x09, 0x4B, 0x97, 0x20, 0x5D, 0x2A]

/-- Selecting the stream cipher, common.py:249-286: `none` means the default branch (no
protection). `key` is only evaluated when a cipher is selected. -/
def innerStream (P : Prims) (s : StreamId) (key : Except PyErr Bytes) :
    Except PyErr (Option (Nat → UInt8)) :=
  match s with
  | .none => .ok none
  | .arcfourvariant => do
    let _ ← key
    throw .exception
  | .salsa20 => do
    let k ← key
    return some (P.salsa20 (P.sha256 k) salsaNonce)
  | .chacha20 => do
    let k ← key
    let h := P.sha512 k
    return some (P.chacha20 (h.take 32) ((h.drop 32).take 12))

/-- `Unprotect(..., XML(...))` on reading: parse the XML, then decrypt the protected values. -/
def readXml (P : Prims) (s : StreamId) (key : Except PyErr Bytes) (d : Bytes) :
    Except PyErr Xml := do
  let t ← P.xmlParse d
  match ← innerStream P s key with
  | none => return t
  | some ks => return unprotect ks t

/-- `Unprotect(..., XML(...))` on writing. -/
def writeXml (P : Prims) (s : StreamId) (key : Except PyErr Bytes) (t : Xml) :
    Except PyErr Bytes := do
  match ← innerStream P s key with
  | none => return P.xmlSer t
  | some ks => return P.xmlSer (protect ks t)

/-- `Decompressed(...)` when the flag is set, common.py:372-373 with kdbx3.py:171-175 and
kdbx4.py:305-309. -/
def decompress (P : Prims) (z : Bool) (d : Bytes) : Except PyErr Bytes :=
  if z then P.gunzip d else .ok d

/-- `Decompressed(...)` on writing, common.py:375-385. -/
def compress (P : Prims) (z : Bool) (d : Bytes) : Bytes := if z then P.gzip d else d

/-- `UnpackedPayload` of KDBX3 on the decrypted bytes, kdbx3.py:158-179. Trailing bytes after the
block terminator are not read. -/
def unpack3 (P : Prims) (h : DynHeader) (d : Bytes) : Except PyErr Payload := do
  let (start, r) ← Parser.bytes 32 d
  let expected ← h.raw .streamStartBytes
  if start ≠ expected then throw (.checksum "(parsing) -> cred_check")
  else do
    let sid ← h.streamId
    let z ← h.compressed
    let (blocks, _) ← Parser.blocks3 P r
    let plain ← decompress P z (concatBlocks blocks)
    let xml ← readXml P sid h.streamKey plain
    return { inner := none, xml := xml }

/-- Building `UnpackedPayload` of KDBX3. `none` is the payload of a database opened without
decrypting: `stream_start_bytes` is written, then looking up `xml` raises. -/
def pack3 (P : Prims) (h : DynHeader) (p : Option Payload) : Except PyErr Bytes := do
  let expected ← h.raw .streamStartBytes
  if expected.length ≠ 32 then throw .stream
  else
    match p with
    | none => throw .key
    | some p => do
      let sid ← h.streamId
      let x ← writeXml P sid h.streamKey p.xml
      let z ← h.compressed
      let blocks ← buildBlocks3 P (splitBlocks (compress P z x))
      return expected ++ blocks

/-- A step of a struct that does not touch the stream. -/
def Parser.lift {α} (e : Except PyErr α) : Parser α := fun s => e.map (·, s)

/-- `Body` of KDBX3 after the transformed key has been computed, kdbx3.py:184-198. -/
def body3 (P : Prims) (h : DynHeader) (tk : Bytes) (decrypt : Bool) : Parser Body := do
  let mk ← Parser.lift (computeMaster P h tk)
  if decrypt then do
    let c ← Parser.lift h.cipher
    let enc ← Parser.greedy
    let iv ← Parser.lift (h.raw .encryptionIv)
    let d ← Parser.lift (payloadDecrypt P c mk iv enc)
    let p ← Parser.lift (unpack3 P h d)
    return { transformedKey := tk, masterKey := mk, payload := some p }
  else return { transformedKey := tk, masterKey := mk, payload := none }

/-- `UnpackedPayload` of KDBX4 on the decrypted and decompressed bytes, kdbx4.py:272-281. -/
def unpack4 (P : Prims) (d : Bytes) : Except PyErr Payload := do
  let (inner, r) ← Parser.innerHeader d
  let sid ← inner.streamId
  let xml ← readXml P sid inner.streamKey r
  return { inner := some inner, xml := xml }

/-- Building `UnpackedPayload` of KDBX4. -/
def pack4 (P : Prims) (p : Option Payload) : Except PyErr Bytes := do
  match p with
  | none => throw .key
  | some p =>
    match p.inner with
    | none => throw .key
    | some inner => do
      let ih ← buildInner inner
      let sid ← inner.streamId
      let x ← writeXml P sid inner.streamKey p.xml
      return ih ++ x

/-- `Body` of KDBX4 after the transformed key has been computed, kdbx4.py:286-312. `raw` are the
header bytes. -/
def body4 (P : Prims) (raw : Bytes) (h : DynHeader) (tk : Bytes) (decrypt : Bool) : Parser Body := do
  let mk ← Parser.lift (computeMaster P h tk)
  let sha ← Parser.bytes 32
  if sha ≠ P.sha256 raw then Parser.fail (.checksum "(parsing) -> body -> sha256")
  else if decrypt then do
    let seed ← Parser.lift (h.raw .masterSeed)
    let base := hmacBase P seed tk
    let hm ← Parser.bytes 32
    if hm ≠ headerHmac P base raw then Parser.fail (.checksum "(parsing) -> body -> cred_check")
    else do
      let z ← Parser.lift h.compressed
      let c ← Parser.lift h.cipher
      let blocks ← Parser.blocks4 P base
      let iv ← Parser.lift (h.raw .encryptionIv)
      let d ← Parser.lift (payloadDecrypt P c mk iv (concatBlocks blocks))
      let plain ← Parser.lift (decompress P z d)
      let p ← Parser.lift (unpack4 P plain)
      return { transformedKey := tk, masterKey := mk, payload := some p }
  else return { transformedKey := tk, masterKey := mk, payload := none }

/-- `KDBX.parse_stream(..., password, keyfile, transformed_key, decrypt)`, kdbx.py:13-35: the parsed
file and the bytes not consumed; the key file as left behind. -/
def parseKdbx (P : Prims) (c : Creds) (decrypt : Bool) (s : Bytes) :
    Except PyErr (Kdbx × Bytes) × Keyfile :=
  match Parser.header "(parsing)" s with
  | .error e => (.error e, c.keyfile)
  | .ok (h, r) =>
    match h.value.dyn with
    | none => (.ok ({ header := h, body := none }, r), c.keyfile)
    | some d =>
      if h.value.major = 3 then
        match computeTransformed3 P c d with
        | (.error e, kf) => (.error e, kf)
        | (.ok tk, kf) =>
          ((body3 P d tk decrypt r).map fun x => ({ header := h, body := some x.1 }, x.2), kf)
      else
        match computeTransformed4 P c d with
        | (.error e, kf) => (.error e, kf)
        | (.ok tk, kf) =>
          ((body4 P h.data d tk decrypt r).map fun x => ({ header := h, body := some x.1 }, x.2), kf)

/-- Building `Body` of KDBX3 (`decrypt=True`, pykeepass.py:164, 177). -/
def buildBody3 (P : Prims) (h : DynHeader) (tk : Bytes) (p : Option Payload) :
    Except PyErr Bytes := do
  let mk ← computeMaster P h tk
  let d ← pack3 P h p
  let c ← h.cipher
  let iv ← h.raw .encryptionIv
  payloadEncrypt P c mk iv d

/-- Building `Body` of KDBX4 (`decrypt=True`). -/
def buildBody4 (P : Prims) (raw : Bytes) (h : DynHeader) (tk : Bytes) (p : Option Payload) :
    Except PyErr Bytes := do
  let mk ← computeMaster P h tk
  let seed ← h.raw .masterSeed
  let base := hmacBase P seed tk
  let d ← pack4 P p
  let z ← h.compressed
  let c ← h.cipher
  let iv ← h.raw .encryptionIv
  let enc ← payloadEncrypt P c mk iv (compress P z d)
  let blocks ← buildBlocks4 P base (splitBlocks enc)
  return P.sha256 raw ++ headerHmac P base raw ++ blocks

/-- `KDBX.build(kdbx, password, keyfile, transformed_key, decrypt=True)`: `RawCopy` writes the kept
header bytes (kdbx.py:14), the keys are computed again. -/
def buildKdbx (P : Prims) (c : Creds) (k : Kdbx) : Except PyErr Bytes × Keyfile :=
  match k.header.value.dyn, k.body with
  | some d, some b =>
    if k.header.value.major = 3 then
      match computeTransformed3 P c d with
      | (.error e, kf) => (.error e, kf)
      | (.ok tk, kf) => ((buildBody3 P d tk b.payload).map (k.header.data ++ ·), kf)
    else
      match computeTransformed4 P c d with
      | (.error e, kf) => (.error e, kf)
      | (.ok tk, kf) => ((buildBody4 P k.header.data d tk b.payload).map (k.header.data ++ ·), kf)
  | _, _ => (.ok k.header.data, c.keyfile)

/-- The exception translation of `PyKeePass.read`, pykeepass.py:115-136. -/
def readErr : PyErr → PyErr
  | .check path => if path = "(parsing) -> header -> sig_check" then .headerChecksum else .check path
  | .checksum path =>
    if path = "(parsing) -> body -> cred_check" ∨ path = "(parsing) -> cred_check" then .credentials
    else if path = "(parsing) -> body -> sha256" then .headerChecksum
    else if path = "(parsing) -> body -> payload -> hmac_hash" ∨
      path = "(parsing) -> xml -> block_hash" then .payloadChecksum
    else .checksum path
  | e => e

/-- What opening the bytes `s` gives: the database or the exception the caller sees. -/
def openBytes (P : Prims) (c : Creds) (decrypt : Bool) (s : Bytes) : Except PyErr Kdbx :=
  match (parseKdbx P c decrypt s).1 with
  | .ok (k, _) => .ok k
  | .error e => .error (readErr e)

/-! ## Basic lemmas -/

theorem exc_bind_ok {α β} {x : Except PyErr α} {f : α → Except PyErr β} {b : β} :
    (x >>= f) = .ok b ↔ ∃ a, x = .ok a ∧ f a = .ok b := by
  cases x with
  | error e => exact ⟨fun h => (by cases h), fun ⟨_, h, _⟩ => (by cases h)⟩
  | ok a => exact ⟨fun h => ⟨a, rfl, h⟩, fun ⟨_, h, h2⟩ => (by cases h; exact h2)⟩

theorem exc_bind_run {α β} {x : Except PyErr α} {f : α → Except PyErr β} {a : α} (h : x = .ok a) :
    (x >>= f) = f a := by rw [h]; rfl

theorem exc_pure_ok {α} {a b : α} : (pure a : Except PyErr α) = .ok b ↔ a = b :=
  ⟨fun h => by cases h; rfl, fun h => by rw [h]; rfl⟩

theorem exc_throw_ok {α} {e : PyErr} {b : α} : ¬ (throw e : Except PyErr α) = .ok b := by
  intro h; cases h

namespace Parser
theorem lift_ok {α} {e : Except PyErr α} {s r : Bytes} {a : α} :
    lift e s = .ok (a, r) ↔ e = .ok a ∧ s = r := by
  cases e with
  | error x =>
    constructor
    · intro h; cases h
    · rintro ⟨h, _⟩; cases h
  | ok y =>
    constructor
    · intro h; cases h; exact ⟨rfl, rfl⟩
    · rintro ⟨h, rfl⟩; cases h; rfl

theorem lift_run {α} {e : Except PyErr α} {a : α} (h : e = .ok a) (s : Bytes) :
    lift e s = .ok (a, s) := lift_ok.mpr ⟨h, rfl⟩

theorem local_lift {α} (e : Except PyErr α) : Local (lift e) := by
  intro s a r h
  obtain ⟨h1, rfl⟩ := lift_ok.mp h
  exact ⟨[], rfl, fun r' => lift_run h1 r'⟩
end Parser

end Verif
