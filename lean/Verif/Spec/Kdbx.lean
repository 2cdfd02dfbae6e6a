import Verif.Props.C15_Keyfiles
import Verif.Props.C23_TwofishCbc
import Verif.Props.C24_PaddingAndBlocks
import Verif.Props.C25_ProtectedValues
import Verif.Props.C26_InnerHeader
import Verif.Props.C27_HeaderFields
import Verif.Props.C60_TwofishSpec
import Verif.Spec.Blocks
/-!
# Whole KDBX files as the format documentation prescribes them

Written independently of the reader and the writer, in terms of the layouts of headers (`Spec/Format.lean`), blocks
(`Spec/Blocks.lean`), inner headers (C26), protected values (C25), padding (C24), CBC (C23), key files (C15) and the
published Twofish cipher (C60). A file is a relation between credentials, header, content and bytes; used in C61.
-/
namespace Verif.Spec
open Verif Verif.Props

/-- A key derivation function with its parameters. -/
inductive Kdf where
  /-- AES-KDF: a 32-byte seed and a number of rounds -/
  | aes (seed : Bytes) (rounds : Nat)
  /-- Argon2d or Argon2id: salt, iterations, memory in KiB, lanes, version -/
  | argon2 (hybrid : Bool) (salt : Bytes) (iterations kib lanes version : Nat)
  deriving DecidableEq, Repr

/-- The entries of the parameter dictionary of KDBX4. The memory is given there in bytes. -/
def Kdf.params : Kdf → List (Str × Param)
  | .aes seed rounds =>
    [("$UUID".toList, .bytes [0xc9, 0xd9, 0xf3, 0x9a, 0x62, 0x8a, 0x44, 0x60, 0xbf, 0x74, 0x0d, 0x08, 0xc1, 0x8a,
       0x4f, 0xea]), ("R".toList, .u64 rounds), ("S".toList, .bytes seed)]
  | .argon2 hybrid salt iterations kib lanes version =>
    [("$UUID".toList, .bytes (if hybrid then [0x9e, 0x29, 0x8b, 0x19, 0x56, 0xdb, 0x47, 0x73, 0xb2, 0x3d, 0xfc, 0x3e,
       0xc6, 0xf0, 0xa1, 0xe6] else [0xef, 0x63, 0x6d, 0xdf, 0x8c, 0x29, 0x44, 0x4b, 0x91, 0xf7, 0xa9, 0xa4, 0x03,
       0xe3, 0x0a, 0x0c])), ("S".toList, .bytes salt), ("I".toList, .u64 iterations),
     ("M".toList, .u64 (1024 * kib)), ("P".toList, .u32 lanes), ("V".toList, .u32 version)]

/-- The dictionary holds the parameters, in any order and possibly among others, and no key twice. -/
def Kdf.In (es : List (Str × Param)) (k : Kdf) : Prop := (es.map Prod.fst).Nodup ∧ ∀ e ∈ k.params, e ∈ es

/-- What the function derives from the composite key. -/
inductive Kdf.Derives (P : Prims) : Kdf → Bytes → Bytes → Prop where
  | aes (seed comp : Bytes) (rounds : Nat) (h : seed.length = 32) :
      Derives P (.aes seed rounds) comp (P.sha256 (Nat.repeat (P.aesEcb seed) rounds comp))
  | argon2 (hybrid : Bool) (salt comp tk : Bytes) (iterations kib lanes version : Nat)
      (h : P.argon2 hybrid comp salt iterations kib lanes version = .ok tk) :
      Derives P (.argon2 hybrid salt iterations kib lanes version) comp tk

/-- The settings the outer header carries in both versions. -/
structure Settings where
  cipher : CipherId
  zip : Bool
  seed : Bytes
  iv : Bytes
  kdf : Kdf

/-- The fields both versions use. Every id occurs once. -/
structure Settings.InAny (s : Settings) (fs : List Field) : Prop where
  once : (fs.map Field.idByte).Nodup
  cipher : .cipher s.cipher ∈ fs
  zip : ∃ flags, .compression flags ∈ fs ∧ (s.zip = true ↔ flags % 2 = 1)
  seed : .masterSeed s.seed ∈ fs
  iv : .encryptionIv s.iv ∈ fs
  size : s.iv.length = if s.cipher = .chacha20 then 12 else 16

/-- KDBX4: the key derivation function is described by the dictionary. -/
structure Settings.In4 (s : Settings) (fs : List Field) : Prop extends s.InAny fs where
  kdf : ∃ v es, .kdf v es ∈ fs ∧ s.kdf.In es

/-- KDBX3: always AES-KDF; the start bytes and the inner stream are in the outer header too. -/
structure Settings.In3 (s : Settings) (start : Bytes) (sid : StreamId) (key : Bytes) (fs : List Field) : Prop
    extends s.InAny fs where
  kdf : ∃ seed rounds, s.kdf = .aes seed rounds ∧ .transformSeed seed ∈ fs ∧ .transformRounds rounds ∈ fs
  startSize : start.length = 32
  hasStart : .streamStart start ∈ fs
  hasId : .streamId sid ∈ fs
  hasKey : .streamKey key ∈ fs

/-- The payload, compressed when the header says so. -/
def Packed (P : Prims) (zip : Bool) (plain packed : Bytes) : Prop :=
  if zip then P.gunzip packed = .ok plain else packed = plain

/-- The encrypted payload: AES and Twofish in CBC mode on padded data, ChaCha20 as a stream. -/
inductive Encrypts (P : Prims) (key iv : Bytes) : CipherId → Bytes → Bytes → Prop where
  | aes (d p : Bytes) (h : IsPadded d p) : Encrypts P key iv .aes256 d (P.aesEnc key iv p)
  | twofish (d p : Bytes) (h : IsPadded d p) : Encrypts P key iv .twofish d
      (cbcSpec (fun b => (published key b).map UInt8.ofNat) iv (pieces p)).flatten
  | chacha20 (d : Bytes) : Encrypts P key iv .chacha20 d (xorBytes d (segment (P.chacha20 key iv) 0 d.length))

/-- Key of the MAC of block `i`; the header is authenticated with the key of the last number. -/
def macKey (P : Prims) (seed tk : Bytes) (i : Nat) : Bytes :=
  P.sha512 (leBytes 8 i ++ P.sha512 (seed ++ tk ++ [1]))

/-- The key stream that hides protected values. -/
inductive Keystream (P : Prims) (key : Bytes) : StreamId → (Nat → UInt8) → Prop where
  | salsa20 : Keystream P key .salsa20 (P.salsa20 (P.sha256 key) [0xE8, 0x30, 0x09, 0x4B, 0x97, 0x20, 0x5D, 0x2A])
  | chacha20 : Keystream P key .chacha20 (P.chacha20 ((P.sha512 key).take 32) (((P.sha512 key).drop 32).take 12))

/-- `stored` is the tree with protected values hidden. -/
def Hides (ks : Nat → UInt8) (tree stored : Xml) : Prop :=
  skeleton stored = skeleton tree ∧ protectedTexts stored = written ks 0 (protectedTexts tree)

/-- `tree` is what a reader makes of the stored tree. -/
def Reveals (ks : Nat → UInt8) (stored tree : Xml) : Prop :=
  skeleton tree = skeleton stored ∧ protectedTexts tree = readBack ks 0 (protectedTexts stored)

/-- A KDBX4 file: header, its hash, its MAC, blocks with MACs. -/
def IsFile4 (P : Prims) (pw : Option Str) (kf : Option Bytes) (minor : Nat) (fs : List Field) (fin : Bytes)
    (s : Settings) (inner : List InnerField) (innerFin text file : Bytes) : Prop :=
  HeaderOk 4 minor fs fin ∧ s.In4 fs ∧ (∀ f ∈ inner, f.data.length < 2 ^ 32) ∧ innerFin.length < 2 ^ 32 ∧
  ∃ tk packed enc blocks,
    s.kdf.Derives P (composite P pw kf) tk ∧
    Packed P s.zip (innerLayout inner innerFin ++ text) packed ∧
    Encrypts P (P.sha256 (s.seed ++ tk)) s.iv s.cipher packed enc ∧
    Terminated blocks ∧ blocks.length ≤ 2 ^ 64 ∧ (∀ b ∈ blocks, b.length < 2 ^ 32) ∧ blocks.flatten = enc ∧
    file = headerLayout 4 minor fs fin ++ (P.sha256 (headerLayout 4 minor fs fin) ++
      (P.hmac256 (macKey P s.seed tk (2 ^ 64 - 1)) (headerLayout 4 minor fs fin) ++
        stream4 (fun i d => P.hmac256 (macKey P s.seed tk i) (leBytes 8 i ++ (leBytes 4 d.length ++ d))) 0 blocks))

/-- A KDBX3 file: header, then encrypted the start bytes and the blocks with hashes. -/
def IsFile3 (P : Prims) (pw : Option Str) (kf : Option Bytes) (minor : Nat) (fs : List Field) (fin : Bytes)
    (s : Settings) (start : Bytes) (sid : StreamId) (key text file : Bytes) : Prop :=
  HeaderOk 3 minor fs fin ∧ s.In3 start sid key fs ∧
  ∃ tk packed enc blocks,
    s.kdf.Derives P (composite P pw kf) tk ∧
    Packed P s.zip text packed ∧
    Terminated blocks ∧ blocks.length ≤ 2 ^ 32 ∧ (∀ b ∈ blocks, b.length < 2 ^ 32) ∧ blocks.flatten = packed ∧
    Encrypts P (P.sha256 (s.seed ++ tk)) s.iv s.cipher (start ++ stream3 P.sha256 0 blocks) enc ∧
    file = headerLayout 3 minor fs fin ++ enc

/-- The key a key file contributes: one of the four formats, or the hash of any other file. -/
def KeyOf (P : Prims) (b k : Bytes) : Prop :=
  Encodes P b k ∨ (NotXml P b ∧ b.length ≠ 32 ∧ (b.length ≠ 64 ∨
    ∃ x ∈ b, isHexByte x = false ∧ isSpaceByte x = false ∧ x ∉ ([95, 43, 45, 120, 88] : Bytes)) ∧ k = P.sha256 b)

/-- The arguments `password` and `keyfile` stand for this password and this key. -/
def Stand (P : Prims) (c : Creds) (pw : Option Str) (kf : Option Bytes) : Prop :=
  c.password = pw ∧ c.transformedKey = none ∧
    match kf with
    | none => c.keyfile = .none
    | some k => ∃ b, (c.keyfile = .path (some b) ∨ ∃ pos, c.keyfile = .stream true b pos) ∧ KeyOf P b k

end Verif.Spec
