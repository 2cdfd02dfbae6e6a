import Verif.Kdbx.Header
/-!
# Layout of KDBX headers as the format documentation prescribes it

Written independently of the parser: fields are typed, each field says which bytes it occupies.
Used as the specification in C27 and to lay out the example files.
-/
namespace Verif.Spec
open Verif

/-- A typed value of a KDF parameter dictionary. -/
inductive Param where
  | u32 (n : Nat) | u64 (n : Nat) | bool (b : Bool) | i32 (n : Int) | i64 (n : Int)
  | bytes (b : Bytes) | str (s : Str)
  deriving DecidableEq, Repr

/-- Two's complement little-endian. -/
def leInt (k : Nat) (n : Int) : Bytes := leBytes k (n % (256 ^ k : Nat)).toNat

namespace Param
def typeByte : Param → Nat
  | u32 _ => 0x04 | u64 _ => 0x05 | bool _ => 0x08 | i32 _ => 0x0C | i64 _ => 0x0D
  | str _ => 0x18 | bytes _ => 0x42
def layout : Param → Bytes
  | u32 n => leBytes 4 n | u64 n => leBytes 8 n | bool b => [if b then 1 else 0]
  | i32 n => leInt 4 n | i64 n => leInt 8 n | str s => utf8Enc s | bytes b => b
/-- The value fits its type. -/
def Fits : Param → Prop
  | u32 n => n < 2 ^ 32 | u64 n => n < 2 ^ 64 | bool _ => True
  | i32 n => -(2 ^ 31 : Int) ≤ n ∧ n < 2 ^ 31
  | i64 n => -(2 ^ 63 : Int) ≤ n ∧ n < 2 ^ 63
  | str s => (utf8Enc s).length < 2 ^ 32 | bytes b => b.length < 2 ^ 32
/-- The value a reader sees. -/
def value : Param → VVal
  | u32 n => .int n | u64 n => .int n | bool b => .bool b | i32 n => .int n | i64 n => .int n
  | str s => .str s | bytes b => .bytes b
end Param

/-- A length-prefixed string of bytes. -/
def lp (k : Nat) (b : Bytes) : Bytes := leBytes k b.length ++ b

/-- One dictionary entry. -/
def entryLayout (e : Str × Param) : Bytes :=
  leBytes 1 e.2.typeByte ++ (lp 4 (utf8Enc e.1) ++ lp 4 e.2.layout)

/-- A dictionary: version, entries, terminator. -/
def dictLayout (version : Bytes) (es : List (Str × Param)) : Bytes :=
  version ++ (es.flatMap entryLayout ++ [0])

/-- A header field of either version. -/
inductive Field where
  | comment (b : Bytes) | cipher (c : CipherId) | compression (flags : Nat) | masterSeed (b : Bytes)
  | encryptionIv (b : Bytes)
  -- KDBX3 only
  | transformSeed (b : Bytes) | transformRounds (n : Nat) | streamKey (b : Bytes)
  | streamStart (b : Bytes) | streamId (s : StreamId)
  -- KDBX4 only
  | kdf (version : Bytes) (es : List (Str × Param)) | publicCustomData (b : Bytes)
  deriving DecidableEq, Repr

namespace Field
def idByte : Field → Nat
  | comment _ => 1 | cipher _ => 2 | compression _ => 3 | masterSeed _ => 4 | transformSeed _ => 5
  | transformRounds _ => 6 | encryptionIv _ => 7 | streamKey _ => 8 | streamStart _ => 9
  | streamId _ => 10 | kdf _ _ => 11 | publicCustomData _ => 12
def layout : Field → Bytes
  | comment b => b | masterSeed b => b | transformSeed b => b | encryptionIv b => b
  | streamKey b => b | streamStart b => b | publicCustomData b => b
  | compression flags => leBytes 4 flags
  | transformRounds n => leBytes 8 n
  | cipher .aes256 => [0x31, 0xc1, 0xf2, 0xe6, 0xbf, 0x71, 0x43, 0x50, 0xbe, 0x58, 0x05, 0x21, 0x6a,
      0xfc, 0x5a, 0xff]
  | cipher .twofish => [0xad, 0x68, 0xf2, 0x9f, 0x57, 0x6f, 0x4b, 0xb9, 0xa3, 0x6a, 0xd4, 0x7a, 0xf9,
      0x65, 0x34, 0x6c]
  | cipher .chacha20 => [0xd6, 0x03, 0x8a, 0x2b, 0x8b, 0x6f, 0x4c, 0xb5, 0xa5, 0x24, 0x33, 0x9a,
      0x31, 0xdb, 0xb5, 0x9a]
  | streamId .none => leBytes 4 0 | streamId .arcfourvariant => leBytes 4 1
  | streamId .salsa20 => leBytes 4 2 | streamId .chacha20 => leBytes 4 3
  | kdf version es => dictLayout version es
/-- The field may occur in a header of major version `v`. -/
def In (v : Nat) : Field → Prop
  | transformSeed _ | transformRounds _ | streamKey _ | streamStart _ | streamId _ => v = 3
  | kdf _ _ | publicCustomData _ => v = 4
  | _ => True
/-- Typed contents fit. -/
def Fits : Field → Prop
  | transformRounds n => n < 2 ^ 64
  | compression flags => flags < 2 ^ 32
  | kdf version es => version.length = 2 ∧ es ≠ [] ∧
      ∀ e ∈ es, (utf8Enc e.1).length < 2 ^ 32 ∧ e.2.Fits
  | _ => True
/-- What a reader sees under which name. -/
def value : Field → HId × HVal
  | comment b => (.comment, .raw b) | masterSeed b => (.masterSeed, .raw b)
  | transformSeed b => (.transformSeed, .raw b) | encryptionIv b => (.encryptionIv, .raw b)
  | streamKey b => (.protectedStreamKey, .raw b) | streamStart b => (.streamStartBytes, .raw b)
  | publicCustomData b => (.publicCustomData, .raw b)
  -- bit 0 of the flags says whether the payload is compressed
  | compression flags => (.compressionFlags, .flag (flags % 2 == 1))
  | transformRounds n => (.transformRounds, .rounds n)
  | cipher c => (.cipherId, .cipher c) | streamId s => (.protectedStreamId, .stream s)
  | kdf version es => (.kdfParameters, .dict { version, items := es.map fun e => (e.1, e.2.value) })
end Field

/-- Width of the length field: two bytes in KDBX3, four in KDBX4. -/
def lenWidth (v : Nat) : Nat := if v = 3 then 2 else 4

/-- A field with its id and length. -/
def fieldLayout (v : Nat) (f : Field) : Bytes := leBytes 1 f.idByte ++ lp (lenWidth v) f.layout

/-- A whole header: signature, minor and major version, fields, end field. -/
def headerLayout (v minor : Nat) (fs : List Field) (fin : Bytes) : Bytes :=
  [0x03, 0xd9, 0xa2, 0x9a, 0x67, 0xfb, 0x4b, 0xb5] ++ (leBytes 2 minor ++ (leBytes 2 v ++
    (fs.flatMap (fieldLayout v) ++ (leBytes 1 0 ++ lp (lenWidth v) fin))))

/-- A header of version 3 or 4 whose fields belong to the version and fit. -/
structure HeaderOk (v minor : Nat) (fs : List Field) (fin : Bytes) : Prop where
  version : v = 3 ∨ v = 4
  minor : minor < 2 ^ 16
  field : ∀ f ∈ fs, f.In v ∧ f.Fits ∧ f.layout.length < 256 ^ lenWidth v
  fin : fin.length < 256 ^ lenWidth v

end Verif.Spec
