import Verif.Spec.Created
import Verif.Spec.Format
/-!
# The blank database that comes with the package

Its header is data of the package and is copied here; the rest of the file is encrypted.
-/
namespace Verif.Spec
open Verif Api

/-- The header of `/repo/pykeepass/blank_database.kdbx`, bytes 0 to 252 of the file, copied. -/
def shippedHeader : Bytes :=
  [0x03, 0xd9, 0xa2, 0x9a, 0x67, 0xfb, 0x4b, 0xb5, 0x00, 0x00, 0x04, 0x00, 0x02, 0x10, 0x00, 0x00,
   0x00, 0x31, 0xc1, 0xf2, 0xe6, 0xbf, 0x71, 0x43, 0x50, 0xbe, 0x58, 0x05, 0x21, 0x6a, 0xfc, 0x5a,
   0xff, 0x03, 0x04, 0x00, 0x00, 0x00, 0x01, 0x00, 0x00, 0x00, 0x04, 0x20, 0x00, 0x00, 0x00, 0xb5,
   0x21, 0x78, 0xa7, 0x34, 0xd0, 0xb5, 0x77, 0x42, 0x36, 0x79, 0xd0, 0x2a, 0xb3, 0x7d, 0xd1, 0x7c,
   0xb6, 0x78, 0x18, 0x61, 0xd2, 0x16, 0xc7, 0xd3, 0x2d, 0x52, 0xc3, 0x54, 0xab, 0x21, 0x23, 0x07,
   0x10, 0x00, 0x00, 0x00, 0x90, 0xba, 0x37, 0x50, 0x28, 0x15, 0x56, 0xcb, 0x96, 0xfe, 0xa4, 0xc4,
   0x35, 0x45, 0xa9, 0x76, 0x0b, 0x8b, 0x00, 0x00, 0x00, 0x00, 0x01, 0x42, 0x05, 0x00, 0x00, 0x00,
   0x24, 0x55, 0x55, 0x49, 0x44, 0x10, 0x00, 0x00, 0x00, 0xef, 0x63, 0x6d, 0xdf, 0x8c, 0x29, 0x44,
   0x4b, 0x91, 0xf7, 0xa9, 0xa4, 0x03, 0xe3, 0x0a, 0x0c, 0x05, 0x01, 0x00, 0x00, 0x00, 0x49, 0x08,
   0x00, 0x00, 0x00, 0x0e, 0x00, 0x00, 0x00, 0x00, 0x00, 0x00, 0x00, 0x05, 0x01, 0x00, 0x00, 0x00,
   0x4d, 0x08, 0x00, 0x00, 0x00, 0x00, 0x00, 0x00, 0x04, 0x00, 0x00, 0x00, 0x00, 0x04, 0x01, 0x00,
   0x00, 0x00, 0x50, 0x04, 0x00, 0x00, 0x00, 0x02, 0x00, 0x00, 0x00, 0x42, 0x01, 0x00, 0x00, 0x00,
   0x53, 0x20, 0x00, 0x00, 0x00, 0x78, 0x39, 0xe8, 0x65, 0x43, 0xe0, 0x44, 0x9b, 0x3d, 0x6c, 0xc4,
   0x6b, 0x95, 0xb4, 0xbb, 0xab, 0x7d, 0x51, 0x9c, 0x7e, 0xb0, 0x1d, 0x9c, 0xf5, 0x9d, 0x64, 0xd8,
   0x2f, 0x6a, 0xb1, 0xa1, 0x5f, 0x04, 0x01, 0x00, 0x00, 0x00, 0x56, 0x04, 0x00, 0x00, 0x00, 0x13,
   0x00, 0x00, 0x00, 0x00, 0x00, 0x04, 0x00, 0x00, 0x00, 0x0d, 0x0a, 0x0d, 0x0a]

/-- The master seed in it. -/
def shippedSeed : Bytes :=
  [0xb5, 0x21, 0x78, 0xa7, 0x34, 0xd0, 0xb5, 0x77, 0x42, 0x36, 0x79, 0xd0, 0x2a, 0xb3, 0x7d, 0xd1,
   0x7c, 0xb6, 0x78, 0x18, 0x61, 0xd2, 0x16, 0xc7, 0xd3, 0x2d, 0x52, 0xc3, 0x54, 0xab, 0x21, 0x23]

/-- The initialisation vector in it. -/
def shippedIv : Bytes :=
  [0x90, 0xba, 0x37, 0x50, 0x28, 0x15, 0x56, 0xcb, 0x96, 0xfe, 0xa4, 0xc4, 0x35, 0x45, 0xa9, 0x76]

/-- The salt for the key derivation in it. -/
def shippedSalt : Bytes :=
  [0x78, 0x39, 0xe8, 0x65, 0x43, 0xe0, 0x44, 0x9b, 0x3d, 0x6c, 0xc4, 0x6b, 0x95, 0xb4, 0xbb, 0xab,
   0x7d, 0x51, 0x9c, 0x7e, 0xb0, 0x1d, 0x9c, 0xf5, 0x9d, 0x64, 0xd8, 0x2f, 0x6a, 0xb1, 0xa1, 0x5f]

/-- What the header says: AES, compressed, Argon2d with 14 passes over 64 MiB in 2 lanes. -/
def shippedFields : List Field :=
  [.cipher .aes256, .compression 1, .masterSeed shippedSeed, .encryptionIv shippedIv,
   .kdf [0x00, 0x01] [
    ("$UUID".toList, .bytes
      [0xef, 0x63, 0x6d, 0xdf, 0x8c, 0x29, 0x44, 0x4b, 0x91, 0xf7, 0xa9, 0xa4, 0x03, 0xe3, 0x0a, 0x0c]),
    ("I".toList, .u64 14), ("M".toList, .u64 (64 * 1024 * 1024)), ("P".toList, .u32 2), ("S".toList, .bytes shippedSalt),
    ("V".toList, .u32 0x13)]]

/-- The blank database of the package is in its place and opens as `k` with tree `x`, which has the element for the date of the change of
the master key. -/
structure Shipped (P : Prims) (fs : Fs) (blank : Str) (k : Kdbx) (x : Xml) : Prop where
  named : blank ≠ []
  file : ∃ r, fs (PPath.ofStr blank) = some (shippedHeader ++ r) ∧ openBytes P blankCreds true (shippedHeader ++ r) = .ok k
  tree : k.tree = .ok x
  root : x.tag = "KeePassFile".toList
  tidy : TidyXml x
  date : ∀ s, k.load 0 0 = .ok s → metaEls s.heap "MasterKeyChanged".toList ≠ []

end Verif.Spec
