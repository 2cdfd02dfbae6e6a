import Verif.Tree.Xml
import Verif.Twofish.Cbc
/-!
# External primitives

C libraries the repository calls.  They are parameters of the model; the only facts used about them
are the fields of `Prims.Lawful` (an explicit hypothesis of the theorems that need it; an instance
is given in `Verif/Kdbx/Toy.lean`).  Argument checks that raise in Python are made by the
model at the call site, so these functions are only called on arguments the libraries accept.
-/
namespace Verif

/-- Functions of hashlib, hmac, Cryptodome, argon2, zlib and lxml. -/
structure Prims where
  /-- `hashlib.sha256(x).digest()` -/
  sha256 : Bytes → Bytes
  /-- `hashlib.sha512(x).digest()` -/
  sha512 : Bytes → Bytes
  /-- `hmac.new(key, msg, hashlib.sha256).digest()` -/
  hmac256 : Bytes → Bytes → Bytes
  /-- `AES.new(key, AES.MODE_ECB).encrypt(data)` -/
  aesEcb : Bytes → Bytes → Bytes
  /-- `AES.new(key, AES.MODE_CBC, iv).encrypt(data)` -/
  aesEnc : Bytes → Bytes → Bytes → Bytes
  /-- `AES.new(key, AES.MODE_CBC, iv).decrypt(data)` -/
  aesDec : Bytes → Bytes → Bytes → Bytes
  /-- key stream of `ChaCha20.new(key, nonce)` -/
  chacha20 : Bytes → Bytes → Nat → UInt8
  /-- key stream of `Salsa20.new(key, nonce)` -/
  salsa20 : Bytes → Bytes → Nat → UInt8
  /-- `argon2.low_level.hash_secret_raw(secret, salt, t, m, p, hash_len=32, type, version)`;
  the Boolean is `type == Type.ID` -/
  argon2 : Bool → Bytes → Bytes → Int → Int → Int → Int → Except PyErr Bytes
  /-- the gzip compressor at common.py:375-385 -/
  gzip : Bytes → Bytes
  /-- `zlib.decompress(data, 16 + 15)`, common.py:373 -/
  gunzip : Bytes → Except PyErr Bytes
  /-- `etree.tostring(tree)`, common.py:202 -/
  xmlSer : Xml → Bytes
  /-- `etree.parse(io.BytesIO(data), XMLParser(remove_blank_text=True))`, common.py:198-199 -/
  xmlParse : Bytes → Except PyErr Xml
  /-- `etree.fromstring(data)` of a key file, common.py:139 -/
  xmlFromString : Bytes → Except PyErr Xml

/-- Key sizes AES accepts. -/
def AesKeyLen (k : Bytes) : Prop := k.length = 16 ∨ k.length = 24 ∨ k.length = 32

instance (k : Bytes) : Decidable (AesKeyLen k) := inferInstanceAs (Decidable (_ ∨ _ ∨ _))

/-- What the theorems assume about the libraries. -/
structure Prims.Lawful (P : Prims) : Prop where
  sha256_length : ∀ x, (P.sha256 x).length = 32
  sha512_length : ∀ x, (P.sha512 x).length = 64
  hmac256_length : ∀ k x, (P.hmac256 k x).length = 32
  aesEnc_length : ∀ k iv d, AesKeyLen k → iv.length = 16 → d.length % 16 = 0 →
    (P.aesEnc k iv d).length = d.length
  aesDec_length : ∀ k iv d, AesKeyLen k → iv.length = 16 → d.length % 16 = 0 →
    (P.aesDec k iv d).length = d.length
  aes_inverse : ∀ k iv d, AesKeyLen k → iv.length = 16 → d.length % 16 = 0 →
    P.aesDec k iv (P.aesEnc k iv d) = d
  gzip_inverse : ∀ d, P.gunzip (P.gzip d) = .ok d
  xml_inverse : ∀ t, t.Valid → P.xmlParse (P.xmlSer t) = .ok t.norm

/-- XOR with the key stream from offset `o` on (`cipher.encrypt` / `cipher.decrypt` of a stream
cipher object that has already processed `o` bytes). -/
def ksXor (ks : Nat → UInt8) : Nat → Bytes → Bytes
  | _, [] => []
  | o, b :: bs => (b ^^^ ks o) :: ksXor ks (o + 1) bs

@[simp] theorem ksXor_length (ks : Nat → UInt8) (o : Nat) (b : Bytes) :
    (ksXor ks o b).length = b.length := by
  induction b generalizing o with
  | nil => rfl
  | cons x xs ih => simp [ksXor, ih]

theorem ksXor_ksXor (ks : Nat → UInt8) (o : Nat) (b : Bytes) : ksXor ks o (ksXor ks o b) = b := by
  induction b generalizing o with
  | nil => rfl
  | cons x xs ih =>
    simp only [ksXor, ih]
    rw [UInt8.xor_assoc, UInt8.xor_self, UInt8.xor_zero]

end Verif
