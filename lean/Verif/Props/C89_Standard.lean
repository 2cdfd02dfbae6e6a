import Verif.Crypto.Standard
import Verif.Props.C01_Kdbx4RoundTrip
import Verif.Props.C02_Kdbx3RoundTrip
/-!
# C89: the laws assumed of the libraries hold of the published algorithms
-/
namespace Verif.Props
open Verif

/-- AES-CBC decryption inverts encryption, for all keys, initial vectors and data of whole blocks. -/
theorem C89_aes (k iv d : Bytes) (h : d.length % 16 = 0) :
    Aes.decrypt k iv (Aes.encrypt k iv d) = d ∧ (Aes.encrypt k iv d).length = d.length ∧ (Aes.decrypt k iv d).length = d.length :=
  ⟨Aes.decrypt_encrypt k iv d h, Aes.encrypt_length k iv d h, Aes.decrypt_length k iv d h⟩

variable {argon2 : Bool → Bytes → Bytes → Int → Int → Int → Int → Except PyErr Bytes} {gzip : Bytes → Bytes}
  {gunzip : Bytes → Except PyErr Bytes}

/-- The published algorithms, with any Argon2, satisfy all laws, given that decompression inverts compression. -/
theorem C89_lawful (h : ∀ d, gunzip (gzip d) = .ok d) : (standard argon2 gzip gunzip).Lawful where
  sha256_length := Sha2.sha256_length
  sha512_length := Sha2.sha512_length
  hmac256_length := Sha2.hmac256_length
  aesEnc_length := fun k iv d _ _ hd => Aes.encrypt_length k iv d hd
  aesDec_length := fun k iv d _ _ hd => Aes.decrypt_length k iv d hd
  aes_inverse := fun k iv d _ _ hd => Aes.decrypt_encrypt k iv d hd
  gzip_inverse := h
  xml_inverse := Xml.parseDoc_serDoc

/-- So, for example, the round trips of C01 and C02 hold of them with no other assumption. -/
theorem C89_roundtrip4 (h : ∀ d, gunzip (gzip d) = .ok d) (c0 : Creds) (file : Bytes) (k k' : Kdbx)
    (hopen : openBytes (standard argon2 gzip gunzip) c0 true file = .ok k) (hver : k.header.value.major = 4)
    (bs : List Bytes) (xml : Xml) (hedit : Edited4 k k' bs xml) (hx : xml.Valid)
    (c : Creds) (hc : c.keyfile.Reusable) (out : Bytes) (kf : Keyfile)
    (hsave : buildKdbx (standard argon2 gzip gunzip) c k' = (.ok out, kf)) (suffix : Bytes) :
    ∃ k2, openBytes (standard argon2 gzip gunzip) { c with keyfile := kf } true (out ++ suffix) = .ok k2 ∧
      Shows4 k2 k.header bs xml.norm :=
  C01_roundtrip _ (C89_lawful h) c0 file k k' hopen hver bs xml hedit hx c hc out kf hsave suffix

theorem C89_roundtrip3 (h : ∀ d, gunzip (gzip d) = .ok d) (c0 : Creds) (file : Bytes) (k k' : Kdbx)
    (hopen : openBytes (standard argon2 gzip gunzip) c0 true file = .ok k) (hver : k.header.value.major = 3)
    (xml : Xml) (hedit : Edited3 k k' xml) (hx : xml.Valid)
    (c : Creds) (hc : c.keyfile.Reusable) (out : Bytes) (kf : Keyfile)
    (hsave : buildKdbx (standard argon2 gzip gunzip) c k' = (.ok out, kf)) :
    ∃ k2, openBytes (standard argon2 gzip gunzip) { c with keyfile := kf } true out = .ok k2 ∧ Shows3 k2 k.header xml.norm :=
  C02_roundtrip _ (C89_lawful h) c0 file k k' hopen hver xml hedit hx c hc out kf hsave

example : (standard (fun _ a _ _ _ _ _ => .ok (Sha2.sha256 a)) id .ok).Lawful := C89_lawful fun _ => rfl

/-! ### The algorithms are the published ones: test vectors -/

/-- Bytes `a`, `a + 1`, …. -/
def upTo (a n : Nat) : Bytes := (List.range n).map fun i => UInt8.ofNat (a + i)

/-- A number as bytes. -/
def num (n x : Nat) : Bytes := Sha2.beBytes n x

/-- FIPS 180-4: "abc", and messages that fill more than one block. -/
example : Sha2.sha256 [97, 98, 99] = num 32 0xba7816bf8f01cfea414140de5dae2223b00361a396177a9cb410ff61f20015ad := by decide +kernel
example : Sha2.sha256 (List.replicate 60 97) = num 32 0x11ee391211c6256460b6ed375957fadd8061cafbb31daf967db875aebd5aaad4 := by decide +kernel
example : Sha2.sha512 [97, 98, 99] = num 64 0xddaf35a193617abacc417349ae20413112e6fa4e89a97ea20a9eeee64b55d39a2192992a274fc1a836ba3c23a3feebbd454d4423643ce80e2a9ac94fa54ca49f := by
  decide +kernel
example : Sha2.sha512 (List.replicate 120 97) = num 64 0xf241de612b01aa2fa3cf01531d2a8e5e17fc761dfd48a704a834a47f57d6eade7804ecc39be42fdef16ec6adeaf7c01c2fd0c4cc97d3860907cfa4a3b36d0c05 := by
  decide +kernel

/-- A key longer than a block. -/
example : Sha2.hmac256 (List.replicate 70 107) [100, 97, 116, 97] = num 32 0x79a09ff0cd897a77c3b01e50a8f98895087c4e97c927cbe5450b5138e2732dd5 := by
  decide +kernel

/-- FIPS 197, appendix C. -/
example : Aes.ecb (upTo 0 16) (num 16 0x00112233445566778899aabbccddeeff) = num 16 0x69c4e0d86a7b0430d8cdb78070b4c55a := by decide +kernel
example : Aes.ecb (upTo 0 24) (num 16 0x00112233445566778899aabbccddeeff) = num 16 0xdda97ca4864cdfe06eaf70a0ec0d7191 := by decide +kernel
example : Aes.ecb (upTo 0 32) (num 16 0x00112233445566778899aabbccddeeff) = num 16 0x8ea2b7ca516745bfeafc49904b496089 := by decide +kernel

/-- RFC 8439 §2.3.2. -/
example : (Stream.chachaBlock (upTo 0 32) (num 12 0x000000090000004a00000000) 1).take 16 = num 16 0x10f1e7e4d13b5915500fdd1fa32071c4 := by
  decide +kernel

/-- ECRYPT test set 1, vector 0, 256 bits. -/
example : (Stream.salsaBlock (0x80 :: List.replicate 31 0) (List.replicate 8 0) 0).take 16 = num 16 0xe3be8fdd8beca2e3ea8ef9475b29a6e7 := by
  decide +kernel

end Verif.Props
