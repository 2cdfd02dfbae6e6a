import Verif.Twofish.Inverse
/-!
# C22 Twofish decryption inverts encryption

For every key of 16, 24 or 32 bytes and every data whose length is a multiple of 16, decrypting the
encryption returns the data (and vice versa); other key sizes and other lengths raise.
-/
namespace Verif.Props
open Verif.Twofish

/-- Every 16-, 24- or 32-byte key yields a cipher object, every other key raises. -/
theorem C22_key_sizes (key : Bytes) :
    (key.length = 16 ∨ key.length = 24 ∨ key.length = 32 → ∃ c, setKey key = .ok c) ∧
    (¬ (key.length = 16 ∨ key.length = 24 ∨ key.length = 32) → setKey key = .error .key) := by
  constructor
  · intro h; exact ⟨_, by rw [setKey, if_pos h]⟩
  · intro h; rw [setKey, if_neg h]

/-- Decryption inverts encryption. -/
theorem C22_decrypt_encrypt (key data : Bytes) (c : Ctx) (hk : setKey key = .ok c)
    (hd : data.length % 16 = 0) :
    ∃ ct, encrypt c data = .ok ct ∧ ct.length = data.length ∧ decrypt c ct = .ok data := by
  have hc := setKey_ok hk
  refine ⟨_, by rw [encrypt, if_neg (by simpa using hd)], mapBlocks_length _ _ hd, ?_⟩
  rw [decrypt, if_neg (by rw [mapBlocks_length _ _ hd]; simpa using hd)]
  rw [mapBlocks_inverse _ _ (encryptBlk_ok c hc) (decryptBlk_encryptBlk c hc) data hd]

/-- Encryption inverts decryption, so encryption under a key is a bijection on each length. -/
theorem C22_encrypt_decrypt (key data : Bytes) (c : Ctx) (hk : setKey key = .ok c)
    (hd : data.length % 16 = 0) :
    ∃ pt, decrypt c data = .ok pt ∧ pt.length = data.length ∧ encrypt c pt = .ok data := by
  have hc := setKey_ok hk
  refine ⟨_, by rw [decrypt, if_neg (by simpa using hd)], mapBlocks_length _ _ hd, ?_⟩
  rw [encrypt, if_neg (by rw [mapBlocks_length _ _ hd]; simpa using hd)]
  rw [mapBlocks_inverse _ _ (decryptBlk_ok c hc) (encryptBlk_decryptBlk c hc) data hd]

/-- Data that is not a multiple of the block size is refused by both directions. -/
theorem C22_bad_length (c : Ctx) (data : Bytes) (hd : data.length % 16 ≠ 0) :
    encrypt c data = .error .value ∧ decrypt c data = .error .value := by
  constructor
  · rw [encrypt, if_pos hd]
  · rw [decrypt, if_pos hd]

/-- The key of the self-test at pytwofish.py:357. -/
def c22Key : Bytes := [0xD4,0x3B,0xB7,0x55,0x6E,0xA3,0x2E,0x46,0xF2,0xA2,0x82,0xB7,0xD4,0x5B,
  0x4E,0x0D,0x57,0xFF,0x73,0x9D,0x4D,0xC9,0x2C,0x1B,0xD7,0xFC,0x01,0x70,0x0C,0xC8,0x21,0x6F]
/-- The data of the self-test at pytwofish.py:358. -/
def c22Data : Bytes := [0x90,0xAF,0xE9,0x1B,0xB2,0x88,0x54,0x4F,0x2C,0x32,0xDC,0x23,0x9B,0x26,
  0x35,0xE6]

/-- The hypotheses are met by the self-test vector, and the model computes the value the module
asserts at import time (pytwofish.py:359). -/
example : ∃ c, setKey c22Key = .ok c ∧ c22Data.length % 16 = 0 :=
  ⟨_, rfl, rfl⟩
example : pack4 (encryptBlk (setKeyWords 4 (keyWord c22Key)) (unpack4 c22Data)) =
    [108, 180, 86, 28, 64, 191, 10, 151, 5, 147, 28, 182, 212, 8, 231, 250] := by
  decide +kernel

end Verif.Props
