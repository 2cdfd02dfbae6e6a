import Verif.Twofish.RefineKey
import Verif.Twofish.Cbc
import Verif.Props.C22_TwofishInverse
/-!
# C60 The implementation computes the published Twofish cipher

`Spec/Twofish.lean` states the cipher as in the paper: permutations from four-bit tables, the MDS and RS matrices
over two fields of 256 elements, the function `h`, the key schedule and sixteen rounds, on lists of numbers.
Here: the table-driven code computes that function for every key and every block.
-/
namespace Verif.Props
open Verif Verif.Twofish Spec

/-- The cipher of the paper on blocks of bytes. -/
def published (key block : Bytes) : List Nat := Spec.Twofish.encryptBlock (key.map UInt8.toNat) (block.map UInt8.toNat)

/-- Cut into pieces of 16. -/
def pieces (b : Bytes) : List Bytes := (List.range (b.length / 16)).map fun i => (b.drop (16 * i)).take 16

theorem pieces_append {a : Bytes} (ha : a.length = 16) (r : Bytes) : pieces (a ++ r) = a :: pieces r := by
  unfold pieces
  rw [List.length_append, ha, show (16 + r.length) / 16 = r.length / 16 + 1 by omega, List.range_succ_eq_map, List.map_cons, List.map_map]
  congr 1
  · rw [Nat.mul_zero, List.drop_zero, take_append_length a r 16 ha]
  · refine List.map_congr_left fun i _ => ?_
    show ((a ++ r).drop (16 * (i + 1))).take 16 = _
    rw [show 16 * (i + 1) = 16 + 16 * i by omega, ← List.drop_drop, drop_append_length a r 16 ha]

/-- One block: what `encrypt` returns is the published ciphertext. -/
theorem C60_block (key block : Bytes) (c : Ctx) (hk : setKey key = .ok c) (hb : block.length = 16) :
    ∃ out, encrypt c block = .ok out ∧ out.map UInt8.toNat = published key block := by
  obtain ⟨k, k2, hl, rfl⟩ := setKey_form hk
  refine ⟨_, by rw [encrypt, if_neg (by omega)], ?_⟩
  have e := mapBlocks_append16 (encryptBlk (setKeyWords k (keyWord key))) block [] hb
  rw [List.append_nil, mapBlocks_nil, List.append_nil] at e
  rw [e]
  exact block_eq k2 hl block

/-- Several blocks: each is encrypted by itself. -/
theorem C60_encrypt (key data : Bytes) (c : Ctx) (hk : setKey key = .ok c) (hd : data.length % 16 = 0) :
    ∃ out, encrypt c data = .ok out ∧ out.map UInt8.toNat = (pieces data).flatMap (published key) := by
  obtain ⟨k, k2, hl, rfl⟩ := setKey_form hk
  refine ⟨_, by rw [encrypt, if_neg (by omega)], ?_⟩
  refine blocks_induction (P := fun data => nums (mapBlocks (encryptBlk (setKeyWords k (keyWord key))) data) = (pieces data).flatMap (published key))
    ?_ ?_ data hd
  · rw [mapBlocks_nil]; rfl
  · intro a r ha _ ih
    rw [mapBlocks_append16 _ a r ha, pieces_append ha, List.flatMap_cons]
    unfold nums at ih ⊢
    rw [List.map_append, ih]
    exact congrArg (· ++ _) (block_eq k2 hl a)

/-- Decryption is the inverse of the published cipher: given the published ciphertext of a block it returns the block. -/
theorem C60_decrypt (key block ct : Bytes) (c : Ctx) (hk : setKey key = .ok c) (hb : block.length = 16)
    (hc : ct.map UInt8.toNat = published key block) : decrypt c ct = .ok block := by
  obtain ⟨out, h1, h2⟩ := C60_block key block c hk hb
  obtain ⟨ct', h3, -, h4⟩ := C22_decrypt_encrypt key block c hk (by omega)
  obtain rfl : out = ct' := Except.ok.inj (h1.symm.trans h3)
  have : ct = out := List.map_inj_right (fun _ _ h => UInt8.toNat_inj.mp h) |>.mp (hc.trans h2.symm)
  rw [this, h4]

/-- The codebook that the CBC mode uses is the published cipher. -/
theorem C60_codebook (key iv block : Bytes) (s : Cbc) (hs : newCbc key iv = .ok s) :
    (encBlock s.ctx block).map UInt8.toNat = published key block := by
  unfold newCbc at hs
  split at hs
  · cases hs
  · cases hk : setKey key with
    | error e => rw [hk] at hs; cases hs
    | ok c =>
      rw [hk] at hs
      dsimp only at hs
      split at hs
      · cases hs
      · obtain ⟨k, k2, hl, rfl⟩ := setKey_form hk
        cases hs
        exact block_eq k2 hl block

/-- The published cipher can be decrypted: different blocks have different ciphertexts. -/
theorem C60_injective (key a b : Bytes) (hk : key.length = 16 ∨ key.length = 24 ∨ key.length = 32) (ha : a.length = 16) (hb : b.length = 16)
    (h : published key a = published key b) : a = b := by
  obtain ⟨c, hc⟩ := (C22_key_sizes key).1 hk
  obtain ⟨out, h1, h2⟩ := C60_block key a c hc ha
  exact Except.ok.inj ((C60_decrypt key a out c hc ha h2).symm.trans (C60_decrypt key b out c hc hb (h2.trans h)))

/-! The test vectors printed in the paper: the specification meets them. -/

/-- 128-bit key, all zero. -/
example : published (List.replicate 16 0) (List.replicate 16 0) =
    [0x9F, 0x58, 0x9F, 0x5C, 0xF6, 0x12, 0x2C, 0x32, 0xB6, 0xBF, 0xEC, 0x2F, 0x2A, 0xE8, 0xC3, 0x5A] := by decide +kernel
/-- 192-bit key. -/
example : published [0x01, 0x23, 0x45, 0x67, 0x89, 0xAB, 0xCD, 0xEF, 0xFE, 0xDC, 0xBA, 0x98, 0x76, 0x54, 0x32, 0x10,
      0x00, 0x11, 0x22, 0x33, 0x44, 0x55, 0x66, 0x77] (List.replicate 16 0) =
    [0xCF, 0xD1, 0xD2, 0xE5, 0xA9, 0xBE, 0x9C, 0xDF, 0x50, 0x1F, 0x13, 0xB8, 0x92, 0xBD, 0x22, 0x48] := by decide +kernel
/-- 256-bit key. -/
example : published [0x01, 0x23, 0x45, 0x67, 0x89, 0xAB, 0xCD, 0xEF, 0xFE, 0xDC, 0xBA, 0x98, 0x76, 0x54, 0x32, 0x10,
      0x00, 0x11, 0x22, 0x33, 0x44, 0x55, 0x66, 0x77, 0x88, 0x99, 0xAA, 0xBB, 0xCC, 0xDD, 0xEE, 0xFF] (List.replicate 16 0) =
    [0x37, 0x52, 0x7B, 0xE0, 0x05, 0x23, 0x34, 0xB8, 0x9F, 0x0C, 0xFC, 0xCA, 0xE8, 0x7C, 0xFA, 0x20] := by decide +kernel
/-- The hypotheses are met by the self-test of the module, and by two blocks of it. -/
example : ∃ c, setKey c22Key = .ok c ∧ c22Data.length = 16 ∧ (c22Data ++ c22Data).length % 16 = 0 ∧ (pieces (c22Data ++ c22Data)).length = 2 :=
  ⟨_, rfl, rfl, rfl, rfl⟩
/-- The self-test value (pytwofish.py:359) is the published ciphertext. -/
example : published c22Key c22Data = [108, 180, 86, 28, 64, 191, 10, 151, 5, 147, 28, 182, 212, 8, 231, 250] := by decide +kernel
example : ∃ s, newCbc c22Key c22Data = .ok s := ⟨_, rfl⟩

end Verif.Props
