import Verif.Crypto.Standard
/-!
# C89: the numbers in the published algorithms

They are what the standards say they are, not only numbers that give the right results for some inputs.
-/
namespace Verif.Props
open Verif Sha2

/-- A prime number. -/
def isPrime (p : Nat) : Bool := 2 ≤ p && (List.range p).all fun q => q < 2 || p % q != 0

/-- The first 80 primes. -/
def primes : List Nat := (List.range 410).filter isPrime

/-- `x` is the first `w` bits behind the point of the `n`-th root of `p`. -/
def RootBits (n w p x : Nat) : Prop := x < 2 ^ w ∧ ∃ r < 20, (r * 2 ^ w + x) ^ n ≤ p * 2 ^ (w * n) ∧ p * 2 ^ (w * n) < (r * 2 ^ w + x + 1) ^ n

instance (n w p x : Nat) : Decidable (RootBits n w p x) := inferInstanceAs (Decidable (_ ∧ _))

/-- FIPS 180-4 §4.2.2, §4.2.3, §5.3.3, §5.3.5: the constants of SHA-256 and SHA-512 are the fractional parts of the cube roots of the
first 64 and 80 primes, the first hash values those of the square roots of the first eight. -/
theorem C89_constants :
    (sha256P.k.length = 64 ∧ ∀ x ∈ primes.zip sha256P.k, RootBits 3 32 x.1 x.2) ∧
    (sha512P.k.length = 80 ∧ ∀ x ∈ primes.zip sha512P.k, RootBits 3 64 x.1 x.2) ∧
    (sha256P.h.length = 8 ∧ ∀ x ∈ primes.zip sha256P.h, RootBits 2 32 x.1 x.2) ∧
    (sha512P.h.length = 8 ∧ ∀ x ∈ primes.zip sha512P.h, RootBits 2 64 x.1 x.2) ∧ primes.length = 80 := by
  decide +kernel

/-- FIPS 180-4 §5.1: a padded message is the message, a bit 1, as few zeros as possible, and the number of its bits in the last two
words, so that it consists of whole blocks of 16 words. -/
theorem C89_padding (n : Nat) (hn : 0 < n) (m : Bytes) :
    ∃ z, pad n m = m ++ [0x80] ++ List.replicate z 0 ++ (leBytes (2 * n) (8 * m.length)).reverse ∧
      (m.length + 1 + z + 2 * n) % (16 * n) = 0 ∧ ∀ y < z, (m.length + 1 + y + 2 * n) % (16 * n) ≠ 0 := by
  refine ⟨(30 * n - 1 - m.length % (16 * n)) % (16 * n), by simp [pad, beBytes], ?_⟩
  have hm := Nat.mod_lt m.length (show 0 < 16 * n by omega)
  have hd := Nat.div_add_mod m.length (16 * n)
  generalize m.length % (16 * n) = r at *
  generalize m.length / (16 * n) = q at *
  rw [← hd]
  have key : ∀ y, (16 * n * q + r + 1 + y + 2 * n) % (16 * n) = (r + 1 + y + 2 * n) % (16 * n) := by
    intro y
    rw [show 16 * n * q + r + 1 + y + 2 * n = (r + 1 + y + 2 * n) + 16 * n * q by omega, Nat.add_mul_mod_self_left]
  rw [key]
  by_cases h : 30 * n - 1 - r < 16 * n
  · rw [Nat.mod_eq_of_lt h, show r + 1 + (30 * n - 1 - r) + 2 * n = 16 * n * 2 by omega]
    refine ⟨Nat.mul_mod_right .., ?_⟩
    intro y hy
    rw [key, show r + 1 + y + 2 * n = (r + 1 + y + 2 * n - 16 * n) + 16 * n by omega, Nat.add_mod_right, Nat.mod_eq_of_lt (by omega)]
    omega
  · have e : (30 * n - 1 - r) % (16 * n) = 14 * n - 1 - r := by
      rw [show 30 * n - 1 - r = (14 * n - 1 - r) + 16 * n by omega, Nat.add_mod_right, Nat.mod_eq_of_lt (by omega)]
    rw [e, show r + 1 + (14 * n - 1 - r) + 2 * n = 16 * n by omega]
    refine ⟨Nat.mod_self _, ?_⟩
    intro y hy
    rw [key, Nat.mod_eq_of_lt (by omega)]
    omega

/-- FIPS 197 §5.1.1: the S-box takes the inverse in the field and then adds up bits; no number but 0 lacks an inverse. -/
theorem C89_sbox (a : Nat) (ha : a < 256) : (a ≠ 0 → Aes.mulN a (Aes.invN a) = 1) ∧ Aes.sboxN a < 256 ∧
    ∀ i < 8, (Aes.sboxN a).testBit i =
      ((Aes.invN a).testBit i ^^ (Aes.invN a).testBit ((i + 4) % 8) ^^ (Aes.invN a).testBit ((i + 5) % 8) ^^
        (Aes.invN a).testBit ((i + 6) % 8) ^^ (Aes.invN a).testBit ((i + 7) % 8) ^^ (0x63).testBit i) := by
  have : ∀ a < 256, (a ≠ 0 → Aes.mulN a (Aes.invN a) = 1) ∧ Aes.sboxN a < 256 ∧
      ∀ i < 8, (Aes.sboxN a).testBit i =
        ((Aes.invN a).testBit i ^^ (Aes.invN a).testBit ((i + 4) % 8) ^^ (Aes.invN a).testBit ((i + 5) % 8) ^^
          (Aes.invN a).testBit ((i + 6) % 8) ^^ (Aes.invN a).testBit ((i + 7) % 8) ^^ (0x63).testBit i) := by decide +kernel
  exact this a ha

/-- The two words: a message of 55 bytes fits into a block of SHA-256, one of 56 bytes does not. -/
example : (pad 4 (List.replicate 55 0)).length = 64 ∧ (pad 4 (List.replicate 56 0)).length = 128 := by decide +kernel
example : primes.take 8 = [2, 3, 5, 7, 11, 13, 17, 19] := by decide +kernel

end Verif.Props
