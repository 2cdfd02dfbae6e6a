/-!
# Twofish as published

B. Schneier, J. Kelsey, D. Whiting, D. Wagner, C. Hall, N. Ferguson, "Twofish: A 128-Bit Block Cipher", 1998,
section 4. Bytes and words are natural numbers below `256` and `2^32`.
-/
namespace Verif.Spec.Twofish

/-! ## Bytes and words -/

/-- Little-endian: `Σ bᵢ · 2^(8 i)`. -/
def word : List Nat → Nat
  | [] => 0
  | b :: bs => b + 256 * word bs

/-- Byte `j` of a word. -/
def byteAt (x j : Nat) : Nat := x / 256 ^ j % 256

def split (x : Nat) : List Nat := [byteAt x 0, byteAt x 1, byteAt x 2, byteAt x 3]

/-- Rotation of a 32-bit word to the left. -/
def rol (x n : Nat) : Nat := (x * 2 ^ n + x / 2 ^ (32 - n)) % 2 ^ 32
/-- Rotation of a 32-bit word to the right. -/
def ror (x n : Nat) : Nat := rol x (32 - n)

/-! ## The fields `GF(2)[x]/v(x)` and `GF(2)[x]/w(x)` -/

/-- Multiplication by `x` modulo the polynomial `p` of degree 8. -/
def xtime (p a : Nat) : Nat := if a < 128 then 2 * a else (2 * a) ^^^ p

/-- The product of `a` and the polynomial given by the lowest `n` bits of `b`. -/
def mulBits (p : Nat) : Nat → Nat → Nat → Nat
  | 0, _, _ => 0
  | n + 1, a, b => (if b % 2 = 1 then a else 0) ^^^ mulBits p n (xtime p a) (b / 2)

def mul (p a b : Nat) : Nat := mulBits p 8 a b

/-- `v(x) = x⁸ + x⁶ + x⁵ + x³ + 1`. -/
def v : Nat := 2 ^ 8 + 2 ^ 6 + 2 ^ 5 + 2 ^ 3 + 1
/-- `w(x) = x⁸ + x⁶ + x³ + x² + 1`. -/
def w : Nat := 2 ^ 8 + 2 ^ 6 + 2 ^ 3 + 2 ^ 2 + 1

/-- Matrix times vector. -/
def apply (p : Nat) (m : List (List Nat)) (y : List Nat) : List Nat :=
  m.map fun row => (List.zipWith (fun c a => mul p a c) row y).foldr (· ^^^ ·) 0

def mds : List (List Nat) := [
  [0x01, 0xEF, 0x5B, 0x5B],
  [0x5B, 0xEF, 0xEF, 0x01],
  [0xEF, 0x5B, 0x01, 0xEF],
  [0xEF, 0x01, 0xEF, 0x5B]]

def rs : List (List Nat) := [
  [0x01, 0xA4, 0x55, 0x87, 0x5A, 0x58, 0xDB, 0x9E],
  [0xA4, 0x56, 0x82, 0xF3, 0x1E, 0xC6, 0x68, 0xE5],
  [0x02, 0xA1, 0xFC, 0xC1, 0x47, 0xAE, 0x3D, 0x19],
  [0xA4, 0x55, 0x87, 0x5A, 0x58, 0xDB, 0x9E, 0x03]]

/-! ## The permutations `q₀` and `q₁` -/

/-- Rotation of four bits to the right by one. -/
def ror4 (x : Nat) : Nat := x / 2 + 8 * (x % 2)

/-- The construction common to both, from four tables of four-bit values. -/
def qOf (t0 t1 t2 t3 : List Nat) (x : Nat) : Nat :=
  let a0 := x / 16
  let b0 := x % 16
  let a1 := a0 ^^^ b0
  let b1 := a0 ^^^ ror4 b0 ^^^ (8 * a0 % 16)
  let a2 := t0.getD a1 0
  let b2 := t1.getD b1 0
  let a3 := a2 ^^^ b2
  let b3 := a2 ^^^ ror4 b2 ^^^ (8 * a2 % 16)
  let a4 := t2.getD a3 0
  let b4 := t3.getD b3 0
  16 * b4 + a4

def q0 : Nat → Nat := qOf
  [0x8, 0x1, 0x7, 0xD, 0x6, 0xF, 0x3, 0x2, 0x0, 0xB, 0x5, 0x9, 0xE, 0xC, 0xA, 0x4]
  [0xE, 0xC, 0xB, 0x8, 0x1, 0x2, 0x3, 0x5, 0xF, 0x4, 0xA, 0x6, 0x7, 0x0, 0x9, 0xD]
  [0xB, 0xA, 0x5, 0xE, 0x6, 0xD, 0x9, 0x0, 0xC, 0x8, 0xF, 0x3, 0x2, 0x4, 0x7, 0x1]
  [0xD, 0x7, 0xF, 0x4, 0x1, 0x2, 0x6, 0xE, 0x9, 0xB, 0x3, 0x0, 0x8, 0x5, 0xC, 0xA]

def q1 : Nat → Nat := qOf
  [0x2, 0x8, 0xB, 0xD, 0xF, 0x7, 0x6, 0xE, 0x3, 0x1, 0x9, 0x4, 0x0, 0xA, 0xC, 0x5]
  [0x1, 0xE, 0x2, 0xB, 0x4, 0xC, 0x3, 0x7, 0x6, 0xD, 0xA, 0x5, 0xF, 0x9, 0x0, 0x8]
  [0x4, 0xC, 0x7, 0x5, 0x1, 0x6, 0x9, 0xA, 0x0, 0xE, 0xD, 0x8, 0x2, 0xB, 0x3, 0xF]
  [0xB, 0x9, 0x5, 0x1, 0xC, 0x3, 0xD, 0xE, 0x6, 0x4, 0x7, 0xF, 0x2, 0x0, 0x8, 0xA]

/-! ## The function `h` -/

/-- A row of permutations. -/
def through (qs : List (Nat → Nat)) (y : List Nat) : List Nat := List.zipWith (fun q x => q x) qs y
/-- Byte-wise addition of a word. -/
def plus (l : Nat) (y : List Nat) : List Nat := List.zipWith (· ^^^ ·) y (split l)

/-- `h(X, L)` for lists `L` of 2, 3 and 4 words. -/
def h (x : Nat) (L : List Nat) : Nat :=
  let y := split x
  let y := if L.length = 4 then plus (L.getD 3 0) (through [q1, q0, q0, q1] y) else y
  let y := if 3 ≤ L.length then plus (L.getD 2 0) (through [q1, q1, q0, q0] y) else y
  let y := plus (L.getD 1 0) (through [q0, q1, q0, q1] y)
  let y := plus (L.getD 0 0) (through [q0, q0, q1, q1] y)
  let y := through [q1, q0, q1, q0] y
  word (apply v mds y)

/-! ## The key schedule -/

/-- `Mᵢ`, the words of the key given by its bytes. -/
def keyWord (m : List Nat) (i : Nat) : Nat := word ((m.drop (4 * i)).take 4)

/-- `Mₑ`. -/
def me (k : Nat) (m : List Nat) : List Nat := (List.range k).map fun i => keyWord m (2 * i)
/-- `Mₒ`. -/
def mo (k : Nat) (m : List Nat) : List Nat := (List.range k).map fun i => keyWord m (2 * i + 1)
/-- `S = (S_{k-1}, …, S₀)`. -/
def sList (k : Nat) (m : List Nat) : List Nat :=
  ((List.range k).map fun i => word (apply w rs ((m.drop (8 * i)).take 8))).reverse

def rho : Nat := 2 ^ 24 + 2 ^ 16 + 2 ^ 8 + 2 ^ 0

def A (k : Nat) (m : List Nat) (i : Nat) : Nat := h (2 * i * rho) (me k m)
def B (k : Nat) (m : List Nat) (i : Nat) : Nat := rol (h ((2 * i + 1) * rho) (mo k m)) 8

/-- The words `K₀, …, K₃₉` of the expanded key. -/
def K (k : Nat) (m : List Nat) (j : Nat) : Nat :=
  if j % 2 = 0 then (A k m (j / 2) + B k m (j / 2)) % 2 ^ 32
  else rol ((A k m (j / 2) + 2 * B k m (j / 2)) % 2 ^ 32) 9

/-! ## Encryption -/

def g (k : Nat) (m : List Nat) (x : Nat) : Nat := h x (sList k m)

def F0 (k : Nat) (m : List Nat) (r R0 R1 : Nat) : Nat := (g k m R0 + g k m (rol R1 8) + K k m (2 * r + 8)) % 2 ^ 32
def F1 (k : Nat) (m : List Nat) (r R0 R1 : Nat) : Nat := (g k m R0 + 2 * g k m (rol R1 8) + K k m (2 * r + 9)) % 2 ^ 32

/-- Round `r`. -/
def round (k : Nat) (m : List Nat) (R : Nat × Nat × Nat × Nat) (r : Nat) : Nat × Nat × Nat × Nat :=
  (ror (R.2.2.1 ^^^ F0 k m r R.1 R.2.1) 1, rol R.2.2.2 1 ^^^ F1 k m r R.1 R.2.1, R.1, R.2.1)

/-- The cipher on four words, for the key with bytes `m` (16, 24 or 32 of them). -/
def encryptWords (m : List Nat) (P : Nat × Nat × Nat × Nat) : Nat × Nat × Nat × Nat :=
  let k := m.length / 8
  let R := (P.1 ^^^ K k m 0, P.2.1 ^^^ K k m 1, P.2.2.1 ^^^ K k m 2, P.2.2.2 ^^^ K k m 3)
  let R := (List.range 16).foldl (round k m) R
  (R.2.2.1 ^^^ K k m 4, R.2.2.2 ^^^ K k m 5, R.1 ^^^ K k m 6, R.2.1 ^^^ K k m 7)

/-- The cipher on a block of 16 bytes. -/
def encryptBlock (m p : List Nat) : List Nat :=
  let C := encryptWords m (word (p.take 4), word ((p.drop 4).take 4), word ((p.drop 8).take 4), word ((p.drop 12).take 4))
  split C.1 ++ split C.2.1 ++ split C.2.2.1 ++ split C.2.2.2

end Verif.Spec.Twofish
