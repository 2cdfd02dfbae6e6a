import Verif.Base.Bytes
/-!
# SHA-256, SHA-512 (FIPS 180-4) and HMAC (RFC 2104)

The published functions, to show that what the theorems assume of `hashlib` and `hmac` is true of
them.  Not a model of code in the repository.  Words are numbers below `2 ^ w`.
-/
namespace Verif.Sha2

/-- What distinguishes SHA-256 and SHA-512: word size, rounds, rotations (§4.1.2, §4.1.3), constants
(§4.2.2, §4.2.3) and the first hash value (§5.3.3, §5.3.5). -/
structure Params where
  w : Nat
  big0 : Nat × Nat × Nat
  big1 : Nat × Nat × Nat
  small0 : Nat × Nat × Nat
  small1 : Nat × Nat × Nat
  k : List Nat
  h : List Nat

def k256 : List Nat := [
  0x428a2f98, 0x71374491, 0xb5c0fbcf, 0xe9b5dba5, 0x3956c25b, 0x59f111f1, 0x923f82a4, 0xab1c5ed5,
  0xd807aa98, 0x12835b01, 0x243185be, 0x550c7dc3, 0x72be5d74, 0x80deb1fe, 0x9bdc06a7, 0xc19bf174,
  0xe49b69c1, 0xefbe4786, 0x0fc19dc6, 0x240ca1cc, 0x2de92c6f, 0x4a7484aa, 0x5cb0a9dc, 0x76f988da,
  0x983e5152, 0xa831c66d, 0xb00327c8, 0xbf597fc7, 0xc6e00bf3, 0xd5a79147, 0x06ca6351, 0x14292967,
  0x27b70a85, 0x2e1b2138, 0x4d2c6dfc, 0x53380d13, 0x650a7354, 0x766a0abb, 0x81c2c92e, 0x92722c85,
  0xa2bfe8a1, 0xa81a664b, 0xc24b8b70, 0xc76c51a3, 0xd192e819, 0xd6990624, 0xf40e3585, 0x106aa070,
  0x19a4c116, 0x1e376c08, 0x2748774c, 0x34b0bcb5, 0x391c0cb3, 0x4ed8aa4a, 0x5b9cca4f, 0x682e6ff3,
  0x748f82ee, 0x78a5636f, 0x84c87814, 0x8cc70208, 0x90befffa, 0xa4506ceb, 0xbef9a3f7, 0xc67178f2]

def k512 : List Nat := [
  0x428a2f98d728ae22, 0x7137449123ef65cd, 0xb5c0fbcfec4d3b2f, 0xe9b5dba58189dbbc,
  0x3956c25bf348b538, 0x59f111f1b605d019, 0x923f82a4af194f9b, 0xab1c5ed5da6d8118,
  0xd807aa98a3030242, 0x12835b0145706fbe, 0x243185be4ee4b28c, 0x550c7dc3d5ffb4e2,
  0x72be5d74f27b896f, 0x80deb1fe3b1696b1, 0x9bdc06a725c71235, 0xc19bf174cf692694,
  0xe49b69c19ef14ad2, 0xefbe4786384f25e3, 0x0fc19dc68b8cd5b5, 0x240ca1cc77ac9c65,
  0x2de92c6f592b0275, 0x4a7484aa6ea6e483, 0x5cb0a9dcbd41fbd4, 0x76f988da831153b5,
  0x983e5152ee66dfab, 0xa831c66d2db43210, 0xb00327c898fb213f, 0xbf597fc7beef0ee4,
  0xc6e00bf33da88fc2, 0xd5a79147930aa725, 0x06ca6351e003826f, 0x142929670a0e6e70,
  0x27b70a8546d22ffc, 0x2e1b21385c26c926, 0x4d2c6dfc5ac42aed, 0x53380d139d95b3df,
  0x650a73548baf63de, 0x766a0abb3c77b2a8, 0x81c2c92e47edaee6, 0x92722c851482353b,
  0xa2bfe8a14cf10364, 0xa81a664bbc423001, 0xc24b8b70d0f89791, 0xc76c51a30654be30,
  0xd192e819d6ef5218, 0xd69906245565a910, 0xf40e35855771202a, 0x106aa07032bbd1b8,
  0x19a4c116b8d2d0c8, 0x1e376c085141ab53, 0x2748774cdf8eeb99, 0x34b0bcb5e19b48a8,
  0x391c0cb3c5c95a63, 0x4ed8aa4ae3418acb, 0x5b9cca4f7763e373, 0x682e6ff3d6b2b8a3,
  0x748f82ee5defb2fc, 0x78a5636f43172f60, 0x84c87814a1f0ab72, 0x8cc702081a6439ec,
  0x90befffa23631e28, 0xa4506cebde82bde9, 0xbef9a3f7b2c67915, 0xc67178f2e372532b,
  0xca273eceea26619c, 0xd186b8c721c0c207, 0xeada7dd6cde0eb1e, 0xf57d4f7fee6ed178,
  0x06f067aa72176fba, 0x0a637dc5a2c898a6, 0x113f9804bef90dae, 0x1b710b35131c471b,
  0x28db77f523047d84, 0x32caab7b40c72493, 0x3c9ebe0a15c9bebc, 0x431d67c49c100d4c,
  0x4cc5d4becb3e42b6, 0x597f299cfc657e2a, 0x5fcb6fab3ad6faec, 0x6c44198c4a475817]

def sha256P : Params where
  w := 32
  big0 := (2, 13, 22)
  big1 := (6, 11, 25)
  small0 := (7, 18, 3)
  small1 := (17, 19, 10)
  k := k256
  h := [
  0x6a09e667, 0xbb67ae85, 0x3c6ef372, 0xa54ff53a, 0x510e527f, 0x9b05688c, 0x1f83d9ab, 0x5be0cd19]

def sha512P : Params where
  w := 64
  big0 := (28, 34, 39)
  big1 := (14, 18, 41)
  small0 := (1, 8, 7)
  small1 := (19, 61, 6)
  k := k512
  h := [
  0x6a09e667f3bcc908, 0xbb67ae8584caa73b, 0x3c6ef372fe94f82b, 0xa54ff53a5f1d36f1,
  0x510e527fade682d1, 0x9b05688c2b3e6c1f, 0x1f83d9abfb41bd6b, 0x5be0cd19137e2179]

/-- Addition of words. -/
def add (w a b : Nat) : Nat := (a + b) % 2 ^ w

/-- Rotation to the right. -/
def rotr (w n a : Nat) : Nat := (a >>> n) ||| (a <<< (w - n)) % 2 ^ w

/-- `Σ`, three rotations. -/
def bigSigma (w : Nat) (r : Nat × Nat × Nat) (a : Nat) : Nat := rotr w r.1 a ^^^ rotr w r.2.1 a ^^^ rotr w r.2.2 a

/-- `σ`, two rotations and a shift. -/
def smallSigma (w : Nat) (r : Nat × Nat × Nat) (a : Nat) : Nat := rotr w r.1 a ^^^ rotr w r.2.1 a ^^^ (a >>> r.2.2)

/-- `n` more words of the message schedule, the latest first, §6.2.2 step 1. -/
def schedule (p : Params) : Nat → List Nat → List Nat
  | 0, ws => ws
  | n + 1, ws =>
    schedule p n (add p.w (add p.w (smallSigma p.w p.small1 (ws.getD 1 0)) (ws.getD 6 0))
      (add p.w (smallSigma p.w p.small0 (ws.getD 14 0)) (ws.getD 15 0)) :: ws)

/-- The working variables. -/
structure Vars where
  (a b c d e f g h : Nat)

/-- A round, §6.2.2 step 3; `Maj` and `Ch` of §4.1. -/
def round (p : Params) (v : Vars) (k x : Nat) : Vars :=
  let ch := (v.e &&& v.f) ^^^ ((2 ^ p.w - 1 - v.e) &&& v.g)
  let maj := (v.a &&& v.b) ^^^ (v.a &&& v.c) ^^^ (v.b &&& v.c)
  let t1 := add p.w (add p.w v.h (bigSigma p.w p.big1 v.e)) (add p.w ch (add p.w k x))
  let t2 := add p.w (bigSigma p.w p.big0 v.a) maj
  ⟨add p.w t1 t2, v.a, v.b, v.c, add p.w v.d t1, v.e, v.f, v.g⟩

/-- All rounds. -/
def rounds (p : Params) : List (Nat × Nat) → Vars → Vars
  | [], v => v
  | x :: xs, v => rounds p xs (round p v x.1 x.2)

/-- A block, §6.2.2. -/
def compress (p : Params) (h m : List Nat) : List Nat :=
  let ws := (schedule p (p.k.length - 16) m.reverse).reverse
  let v := rounds p (p.k.zip ws) ⟨h.getD 0 0, h.getD 1 0, h.getD 2 0, h.getD 3 0, h.getD 4 0, h.getD 5 0, h.getD 6 0, h.getD 7 0⟩
  List.zipWith (add p.w) h [v.a, v.b, v.c, v.d, v.e, v.f, v.g, v.h]

/-- The number of a byte string, most significant byte first. -/
def beNat (b : Bytes) : Nat := b.foldl (fun n x => 256 * n + x.toNat) 0

/-- `n` bytes of a number, most significant first. -/
def beBytes (n x : Nat) : Bytes := (leBytes n x).reverse

/-- Words of `n` bytes: `count` of them. -/
def words (n : Nat) : Nat → Bytes → List Nat
  | 0, _ => []
  | c + 1, b => beNat (b.take n) :: words n c (b.drop n)

/-- Padding, §5.1; a word has `n` bytes. -/
def pad (n : Nat) (m : Bytes) : Bytes :=
  m ++ (0x80 :: List.replicate ((30 * n - 1 - m.length % (16 * n)) % (16 * n)) 0) ++ beBytes (2 * n) (8 * m.length)

/-- The blocks one after the other. -/
def hashBlocks (p : Params) : Nat → List Nat → Bytes → List Nat
  | 0, h, _ => h
  | c + 1, h, m => hashBlocks p c (compress p h (words (p.w / 8) 16 m)) (m.drop (2 * p.w))

/-- The digest: eight words. -/
def hash (p : Params) (m : Bytes) : Bytes :=
  let b := pad (p.w / 8) m
  let h := hashBlocks p (b.length / (2 * p.w)) p.h b
  (List.range 8).flatMap fun i => beBytes (p.w / 8) (h.getD i 0)

def sha256 (m : Bytes) : Bytes := hash sha256P m

def sha512 (m : Bytes) : Bytes := hash sha512P m

/-- The key of HMAC, filled up to a block. -/
def hmacKey (k : Bytes) : Bytes :=
  let k := if 64 < k.length then sha256 k else k
  k ++ List.replicate (64 - k.length) 0

/-- HMAC-SHA256. -/
def hmac256 (k m : Bytes) : Bytes :=
  sha256 ((hmacKey k).map (· ^^^ 0x5c) ++ sha256 ((hmacKey k).map (· ^^^ 0x36) ++ m))

theorem flatMap_len {n : Nat} {f : Nat → Bytes} (h : ∀ i, (f i).length = n) (l : List Nat) : (l.flatMap f).length = n * l.length := by
  induction l with
  | nil => rfl
  | cons x xs ih => rw [List.flatMap_cons, List.length_append, h, ih, List.length_cons, Nat.mul_succ, Nat.add_comm]

theorem leBytes_len (n x : Nat) : (leBytes n x).length = n := by
  induction n generalizing x with
  | zero => rfl
  | succ n ih => simp [leBytes, ih]

theorem hash_length (p : Params) (m : Bytes) : (hash p m).length = p.w / 8 * 8 := by
  unfold hash
  rw [flatMap_len (n := p.w / 8) (fun i => by unfold beBytes; rw [List.length_reverse, leBytes_len])]
  rw [List.length_range]

theorem sha256_length (m : Bytes) : (sha256 m).length = 32 := hash_length sha256P m
theorem sha512_length (m : Bytes) : (sha512 m).length = 64 := hash_length sha512P m
theorem hmac256_length (k m : Bytes) : (hmac256 k m).length = 32 := sha256_length _

end Verif.Sha2
