import Verif.Base.Bytes
/-!
# ChaCha20 (RFC 8439) and Salsa20

The published key streams.  Not a model of code in the repository.  Words are numbers below `2 ^ 32`.
-/
namespace Verif.Stream

def add (a b : Nat) : Nat := (a + b) % 2 ^ 32

def rotl (n a : Nat) : Nat := (a <<< n) % 2 ^ 32 ||| (a >>> (32 - n))

/-- The words of a byte string, least significant byte first. -/
def words : Nat → Bytes → List Nat
  | 0, _ => []
  | c + 1, b => leNat (b.take 4) :: words c (b.drop 4)

/-- "expand 32-byte k". -/
def sigma : List Nat := [0x61707865, 0x3320646e, 0x79622d32, 0x6b206574]

/-- `x[a] op= …` on a state. -/
def upd (x : List Nat) (i : Nat) (f : Nat → Nat) : List Nat := x.set i (f (x.getD i 0))

/-- RFC 8439 §2.1. -/
def chaQuarter (a b c d : Nat) (x : List Nat) : List Nat :=
  let x := upd x a (add (x.getD b 0)); let x := upd x d (fun v => rotl 16 (v ^^^ x.getD a 0))
  let x := upd x c (add (x.getD d 0)); let x := upd x b (fun v => rotl 12 (v ^^^ x.getD c 0))
  let x := upd x a (add (x.getD b 0)); let x := upd x d (fun v => rotl 8 (v ^^^ x.getD a 0))
  let x := upd x c (add (x.getD d 0)); upd x b (fun v => rotl 7 (v ^^^ x.getD c 0))

/-- Two rounds, §2.3. -/
def chaDouble (x : List Nat) : List Nat :=
  let x := chaQuarter 0 4 8 12 x; let x := chaQuarter 1 5 9 13 x; let x := chaQuarter 2 6 10 14 x; let x := chaQuarter 3 7 11 15 x
  let x := chaQuarter 0 5 10 15 x; let x := chaQuarter 1 6 11 12 x; let x := chaQuarter 2 7 8 13 x; chaQuarter 3 4 9 14 x

/-- The Salsa20 quarter round. -/
def salsaQuarter (a b c d : Nat) (x : List Nat) : List Nat :=
  let x := upd x b (fun v => v ^^^ rotl 7 (add (x.getD a 0) (x.getD d 0)))
  let x := upd x c (fun v => v ^^^ rotl 9 (add (x.getD b 0) (x.getD a 0)))
  let x := upd x d (fun v => v ^^^ rotl 13 (add (x.getD c 0) (x.getD b 0)))
  upd x a (fun v => v ^^^ rotl 18 (add (x.getD d 0) (x.getD c 0)))

/-- A column round and a row round. -/
def salsaDouble (x : List Nat) : List Nat :=
  let x := salsaQuarter 0 4 8 12 x; let x := salsaQuarter 5 9 13 1 x; let x := salsaQuarter 10 14 2 6 x; let x := salsaQuarter 15 3 7 11 x
  let x := salsaQuarter 0 1 2 3 x; let x := salsaQuarter 5 6 7 4 x; let x := salsaQuarter 10 11 8 9 x; salsaQuarter 15 12 13 14 x

def iter (f : List Nat → List Nat) : Nat → List Nat → List Nat
  | 0, x => x
  | n + 1, x => iter f n (f x)

/-- Ten double rounds, and the first state added. -/
def block (f : List Nat → List Nat) (x : List Nat) : Bytes := (List.zipWith add x (iter f 10 x)).flatMap (leBytes 4)

/-- Block `n` of ChaCha20: a nonce of 12 bytes and 32 bits for the number, or of 8 bytes and 64 bits. -/
def chachaBlock (key nonce : Bytes) (n : Nat) : Bytes :=
  block chaDouble (sigma ++ words 8 key ++
    if nonce.length = 12 then n % 2 ^ 32 :: words 3 nonce else n % 2 ^ 32 :: n / 2 ^ 32 % 2 ^ 32 :: words 2 nonce)

/-- Block `n` of Salsa20 with a key of 32 bytes. -/
def salsaBlock (key nonce : Bytes) (n : Nat) : Bytes :=
  block salsaDouble ([sigma.getD 0 0] ++ words 4 key ++ [sigma.getD 1 0] ++ words 2 nonce ++ [n % 2 ^ 32, n / 2 ^ 32 % 2 ^ 32] ++
    [sigma.getD 2 0] ++ words 4 (key.drop 16) ++ [sigma.getD 3 0])

/-- Byte `i` of the key stream. -/
def chacha20 (key nonce : Bytes) (i : Nat) : UInt8 := (chachaBlock key nonce (i / 64)).getD (i % 64) 0

def salsa20 (key nonce : Bytes) (i : Nat) : UInt8 := (salsaBlock key nonce (i / 64)).getD (i % 64) 0

end Verif.Stream
