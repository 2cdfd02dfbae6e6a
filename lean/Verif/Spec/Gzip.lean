import Verif.Crypto.Gzip
/-!
# What a gzip file encodes

Relations after RFC 1951 and RFC 1952, which say which bits encode which data, without saying how to read or how to write them.
-/
namespace Verif.Spec.Gz
open Verif Gzip

/-- A byte, or a repetition of `len` bytes from `dist` bytes back. -/
inductive Tok where
  | lit (b : UInt8)
  | copy (len dist : Nat)

/-- What a token does to the data so far. Bytes repeated may be bytes of the repetition itself. -/
inductive Tok.Does : Tok → Bytes → Bytes → Prop
  | lit {b : UInt8} {out : Bytes} : Does (.lit b) out (out ++ [b])
  | copy {n d : Nat} {out s : Bytes} (pos : 1 ≤ d) (back : d ≤ out.length) (len : s.length = n)
      (same : ∀ i < n, (out ++ s)[out.length + i]? = (out ++ s)[out.length + i - d]?) : Does (.copy n d) out (out ++ s)

/-- The bits of a token, in the codes `L` and `D`. RFC 1951 §3.2.5. -/
inductive Tok.Enc (L D : Table) : Tok → List Bool → Prop
  | lit {b : UInt8} {c : List Bool} (h : (b.toNat, c) ∈ L) : Enc L D (.lit b) c
  | copy {s d base dbase : Nat} {c x c' y : List Bool} (sym : (257 + s, c) ∈ L) (len : lengths[s]? = some (base, x.length))
      (dsym : (d, c') ∈ D) (dlen : distances[d]? = some (dbase, y.length)) :
      Enc L D (.copy (base + value x) (dbase + value y)) (c ++ x ++ c' ++ y)

/-- Tokens and the end of the block. -/
inductive Toks (L D : Table) : List Bool → Bytes → Bytes → Prop
  | stop {c : List Bool} {out : Bytes} (h : (256, c) ∈ L) : Toks L D c out out
  | step {t : Tok} {x y : List Bool} {o o1 o2 : Bytes} (enc : t.Enc L D x) (does : t.Does o o1) (rest : Toks L D y o1 o2) :
      Toks L D (x ++ y) o o2

/-- Code lengths, written with the code `C`. RFC 1951 §3.2.7. -/
inductive Lens (C : Table) : List Bool → List Nat → List Nat → Prop
  | stop {acc : List Nat} : Lens C [] acc acc
  | len {l : Nat} {c y : List Bool} {acc r : List Nat} (small : l < 16) (h : (l, c) ∈ C) (rest : Lens C y (acc ++ [l]) r) :
      Lens C (c ++ y) acc r
  | again {p : Nat} {c x y : List Bool} {acc r : List Nat} (h : (16, c) ∈ C) (hx : x.length = 2)
      (rest : Lens C y (acc ++ [p] ++ List.replicate (3 + value x) p) r) : Lens C (c ++ x ++ y) (acc ++ [p]) r
  | zeros {c x y : List Bool} {acc r : List Nat} (h : (17, c) ∈ C) (hx : x.length = 3)
      (rest : Lens C y (acc ++ List.replicate (3 + value x) 0) r) : Lens C (c ++ x ++ y) acc r
  | manyZeros {c x y : List Bool} {acc r : List Nat} (h : (18, c) ∈ C) (hx : x.length = 7)
      (rest : Lens C y (acc ++ List.replicate (11 + value x) 0) r) : Lens C (c ++ x ++ y) acc r

/-- The codes at the beginning of a block with codes of its own. RFC 1951 §3.2.7. -/
inductive Codes : List Bool → List Nat → List Nat → Prop
  | mk {h1 h2 h3 x : List Bool} {cl : List (List Bool)} {lit dist : List Nat} (l1 : h1.length = 5) (l2 : h2.length = 5)
      (l3 : h3.length = 4) (lc : cl.length = value h3 + 4) (three : ∀ c ∈ cl, c.length = 3) (v1 : value h1 ≤ 29) (v2 : value h2 ≤ 29)
      (uc : usable true (unordered (cl.map value)) = true) (lens : Lens (canon (unordered (cl.map value))) x [] (lit ++ dist))
      (ll : lit.length = value h1 + 257) (ld : dist.length = value h2 + 1) (stop : lit.getD 256 0 ≠ 0)
      (ul : usable false lit = true) (ud : usable false dist = true) : Codes (h1 ++ h2 ++ h3 ++ cl.flatten ++ x) lit dist

/-- The bits of a block, of which `pos` bits stand before. RFC 1951 §3.2.3 to §3.2.7. -/
inductive Block (pos : Nat) (fin : Bool) : List Bool → Bytes → Bytes → Prop
  | stored {pad n m : List Bool} {d out : Bytes} (short : pad.length < 8) (aligned : (pos + 3 + pad.length) % 8 = 0)
      (ln : n.length = 16) (vn : value n = d.length) (lm : m.length = 16) (vm : value m = 65535 - d.length) :
      Block pos fin (fin :: false :: false :: (pad ++ n ++ m ++ bits d)) out (out ++ d)
  | fixed {x : List Bool} {out out' : Bytes} (h : Toks (canon fixedLit) (canon fixedDist) x out out') :
      Block pos fin (fin :: true :: false :: x) out out'
  | dynamic {h x : List Bool} {lit dist : List Nat} {out out' : Bytes} (codes : Codes h lit dist)
      (toks : Toks (canon lit) (canon dist) x out out') : Block pos fin (fin :: false :: true :: (h ++ x)) out out'

/-- Blocks up to the last one. -/
inductive Blocks : Nat → List Bool → Bytes → Bytes → Prop
  | last {pos : Nat} {x : List Bool} {o o' : Bytes} (h : Block pos true x o o') : Blocks pos x o o'
  | more {pos : Nat} {x y : List Bool} {o o1 o2 : Bytes} (h : Block pos false x o o1) (rest : Blocks (pos + x.length) y o1 o2) :
      Blocks pos (x ++ y) o o2

/-- An extra field with its length, or nothing. RFC 1952 §2.3.1.1. -/
def Extra (on : Bool) (x : Bytes) : Prop := if on then ∃ d, d.length < 2 ^ 16 ∧ x = leBytes 2 d.length ++ d else x = []

/-- A text that ends with a zero byte, or nothing. -/
def Text (on : Bool) (x : Bytes) : Prop := if on then ∃ s, 0 ∉ s ∧ x = s ++ [0] else x = []

/-- The optional parts of a header with the flags `flg`, whose fixed part is `head`: extra field, file name, comment, and half the
checksum of all that. RFC 1952 §2.3, §2.3.1. -/
def Parts (head : Bytes) (flg : UInt8) (x : Bytes) : Prop :=
  flg.toNat < 32 ∧ ∃ e n c, Extra (flg.toNat.testBit 2) e ∧ Text (flg.toNat.testBit 3) n ∧ Text (flg.toNat.testBit 4) c ∧
    x = e ++ n ++ c ++ if flg.toNat.testBit 1 then leBytes 2 (crc32 (head ++ e ++ n ++ c)) else []

/-- `file` is a gzip file of `d`. RFC 1952 §2.3. -/
def IsGzip (file d : Bytes) : Prop :=
  ∃ (flg : UInt8) (misc name body : Bytes) (x pad : List Bool), misc.length = 6 ∧
    Parts ([0x1f, 0x8b, 8, flg] ++ misc) flg name ∧
    file = [0x1f, 0x8b, 8, flg] ++ misc ++ name ++ body ++ trailer d ∧ bits body = x ++ pad ∧ pad.length < 8 ∧ Blocks 0 x [] d

end Verif.Spec.Gz
