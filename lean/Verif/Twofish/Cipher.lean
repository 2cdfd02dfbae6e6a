import Verif.Base.Bytes
/-!
# The Twofish block cipher of `pykeepass/kdbx_parsing/pytwofish.py`

Python integers are modelled by `Nat`, with exactly the masks and `%` of the source.
Tables (`list` objects) are `List Nat`; every index used by the source is produced by a mask that
keeps it inside the table (`byte_lt`, `qp` indexes), so no `IndexError` is hidden by `getD`
(see `Verif/Twofish/Bounds.lean`).
-/
namespace Verif.Twofish

/-- `rotr32`, pytwofish.py:142-143. -/
def rotr32 (x n : Nat) : Nat := (x >>> n) ||| ((x <<< (32 - n)) &&& 0xFFFFFFFF)

/-- `rotl32`, pytwofish.py:145-146. -/
def rotl32 (x n : Nat) : Nat := ((x <<< n) &&& 0xFFFFFFFF) ||| (x >>> (32 - n))

/-- `byte`, pytwofish.py:159-160. -/
def byte (x n : Nat) : Nat := (x >>> (8 * n)) &&& 0xff

/-- pytwofish.py:162. -/
def tab_5b : List Nat := [0, 90, 180, 238]
/-- pytwofish.py:163. -/
def tab_ef : List Nat := [0, 238, 180, 90]
/-- pytwofish.py:164. -/
def ror4 : List Nat := [0, 8, 1, 9, 2, 10, 3, 11, 4, 12, 5, 13, 6, 14, 7, 15]
/-- pytwofish.py:165. -/
def ashx : List Nat := [0, 9, 2, 11, 4, 13, 6, 15, 8, 1, 10, 3, 12, 5, 14, 7]
/-- pytwofish.py:166-167. -/
def qt0 : List (List Nat) := [[8, 1, 7, 13, 6, 15, 3, 2, 0, 11, 5, 9, 14, 12, 10, 4],
  [2, 8, 11, 13, 15, 7, 6, 14, 3, 1, 9, 4, 0, 10, 12, 5]]
/-- pytwofish.py:168-169. -/
def qt1 : List (List Nat) := [[14, 12, 11, 8, 1, 2, 3, 5, 15, 4, 10, 6, 7, 0, 9, 13],
  [1, 14, 2, 11, 4, 12, 3, 7, 6, 13, 10, 5, 15, 9, 0, 8]]
/-- pytwofish.py:170-171. -/
def qt2 : List (List Nat) := [[11, 10, 5, 14, 6, 13, 9, 0, 12, 8, 15, 3, 2, 4, 7, 1],
  [4, 12, 7, 5, 1, 6, 9, 10, 0, 14, 13, 8, 2, 11, 3, 15]]
/-- pytwofish.py:172-173. -/
def qt3 : List (List Nat) := [[13, 7, 15, 4, 1, 2, 6, 14, 9, 11, 3, 0, 8, 5, 12, 10],
  [11, 9, 5, 1, 12, 3, 13, 14, 6, 4, 7, 15, 2, 0, 8, 10]]

/-- Python indexing of a table known to contain the index. -/
def at1 (t : List Nat) (i : Nat) : Nat := t.getD i 0
/-- Two-dimensional indexing. -/
def at2 (t : List (List Nat)) (n i : Nat) : Nat := at1 (t.getD n []) i

/-- `qp`, pytwofish.py:175-188 (the two reductions at the start are identities here: `n < 2^32`
and `x < 256` in every call). -/
def qp (n x : Nat) : Nat :=
  let n := n % 0x100000000
  let x := x % 0x100
  let a0 := x >>> 4
  let b0 := x &&& 15
  let a1 := a0 ^^^ b0
  let b1 := at1 ror4 b0 ^^^ at1 ashx a0
  let a2 := at2 qt0 n a1
  let b2 := at2 qt1 n b1
  let a3 := a2 ^^^ b2
  let b3 := at1 ror4 b2 ^^^ at1 ashx a2
  let a4 := at2 qt2 n a3
  let b4 := at2 qt3 n b3
  (b4 <<< 4) ||| a4

/-- `gen_qtab`, pytwofish.py:190-193. -/
def qTab : List (List Nat) := [(List.range 256).map (qp 0), (List.range 256).map (qp 1)]

/-- `f5b` as computed at pytwofish.py:199 and 205. -/
def f5b (f01 : Nat) : Nat := f01 ^^^ (f01 >>> 2) ^^^ at1 tab_5b (f01 &&& 3)
/-- `fef` as computed at pytwofish.py:200 and 206. -/
def fef (f01 : Nat) : Nat := f01 ^^^ (f01 >>> 1) ^^^ (f01 >>> 2) ^^^ at1 tab_ef (f01 &&& 3)

/-- `gen_mtab`, pytwofish.py:195-208. -/
def mTab : List (List Nat) :=
  [ (List.range 256).map fun i =>
      let f01 := at2 qTab 1 i
      f01 + (f5b f01 <<< 8) + (fef f01 <<< 16) + (fef f01 <<< 24),
    (List.range 256).map fun i =>
      let f01 := at2 qTab 0 i
      fef f01 + (fef f01 <<< 8) + (f5b f01 <<< 16) + (f01 <<< 24),
    (List.range 256).map fun i =>
      let f01 := at2 qTab 1 i
      f5b f01 + (fef f01 <<< 8) + (f01 <<< 16) + (fef f01 <<< 24),
    (List.range 256).map fun i =>
      let f01 := at2 qTab 0 i
      f5b f01 + (f01 <<< 8) + (fef f01 <<< 16) + (f5b f01 <<< 24) ]

/-- `gen_mk_tab`, pytwofish.py:210-231; `key` is `s_key`. For other `k_len` the table keeps its
initial zeros (`TWI.__init__`, pytwofish.py:157). -/
def genMkTab (kLen : Nat) (key : List Nat) : List (List Nat) :=
  let q0 := at2 qTab 0
  let q1 := at2 qTab 1
  let m := at2 mTab
  let k (i n : Nat) := byte (at1 key i) n
  if kLen = 2 then
    [ (List.range 256).map fun i => m 0 (q0 (q0 i ^^^ k 1 0) ^^^ k 0 0),
      (List.range 256).map fun i => m 1 (q0 (q1 i ^^^ k 1 1) ^^^ k 0 1),
      (List.range 256).map fun i => m 2 (q1 (q0 i ^^^ k 1 2) ^^^ k 0 2),
      (List.range 256).map fun i => m 3 (q1 (q1 i ^^^ k 1 3) ^^^ k 0 3) ]
  else if kLen = 3 then
    [ (List.range 256).map fun i => m 0 (q0 (q0 (q1 i ^^^ k 2 0) ^^^ k 1 0) ^^^ k 0 0),
      (List.range 256).map fun i => m 1 (q0 (q1 (q1 i ^^^ k 2 1) ^^^ k 1 1) ^^^ k 0 1),
      (List.range 256).map fun i => m 2 (q1 (q0 (q0 i ^^^ k 2 2) ^^^ k 1 2) ^^^ k 0 2),
      (List.range 256).map fun i => m 3 (q1 (q1 (q0 i ^^^ k 2 3) ^^^ k 1 3) ^^^ k 0 3) ]
  else if kLen = 4 then
    [ (List.range 256).map fun i =>
        m 0 (q0 (q0 (q1 (q1 i ^^^ k 3 0) ^^^ k 2 0) ^^^ k 1 0) ^^^ k 0 0),
      (List.range 256).map fun i =>
        m 1 (q0 (q1 (q1 (q0 i ^^^ k 3 1) ^^^ k 2 1) ^^^ k 1 1) ^^^ k 0 1),
      (List.range 256).map fun i =>
        m 2 (q1 (q0 (q0 (q0 i ^^^ k 3 2) ^^^ k 2 2) ^^^ k 1 2) ^^^ k 0 2),
      (List.range 256).map fun i =>
        m 3 (q1 (q1 (q0 (q1 i ^^^ k 3 3) ^^^ k 2 3) ^^^ k 1 3) ^^^ k 0 3) ]
  else List.replicate 4 (List.replicate 256 0)

/-- First conditional step of `h_fun`, pytwofish.py:238-242. -/
def hStep4 (kLen : Nat) (k : Nat → Nat → Nat) (b : Nat × Nat × Nat × Nat) :
    Nat × Nat × Nat × Nat :=
  if 4 ≤ kLen then
    (at2 qTab 1 b.1 ^^^ k 3 0, at2 qTab 0 b.2.1 ^^^ k 3 1,
     at2 qTab 0 b.2.2.1 ^^^ k 3 2, at2 qTab 1 b.2.2.2 ^^^ k 3 3)
  else b

/-- Second conditional step of `h_fun`, pytwofish.py:243-247. -/
def hStep3 (kLen : Nat) (k : Nat → Nat → Nat) (b : Nat × Nat × Nat × Nat) :
    Nat × Nat × Nat × Nat :=
  if 3 ≤ kLen then
    (at2 qTab 1 b.1 ^^^ k 2 0, at2 qTab 1 b.2.1 ^^^ k 2 1,
     at2 qTab 0 b.2.2.1 ^^^ k 2 2, at2 qTab 0 b.2.2.2 ^^^ k 2 3)
  else b

/-- Third conditional step of `h_fun`, pytwofish.py:248-252. -/
def hStep2 (kLen : Nat) (k : Nat → Nat → Nat) (b : Nat × Nat × Nat × Nat) :
    Nat × Nat × Nat × Nat :=
  if 2 ≤ kLen then
    (at2 qTab 0 (at2 qTab 0 b.1 ^^^ k 1 0) ^^^ k 0 0,
     at2 qTab 0 (at2 qTab 1 b.2.1 ^^^ k 1 1) ^^^ k 0 1,
     at2 qTab 1 (at2 qTab 0 b.2.2.1 ^^^ k 1 2) ^^^ k 0 2,
     at2 qTab 1 (at2 qTab 1 b.2.2.2 ^^^ k 1 3) ^^^ k 0 3)
  else b

/-- `h_fun`, pytwofish.py:233-253. -/
def hFun (kLen : Nat) (x : Nat) (key : List Nat) : Nat :=
  let k (i n : Nat) := byte (at1 key i) n
  let b := (byte x 0, byte x 1, byte x 2, byte x 3)
  let b := hStep2 kLen k (hStep3 kLen k (hStep4 kLen k b))
  at2 mTab 0 b.1 ^^^ at2 mTab 1 b.2.1 ^^^ at2 mTab 2 b.2.2.1 ^^^ at2 mTab 3 b.2.2.2

/-- One iteration of the loop of `mds_rem`, pytwofish.py:258-268. -/
def mdsRemStep (p : Nat × Nat) : Nat × Nat :=
  let (p0, p1) := p
  let t := p1 >>> 24
  let p1 := ((p1 <<< 8) &&& 0xffffffff) ||| (p0 >>> 24)
  let p0 := (p0 <<< 8) &&& 0xffffffff
  let u := (t <<< 1) &&& 0xffffffff
  let u := if t &&& 0x80 ≠ 0 then u ^^^ 0x0000014d else u
  let p1 := p1 ^^^ (t ^^^ ((u <<< 16) &&& 0xffffffff))
  let u := u ^^^ (t >>> 1)
  let u := if t &&& 0x01 ≠ 0 then u ^^^ (0x0000014d >>> 1) else u
  let p1 := p1 ^^^ (((u <<< 24) &&& 0xffffffff) ||| ((u <<< 8) &&& 0xffffffff))
  (p0, p1)

/-- `mds_rem`, pytwofish.py:255-269. -/
def mdsRem (p0 p1 : Nat) : Nat :=
  (mdsRemStep (mdsRemStep (mdsRemStep (mdsRemStep
    (mdsRemStep (mdsRemStep (mdsRemStep (mdsRemStep (p0, p1))))))))).2

/-- The expanded key: the fields of `TWI` that `encrypt`/`decrypt` read
(pytwofish.py:148-157). -/
structure Ctx where
  /-- `l_key`, 40 words -/
  lKey : List Nat
  /-- `mk_tab`, 4 tables of 256 words -/
  mkTab : List (List Nat)

/-- `me_key`, pytwofish.py:284-288. -/
def meKey (kLen : Nat) (w : Nat → Nat) : List Nat :=
  (List.range 4).map fun i => if i < kLen then w (i + i) else 0
/-- `mo_key`, pytwofish.py:285-290. -/
def moKey (kLen : Nat) (w : Nat → Nat) : List Nat :=
  (List.range 4).map fun i => if i < kLen then w (i + i + 1) else 0
/-- `s_key`, pytwofish.py:291: position `k_len - i - 1` receives `mds_rem` of word pair `i`. -/
def sKey (kLen : Nat) (w : Nat → Nat) : List Nat :=
  (List.range 4).map fun j =>
    if j < kLen then mdsRem (w ((kLen - 1 - j) + (kLen - 1 - j)))
      (w ((kLen - 1 - j) + (kLen - 1 - j) + 1)) else 0

/-- `l_key[i], l_key[i+1]` for even `i`, pytwofish.py:292-298. -/
def lKeyPair (kLen : Nat) (w : Nat → Nat) (i : Nat) : List Nat :=
  let a := (0x01010101 * i) % 0x100000000
  let b := (a + 0x01010101) % 0x100000000
  let a := hFun kLen a (meKey kLen w)
  let b := rotl32 (hFun kLen b (moKey kLen w)) 8
  [(a + b) % 0x100000000, rotl32 ((a + 2 * b) % 0x100000000) 9]

/-- `set_key` (module level), pytwofish.py:271-299, for `kLen = key_len * 8 / 64`. -/
def setKeyWords (kLen : Nat) (w : Nat → Nat) : Ctx where
  lKey := (List.range 20).flatMap fun j => lKeyPair kLen w (2 * j)
  mkTab := genMkTab kLen (sKey kLen w)

/-- `struct.unpack("<L", ...)` on successive 4-byte groups, pytwofish.py:71-76; words past the key
are 0 (`[0] * 32`). -/
def keyWord (key : Bytes) (i : Nat) : Nat := leNat ((key.drop (4 * i)).take 4)

/-- `Twofish.set_key`, pytwofish.py:55-78. -/
def setKey (key : Bytes) : Except PyErr Ctx :=
  if key.length = 16 ∨ key.length = 24 ∨ key.length = 32 then
    .ok (setKeyWords (key.length * 8 / 64) (keyWord key))
  else .error .key

/-- A block of four words. -/
structure Blk where
  w0 : Nat
  w1 : Nat
  w2 : Nat
  w3 : Nat
  deriving DecidableEq, Repr

/-- `t1` of a round, computed from word `x` (pytwofish.py:310, 316, 338, 344). -/
def t1 (c : Ctx) (x : Nat) : Nat :=
  at2 c.mkTab 0 (byte x 3) ^^^ at2 c.mkTab 1 (byte x 0) ^^^ at2 c.mkTab 2 (byte x 1) ^^^
    at2 c.mkTab 3 (byte x 2)

/-- `t0` of a round, computed from word `x` (pytwofish.py:311, 317, 339, 345). -/
def t0 (c : Ctx) (x : Nat) : Nat :=
  at2 c.mkTab 0 (byte x 0) ^^^ at2 c.mkTab 1 (byte x 1) ^^^ at2 c.mkTab 2 (byte x 2) ^^^
    at2 c.mkTab 3 (byte x 3)

/-- Body of the loop of `encrypt`, pytwofish.py:309-320. -/
def encRound (c : Ctx) (b : Blk) (i : Nat) : Blk :=
  let u1 := t1 c b.w1
  let u0 := t0 c b.w0
  let w2 := rotr32 (b.w2 ^^^ ((u0 + u1 + at1 c.lKey (4 * i + 8)) % 0x100000000)) 1
  let w3 := rotl32 b.w3 1 ^^^ ((u0 + 2 * u1 + at1 c.lKey (4 * i + 9)) % 0x100000000)
  let v1 := t1 c w3
  let v0 := t0 c w2
  let w0 := rotr32 (b.w0 ^^^ ((v0 + v1 + at1 c.lKey (4 * i + 10)) % 0x100000000)) 1
  let w1 := rotl32 b.w1 1 ^^^ ((v0 + 2 * v1 + at1 c.lKey (4 * i + 11)) % 0x100000000)
  ⟨w0, w1, w2, w3⟩

/-- Body of the loop of `decrypt`, pytwofish.py:337-348. -/
def decRound (c : Ctx) (b : Blk) (i : Nat) : Blk :=
  let u1 := t1 c b.w1
  let u0 := t0 c b.w0
  let w2 := rotl32 b.w2 1 ^^^ ((u0 + u1 + at1 c.lKey (4 * i + 10)) % 0x100000000)
  let w3 := rotr32 (b.w3 ^^^ ((u0 + 2 * u1 + at1 c.lKey (4 * i + 11)) % 0x100000000)) 1
  let v1 := t1 c w3
  let v0 := t0 c w2
  let w0 := rotl32 b.w0 1 ^^^ ((v0 + v1 + at1 c.lKey (4 * i + 8)) % 0x100000000)
  let w1 := rotr32 (b.w1 ^^^ ((v0 + 2 * v1 + at1 c.lKey (4 * i + 9)) % 0x100000000)) 1
  ⟨w0, w1, w2, w3⟩

/-- `encrypt`, pytwofish.py:301-327. -/
def encryptBlk (c : Ctx) (b : Blk) : Blk :=
  let s : Blk := ⟨b.w0 ^^^ at1 c.lKey 0, b.w1 ^^^ at1 c.lKey 1,
    b.w2 ^^^ at1 c.lKey 2, b.w3 ^^^ at1 c.lKey 3⟩
  let s := [0, 1, 2, 3, 4, 5, 6, 7].foldl (encRound c) s
  ⟨s.w2 ^^^ at1 c.lKey 4, s.w3 ^^^ at1 c.lKey 5, s.w0 ^^^ at1 c.lKey 6, s.w1 ^^^ at1 c.lKey 7⟩

/-- `decrypt`, pytwofish.py:329-355. -/
def decryptBlk (c : Ctx) (b : Blk) : Blk :=
  let s : Blk := ⟨b.w0 ^^^ at1 c.lKey 4, b.w1 ^^^ at1 c.lKey 5,
    b.w2 ^^^ at1 c.lKey 6, b.w3 ^^^ at1 c.lKey 7⟩
  let s := [7, 6, 5, 4, 3, 2, 1, 0].foldl (decRound c) s
  ⟨s.w2 ^^^ at1 c.lKey 0, s.w3 ^^^ at1 c.lKey 1, s.w0 ^^^ at1 c.lKey 2, s.w1 ^^^ at1 c.lKey 3⟩

/-- `struct.unpack("<4L", block[:16])`, pytwofish.py:90, 108. -/
def unpack4 (b : Bytes) : Blk :=
  ⟨leNat (b.take 4), leNat ((b.drop 4).take 4), leNat ((b.drop 8).take 4),
   leNat ((b.drop 12).take 4)⟩

/-- `struct.pack("<4L", *temp)`, pytwofish.py:93, 111. -/
def pack4 (b : Blk) : Bytes :=
  leBytes 4 b.w0 ++ leBytes 4 b.w1 ++ leBytes 4 b.w2 ++ leBytes 4 b.w3

/-- The `while block:` loop of `Twofish.encrypt` / `Twofish.decrypt`
(pytwofish.py:89-96, 107-114) around the block function `f`. -/
def mapBlocks (f : Blk → Blk) (b : Bytes) : Bytes :=
  if _h : b = [] then []
  else pack4 (f (unpack4 b)) ++ mapBlocks f (b.drop 16)
  termination_by b.length
  decreasing_by
    have : 0 < b.length := List.length_pos_iff.mpr _h
    simp; omega

/-- `Twofish.encrypt`, pytwofish.py:99-114. -/
def encrypt (c : Ctx) (block : Bytes) : Except PyErr Bytes :=
  if block.length % 16 ≠ 0 then .error .value else .ok (mapBlocks (encryptBlk c) block)

/-- `Twofish.decrypt`, pytwofish.py:81-96. -/
def decrypt (c : Ctx) (block : Bytes) : Except PyErr Bytes :=
  if block.length % 16 ≠ 0 then .error .value else .ok (mapBlocks (decryptBlk c) block)

end Verif.Twofish
