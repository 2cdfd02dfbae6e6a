import Verif.Base.Py
import Verif.Base.Bytes
/-!
# gzip decompression

What `zlib.decompress(data, 16 + 15)` (kdbx_parsing/common.py:372-373) does, after RFC 1951 (deflate) and RFC 1952 (gzip),
with the checks on code lengths of zlib's `inflate`. Simplification: an input is treated as a list of bits.
-/
namespace Verif.Gzip

/-- The bits of a byte, lowest first. RFC 1951 §3.1.1, for kdbx_parsing/common.py:373. -/
def bitsOf (b : UInt8) : List Bool := (List.range 8).map fun i => b.toNat.testBit i

/-- The bits of a byte string in the order in which they are read. -/
def bits (d : Bytes) : List Bool := d.flatMap bitsOf

/-- The number written by bits, lowest first. -/
def value : List Bool → Nat
  | [] => 0
  | b :: r => b.toNat + 2 * value r

/-- Read a number of `n` bits. -/
def take? (n : Nat) (b : List Bool) : Option (Nat × List Bool) :=
  if b.length < n then none else some (value (b.take n), b.drop n)

/-- Read `n` bytes. -/
def bytes? : Nat → List Bool → Option (Bytes × List Bool)
  | 0, b => some ([], b)
  | n + 1, b =>
    match take? 8 b with
    | none => none
    | some (x, b) =>
      match bytes? n b with
      | none => none
      | some (d, b) => some (UInt8.ofNat x :: d, b)

/-- How many symbols have a code of `l` bits. RFC 1951 §3.2.2, step 1. -/
def count (lens : List Nat) (l : Nat) : Nat := if l = 0 then 0 else lens.count l

/-- The smallest code of `l` bits. RFC 1951 §3.2.2, step 2. -/
def firstCode (lens : List Nat) : Nat → Nat
  | 0 => 0
  | l + 1 => 2 * (firstCode lens l + count lens l)

/-- A number as `l` bits, highest first: codes are packed that way. RFC 1951 §3.1.1. -/
def msb (l n : Nat) : List Bool := (List.range l).map fun i => n.testBit (l - 1 - i)

/-- Symbols with their codes. -/
abbrev Table := List (Nat × List Bool)

/-- The code that code lengths stand for. RFC 1951 §3.2.2, step 3. -/
def canon (lens : List Nat) : Table :=
  (List.range lens.length).filterMap fun s =>
    let l := lens.getD s 0
    if l = 0 then none else some (s, msb l (firstCode lens l + (lens.take s).count l))

/-- Which code lengths zlib accepts (`inflate_table`): not too many codes of any length; no bit pattern unused, except that a
set without codes is accepted, and, for literals and distances, one with a single code, of one bit. -/
def usable (strict : Bool) (lens : List Nat) : Bool :=
  (lens.all fun l => l ≤ 15) && ((List.range 16).all fun l => firstCode lens l + count lens l ≤ 2 ^ l) &&
    (firstCode lens 15 + count lens 15 == 2 ^ 15 || (lens.all fun l => l = 0) || (!strict && lens.all fun l => l ≤ 1))

/-- Read a symbol. -/
def symbol? (t : Table) (b : List Bool) : Option (Nat × List Bool) :=
  (t.find? fun p => p.2.isPrefixOf b).map fun p => (p.1, b.drop p.2.length)

/-- Lengths 257 to 285: base and number of extra bits. RFC 1951 §3.2.5. -/
def lengths : List (Nat × Nat) :=
  [(3, 0), (4, 0), (5, 0), (6, 0), (7, 0), (8, 0), (9, 0), (10, 0), (11, 1), (13, 1), (15, 1), (17, 1), (19, 2), (23, 2), (27, 2),
    (31, 2), (35, 3), (43, 3), (51, 3), (59, 3), (67, 4), (83, 4), (99, 4), (115, 4), (131, 5), (163, 5), (195, 5), (227, 5), (258, 0)]

/-- Distances 0 to 29: base and number of extra bits. RFC 1951 §3.2.5. -/
def distances : List (Nat × Nat) :=
  [(1, 0), (2, 0), (3, 0), (4, 0), (5, 1), (7, 1), (9, 2), (13, 2), (17, 3), (25, 3), (33, 4), (49, 4), (65, 5), (97, 5), (129, 6),
    (193, 6), (257, 7), (385, 7), (513, 8), (769, 8), (1025, 9), (1537, 9), (2049, 10), (3073, 10), (4097, 11), (6145, 11),
    (8193, 12), (12289, 12), (16385, 13), (24577, 13)]

/-- Repeat `n` bytes from `d` bytes back, including ones just written. -/
def copy : Nat → Nat → Bytes → Bytes
  | 0, _, out => out
  | n + 1, d, out => copy n d (out ++ [out.getD (out.length - d) 0])

/-- The length and the distance that follow the length symbol `257 + s`. -/
def match? (dist : Table) (s : Nat) (b : List Bool) : Option (Nat × Nat × List Bool) := do
  let (base, ex) ← lengths[s]?
  let (x, b) ← take? ex b
  let (d, b) ← symbol? dist b
  let (dbase, dex) ← distances[d]?
  let (y, b) ← take? dex b
  some (base + x, dbase + y, b)

/-- What a symbol of a block, with the numbers that follow it, says: a byte, the end of the block, or a repetition. -/
inductive Item where
  | byte (b : UInt8)
  | stop
  | back (n d : Nat)

/-- Read a symbol of a block and the numbers that follow it. -/
def item? (lit dist : Table) (b : List Bool) : Option (Item × List Bool) := do
  let (s, b) ← symbol? lit b
  if s < 256 then some (.byte (UInt8.ofNat s), b)
  else if s = 256 then some (.stop, b)
  else do
    let (n, d, b) ← match? dist (s - 257) b
    some (.back n d, b)

/-- The symbols of a block, up to the end of the block. `fuel` bounds their number. -/
def symbols (lit dist : Table) : Nat → List Bool → Bytes → Option (Bytes × List Bool)
  | 0, _, _ => none
  | fuel + 1, b, out =>
    match item? lit dist b with
    | none => none
    | some (.byte c, b) => symbols lit dist fuel b (out ++ [c])
    | some (.stop, b) => some (out, b)
    | some (.back n d, b) => if out.length < d then none else symbols lit dist fuel b (copy n d out)

/-- The code lengths of a block, written with the code `t`; `n` in all. RFC 1951 §3.2.7. -/
def codeLengths (t : Table) (n : Nat) : Nat → List Bool → List Nat → Option (List Nat × List Bool)
  | 0, _, _ => none
  | fuel + 1, b, acc =>
    if acc.length = n then some (acc, b)
    else if n < acc.length then none
    else
      match symbol? t b with
      | none => none
      | some (s, b) =>
        if s < 16 then codeLengths t n fuel b (acc ++ [s])
        else if s = 16 then
          match acc.getLast?, take? 2 b with
          | some p, some (x, b) => codeLengths t n fuel b (acc ++ List.replicate (3 + x) p)
          | _, _ => none
        else if s = 17 then
          match take? 3 b with
          | some (x, b) => codeLengths t n fuel b (acc ++ List.replicate (3 + x) 0)
          | none => none
        else
          match take? 7 b with
          | some (x, b) => codeLengths t n fuel b (acc ++ List.replicate (11 + x) 0)
          | none => none

/-- `n` numbers of three bits. -/
def triples : Nat → List Bool → Option (List Nat × List Bool)
  | 0, b => some ([], b)
  | n + 1, b =>
    match take? 3 b with
    | none => none
    | some (x, b) =>
      match triples n b with
      | none => none
      | some (l, b) => some (x :: l, b)

/-- The order in which the lengths of the code for code lengths are written. RFC 1951 §3.2.7. -/
def order : List Nat := [16, 17, 18, 0, 8, 7, 9, 6, 10, 5, 11, 4, 12, 3, 13, 2, 14, 1, 15]

/-- The same lengths in the order of the symbols. -/
def unordered (cl : List Nat) : List Nat := (List.range 19).map fun s => cl.getD (order.idxOf s) 0

/-- The codes at the beginning of a block with codes of its own: the code lengths of literals and of distances. -/
def dynamic (b : List Bool) : Option (List Nat × List Nat × List Bool) := do
  let (hlit, b) ← take? 5 b
  let (hdist, b) ← take? 5 b
  let (hclen, b) ← take? 4 b
  let (cl, b) ← triples (hclen + 4) b
  if 29 < hlit ∨ 29 < hdist ∨ usable true (unordered cl) = false then none
  else do
    let (ls, b) ← codeLengths (canon (unordered cl)) (hlit + 257 + (hdist + 1)) (b.length + 1) b []
    let lit := ls.take (hlit + 257)
    let dist := ls.drop (hlit + 257)
    if lit.getD 256 0 = 0 ∨ usable false lit = false ∨ usable false dist = false then none else some (lit, dist, b)

/-- The code lengths of blocks with the fixed code. RFC 1951 §3.2.6. -/
def fixedLit : List Nat := List.replicate 144 8 ++ List.replicate 112 9 ++ List.replicate 24 7 ++ List.replicate 8 8

/-- The fixed code for distances. -/
def fixedDist : List Nat := List.replicate 32 5

/-- A block: whether it is the last one, what has been written, what is still to be read. RFC 1951 §3.2.3. -/
def block (b : List Bool) (out : Bytes) : Option (Bool × Bytes × List Bool) :=
  match b with
  | fin :: false :: false :: b => do
    let (len, b) ← take? 16 (b.drop (b.length % 8))
    let (nlen, b) ← take? 16 b
    if len + nlen ≠ 65535 then none
    else do
      let (d, b) ← bytes? len b
      some (fin, out ++ d, b)
  | fin :: true :: false :: b => do
    let (out, b) ← symbols (canon fixedLit) (canon fixedDist) (b.length + 1) b out
    some (fin, out, b)
  | fin :: false :: true :: b => do
    let (lit, dist, b) ← dynamic b
    let (out, b) ← symbols (canon lit) (canon dist) (b.length + 1) b out
    some (fin, out, b)
  | _ => none

/-- All blocks. -/
def inflate : Nat → List Bool → Bytes → Option (Bytes × List Bool)
  | 0, _, _ => none
  | fuel + 1, b, out =>
    match block b out with
    | none => none
    | some (fin, out, b) => if fin then some (out, b) else inflate fuel b out

/-- Eight steps of the checksum. RFC 1952 §8. -/
def crcSteps : Nat → Nat → Nat
  | 0, c => c
  | n + 1, c => crcSteps n (if c % 2 = 1 then 0xEDB88320 ^^^ (c / 2) else c / 2)

/-- CRC-32. RFC 1952 §8. -/
def crc32 (d : Bytes) : Nat := d.foldl (fun c b => crcSteps 8 (c ^^^ b.toNat)) 0xFFFFFFFF ^^^ 0xFFFFFFFF

/-- The checksum and the length at the end. RFC 1952 §2.3.1. -/
def trailer (d : Bytes) : Bytes := leBytes 4 (crc32 d) ++ leBytes 4 (d.length % 2 ^ 32)

/-- Behind the extra field, if the header has one. RFC 1952 §2.3.1.1. -/
def extra? (on : Bool) (r : Bytes) : Option Bytes :=
  if on then (if 2 + leNat (r.take 2) ≤ r.length then some (r.drop (2 + leNat (r.take 2))) else none) else some r

/-- Behind the file name or the comment, if the header has one: text up to a zero byte. -/
def text? (on : Bool) (r : Bytes) : Option Bytes :=
  if on then (if 0 ∈ r then some ((r.dropWhile (· != 0)).drop 1) else none) else some r

/-- Behind the checksum of the header, if it has one; `before` is the header so far. -/
def check? (on : Bool) (before r : Bytes) : Option Bytes :=
  if on then (if r.take 2 = leBytes 2 (crc32 before) then some (r.drop 2) else none) else some r

/-- What follows the header, of which `head` is the fixed part and `flg` the flags: 1 for a checksum of the header, 2 for an extra
field, 3 for a file name, 4 for a comment. Flag 0 (text) means nothing, higher ones are refused. RFC 1952 §2.3. -/
def afterHeader (head : Bytes) (flg : UInt8) (r : Bytes) : Option Bytes :=
  if flg.toNat < 32 then
    (extra? (flg.toNat.testBit 2) r).bind fun r1 =>
    (text? (flg.toNat.testBit 3) r1).bind fun r2 =>
    (text? (flg.toNat.testBit 4) r2).bind fun r3 =>
    check? (flg.toNat.testBit 1) (head ++ r.take (r.length - r3.length)) r3
  else none

/-- `Decompressed._decode`, kdbx_parsing/common.py:372-373: `zlib.decompress(data, 16 + 15)`. Bytes behind the end of the stream
are ignored. -/
def gunzip (file : Bytes) : Except PyErr Bytes :=
  match file with
  | 0x1f :: 0x8b :: 8 :: flg :: a :: b :: c :: d :: e :: f :: r =>
    match afterHeader [0x1f, 0x8b, 8, flg, a, b, c, d, e, f] flg r with
    | none => .error .zlib
    | some r =>
      match inflate ((bits r).length + 1) (bits r) [] with
      | none => .error .zlib
      | some (d, b) => if (r.drop (r.length - b.length / 8)).take 8 = trailer d then .ok d else .error .zlib
  | _ => .error .zlib

end Verif.Gzip
