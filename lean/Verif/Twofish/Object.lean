import Verif.Twofish.Cbc
/-!
# The cipher object, `pykeepass/kdbx_parsing/twofish.py:40-299`
-/
namespace Verif.Twofish

/-- The `key` argument: bytes, or the pair of keys of XTS mode. Other values are not modelled. -/
inductive KeyArg where
  | bytes (k : Bytes)
  | pair (k1 k2 : Bytes)

/-- A string as Python has them: `'e'` and `b'e'` are never equal. -/
inductive Lit where
  | str (s : Str)
  | bytes (b : Bytes)
  deriving DecidableEq

/-- A `python_Twofish` object, twofish.py:54-66: `mode`, `ed` and `chain`; the other attributes are not read after the
constructor. `chain` is a `CBC` object because no other class of chains exists. -/
structure Cipher where
  mode : Nat
  ed : Option Lit
  chain : Cbc

/-- `cipher_module(key)`, pytwofish.py:48-52: a pair has length 2 and is refused by `set_key`. -/
def codebook : KeyArg → Except PyErr Ctx
  | .bytes k => setKey k
  | .pair _ _ => .error .key

/-- The same for one key of a pair; an empty key makes an object without key schedule. -/
def pairKey (k : Bytes) : Except PyErr (Option Ctx) := if k = [] then .ok none else (setKey k).map some

/-- The branches of `BlockCipher.__init__`, twofish.py:78-115, after the codebook has been made (`ctx`; for XTS it is made
here). The modes are 1 ECB, 2 CBC, 3 CFB, 5 OFB, 6 CTR, 7 XTS, 8 CMAC. The names `ECB`, `CFB`, `OFB`, `CTR`, `XTS` and `CMAC`
are not defined: `NameError`. `counter` tells whether a callable was given. -/
def chain (key : KeyArg) (mode : Nat) (iv : Bytes) (counter : Bool) (segment : Option Int) : Except PyErr Cipher :=
  if mode = 7 then
    match key with
    | .bytes _ => .error .exception
    | .pair k1 k2 =>
      match pairKey k1, pairKey k2 with
      | .error e, _ => .error e
      | .ok _, .error e => .error e
      | .ok _, .ok _ => .error .name
  else
    match codebook key with
    | .error e => .error e
    | .ok c =>
      if mode = 1 then .error .name
      else if mode = 2 then if iv.length ≠ 16 then .error .exception else .ok ⟨mode, none, ⟨c, iv, []⟩⟩
      else if mode = 3 then
        if iv.length ≠ 16 then .error .exception
        else
          match segment with
          | none => .error .value
          | some n => if n > 128 ∨ n % 8 ≠ 0 then .error .value else .error .name
      else if mode = 5 then if iv.length ≠ 16 then .error .value else .error .name
      else if mode = 6 then if counter then .error .name else .error .exception
      else if mode = 8 then .error .name
      else .error .exception

/-- `Twofish.new`, twofish.py:288-298 and 54-77: the length of a key that is not a pair is checked first; no IV means zeros. -/
def new (key : KeyArg) (mode : Nat := 1) (iv : Option Bytes := none) (counter : Bool := false) (segment : Option Int := none) :
    Except PyErr Cipher :=
  match key with
  | .bytes k =>
    if ¬ (k.length = 16 ∨ k.length = 24 ∨ k.length = 32) then .error .value
    else chain key mode (iv.getD (List.replicate 16 0)) counter segment
  | .pair _ _ => chain key mode (iv.getD (List.replicate 16 0)) counter segment

/-- `encrypt`, twofish.py:117-160 (no object is in XTS mode). -/
def Cipher.encrypt (o : Cipher) (data : Bytes) : Bytes × Cipher :=
  let r := o.chain.encUpdate data
  (r.1, { o with ed := some (.str "e".toList), chain := r.2 })

/-- `decrypt`, twofish.py:162-205. -/
def Cipher.decrypt (o : Cipher) (data : Bytes) : Bytes × Cipher :=
  let r := o.chain.decUpdate data
  (r.1, { o with ed := some (.str "d".toList), chain := r.2 })

/-- The bytes `pad` adds with `style='pkcs7'` (Cryptodome.Util.Padding; the other styles are not modelled). -/
def padding (n : Nat) : Bytes := List.replicate (16 - n % 16) (UInt8.ofNat (16 - n % 16))

/-- `final()`, twofish.py:207-240: `None` unless `self.ed == b'e'`; in that case `update(pdata, b'e')`, which takes the branch
for decryption since `b'e'` is not `'e'`. -/
def Cipher.final (o : Cipher) : Except PyErr (Option Bytes) × Cipher :=
  if o.mode = 7 ∨ o.mode = 8 then (.error .assertion, o)
  else if o.ed = some (.bytes [0x65]) then
    let r := o.chain.decUpdate (padding o.chain.cache.length)
    (.ok (some r.1), { o with chain := r.2 })
  else (.ok none, o)

/-- A use of an object. -/
inductive Use where
  | encrypt (data : Bytes)
  | decrypt (data : Bytes)
  | final

/-- Using an object: what is returned, and the object afterwards. `final` returns `None`, shown as no bytes. -/
def Cipher.use (o : Cipher) : Use → Except PyErr Bytes × Cipher
  | .encrypt d => (.ok (o.encrypt d).1, (o.encrypt d).2)
  | .decrypt d => (.ok (o.decrypt d).1, (o.decrypt d).2)
  | .final =>
    match o.final with
    | (.error e, o') => (.error e, o')
    | (.ok b, o') => (.ok (b.getD []), o')

/-- Using it repeatedly. -/
def Cipher.uses (o : Cipher) : List Use → List (Except PyErr Bytes) × Cipher
  | [] => ([], o)
  | u :: us => ((o.use u).1 :: ((o.use u).2.uses us).1, ((o.use u).2.uses us).2)

end Verif.Twofish
