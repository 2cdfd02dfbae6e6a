import Verif.Base.Bytes
/-!
# Text: UTF-8, hexadecimal, whitespace, XML characters

Standard-library functions the repository calls on text: `str.encode('utf-8')`,
`bytes.decode('utf-8')`, `bytes.fromhex`, `codecs.decode(_, 'hex')`, `int(bytes, 16)`, `str.strip`.
-/
namespace Verif

/-- `s.encode('utf-8')` (no surrogates in `Str`, so it never fails). -/
def utf8Enc (s : Str) : Bytes := s.flatMap String.utf8EncodeChar

/-- `b.decode('utf-8')`, strict: `none` models `UnicodeDecodeError`. Lean's decoder accepts exactly
well-formed UTF-8 (no overlong forms, no surrogates), as CPython's. -/
def utf8Dec (b : Bytes) : Option Str := b.toByteArray.utf8Decode?.map Array.toList

theorem utf8Dec_utf8Enc (s : Str) : utf8Dec (utf8Enc s) = some s := by
  have h : (utf8Enc s).toByteArray = s.utf8Encode := rfl
  unfold utf8Dec
  rw [h, List.utf8Decode?_utf8Encode]
  simp

theorem utf8Enc_inj {a b : Str} (h : utf8Enc a = utf8Enc b) : a = b := by
  have := utf8Dec_utf8Enc a
  rw [h, utf8Dec_utf8Enc] at this
  injection this with this
  exact this.symm

theorem utf8Enc_append (a b : Str) : utf8Enc (a ++ b) = utf8Enc a ++ utf8Enc b := by
  simp [utf8Enc]

/-- The characters allowed in XML 1.0 text, the complement of the class at common.py:224; the same
set is accepted by lxml's setters (others raise `ValueError`). -/
def xmlChar (c : Char) : Bool :=
  c.toNat == 9 || c.toNat == 10 || c.toNat == 13 ||
  (0x20 ≤ c.toNat && c.toNat ≤ 0xD7FF) || (0xE000 ≤ c.toNat && c.toNat ≤ 0xFFFD) ||
  (0x10000 ≤ c.toNat && c.toNat ≤ 0x10FFFF)

/-- A text lxml accepts. -/
def XmlText (s : Str) : Prop := ∀ c ∈ s, xmlChar c = true

instance (s : Str) : Decidable (XmlText s) := inferInstanceAs (Decidable (∀ c ∈ s, _))

/-- `re.sub('[^...]+', '', result)`, common.py:223-227. -/
def stripInvalid (s : Str) : Str := s.filter xmlChar

theorem stripInvalid_id {s : Str} (h : XmlText s) : stripInvalid s = s := by
  unfold stripInvalid
  exact List.filter_eq_self.mpr h

/-- Characters for which `str.isspace()` holds, stripped by `str.strip()`. -/
def pySpace (c : Char) : Bool :=
  let n := c.toNat
  (9 ≤ n && n ≤ 13) || (28 ≤ n && n ≤ 32) || n == 0x85 || n == 0xA0 || n == 0x1680 ||
  (0x2000 ≤ n && n ≤ 0x200A) || n == 0x2028 || n == 0x2029 || n == 0x202F || n == 0x205F ||
  n == 0x3000

/-- `s.strip()`. -/
def pyStrip (s : Str) : Str :=
  ((s.dropWhile pySpace).reverse.dropWhile pySpace).reverse

/-- Value of a hexadecimal digit. -/
def hexVal (c : Char) : Option Nat :=
  let n := c.toNat
  if 48 ≤ n ∧ n ≤ 57 then some (n - 48)
  else if 97 ≤ n ∧ n ≤ 102 then some (n - 97 + 10)
  else if 65 ≤ n ∧ n ≤ 70 then some (n - 65 + 10)
  else none

/-- Lower-case hexadecimal digit. -/
def hexChar (v : Nat) : Char := if v < 10 then Char.ofNat (48 + v) else Char.ofNat (97 + (v - 10))
/-- Upper-case hexadecimal digit. -/
def hexCharU (v : Nat) : Char := if v < 10 then Char.ofNat (48 + v) else Char.ofNat (65 + (v - 10))

/-- `bytes.hex()` / `codecs.encode(_, 'hex')`. -/
def hexEncode (b : Bytes) : Str := b.flatMap fun x => [hexChar (x.toNat / 16), hexChar (x.toNat % 16)]
/-- `bytes.hex().upper()`. -/
def hexEncodeU (b : Bytes) : Str :=
  b.flatMap fun x => [hexCharU (x.toNat / 16), hexCharU (x.toNat % 16)]

/-- ASCII whitespace (`Py_ISSPACE`). -/
def asciiSpace (c : Char) : Bool := c == ' ' || (9 ≤ c.toNat && c.toNat ≤ 13)

/-- `bytes.fromhex(s)`: ASCII whitespace is allowed between (not inside) byte pairs; anything else
raises `ValueError` (`Objects/bytesobject.c`, `_PyBytes_FromHex`). -/
def fromHex : Str → Except PyErr Bytes
  | [] => .ok []
  | c :: cs =>
    if asciiSpace c then fromHex cs
    else
      match cs with
      | [] => .error .value
      | d :: ds =>
        match hexVal c, hexVal d with
        | some x, some y => (fromHex ds).map (UInt8.ofNat (x * 16 + y) :: ·)
        | _, _ => .error .value

/-- `codecs.decode(b, 'hex')` = `binascii.unhexlify`: strict, `binascii.Error` otherwise. -/
def unhexlify : Bytes → Except PyErr Bytes
  | [] => .ok []
  | [_] => .error .binascii
  | c :: d :: r =>
    match hexVal (Char.ofNat c.toNat), hexVal (Char.ofNat d.toNat) with
    | some x, some y => (unhexlify r).map (UInt8.ofNat (x * 16 + y) :: ·)
    | _, _ => .error .binascii

/-- Bytes of an ASCII text. -/
def asciiBytes (s : Str) : Bytes := s.map fun c => UInt8.ofNat c.toNat

/-- Is the byte a hexadecimal digit? -/
def isHexByte (b : UInt8) : Bool := (hexVal (Char.ofNat b.toNat)).isSome
/-- `Py_ISSPACE` on bytes. -/
def isSpaceByte (b : UInt8) : Bool := b == 32 || (9 ≤ b && b ≤ 13)

/-- Digits with single underscores between them; the first argument tells whether the previous
byte was an underscore (`long_from_binary_base`). Trailing whitespace is allowed. Returns whether
the rest is acceptable; `seen` tells whether a digit was seen. -/
def hexDigitsOk (prevUnderscore seen : Bool) : Bytes → Bool
  | [] => seen && !prevUnderscore
  | b :: bs =>
    if isHexByte b then hexDigitsOk false true bs
    else if b == 95 then seen && !prevUnderscore && hexDigitsOk true seen bs
    else seen && !prevUnderscore && isSpaceByte b && bs.all isSpaceByte

/-- An optional sign. -/
def dropSign : Bytes → Bytes
  | 43 :: r => r
  | 45 :: r => r
  | r => r

/-- Does `int(b, 16)` succeed (CPython `PyLong_FromString`, base 16)? Leading whitespace, one sign,
an optional `0x` prefix (which may be followed by one underscore), digits, trailing whitespace. -/
def intHexOk (b : Bytes) : Bool :=
  match dropSign (b.dropWhile isSpaceByte) with
  | 48 :: 120 :: 95 :: r => hexDigitsOk false false r
  | 48 :: 120 :: r => hexDigitsOk false false r
  | 48 :: 88 :: 95 :: r => hexDigitsOk false false r
  | 48 :: 88 :: r => hexDigitsOk false false r
  | r => hexDigitsOk false false r

/-! ## Lemmas -/

theorem hexVal_hexChar : ∀ v, v < 16 → hexVal (hexChar v) = some v := by decide
theorem hexVal_hexCharU : ∀ v, v < 16 → hexVal (hexCharU v) = some v := by decide
theorem hexChar_not_space : ∀ v, v < 16 → asciiSpace (hexChar v) = false := by decide
theorem hexCharU_not_space : ∀ v, v < 16 → asciiSpace (hexCharU v) = false := by decide

theorem hexPair (x : UInt8) : UInt8.ofNat (x.toNat / 16 * 16 + x.toNat % 16) = x := by
  have : x.toNat / 16 * 16 + x.toNat % 16 = x.toNat := by omega
  rw [this]; simp

theorem fromHex_hexEncode (b : Bytes) : fromHex (hexEncode b) = .ok b := by
  induction b with
  | nil => rfl
  | cons x xs ih =>
    have hx := x.toNat_lt
    have h1 : x.toNat / 16 < 16 := by omega
    have h2 : x.toNat % 16 < 16 := by omega
    show fromHex (hexChar (x.toNat / 16) :: hexChar (x.toNat % 16) :: hexEncode xs) = _
    rw [fromHex, hexChar_not_space _ h1]
    simp only [Bool.false_eq_true, if_false, hexVal_hexChar _ h1, hexVal_hexChar _ h2, ih, hexPair]
    rfl

theorem fromHex_hexEncodeU (b : Bytes) : fromHex (hexEncodeU b) = .ok b := by
  induction b with
  | nil => rfl
  | cons x xs ih =>
    have hx := x.toNat_lt
    have h1 : x.toNat / 16 < 16 := by omega
    have h2 : x.toNat % 16 < 16 := by omega
    show fromHex (hexCharU (x.toNat / 16) :: hexCharU (x.toNat % 16) :: hexEncodeU xs) = _
    rw [fromHex, hexCharU_not_space _ h1]
    simp only [Bool.false_eq_true, if_false, hexVal_hexCharU _ h1, hexVal_hexCharU _ h2, ih,
      hexPair]
    rfl

end Verif
