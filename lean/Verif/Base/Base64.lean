import Verif.Base.Bytes
/-!
# Base64 as used by the repository

`base64.b64encode(x).decode('utf-8')` and `base64.b64decode(s)` (not strict): CPython 3.11
`Modules/binascii.c`, `binascii_b2a_base64_impl` and `binascii_a2b_base64_impl`.
Callers in the repository: `baseelement.py:18,70-77`, `pykeepass.py:255,417,447,546,783-787,827,
1009-1011,1024`, `common.py:143,221,241`.
-/
namespace Verif

/-- The base64 alphabet, `table_b2a_base64`. -/
def b64Char (v : Nat) : Char :=
  if v < 26 then Char.ofNat (65 + v)
  else if v < 52 then Char.ofNat (97 + (v - 26))
  else if v < 62 then Char.ofNat (48 + (v - 52))
  else if v = 62 then '+' else '/'

/-- `table_a2b_base64`: value of an alphabet character, `none` for any other. -/
def b64Val (c : Char) : Option Nat :=
  let n := c.toNat
  if 65 ≤ n ∧ n ≤ 90 then some (n - 65)
  else if 97 ≤ n ∧ n ≤ 122 then some (n - 97 + 26)
  else if 48 ≤ n ∧ n ≤ 57 then some (n - 48 + 52)
  else if n = 43 then some 62
  else if n = 47 then some 63
  else none

/-- `base64.b64encode`. -/
def b64encode : Bytes → Str
  | [] => []
  | [a] =>
    [b64Char (a.toNat / 4), b64Char (a.toNat % 4 * 16), '=', '=']
  | [a, b] =>
    [b64Char (a.toNat / 4), b64Char (a.toNat % 4 * 16 + b.toNat / 16),
     b64Char (b.toNat % 16 * 4), '=']
  | a :: b :: c :: r =>
    b64Char (a.toNat / 4) :: b64Char (a.toNat % 4 * 16 + b.toNat / 16) ::
    b64Char (b.toNat % 16 * 4 + c.toNat / 64) :: b64Char (c.toNat % 64) :: b64encode r

/-- The decoding loop of `binascii_a2b_base64_impl` with `strict_mode = 0`:
`quad` is `quad_pos`, `left` is `leftchar`. Characters outside the alphabet are skipped;
a `=` that completes a quantum ends decoding; at the end of input `quad` must be 0. -/
def a2bLoop : Nat → Nat → Nat → Str → Except PyErr Bytes
  | quad, _, _, [] => if quad = 0 then .ok [] else .error .binascii
  | quad, left, pads, c :: cs =>
    if c = '=' then
      if 2 ≤ quad then
        if 4 ≤ quad + (pads + 1) then .ok [] else a2bLoop quad left (pads + 1) cs
      else a2bLoop quad left pads cs
    else
      match b64Val c with
      | none => a2bLoop quad left pads cs
      | some v =>
        match quad with
        | 0 => a2bLoop 1 v 0 cs
        | 1 => (a2bLoop 2 (v % 16) 0 cs).map (UInt8.ofNat (left * 4 + v / 16) :: ·)
        | 2 => (a2bLoop 3 (v % 4) 0 cs).map (UInt8.ofNat (left * 16 + v / 4) :: ·)
        | _ => (a2bLoop 0 0 0 cs).map (UInt8.ofNat (left * 64 + v) :: ·)

/-- `base64.b64decode(s)` for a `str` argument: non-ASCII raises `ValueError`
(`base64._bytes_from_decode_data`), then the lenient loop. -/
def b64decode (s : Str) : Except PyErr Bytes :=
  if s.all (fun c => c.toNat < 128) then a2bLoop 0 0 0 s else .error .value

theorem b64Val_b64Char : ∀ v, v < 64 → b64Val (b64Char v) = some v := by decide +kernel

theorem b64Char_ne_pad : ∀ v, v < 64 → b64Char v ≠ '=' := by decide +kernel

theorem b64Char_ascii : ∀ v, v < 64 → (b64Char v).toNat < 128 := by decide +kernel

theorem a2bLoop_char (quad left pads v : Nat) (cs : Str) (hv : v < 64) :
    a2bLoop quad left pads (b64Char v :: cs) =
      match quad with
      | 0 => a2bLoop 1 v 0 cs
      | 1 => (a2bLoop 2 (v % 16) 0 cs).map (UInt8.ofNat (left * 4 + v / 16) :: ·)
      | 2 => (a2bLoop 3 (v % 4) 0 cs).map (UInt8.ofNat (left * 16 + v / 4) :: ·)
      | _ => (a2bLoop 0 0 0 cs).map (UInt8.ofNat (left * 64 + v) :: ·) := by
  rw [a2bLoop, if_neg (b64Char_ne_pad v hv), b64Val_b64Char v hv]

theorem ofNat_eq (a : UInt8) (n : Nat) (h : n = a.toNat) : UInt8.ofNat n = a := by
  subst h; simp

theorem a2bLoop_b64encode (bs : Bytes) : a2bLoop 0 0 0 (b64encode bs) = .ok bs := by
  fun_induction b64encode bs with
  | case1 => rfl
  | case2 a =>
    have ha := a.toNat_lt
    rw [a2bLoop_char _ _ _ _ _ (by omega)]
    simp only
    rw [a2bLoop_char _ _ _ _ _ (by omega)]
    simp only
    rw [ofNat_eq a _ (by omega)]
    simp [a2bLoop, Except.map]
  | case3 a b =>
    have ha := a.toNat_lt
    have hb := b.toNat_lt
    rw [a2bLoop_char _ _ _ _ _ (by omega)]
    simp only
    rw [a2bLoop_char _ _ _ _ _ (by omega)]
    simp only
    rw [a2bLoop_char _ _ _ _ _ (by omega)]
    simp only
    rw [ofNat_eq a _ (by omega), ofNat_eq b _ (by omega)]
    simp [a2bLoop, Except.map]
  | case4 a b c r ih =>
    have ha := a.toNat_lt
    have hb := b.toNat_lt
    have hc := c.toNat_lt
    rw [a2bLoop_char _ _ _ _ _ (by omega)]
    simp only
    rw [a2bLoop_char _ _ _ _ _ (by omega)]
    simp only
    rw [a2bLoop_char _ _ _ _ _ (by omega)]
    simp only
    rw [a2bLoop_char _ _ _ _ _ (by omega)]
    simp only
    rw [ih, ofNat_eq a _ (by omega), ofNat_eq b _ (by omega), ofNat_eq c _ (by omega)]
    simp [Except.map]

theorem b64encode_mem (bs : Bytes) : ∀ c ∈ b64encode bs, ∃ v, v < 64 ∧ c = b64Char v ∨ c = '=' := by
  fun_induction b64encode bs with
  | case1 => simp
  | case2 a =>
    have ha := a.toNat_lt
    intro c hc
    simp only [List.mem_cons, List.not_mem_nil, or_false] at hc
    rcases hc with h | h | h | h
    · exact ⟨_, .inl ⟨by omega, h⟩⟩
    · exact ⟨_, .inl ⟨by omega, h⟩⟩
    · exact ⟨0, .inr h⟩
    · exact ⟨0, .inr h⟩
  | case3 a b =>
    have ha := a.toNat_lt
    have hb := b.toNat_lt
    intro c hc
    simp only [List.mem_cons, List.not_mem_nil, or_false] at hc
    rcases hc with h | h | h | h
    · exact ⟨_, .inl ⟨by omega, h⟩⟩
    · exact ⟨_, .inl ⟨by omega, h⟩⟩
    · exact ⟨_, .inl ⟨by omega, h⟩⟩
    · exact ⟨0, .inr h⟩
  | case4 a b c r ih =>
    have ha := a.toNat_lt
    have hb := b.toNat_lt
    have hc := c.toNat_lt
    intro x hx
    simp only [List.mem_cons] at hx
    rcases hx with h | h | h | h | h
    · exact ⟨_, .inl ⟨by omega, h⟩⟩
    · exact ⟨_, .inl ⟨by omega, h⟩⟩
    · exact ⟨_, .inl ⟨by omega, h⟩⟩
    · exact ⟨_, .inl ⟨by omega, h⟩⟩
    · exact ih x h

theorem b64encode_ascii (bs : Bytes) : (b64encode bs).all (fun c => c.toNat < 128) = true := by
  rw [List.all_eq_true]
  intro c hc
  obtain ⟨v, h | h⟩ := b64encode_mem bs c hc
  · rw [h.2]; exact decide_eq_true (b64Char_ascii v h.1)
  · rw [h]; decide

/-- Decoding what was encoded gives the bytes back. -/
theorem b64decode_b64encode (bs : Bytes) : b64decode (b64encode bs) = .ok bs := by
  rw [b64decode, if_pos (b64encode_ascii bs), a2bLoop_b64encode]

theorem b64encode_inj {a b : Bytes} (h : b64encode a = b64encode b) : a = b := by
  have := b64decode_b64encode a
  rw [h, b64decode_b64encode] at this
  injection this with this
  exact this.symm

theorem b64Char_ne_quote : ∀ v, v < 64 → b64Char v ≠ '"' := by decide +kernel

/-- Encoded text never contains a double quote (so it can be placed in an XPath literal). -/
theorem b64encode_no_quote (bs : Bytes) : '"' ∉ b64encode bs := by
  intro h
  obtain ⟨v, h | h⟩ := b64encode_mem bs _ h
  · exact b64Char_ne_quote v h.1 h.2.symm
  · exact absurd h (by decide)

theorem b64encode_eq_nil (bs : Bytes) : b64encode bs = [] ↔ bs = [] := by
  constructor
  · intro h
    apply b64encode_inj
    rw [h]; rfl
  · rintro rfl; rfl

end Verif
