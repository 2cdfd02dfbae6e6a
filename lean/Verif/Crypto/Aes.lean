import Verif.Twofish.Refine
/-!
# AES (FIPS 197) in CBC and ECB mode

The published cipher, to show that what the theorems assume of `Cryptodome.Cipher.AES` (used at
kdbx_parsing/common.py:106-116, 342-348) is true of it.  It is not a model of code in the repository.
-/
namespace Verif.Aes

/-- `x⁸ + x⁴ + x³ + x + 1`, FIPS 197 §4.2. -/
def poly : Nat := 2 ^ 8 + 2 ^ 4 + 2 ^ 3 + 2 + 1

/-- Multiplication in GF(2^8) of numbers below 256, §4.2. -/
def mulN (a b : Nat) : Nat := Spec.Twofish.mul poly a b

/-- Multiplication of bytes by constants. -/
def mul (a : UInt8) (c : Nat) : UInt8 := UInt8.ofNat (mulN a.toNat c)

/-- The square. -/
def sq (a : Nat) : Nat := mulN a a

/-- `a ^ 254`, the inverse of `a`, and 0 for 0. -/
def invN (a : Nat) : Nat :=
  let b := sq a
  let c := sq b
  let d := sq c
  let e := sq d
  let f := sq e
  let g := sq f
  mulN b (mulN c (mulN d (mulN e (mulN f (mulN g (sq g))))))

/-- Rotation of a byte to the left. -/
def rotl (a n : Nat) : Nat := (a <<< n) % 256 ||| (a >>> (8 - n))

/-- The S-box, §5.1.1. -/
def sboxN (a : Nat) : Nat :=
  let b := invN a
  b ^^^ rotl b 1 ^^^ rotl b 2 ^^^ rotl b 3 ^^^ rotl b 4 ^^^ 0x63

def sbox (a : UInt8) : UInt8 := UInt8.ofNat (sboxN a.toNat)

/-- The inverse of the affine transformation, then the inverse, §5.3.2. -/
def invSboxN (a : Nat) : Nat := invN (rotl a 1 ^^^ rotl a 3 ^^^ rotl a 6 ^^^ 0x05)

def invSbox (a : UInt8) : UInt8 := UInt8.ofNat (invSboxN a.toNat)

/-- Four bytes. -/
structure Col where
  (a b c d : UInt8)
deriving DecidableEq

/-- The state: four columns, §3.4. -/
structure State where
  (a b c d : Col)
deriving DecidableEq

def Col.map (f : UInt8 → UInt8) (x : Col) : Col := ⟨f x.a, f x.b, f x.c, f x.d⟩
def Col.add (x y : Col) : Col := ⟨x.a ^^^ y.a, x.b ^^^ y.b, x.c ^^^ y.c, x.d ^^^ y.d⟩
def State.map (f : UInt8 → UInt8) (x : State) : State := ⟨x.a.map f, x.b.map f, x.c.map f, x.d.map f⟩
def State.cols (f : Col → Col) (x : State) : State := ⟨f x.a, f x.b, f x.c, f x.d⟩

/-- `AddRoundKey`, §5.1.4. -/
def State.add (x y : State) : State := ⟨x.a.add y.a, x.b.add y.b, x.c.add y.c, x.d.add y.d⟩

/-- `ShiftRows`, §5.1.2. -/
def shiftRows (x : State) : State :=
  ⟨⟨x.a.a, x.b.b, x.c.c, x.d.d⟩, ⟨x.b.a, x.c.b, x.d.c, x.a.d⟩, ⟨x.c.a, x.d.b, x.a.c, x.b.d⟩, ⟨x.d.a, x.a.b, x.b.c, x.c.d⟩⟩

/-- `InvShiftRows`, §5.3.1. -/
def invShiftRows (x : State) : State :=
  ⟨⟨x.a.a, x.d.b, x.c.c, x.b.d⟩, ⟨x.b.a, x.a.b, x.d.c, x.c.d⟩, ⟨x.c.a, x.b.b, x.a.c, x.d.d⟩, ⟨x.d.a, x.c.b, x.b.c, x.a.d⟩⟩

/-- A circulant matrix applied to a column. -/
def circ (p q r s : Nat) (x : Col) : Col :=
  ⟨mul x.a p ^^^ mul x.b q ^^^ mul x.c r ^^^ mul x.d s, mul x.a s ^^^ mul x.b p ^^^ mul x.c q ^^^ mul x.d r,
    mul x.a r ^^^ mul x.b s ^^^ mul x.c p ^^^ mul x.d q, mul x.a q ^^^ mul x.b r ^^^ mul x.c s ^^^ mul x.d p⟩

/-- `MixColumns`, §5.1.3. -/
def mixColumns (x : State) : State := x.cols (circ 2 3 1 1)

/-- `InvMixColumns`, §5.3.3. -/
def invMixColumns (x : State) : State := x.cols (circ 14 11 13 9)

/-- The rounds after the first key, §5.1. -/
def encRounds : List State → State → State
  | [], s => s
  | [k], s => (shiftRows (s.map sbox)).add k
  | k :: k' :: ks, s => encRounds (k' :: ks) ((mixColumns (shiftRows (s.map sbox))).add k)

/-- The cipher with its round keys. -/
def encBlock : List State → State → State
  | [], s => s
  | k :: ks, s => encRounds ks (s.add k)

/-- The inverse rounds, §5.3. -/
def decRounds : List State → State → State
  | [], s => s
  | [k], s => (invShiftRows (s.add k)).map invSbox
  | k :: k' :: ks, s => (invShiftRows (invMixColumns ((decRounds (k' :: ks) s).add k))).map invSbox

/-- The inverse cipher. -/
def decBlock : List State → State → State
  | [], s => s
  | k :: ks, s => (decRounds ks s).add k

/-- `SubWord(RotWord(w))`, §5.2. -/
def rotSub (x : Col) : Col := ⟨sbox x.b, sbox x.c, sbox x.d, sbox x.a⟩

/-- Key expansion, §5.2: `n` more words; `ws` are the words so far, the latest first, `i` is the number of the next one. -/
def expandLoop (nk : Nat) : Nat → Nat → Nat → List Col → List Col
  | 0, _, _, ws => ws
  | n + 1, i, rcon, ws =>
    match ws, ws[nk - 1]? with
    | w :: _, some old =>
      if i % nk = 0 then expandLoop nk n (i + 1) (mulN rcon 2) (old.add ((rotSub w).add ⟨UInt8.ofNat rcon, 0, 0, 0⟩) :: ws)
      else if 6 < nk ∧ i % nk = 4 then expandLoop nk n (i + 1) rcon (old.add (w.map sbox) :: ws)
      else expandLoop nk n (i + 1) rcon (old.add w :: ws)
    | _, _ => ws

/-- Words from bytes. -/
def toCols : Bytes → List Col
  | a :: b :: c :: d :: r => ⟨a, b, c, d⟩ :: toCols r
  | _ => []

/-- States from words. -/
def toStates : List Col → List State
  | a :: b :: c :: d :: r => ⟨a, b, c, d⟩ :: toStates r
  | _ => []

/-- The bytes of a word. -/
def Col.bytes (x : Col) : Bytes := [x.a, x.b, x.c, x.d]

/-- The bytes of a state. -/
def State.bytes (x : State) : Bytes := x.a.bytes ++ x.b.bytes ++ x.c.bytes ++ x.d.bytes

/-- Blocks from bytes. -/
def blocks (d : Bytes) : List State := toStates (toCols d)

/-- The round keys, §5.2. -/
def roundKeys (key : Bytes) : List State :=
  let ws := toCols key
  toStates (expandLoop ws.length (4 * (ws.length + 7) - ws.length) ws.length 1 ws.reverse).reverse

/-- Cipher block chaining. -/
def cbcEnc (f : State → State) : State → List State → List State
  | _, [] => []
  | iv, b :: bs => f (b.add iv) :: cbcEnc f (f (b.add iv)) bs

def cbcDec (f : State → State) : State → List State → List State
  | _, [] => []
  | iv, c :: cs => (f c).add iv :: cbcDec f c cs

/-- The state of 16 bytes. -/
def oneBlock (b : Bytes) : State := (blocks b).headD ⟨⟨0, 0, 0, 0⟩, ⟨0, 0, 0, 0⟩, ⟨0, 0, 0, 0⟩, ⟨0, 0, 0, 0⟩⟩

/-- AES in CBC mode. -/
def encrypt (key iv d : Bytes) : Bytes := (cbcEnc (encBlock (roundKeys key)) (oneBlock iv) (blocks d)).flatMap State.bytes

def decrypt (key iv d : Bytes) : Bytes := (cbcDec (decBlock (roundKeys key)) (oneBlock iv) (blocks d)).flatMap State.bytes

/-- AES in ECB mode. -/
def ecb (key d : Bytes) : Bytes := ((blocks d).map (encBlock (roundKeys key))).flatMap State.bytes

/-! ## The inverse cipher is the inverse -/

theorem all_range {p : Nat → Bool} (h : (List.range 256).all p = true) {a : Nat} (ha : a < 256) : p a = true :=
  List.all_eq_true.mp h a (List.mem_range.mpr ha)

theorem deg_poly : Twofish.Deg8 poly := Twofish.deg8_of (by decide +kernel)

theorem invSbox_sbox (x : UInt8) : invSbox (sbox x) = x := by
  have h := all_range (p := fun n => sboxN n < 256 && invSboxN (sboxN n) == n) (by decide +kernel) x.toNat_lt
  simp only [Bool.and_eq_true, decide_eq_true_eq, beq_iff_eq] at h
  unfold invSbox sbox
  rw [UInt8.toNat_ofNat_of_lt' h.1, h.2, UInt8.ofNat_toNat]

theorem mul_xor (a b : UInt8) (c : Nat) : mul (a ^^^ b) c = mul a c ^^^ mul b c := by
  unfold mul mulN
  rw [UInt8.toNat_xor, Twofish.mul_xor deg_poly c a.toNat_lt b.toNat_lt, UInt8.ofNat_xor]

/-- A combination of products, by cases. -/
theorem combo {p q r s : Nat} {p' q' r' s' : Nat} {w : Nat → Nat}
    (h : ((List.range 256).all fun n => mulN (mulN n p) p' ^^^ mulN (mulN n q) q' ^^^ mulN (mulN n r) r' ^^^ mulN (mulN n s) s' == w n) = true)
    (x : UInt8) : mul (mul x p) p' ^^^ mul (mul x q) q' ^^^ mul (mul x r) r' ^^^ mul (mul x s) s' = UInt8.ofNat (w x.toNat) := by
  have h := all_range h x.toNat_lt
  rw [beq_iff_eq] at h
  unfold mul
  have e : ∀ c, (UInt8.ofNat (mulN x.toNat c)).toNat = mulN x.toNat c :=
    fun c => UInt8.toNat_ofNat_of_lt' (Twofish.mul_lt deg_poly c x.toNat_lt)
  simp only [e]
  rw [← UInt8.ofNat_xor, ← UInt8.ofNat_xor, ← UInt8.ofNat_xor, h]

theorem circ_inverse (x : Col) : circ 14 11 13 9 (circ 2 3 1 1 x) = x := by
  have h1 : ∀ x, mul (mul x 2) 14 ^^^ mul (mul x 1) 11 ^^^ mul (mul x 1) 13 ^^^ mul (mul x 3) 9 = x := fun x =>
    (combo (w := id) (by decide +kernel) x).trans UInt8.ofNat_toNat
  have h2 : ∀ x, mul (mul x 3) 14 ^^^ mul (mul x 2) 11 ^^^ mul (mul x 1) 13 ^^^ mul (mul x 1) 9 = 0 :=
    combo (w := fun _ => 0) (by decide +kernel)
  have h3 : ∀ x, mul (mul x 1) 14 ^^^ mul (mul x 3) 11 ^^^ mul (mul x 2) 13 ^^^ mul (mul x 1) 9 = 0 :=
    combo (w := fun _ => 0) (by decide +kernel)
  have h4 : ∀ x, mul (mul x 1) 14 ^^^ mul (mul x 1) 11 ^^^ mul (mul x 3) 13 ^^^ mul (mul x 2) 9 = 0 :=
    combo (w := fun _ => 0) (by decide +kernel)
  have key : ∀ a1 a2 a3 a4 b1 b2 b3 b4 c1 c2 c3 c4 d1 d2 d3 d4 : UInt8,
      (a1 ^^^ b1 ^^^ c1 ^^^ d1) ^^^ (a2 ^^^ b2 ^^^ c2 ^^^ d2) ^^^ (a3 ^^^ b3 ^^^ c3 ^^^ d3) ^^^ (a4 ^^^ b4 ^^^ c4 ^^^ d4) =
      (a1 ^^^ a2 ^^^ a3 ^^^ a4) ^^^ (b1 ^^^ b2 ^^^ b3 ^^^ b4) ^^^ (c1 ^^^ c2 ^^^ c3 ^^^ c4) ^^^ (d1 ^^^ d2 ^^^ d3 ^^^ d4) := by
    intros; ac_rfl
  obtain ⟨a, b, c, d⟩ := x
  have rot : ∀ p q r s : UInt8, p ^^^ q ^^^ r ^^^ s = s ^^^ p ^^^ q ^^^ r := by intros; ac_rfl
  have e0 : ∀ y : UInt8, y ^^^ 0 = y := fun _ => UInt8.xor_zero
  have e1 : ∀ y : UInt8, 0 ^^^ y = y := fun _ => UInt8.zero_xor
  simp only [circ, mul_xor, key]
  congr 1
  · simp only [h1, h2, h3, h4, e0]
  · rw [← rot (mul (mul a 1) 14), ← rot (mul (mul b 2) 14), ← rot (mul (mul c 3) 14), ← rot (mul (mul d 1) 14)]
    simp only [h1, h2, h3, h4, e0, e1]
  · rw [rot (mul (mul a 2) 13), rot (mul (mul a 3) 11), rot (mul (mul b 3) 13), rot (mul (mul b 1) 11), rot (mul (mul c 1) 13),
      rot (mul (mul c 1) 11), rot (mul (mul d 1) 13), rot (mul (mul d 2) 11)]
    simp only [h1, h2, h3, h4, e0, e1]
  · rw [rot (mul (mul a 2) 11), rot (mul (mul b 3) 11), rot (mul (mul c 1) 11), rot (mul (mul d 1) 11)]
    simp only [h1, h2, h3, h4, e0, e1]

theorem mix_inverse (x : State) : invMixColumns (mixColumns x) = x := by
  unfold invMixColumns mixColumns State.cols
  simp only [circ_inverse]

theorem shift_inverse (x : State) : invShiftRows (shiftRows x) = x := rfl

theorem sub_inverse (x : State) : (x.map sbox).map invSbox = x := by
  unfold State.map Col.map
  simp only [invSbox_sbox]

theorem Col.add_add (x y : Col) : (x.add y).add y = x := by
  unfold Col.add
  simp only [UInt8.xor_assoc, UInt8.xor_self, UInt8.xor_zero]

theorem State.add_add (x y : State) : (x.add y).add y = x := by
  unfold State.add
  simp only [Col.add_add]

theorem dec_encRounds (ks : List State) (s : State) : decRounds ks (encRounds ks s) = s := by
  fun_induction encRounds ks s with
  | case1 => rfl
  | case2 s k => rw [decRounds, State.add_add, shift_inverse, sub_inverse]
  | case3 s k k' ks ih => rw [decRounds, ih, State.add_add, mix_inverse, shift_inverse, sub_inverse]

theorem dec_encBlock (ks : List State) (s : State) : decBlock ks (encBlock ks s) = s := by
  cases ks with
  | nil => rfl
  | cons k ks => rw [encBlock, decBlock, dec_encRounds, State.add_add]

theorem cbc_inverse {f g : State → State} (h : ∀ s, g (f s) = s) (iv : State) (bs : List State) : cbcDec g iv (cbcEnc f iv bs) = bs := by
  induction bs generalizing iv with
  | nil => rfl
  | cons b bs ih => rw [cbcEnc, cbcDec, h, State.add_add, ih]

theorem cbcEnc_length (f : State → State) (iv : State) (bs : List State) : (cbcEnc f iv bs).length = bs.length := by
  induction bs generalizing iv with
  | nil => rfl
  | cons b bs ih => rw [cbcEnc, List.length_cons, ih, List.length_cons]

theorem cbcDec_length (f : State → State) (iv : State) (bs : List State) : (cbcDec f iv bs).length = bs.length := by
  induction bs generalizing iv with
  | nil => rfl
  | cons b bs ih => rw [cbcDec, List.length_cons, ih, List.length_cons]

theorem bytes_length (l : List State) : (l.flatMap State.bytes).length = 16 * l.length := by
  induction l with
  | nil => rfl
  | cons x xs ih =>
    rw [List.flatMap_cons, List.length_append, ih, List.length_cons]
    show 16 + _ = _
    omega

theorem blocks_bytes (l : List State) : blocks (l.flatMap State.bytes) = l := by
  induction l with
  | nil => rfl
  | cons x xs ih =>
    rw [List.flatMap_cons]
    show x :: blocks (xs.flatMap State.bytes) = _
    rw [ih]

/-- Whole blocks. -/
theorem bytes_blocks (n : Nat) (d : Bytes) (h : d.length = 16 * n) : (blocks d).flatMap State.bytes = d ∧ (blocks d).length = n := by
  induction n generalizing d with
  | zero =>
    cases d with
    | nil => exact ⟨rfl, rfl⟩
    | cons => simp at h
  | succ n ih =>
    have : ∃ x r, d = State.bytes x ++ r := by
      refine ⟨⟨⟨d[0], d[1], d[2], d[3]⟩, ⟨d[4], d[5], d[6], d[7]⟩, ⟨d[8], d[9], d[10], d[11]⟩, ⟨d[12], d[13], d[14], d[15]⟩⟩, d.drop 16, ?_⟩
      have e : ∀ i (hi : i < d.length), d.drop i = d[i] :: d.drop (i + 1) := fun i hi => (List.drop_eq_getElem_cons hi)
      have h0 : d = d.drop 0 := rfl
      rw [e 0 (by omega), e 1 (by omega), e 2 (by omega), e 3 (by omega), e 4 (by omega), e 5 (by omega), e 6 (by omega), e 7 (by omega),
        e 8 (by omega), e 9 (by omega), e 10 (by omega), e 11 (by omega), e 12 (by omega), e 13 (by omega), e 14 (by omega), e 15 (by omega)] at h0
      exact h0
    obtain ⟨x, r, rfl⟩ := this
    have hr : r.length = 16 * n := by
      rw [List.length_append] at h
      have : x.bytes.length = 16 := rfl
      omega
    obtain ⟨h1, h2⟩ := ih r hr
    have e : blocks (x.bytes ++ r) = x :: blocks r := rfl
    rw [e]
    exact ⟨by rw [List.flatMap_cons, h1], by rw [List.length_cons, h2]⟩

theorem encrypt_length (k iv d : Bytes) (h : d.length % 16 = 0) : (encrypt k iv d).length = d.length := by
  have hd : d.length = 16 * (d.length / 16) := by omega
  unfold encrypt
  rw [bytes_length, cbcEnc_length, (bytes_blocks _ d hd).2, ← hd]

theorem decrypt_length (k iv d : Bytes) (h : d.length % 16 = 0) : (decrypt k iv d).length = d.length := by
  have hd : d.length = 16 * (d.length / 16) := by omega
  unfold decrypt
  rw [bytes_length, cbcDec_length, (bytes_blocks _ d hd).2, ← hd]

theorem decrypt_encrypt (k iv d : Bytes) (h : d.length % 16 = 0) : decrypt k iv (encrypt k iv d) = d := by
  have hd : d.length = 16 * (d.length / 16) := by omega
  unfold decrypt encrypt
  rw [blocks_bytes, cbc_inverse (dec_encBlock _), (bytes_blocks _ d hd).1]

end Verif.Aes
