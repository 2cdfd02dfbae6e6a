import Verif.Kdbx.Prims
import Verif.Kdbx.Header
/-!
# Payload: padding, encryption, blocks

`common.py:291-385`, `kdbx3.py:118-151`, `kdbx4.py:193-241`.
-/
namespace Verif

/-! ## Padding (Cryptodome.Util.Padding, style pkcs7, block size 16) -/

/-- `CryptoPadding.pad(data, 16)`, called at common.py:346, 364. -/
def pad (d : Bytes) : Bytes :=
  let n := 16 - d.length % 16
  d ++ List.replicate n (UInt8.ofNat n)

/-- `CryptoPadding.unpad(data, 16)`, called at common.py:348, 366. -/
def unpad (d : Bytes) : Except PyErr Bytes :=
  match d.getLast? with
  | none => .error .value
  | some last =>
    if d.length % 16 ≠ 0 then .error .value
    else
      let n := last.toNat
      if n < 1 ∨ n > min 16 d.length then .error .value
      else if d.drop (d.length - n) ≠ List.replicate n last then .error .value
      else .ok (d.take (d.length - n))

/-! ## Payload ciphers -/

/-- `get_cipher(...).encrypt(pad(data))`, common.py:331-366. The constructors check key and IV (or
nonce) sizes; AES checks the data length. -/
def payloadEncrypt (P : Prims) (c : CipherId) (key iv data : Bytes) : Except PyErr Bytes :=
  match c with
  | .aes256 =>
    let d := pad data
    if ¬ AesKeyLen key then .error .value
    else if iv.length ≠ 16 then .error .value
    else if d.length % 16 ≠ 0 then .error .value
    else .ok (P.aesEnc key iv d)
  | .chacha20 =>
    if key.length ≠ 32 then .error .value
    else if ¬ (iv.length = 8 ∨ iv.length = 12 ∨ iv.length = 24) then .error .value
    else .ok (ksXor (P.chacha20 key iv) 0 data)
  | .twofish =>
    match Twofish.newCbc key iv with
    | .error e => .error e
    | .ok s => .ok (s.encUpdate (pad data)).1

/-- The exception swallowed at common.py:324-327: padding that cannot be removed is kept. -/
def tryUnpad (d : Bytes) : Bytes :=
  match unpad d with
  | .ok r => r
  | .error _ => d

/-- `DecryptedPayload._decode`, common.py:312-329. -/
def payloadDecrypt (P : Prims) (c : CipherId) (key iv data : Bytes) : Except PyErr Bytes :=
  match c with
  | .aes256 =>
    if ¬ AesKeyLen key then .error .value
    else if iv.length ≠ 16 then .error .value
    else if data.length % 16 ≠ 0 then .error .value
    else .ok (tryUnpad (P.aesDec key iv data))
  | .chacha20 =>
    if key.length ≠ 32 then .error .value
    else if ¬ (iv.length = 8 ∨ iv.length = 12 ∨ iv.length = 24) then .error .value
    else .ok (ksXor (P.chacha20 key iv) 0 data)
  | .twofish =>
    match Twofish.newCbc key iv with
    | .error e => .error e
    | .ok s => .ok (tryUnpad (s.decUpdate data).1)

/-! ## Splitting into blocks, common.py:291-306 -/

/-- The loop common.py:301-303; the fuel is the number of bytes. -/
def splitLoop (n : Nat) : Nat → Bytes → List Bytes
  | 0, _ => []
  | f + 1, d => if d = [] then [] else d.take n :: splitLoop n f (d.drop n)

/-- `Concatenated._encode`, common.py:297-306: 1 MiB blocks, then an empty block. -/
def splitBlocks (d : Bytes) : List Bytes := splitLoop (2 ^ 20) d.length d ++ [[]]

/-- `Concatenated._decode`, common.py:294-295. -/
def concatBlocks (bs : List Bytes) : Bytes := bs.flatten

/-! ## KDBX4 blocks -/

/-- Key material of the block and header HMACs: `sha512(master_seed + transformed_key + 0x01)`,
kdbx4.py:108-112, 200-203. -/
def hmacBase (P : Prims) (seed tk : Bytes) : Bytes := P.sha512 (seed ++ tk ++ [1])

/-- `compute_payload_block_hash`, kdbx4.py:193-208, for block `i` (`struct.pack('<Q', i)` raises for
`i ≥ 2^64`, `struct.pack('<I', len)` for a length above `2^32`). -/
def blockHmac (P : Prims) (base : Bytes) (i : Nat) (d : Bytes) : Except PyErr Bytes :=
  if i < 2 ^ 64 ∧ d.length < 2 ^ 32 then
    .ok (P.hmac256 (P.sha512 (leBytes 8 i ++ base)) (leBytes 8 i ++ leBytes 4 d.length ++ d))
  else .error .struct

/-- `compute_header_hmac_hash`, kdbx4.py:101-116. -/
def headerHmac (P : Prims) (base : Bytes) (raw : Bytes) : Bytes :=
  P.hmac256 (P.sha512 (List.replicate 8 255 ++ base)) raw

namespace Parser

/-- `EncryptedPayloadBlock`, kdbx4.py:213-228. The hash is read (as padding) before the data and
compared afterwards through the pointer. -/
def block4 (P : Prims) (base : Bytes) (i : Nat) : Parser Bytes := do
  let h ← bytes 32
  let d ← prefixed (uint 4) greedy
  match blockHmac P base i d with
  | .error e => fail e
  | .ok h' => if h = h' then return d else fail (.checksum "(parsing) -> body -> payload -> hmac_hash")

/-- `EncryptedPayload`, kdbx4.py:230-233. -/
def blocks4 (P : Prims) (base : Bytes) : Parser (List Bytes) :=
  repeatUntil (block4 P base) (fun d => d.isEmpty)

/-- `PayloadBlock` of KDBX3, kdbx3.py:118-146. -/
def block3 (P : Prims) (i : Nat) : Parser Bytes := do
  let idx ← uint 4
  if idx ≠ i then fail (.checksum "(parsing) -> xml -> block_index")
  else do
    let h ← bytes 32
    let d ← prefixed (uint 4) greedy
    if d.isEmpty then
      if h = List.replicate 32 0 then return d
      else fail (.checksum "(parsing) -> xml -> block_hash")
    else
      if h = P.sha256 d then return d
      else fail (.checksum "(parsing) -> xml -> block_hash")

/-- `PayloadBlocks`, kdbx3.py:148-151. -/
def blocks3 (P : Prims) : Parser (List Bytes) := repeatUntil (block3 P) (fun d => d.isEmpty)

end Parser

/-- Writing an integer into an unsigned field of `k` bytes: `FormatFieldError` if it does not fit. -/
def buildUint (k v : Nat) : Except PyErr Bytes :=
  if v < 256 ^ k then .ok (leBytes k v) else .error .formatField

/-- `Prefixed(Int, GreedyBytes)` on the building side. -/
def buildPrefixed (k : Nat) (d : Bytes) : Except PyErr Bytes := do
  return (← buildUint k d.length) ++ d

/-- Building `EncryptedPayloadBlock`, kdbx4.py:213-228: 32 bytes of padding overwritten with the
hash through the pointer. -/
def buildBlock4 (P : Prims) (base : Bytes) (i : Nat) (d : Bytes) : Except PyErr Bytes := do
  let body ← buildPrefixed 4 d
  let h ← blockHmac P base i d
  return h ++ body

/-- Building `PayloadBlock` of KDBX3, kdbx3.py:118-146. -/
def buildBlock3 (P : Prims) (i : Nat) (d : Bytes) : Except PyErr Bytes := do
  let idx ← buildUint 4 i
  let body ← buildPrefixed 4 d
  return idx ++ (if d.isEmpty then List.replicate 32 0 else P.sha256 d) ++ body

/-- `RepeatUntil` on the building side: items are written until the predicate holds on one;
`RepeatError` if the list ends before. -/
def buildUntil {α} (b : Nat → α → Except PyErr Bytes) (stop : α → Bool) :
    Nat → List α → Except PyErr Bytes
  | _, [] => .error .repeatErr
  | i, a :: as => do
    let x ← b i a
    if stop a then return x
    else return x ++ (← buildUntil b stop (i + 1) as)

/-- Building `EncryptedPayload` from the list of blocks. -/
def buildBlocks4 (P : Prims) (base : Bytes) (bs : List Bytes) : Except PyErr Bytes :=
  buildUntil (buildBlock4 P base) (fun d => d.isEmpty) 0 bs

/-- Building `PayloadBlocks` from the list of blocks. -/
def buildBlocks3 (P : Prims) (bs : List Bytes) : Except PyErr Bytes :=
  buildUntil (buildBlock3 P) (fun d => d.isEmpty) 0 bs

/-! ## Lemmas -/

theorem pad_length_mod (d : Bytes) : (pad d).length % 16 = 0 := by
  simp only [pad, List.length_append, List.length_replicate]; omega

theorem unpad_pad (d : Bytes) : unpad (pad d) = .ok d := by
  have hn : 16 - d.length % 16 = (15 - d.length % 16) + 1 := by omega
  have hl : (pad d).getLast? = some (UInt8.ofNat (16 - d.length % 16)) := by
    unfold pad
    rw [List.getLast?_append, List.getLast?_replicate, if_neg (by omega)]
    rfl
  have ht : (UInt8.ofNat (16 - d.length % 16)).toNat = 16 - d.length % 16 := by
    rw [UInt8.toNat_ofNat', Nat.mod_eq_of_lt]
    have : 16 - d.length % 16 ≤ 16 := Nat.sub_le _ _
    omega
  have hle : (pad d).length - (16 - d.length % 16) = d.length := by
    simp only [pad, List.length_append, List.length_replicate]; omega
  unfold unpad
  rw [hl]
  simp only [pad_length_mod, ht, hle, ne_eq, not_true_eq_false, if_false]
  rw [if_neg, if_neg]
  · simp [pad]
  · simp [pad]
  · simp only [pad, List.length_append, List.length_replicate]; omega

theorem tryUnpad_pad (d : Bytes) : tryUnpad (pad d) = d := by
  unfold tryUnpad; rw [unpad_pad]

/-- The sizes for which the payload cipher can be set up. -/
def CipherOk (c : CipherId) (key iv : Bytes) : Prop :=
  match c with
  | .aes256 => AesKeyLen key ∧ iv.length = 16
  | .chacha20 => key.length = 32 ∧ (iv.length = 8 ∨ iv.length = 12 ∨ iv.length = 24)
  | .twofish => AesKeyLen key ∧ iv.length = 16

theorem newCbc_ok {key iv : Bytes} (h : AesKeyLen key) (h2 : iv.length = 16) :
    ∃ s : Twofish.Cbc, Twofish.newCbc key iv = .ok s ∧ s.ctx.Ok ∧ s.iv = iv ∧ s.cache = [] := by
  unfold AesKeyLen at h
  unfold Twofish.newCbc
  rw [if_neg (not_not_intro h)]
  cases hs : Twofish.setKey key with
  | error e =>
    unfold Twofish.setKey at hs
    rw [if_pos h] at hs
    cases hs
  | ok c => exact ⟨_, if_neg (by simp [h2]), Twofish.setKey_ok hs, rfl, rfl⟩

theorem payloadEncrypt_total (P : Prims) (c : CipherId) (key iv data : Bytes)
    (h : CipherOk c key iv) : ∃ e, payloadEncrypt P c key iv data = .ok e := by
  cases c with
  | aes256 =>
    refine ⟨P.aesEnc key iv (pad data), ?_⟩
    simp only [payloadEncrypt]
    rw [if_neg (not_not_intro h.1), if_neg (by simp [h.2]), if_neg (by simp [pad_length_mod])]
  | twofish =>
    obtain ⟨s, hs, _⟩ := newCbc_ok h.1 h.2
    exact ⟨(s.encUpdate (pad data)).1, by simp only [payloadEncrypt, hs]⟩
  | chacha20 =>
    refine ⟨ksXor (P.chacha20 key iv) 0 data, ?_⟩
    simp only [payloadEncrypt]
    rw [if_neg (by simp [h.1]), if_neg (not_not_intro h.2)]

theorem payload_roundtrip (P : Prims) (hP : P.Lawful) (c : CipherId) (key iv data e : Bytes)
    (h : payloadEncrypt P c key iv data = .ok e) : payloadDecrypt P c key iv e = .ok data := by
  cases c with
  | aes256 =>
    simp only [payloadEncrypt] at h
    split at h
    · cases h
    · next hk =>
      split at h
      · cases h
      · next hi =>
        split at h
        · cases h
        · next hd =>
          injection h with h
          subst h
          have hk := Decidable.not_not.mp hk
          have hi := Decidable.not_not.mp hi
          have hd := Decidable.not_not.mp hd
          simp only [payloadDecrypt]
          rw [if_neg (not_not_intro hk), if_neg (not_not_intro hi), if_neg, hP.aes_inverse _ _ _ hk hi hd,
            tryUnpad_pad]
          rw [hP.aesEnc_length _ _ _ hk hi hd]
          exact not_not_intro hd
  | twofish =>
    simp only [payloadEncrypt] at h
    cases hs : Twofish.newCbc key iv with
    | error e => rw [hs] at h; cases h
    | ok s =>
      rw [hs] at h
      injection h with h
      subst h
      have hs0 := hs
      unfold Twofish.newCbc at hs0
      split at hs0
      · cases hs0
      · next hk =>
        have hk : AesKeyLen key := Decidable.not_not.mp hk
        have hiv : iv.length = 16 := by
          split at hs0
          · cases hs0
          · split at hs0
            · cases hs0
            · next h => exact Decidable.not_not.mp h
        obtain ⟨s', hs', hok, hi, hc⟩ := newCbc_ok hk hiv
        rw [hs] at hs'
        injection hs' with hs'
        subst hs'
        simp only [payloadDecrypt, hs]
        rw [Twofish.encUpdate_eq, Twofish.decUpdate_eq]
        simp only [hc, List.nil_append]
        have := (Twofish.decLoop_encLoop s.ctx hok (pad data) s.iv (by rw [hi]; exact hiv)).1
        rw [this]
        have hm : (pad data).length / 16 * 16 = (pad data).length := by
          have := pad_length_mod data; omega
        rw [hm, List.take_length, tryUnpad_pad]
  | chacha20 =>
    simp only [payloadEncrypt] at h
    split at h
    · cases h
    · next hk =>
      split at h
      · cases h
      · next hi =>
        injection h with h
        subst h
        simp only [payloadDecrypt]
        rw [if_neg hk, if_neg hi, ksXor_ksXor]

theorem splitLoop_flatten (n : Nat) (hn : 0 < n) : ∀ f d, d.length ≤ f →
    (splitLoop n f d).flatten = d := by
  intro f
  induction f with
  | zero => intro d h; rw [List.length_eq_zero_iff.mp (Nat.le_zero.mp h)]; rfl
  | succ f ih =>
    intro d h
    rw [splitLoop]
    split
    · next h => subst h; rfl
    · next hne =>
      have : 0 < d.length := List.length_pos_iff.mpr hne
      rw [List.flatten_cons, ih _ (by simp; omega), List.take_append_drop]

theorem splitLoop_mem (n : Nat) (hn : 0 < n) : ∀ f d, ∀ b ∈ splitLoop n f d,
    b ≠ [] ∧ b.length ≤ n := by
  intro f
  induction f with
  | zero => intro d b h; cases h
  | succ f ih =>
    intro d b h
    rw [splitLoop] at h
    split at h
    · cases h
    · next hne =>
      rcases List.mem_cons.mp h with rfl | h
      · refine ⟨?_, by rw [List.length_take]; omega⟩
        intro he
        have : (d.take n).length = 0 := by rw [he]; rfl
        have h2 : 0 < d.length := List.length_pos_iff.mpr hne
        rw [List.length_take] at this; omega
      · exact ih _ b h

theorem splitLoop_length (n : Nat) (hn : 0 < n) : ∀ f d, (splitLoop n f d).length ≤ d.length := by
  intro f
  induction f with
  | zero => intro d; simp [splitLoop]
  | succ f ih =>
    intro d
    rw [splitLoop]
    split
    · simp
    · next hne =>
      have : 0 < d.length := List.length_pos_iff.mpr hne
      have := ih (d.drop n)
      simp at this ⊢; omega

/-- The number of blocks before the terminator is the length divided by the block size, rounded
up. -/
theorem splitLoop_count (n : Nat) (hn : 0 < n) : ∀ f d, d.length ≤ f →
    (splitLoop n f d).length = (d.length + n - 1) / n := by
  intro f
  induction f with
  | zero =>
    intro d h
    rw [List.length_eq_zero_iff.mp (Nat.le_zero.mp h)]
    simp only [splitLoop, List.length_nil, Nat.zero_add]
    rw [Nat.div_eq_of_lt (by omega)]
  | succ f ih =>
    intro d h
    rw [splitLoop]
    split
    · next h =>
      subst h
      simp only [List.length_nil, Nat.zero_add]
      rw [Nat.div_eq_of_lt (by omega)]
    · next hne =>
      have h0 : 0 < d.length := List.length_pos_iff.mpr hne
      rw [List.length_cons, ih _ (by simp; omega), List.length_drop]
      by_cases hle : d.length ≤ n
      · have h1 : d.length - n = 0 := by omega
        rw [h1, Nat.zero_add, Nat.div_eq_of_lt (by omega)]
        have : d.length + n - 1 = (d.length - 1) + n := by omega
        rw [this, Nat.add_div_right _ hn, Nat.div_eq_of_lt (by omega)]
      · have : d.length + n - 1 = (d.length - n + n - 1) + n := by omega
        rw [this, Nat.add_div_right _ hn]

namespace Parser

/-- Reading back a list of items written with `buildUntil`. -/
theorem repeatLoop_build {α} (p : Nat → Parser α) (b : Nat → α → Except PyErr Bytes)
    (stop : α → Bool) (hpb : ∀ i a x r, b i a = .ok x → p i (x ++ r) = .ok (a, r)) :
    ∀ (as : List α) (last : α) (i : Nat) (x : Bytes), (∀ a ∈ as, stop a = false) →
      stop last = true → buildUntil b stop i (as ++ [last]) = .ok x →
      ∀ fuel r, as.length < fuel → repeatLoop p stop fuel i (x ++ r) = .ok (as ++ [last], r) := by
  intro as
  induction as with
  | nil =>
    intro last i x _ hl hb fuel r hf
    cases fuel with
    | zero => omega
    | succ fuel =>
      simp only [List.nil_append, buildUntil] at hb
      cases hx : b i last with
      | error e => rw [hx] at hb; cases hb
      | ok y =>
        rw [hx] at hb
        simp only [hl, if_true, bind, Except.bind, pure, Except.pure, Except.ok.injEq] at hb
        subst hb
        exact repeatLoop_last p stop fuel i _ r last (hpb i last _ r hx) hl
  | cons a as ih =>
    intro last i x ha hl hb fuel r hf
    cases fuel with
    | zero => omega
    | succ fuel =>
      simp only [List.cons_append, buildUntil] at hb
      cases hx : b i a with
      | error e => rw [hx] at hb; cases hb
      | ok y =>
        rw [hx] at hb
        have hsa := ha a (by simp)
        simp only [hsa, Bool.false_eq_true, if_false, bind, Except.bind, pure, Except.pure] at hb
        cases hr : buildUntil b stop (i + 1) (as ++ [last]) with
        | error e => rw [hr] at hb; cases hb
        | ok z =>
          rw [hr] at hb
          simp only [Except.ok.injEq] at hb
          subst hb
          rw [List.append_assoc]
          refine repeatLoop_step p stop fuel i _ (z ++ r) r a _ (hpb i a y _ hx) hsa ?_
          exact ih last (i + 1) z (fun x hx => ha x (by simp [hx])) hl hr fuel r
            (by simp at hf; omega)

end Parser

theorem buildUntil_length {α} (b : Nat → α → Except PyErr Bytes) (stop : α → Bool)
    (hb : ∀ i a x, b i a = .ok x → 0 < x.length) (last : α) :
    ∀ (as : List α) (i : Nat) (x : Bytes), (∀ a ∈ as, stop a = false) →
      buildUntil b stop i (as ++ [last]) = .ok x → as.length < x.length := by
  intro as
  induction as with
  | nil =>
    intro i x _ h
    simp only [List.nil_append, buildUntil] at h
    cases hx : b i last with
    | error e => rw [hx] at h; cases h
    | ok y =>
      have := hb i last y hx
      rw [hx] at h
      by_cases hs : stop last = true
      · simp only [hs, if_true, bind, Except.bind, pure, Except.pure, Except.ok.injEq] at h
        subst h; simpa using this
      · simp only [hs, bind, Except.bind] at h
        cases h
  | cons a as ih =>
    intro i x ha h
    simp only [List.cons_append, buildUntil] at h
    cases hx : b i a with
    | error e => rw [hx] at h; cases h
    | ok y =>
      have hy := hb i a y hx
      rw [hx] at h
      simp only [ha a (by simp), Bool.false_eq_true, if_false, bind, Except.bind, pure, Except.pure]
        at h
      cases hr : buildUntil b stop (i + 1) (as ++ [last]) with
      | error e => rw [hr] at h; cases h
      | ok z =>
        rw [hr] at h
        have := ih (i + 1) z (fun x hx => ha x (by simp [hx])) hr
        simp only [Except.ok.injEq] at h
        subst h
        simp; omega

theorem buildUntil_total {α} (b : Nat → α → Except PyErr Bytes) (stop : α → Bool)
    (last : α) (hl : stop last = true) :
    ∀ (as : List α) (i : Nat),
      (∀ j a, j < as.length → as[j]? = some a → ∃ x, b (i + j) a = .ok x) →
      (∃ x, b (i + as.length) last = .ok x) →
      ∃ x, buildUntil b stop i (as ++ [last]) = .ok x := by
  intro as
  induction as with
  | nil =>
    intro i _ h2
    obtain ⟨x, hx⟩ := h2
    refine ⟨x, ?_⟩
    simp only [List.length_nil, Nat.add_zero] at hx
    simp only [List.nil_append, buildUntil, hx, hl, if_true]
    rfl
  | cons a as ih =>
    intro i h h2
    obtain ⟨x, hx⟩ := h 0 a (by simp) (by simp)
    rw [Nat.add_zero] at hx
    obtain ⟨y, hy⟩ := ih (i + 1) (fun j c hj hc => by
      have := h (j + 1) c (by simp; omega) (by simpa using hc)
      rwa [show i + (j + 1) = i + 1 + j by omega] at this) (by
      have := h2
      rwa [List.length_cons, show i + (as.length + 1) = i + 1 + as.length by omega] at this)
    by_cases hs : stop a = true
    · exact ⟨x, by simp only [List.cons_append, buildUntil, hx, hs, if_true]; rfl⟩
    · exact ⟨x ++ y, by
        simp only [List.cons_append, buildUntil, hx, hs, hy]; rfl⟩

theorem buildUint_ok {k v : Nat} {x : Bytes} (h : buildUint k v = .ok x) :
    v < 256 ^ k ∧ x = leBytes k v := by
  unfold buildUint at h
  split at h
  · next hv => injection h with h; exact ⟨hv, h.symm⟩
  · cases h

theorem buildPrefixed_ok {k : Nat} {d x : Bytes} (h : buildPrefixed k d = .ok x) :
    d.length < 256 ^ k ∧ x = leBytes k d.length ++ d := by
  unfold buildPrefixed at h
  cases hu : buildUint k d.length with
  | error e => rw [hu] at h; cases h
  | ok y =>
    rw [hu] at h
    obtain ⟨h1, rfl⟩ := buildUint_ok hu
    simp only [bind, Except.bind, pure, Except.pure, Except.ok.injEq] at h
    exact ⟨h1, h.symm⟩

theorem buildPrefixed_eq {k : Nat} {d : Bytes} (h : d.length < 256 ^ k) :
    buildPrefixed k d = .ok (leBytes k d.length ++ d) := by
  unfold buildPrefixed buildUint
  rw [if_pos h]; rfl

namespace Parser

theorem prefixed_greedy (k : Nat) (d r : Bytes) (h : d.length < 256 ^ k) :
    prefixed (uint k) greedy (leBytes k d.length ++ d ++ r) = .ok (d, r) := by
  rw [prefixed_ok]
  refine ⟨d.length, d ++ r, d, [], ?_, rfl, rfl, rfl⟩
  rw [List.append_assoc]
  exact uint_leBytes k d.length (d ++ r) h

theorem block4_build (P : Prims) (hP : P.Lawful) (base : Bytes) (i : Nat) (d x r : Bytes)
    (h : buildBlock4 P base i d = .ok x) : block4 P base i (x ++ r) = .ok (d, r) := by
  unfold buildBlock4 at h
  cases hb : buildPrefixed 4 d with
  | error e => rw [hb] at h; cases h
  | ok y =>
    obtain ⟨h1, rfl⟩ := buildPrefixed_ok hb
    rw [hb] at h
    cases hh : blockHmac P base i d with
    | error e => rw [hh] at h; cases h
    | ok m =>
      rw [hh] at h
      simp only [bind, Except.bind, pure, Except.pure, Except.ok.injEq] at h
      subst h
      have hm : m.length = 32 := by
        unfold blockHmac at hh
        split at hh
        · injection hh with hh; subst hh; exact hP.hmac256_length _ _
        · cases hh
      unfold block4
      rw [List.append_assoc, bind_run (bytes_append' m _ hm), bind_run (prefixed_greedy 4 d r h1), hh]
      simp only [if_true]
      rfl

theorem block3_build (P : Prims) (hP : P.Lawful) (i : Nat) (d x r : Bytes)
    (h : buildBlock3 P i d = .ok x) : block3 P i (x ++ r) = .ok (d, r) := by
  unfold buildBlock3 at h
  cases hi : buildUint 4 i with
  | error e => rw [hi] at h; cases h
  | ok y =>
    obtain ⟨h0, rfl⟩ := buildUint_ok hi
    rw [hi] at h
    cases hb : buildPrefixed 4 d with
    | error e => rw [hb] at h; cases h
    | ok z =>
      obtain ⟨h1, rfl⟩ := buildPrefixed_ok hb
      rw [hb] at h
      simp only [bind, Except.bind, pure, Except.pure, Except.ok.injEq] at h
      subst h
      unfold block3
      have hl : (if d.isEmpty = true then List.replicate 32 0 else P.sha256 d).length = 32 := by
        split
        · simp
        · exact hP.sha256_length _
      rw [List.append_assoc, List.append_assoc, bind_run (uint_leBytes 4 i _ h0),
        if_neg (by simp), bind_run (bytes_append' _ _ hl), bind_run (prefixed_greedy 4 d r h1)]
      split
      · rw [if_pos rfl]; rfl
      · rw [if_pos rfl]; rfl

theorem buildBlock4_pos {P : Prims} {base : Bytes} (i : Nat) (a x : Bytes)
    (h : buildBlock4 P base i a = .ok x) : 0 < x.length := by
  unfold buildBlock4 at h
  cases hb : buildPrefixed 4 a with
  | error e => rw [hb] at h; cases h
  | ok y =>
    obtain ⟨h1, rfl⟩ := buildPrefixed_ok hb
    rw [hb] at h
    cases hh : blockHmac P base i a with
    | error e => rw [hh] at h; cases h
    | ok m =>
      rw [hh] at h
      simp only [bind, Except.bind, pure, Except.pure, Except.ok.injEq] at h
      subst h
      simp only [List.length_append, leBytes_length]; omega

theorem buildBlock3_pos {P : Prims} (i : Nat) (a x : Bytes)
    (h : buildBlock3 P i a = .ok x) : 0 < x.length := by
  unfold buildBlock3 at h
  cases hi : buildUint 4 i with
  | error e => rw [hi] at h; cases h
  | ok y =>
    obtain ⟨h0, rfl⟩ := buildUint_ok hi
    rw [hi] at h
    cases hb : buildPrefixed 4 a with
    | error e => rw [hb] at h; cases h
    | ok z =>
      rw [hb] at h
      simp only [bind, Except.bind, pure, Except.pure, Except.ok.injEq] at h
      subst h
      simp only [List.length_append, leBytes_length]; omega

theorem splitLoop_stop {n : Nat} (hn : 0 < n) {f : Nat} {d : Bytes} :
    ∀ a ∈ splitLoop n f d, a.isEmpty = false := by
  intro a ha
  have := (splitLoop_mem n hn _ _ a ha).1
  cases a with
  | nil => exact absurd rfl this
  | cons => rfl

theorem blocks4_build (P : Prims) (hP : P.Lawful) (base : Bytes) (d x r : Bytes)
    (h : buildBlocks4 P base (splitBlocks d) = .ok x) :
    blocks4 P base (x ++ r) = .ok (splitBlocks d, r) := by
  unfold blocks4 repeatUntil
  have hs := splitLoop_stop (n := 2 ^ 20) (by decide) (f := d.length) (d := d)
  refine repeatLoop_build _ _ _ (fun i a x r h => block4_build P hP base i a x r h)
    (splitLoop (2 ^ 20) d.length d) [] 0 x hs rfl h _ r ?_
  have := buildUntil_length _ _ buildBlock4_pos [] _ 0 x hs h
  rw [List.length_append]; omega

theorem blocks3_build (P : Prims) (hP : P.Lawful) (d x r : Bytes)
    (h : buildBlocks3 P (splitBlocks d) = .ok x) :
    blocks3 P (x ++ r) = .ok (splitBlocks d, r) := by
  unfold blocks3 repeatUntil
  have hs := splitLoop_stop (n := 2 ^ 20) (by decide) (f := d.length) (d := d)
  refine repeatLoop_build _ _ _ (fun i a x r h => block3_build P hP i a x r h)
    (splitLoop (2 ^ 20) d.length d) [] 0 x hs rfl h _ r ?_
  have := buildUntil_length _ _ buildBlock3_pos [] _ 0 x hs h
  rw [List.length_append]; omega

end Parser

theorem concatBlocks_splitBlocks (d : Bytes) : concatBlocks (splitBlocks d) = d := by
  unfold concatBlocks splitBlocks
  rw [List.flatten_append, splitLoop_flatten _ (by decide) _ _ (Nat.le_refl _)]
  simp

theorem splitBlocks_count (d : Bytes) :
    (splitLoop (2 ^ 20) d.length d).length = (d.length + (2 ^ 20 - 1)) / 2 ^ 20 := by
  rw [splitLoop_count _ (by decide) _ _ (Nat.le_refl _), Nat.add_sub_assoc (by decide)]

theorem buildBlocks4_total (P : Prims) (base d : Bytes) (h : d.length < 2 ^ 83) :
    ∃ x, buildBlocks4 P base (splitBlocks d) = .ok x := by
  have hc := splitBlocks_count d
  have hlt : (splitLoop (2 ^ 20) d.length d).length < 2 ^ 64 := by rw [hc]; omega
  have hb : ∀ i (a : Bytes), i < 2 ^ 64 → a.length ≤ 2 ^ 20 → ∃ x, buildBlock4 P base i a = .ok x := by
    intro i a hi ha
    unfold buildBlock4 blockHmac
    rw [buildPrefixed_eq (by omega), if_pos ⟨hi, by omega⟩]
    exact ⟨_, rfl⟩
  refine buildUntil_total _ _ [] rfl _ 0 ?_ (hb _ _ (by omega) (by simp))
  intro j a hj ha
  refine hb _ _ (by omega) (splitLoop_mem _ (by decide) _ _ a (List.mem_of_getElem? ha)).2

theorem buildBlocks3_total (P : Prims) (d : Bytes) (h : d.length < 2 ^ 51) :
    ∃ x, buildBlocks3 P (splitBlocks d) = .ok x := by
  have hc := splitBlocks_count d
  have hlt : (splitLoop (2 ^ 20) d.length d).length < 2 ^ 32 := by rw [hc]; omega
  have hb : ∀ i (a : Bytes), i < 2 ^ 32 → a.length ≤ 2 ^ 20 → ∃ x, buildBlock3 P i a = .ok x := by
    intro i a hi ha
    unfold buildBlock3 buildUint
    rw [buildPrefixed_eq (by omega), if_pos (by omega)]
    exact ⟨_, rfl⟩
  refine buildUntil_total _ _ [] rfl _ 0 ?_ (hb _ _ (by omega) (by simp))
  intro j a hj ha
  refine hb _ _ (by omega) (splitLoop_mem _ (by decide) _ _ a (List.mem_of_getElem? ha)).2

theorem payloadDecrypt_total {P : Prims} {c : CipherId} {key iv e : Bytes} (h : CipherOk c key iv)
    (he : e.length % 16 = 0) : ∃ d, payloadDecrypt P c key iv e = .ok d := by
  cases c with
  | aes256 =>
    refine ⟨tryUnpad (P.aesDec key iv e), ?_⟩
    simp only [payloadDecrypt]
    rw [if_neg (not_not_intro h.1), if_neg (by simp [h.2]), if_neg (by simp [he])]
  | chacha20 =>
    simp only [payloadDecrypt]
    rw [if_neg (by simp [h.1]), if_neg (not_not_intro h.2)]
    exact ⟨_, rfl⟩
  | twofish =>
    obtain ⟨s, hs, _⟩ := newCbc_ok h.1 h.2
    simp only [payloadDecrypt]
    rw [hs]
    exact ⟨_, rfl⟩

theorem tryUnpad_length (d : Bytes) : d.length ≤ (tryUnpad d).length + 16 := by
  unfold tryUnpad
  cases h : unpad d with
  | error e => simp only; omega
  | ok r =>
    unfold unpad at h
    split at h
    · cases h
    · split at h
      · cases h
      · simp only at h
        split at h
        · cases h
        · split at h
          · cases h
          · injection h with h
            rw [← h]
            simp only [List.length_take]
            omega

theorem payloadDecrypt_length {P : Prims} (hP : P.Lawful) {c : CipherId} {key iv e d : Bytes}
    (h16 : e.length % 16 = 0) (h : payloadDecrypt P c key iv e = .ok d) : e.length ≤ d.length + 16 := by
  cases c with
  | aes256 =>
    simp only [payloadDecrypt] at h
    split at h
    · cases h
    · next hk =>
      split at h
      · cases h
      · next hi =>
        split at h
        · cases h
        · injection h with h
          have := tryUnpad_length (P.aesDec key iv e)
          rw [hP.aesDec_length _ _ _ (Decidable.not_not.mp hk) (Decidable.not_not.mp hi) h16, h] at this
          exact this
  | chacha20 =>
    simp only [payloadDecrypt] at h
    split at h
    · cases h
    · split at h
      · cases h
      · injection h with h
        rw [← h, ksXor_length]; omega
  | twofish =>
    simp only [payloadDecrypt] at h
    cases hn : Twofish.newCbc key iv with
    | error e => rw [hn] at h; cases h
    | ok s =>
      rw [hn] at h
      injection h with h
      have hc : s.cache = [] ∧ s.iv.length = 16 := by
        unfold Twofish.newCbc at hn
        split at hn
        · cases hn
        · split at hn
          · cases hn
          · split at hn
            · cases hn
            · next hi => injection hn with hn; rw [← hn]; exact ⟨rfl, Decidable.not_not.mp hi⟩
      obtain ⟨hc, hi⟩ := hc
      have h1 := Twofish.decLoop_length s.ctx (s.cache ++ e) s.iv hi
      have h2 := Twofish.decLoop_rest_lt s.ctx (s.cache ++ e) s.iv
      have h3 := tryUnpad_length (s.decUpdate e).1
      rw [h] at h3
      rw [hc, List.nil_append] at h1 h2
      have h4 : (s.decUpdate e).1 = (Twofish.decLoop s.ctx s.iv e).1 := by
        unfold Twofish.Cbc.decUpdate
        rw [hc, List.nil_append]
        simp only
        split
        · next hlt => rw [Twofish.decLoop_short _ _ _ hlt]
        · rfl
      rw [h4] at h3
      have h5 : (Twofish.decLoop s.ctx s.iv e).1.length % 16 = 0 := Twofish.decLoop_mod s.ctx e s.iv hi
      omega

end Verif
