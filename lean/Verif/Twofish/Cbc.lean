import Verif.Twofish.Inverse
/-!
# Streaming CBC mode, `pykeepass/kdbx_parsing/twofish.py`

The chain of mode CBC, the only mode the repository requests (`common.py:362`); the object around it is in `Object.lean`.
-/
namespace Verif.Twofish

/-- State of a `CBC` object, twofish.py:244-248 (`codebook` is the expanded key). -/
structure Cbc where
  ctx : Ctx
  iv : Bytes
  cache : Bytes

/-- One block through the codebook (pytwofish `encrypt` of a 16-byte block; `strxor` and `encrypt`
cannot raise because the slice and the IV have 16 bytes). -/
def encBlock (c : Ctx) (b : Bytes) : Bytes := pack4 (encryptBlk c (unpack4 b))
/-- One block through the codebook in the other direction. -/
def decBlock (c : Ctx) (b : Bytes) : Bytes := pack4 (decryptBlk c (unpack4 b))

/-- The loop twofish.py:270-273: returns the blocks produced, the last IV and the rest of the
cache. -/
def encLoop (c : Ctx) (iv data : Bytes) : Bytes × Bytes × Bytes :=
  if _h : data.length < 16 then ([], iv, data)
  else
    let iv' := encBlock c (xorBytes (data.take 16) iv)
    let r := encLoop c iv' (data.drop 16)
    (iv' ++ r.1, r.2)
  termination_by data.length
  decreasing_by simp; omega

/-- The loop twofish.py:280-284. -/
def decLoop (c : Ctx) (iv data : Bytes) : Bytes × Bytes × Bytes :=
  if _h : data.length < 16 then ([], iv, data)
  else
    let r := decLoop c (data.take 16) (data.drop 16)
    (xorBytes iv (decBlock c (data.take 16)) ++ r.1, r.2)
  termination_by data.length
  decreasing_by simp; omega

/-- `CBC.update(data, 'e')`, twofish.py:265-274. -/
def Cbc.encUpdate (s : Cbc) (data : Bytes) : Bytes × Cbc :=
  let cache := s.cache ++ data
  if cache.length < 16 then ([], { s with cache := cache })
  else
    let r := encLoop s.ctx s.iv cache
    (r.1, { s with iv := r.2.1, cache := r.2.2 })

/-- `CBC.update(data, 'd')`, twofish.py:275-285. -/
def Cbc.decUpdate (s : Cbc) (data : Bytes) : Bytes × Cbc :=
  let cache := s.cache ++ data
  if cache.length < 16 then ([], { s with cache := cache })
  else
    let r := decLoop s.ctx s.iv cache
    (r.1, { s with iv := r.2.1, cache := r.2.2 })

/-- `Twofish.new(key, mode=MODE_CBC, IV=iv)`, twofish.py:54-79, 288-298: key size is checked first
(`ValueError`), then the key schedule runs, then the IV length is checked (plain `Exception`). -/
def newCbc (key iv : Bytes) : Except PyErr Cbc :=
  if ¬ (key.length = 16 ∨ key.length = 24 ∨ key.length = 32) then .error .value
  else
    match setKey key with
    | .error e => .error e
    | .ok c => if iv.length ≠ 16 then .error .exception else .ok ⟨c, iv, []⟩

/-- A sequence of `encrypt` calls on one cipher object (twofish.py:115-160), outputs joined. -/
def Cbc.encChunks (s : Cbc) : List Bytes → Bytes × Cbc
  | [] => ([], s)
  | d :: ds =>
    let r := s.encUpdate d
    let r2 := r.2.encChunks ds
    (r.1 ++ r2.1, r2.2)

/-- A sequence of `decrypt` calls on one cipher object (twofish.py:162-205), outputs joined. -/
def Cbc.decChunks (s : Cbc) : List Bytes → Bytes × Cbc
  | [] => ([], s)
  | d :: ds =>
    let r := s.decUpdate d
    let r2 := r.2.decChunks ds
    (r.1 ++ r2.1, r2.2)

/-! ## Lemmas -/

theorem encLoop_short (c : Ctx) (iv d : Bytes) (h : d.length < 16) : encLoop c iv d = ([], iv, d) := by
  rw [encLoop, dif_pos h]
theorem decLoop_short (c : Ctx) (iv d : Bytes) (h : d.length < 16) : decLoop c iv d = ([], iv, d) := by
  rw [decLoop, dif_pos h]

theorem encLoop_block (c : Ctx) (iv a r : Bytes) (h : a.length = 16) :
    encLoop c iv (a ++ r) =
      (encBlock c (xorBytes a iv) ++ (encLoop c (encBlock c (xorBytes a iv)) r).1,
        (encLoop c (encBlock c (xorBytes a iv)) r).2) := by
  rw [encLoop, dif_neg (by simp; omega)]
  simp only [take_append_length _ _ 16 h, drop_append_length _ _ 16 h]

theorem decLoop_block (c : Ctx) (iv a r : Bytes) (h : a.length = 16) :
    decLoop c iv (a ++ r) =
      (xorBytes iv (decBlock c a) ++ (decLoop c a r).1, (decLoop c a r).2) := by
  rw [decLoop, dif_neg (by simp; omega)]
  simp only [take_append_length _ _ 16 h, drop_append_length _ _ 16 h]

/-- Induction on data split into 16-byte blocks and a short rest. -/
theorem chunk_induction {P : Bytes → Prop} (short : ∀ d : Bytes, d.length < 16 → P d)
    (step : ∀ a r : Bytes, a.length = 16 → P r → P (a ++ r)) (b : Bytes) : P b := by
  induction hn : b.length using Nat.strongRecOn generalizing b with
  | _ n ih =>
    by_cases h0 : b.length < 16
    · exact short b h0
    · rw [← List.take_append_drop 16 b]
      apply step
      · simp; omega
      · exact ih (b.drop 16).length (by simp; omega) _ rfl

/-- The rest kept in the cache is shorter than a block. -/
theorem encLoop_rest_lt (c : Ctx) (d : Bytes) : ∀ iv, (encLoop c iv d).2.2.length < 16 := by
  refine chunk_induction (P := fun d => ∀ iv, (encLoop c iv d).2.2.length < 16) ?_ ?_ d
  · intro d h iv; rw [encLoop_short c iv d h]; exact h
  · intro a r ha ih iv; rw [encLoop_block c iv a r ha]; exact ih _

theorem decLoop_rest_lt (c : Ctx) (d : Bytes) : ∀ iv, (decLoop c iv d).2.2.length < 16 := by
  refine chunk_induction (P := fun d => ∀ iv, (decLoop c iv d).2.2.length < 16) ?_ ?_ d
  · intro d h iv; rw [decLoop_short c iv d h]; exact h
  · intro a r ha ih iv; rw [decLoop_block c iv a r ha]; exact ih _

/-- Processing may be interrupted anywhere and resumed with IV and cache. -/
theorem encLoop_append (c : Ctx) (d e : Bytes) : ∀ iv,
    encLoop c iv (d ++ e) =
      ((encLoop c iv d).1 ++ (encLoop c (encLoop c iv d).2.1 ((encLoop c iv d).2.2 ++ e)).1,
       (encLoop c (encLoop c iv d).2.1 ((encLoop c iv d).2.2 ++ e)).2) := by
  refine chunk_induction (P := fun d => ∀ iv, encLoop c iv (d ++ e) =
      ((encLoop c iv d).1 ++ (encLoop c (encLoop c iv d).2.1 ((encLoop c iv d).2.2 ++ e)).1,
       (encLoop c (encLoop c iv d).2.1 ((encLoop c iv d).2.2 ++ e)).2)) ?_ ?_ d
  · intro d h iv; rw [encLoop_short c iv d h]; simp
  · intro a r ha ih iv
    rw [List.append_assoc, encLoop_block c iv a _ ha, encLoop_block c iv a r ha, ih]
    simp

theorem decLoop_append (c : Ctx) (d e : Bytes) : ∀ iv,
    decLoop c iv (d ++ e) =
      ((decLoop c iv d).1 ++ (decLoop c (decLoop c iv d).2.1 ((decLoop c iv d).2.2 ++ e)).1,
       (decLoop c (decLoop c iv d).2.1 ((decLoop c iv d).2.2 ++ e)).2) := by
  refine chunk_induction (P := fun d => ∀ iv, decLoop c iv (d ++ e) =
      ((decLoop c iv d).1 ++ (decLoop c (decLoop c iv d).2.1 ((decLoop c iv d).2.2 ++ e)).1,
       (decLoop c (decLoop c iv d).2.1 ((decLoop c iv d).2.2 ++ e)).2)) ?_ ?_ d
  · intro d h iv; rw [decLoop_short c iv d h]; simp
  · intro a r ha ih iv
    rw [List.append_assoc, decLoop_block c iv a _ ha, decLoop_block c iv a r ha, ih]
    simp

/-- `update` always equals the loop on cache + data (the early return agrees with it). -/
theorem encUpdate_eq (s : Cbc) (d : Bytes) :
    s.encUpdate d = ((encLoop s.ctx s.iv (s.cache ++ d)).1,
      { s with iv := (encLoop s.ctx s.iv (s.cache ++ d)).2.1,
               cache := (encLoop s.ctx s.iv (s.cache ++ d)).2.2 }) := by
  unfold Cbc.encUpdate
  simp only
  split
  · next h => rw [encLoop_short _ _ _ h]
  · rfl

theorem decUpdate_eq (s : Cbc) (d : Bytes) :
    s.decUpdate d = ((decLoop s.ctx s.iv (s.cache ++ d)).1,
      { s with iv := (decLoop s.ctx s.iv (s.cache ++ d)).2.1,
               cache := (decLoop s.ctx s.iv (s.cache ++ d)).2.2 }) := by
  unfold Cbc.decUpdate
  simp only
  split
  · next h => rw [decLoop_short _ _ _ h]
  · rfl

theorem encChunks_eq (ds : List Bytes) : ∀ (s : Cbc), s.cache.length < 16 →
    s.encChunks ds = s.encUpdate ds.flatten := by
  induction ds with
  | nil =>
    intro s hs
    simp only [Cbc.encChunks, List.flatten_nil, encUpdate_eq, List.append_nil]
    rw [encLoop_short _ _ _ hs]
  | cons d ds ih =>
    intro s hs
    simp only [Cbc.encChunks, List.flatten_cons]
    rw [ih _ (by rw [encUpdate_eq]; exact encLoop_rest_lt _ _ _)]
    simp only [encUpdate_eq]
    rw [← List.append_assoc, encLoop_append s.ctx (s.cache ++ d)]

theorem decChunks_eq (ds : List Bytes) : ∀ (s : Cbc), s.cache.length < 16 →
    s.decChunks ds = s.decUpdate ds.flatten := by
  induction ds with
  | nil =>
    intro s hs
    simp only [Cbc.decChunks, List.flatten_nil, decUpdate_eq, List.append_nil]
    rw [decLoop_short _ _ _ hs]
  | cons d ds ih =>
    intro s hs
    simp only [Cbc.decChunks, List.flatten_cons]
    rw [ih _ (by rw [decUpdate_eq]; exact decLoop_rest_lt _ _ _)]
    simp only [decUpdate_eq]
    rw [← List.append_assoc, decLoop_append s.ctx (s.cache ++ d)]

theorem encBlock_length (c : Ctx) (b : Bytes) : (encBlock c b).length = 16 := pack4_length _
theorem decBlock_length (c : Ctx) (b : Bytes) : (decBlock c b).length = 16 := pack4_length _

theorem decBlock_encBlock (c : Ctx) (hc : c.Ok) (b : Bytes) (h : b.length = 16) :
    decBlock c (encBlock c b) = b := by
  unfold decBlock encBlock
  have := unpack4_pack4 (encryptBlk c (unpack4 b)) (encryptBlk_ok c hc _ (unpack4_ok b)) []
  rw [List.append_nil] at this
  rw [this, decryptBlk_encryptBlk c hc _ (unpack4_ok b), pack4_unpack4 b h]

theorem encBlock_decBlock (c : Ctx) (hc : c.Ok) (b : Bytes) (h : b.length = 16) :
    encBlock c (decBlock c b) = b := by
  unfold decBlock encBlock
  have := unpack4_pack4 (decryptBlk c (unpack4 b)) (decryptBlk_ok c hc _ (unpack4_ok b)) []
  rw [List.append_nil] at this
  rw [this, encryptBlk_decryptBlk c hc _ (unpack4_ok b), pack4_unpack4 b h]

/-- Decrypting the complete blocks of an encryption gives the complete blocks of the data. -/
theorem decLoop_encLoop (c : Ctx) (hc : c.Ok) (d : Bytes) : ∀ iv : Bytes, iv.length = 16 →
    (decLoop c iv (encLoop c iv d).1).1 = d.take (d.length / 16 * 16) ∧
    (decLoop c iv (encLoop c iv d).1).2.2 = [] ∧
    (encLoop c iv d).2.2 = d.drop (d.length / 16 * 16) ∧
    (encLoop c iv d).1.length = d.length / 16 * 16 := by
  refine chunk_induction (P := fun d => ∀ iv : Bytes, iv.length = 16 →
    (decLoop c iv (encLoop c iv d).1).1 = d.take (d.length / 16 * 16) ∧
    (decLoop c iv (encLoop c iv d).1).2.2 = [] ∧
    (encLoop c iv d).2.2 = d.drop (d.length / 16 * 16) ∧
    (encLoop c iv d).1.length = d.length / 16 * 16) ?_ ?_ d
  · intro d h iv hiv
    have : d.length / 16 = 0 := Nat.div_eq_of_lt h
    rw [encLoop_short c iv d h]
    simp only [this, Nat.zero_mul, List.take_zero, List.drop_zero]
    rw [decLoop_short _ _ _ (by simp)]
    simp
  · intro a r ha ih iv hiv
    have hx : (xorBytes a iv).length = 16 := by simp; omega
    obtain ⟨i1, i2, i3, i4⟩ := ih (encBlock c (xorBytes a iv)) (encBlock_length _ _)
    rw [encLoop_block c iv a r ha]
    simp only
    rw [decLoop_block _ _ _ _ (encBlock_length _ _), decBlock_encBlock c hc _ hx]
    have e : (a ++ r).length / 16 * 16 = 16 + r.length / 16 * 16 := by
      rw [List.length_append, ha]; omega
    rw [e]
    refine ⟨?_, i2, ?_, ?_⟩
    · simp only [i1]
      rw [xorBytes_comm iv, xorBytes_cancel_right a iv (by omega)]
      rw [List.take_append, ha, List.take_of_length_le (l := a) (by omega), Nat.add_sub_cancel_left]
    · simp only [i3]
      rw [List.drop_append, ha, List.drop_of_length_le (l := a) (by omega),
        Nat.add_sub_cancel_left, List.nil_append]
    · simp only [List.length_append, i4, encBlock_length]

theorem decLoop_length (c : Ctx) (d : Bytes) : ∀ iv, iv.length = 16 →
    (decLoop c iv d).1.length + (decLoop c iv d).2.2.length = d.length := by
  refine chunk_induction (P := fun d => ∀ iv, iv.length = 16 →
    (decLoop c iv d).1.length + (decLoop c iv d).2.2.length = d.length) ?_ ?_ d
  · intro d h iv _; rw [decLoop_short c iv d h]; simp
  · intro a r h ih iv hi
    rw [decLoop_block c iv a r h]
    have := ih a h
    have hl := decBlock_length c a
    simp only [List.length_append, xorBytes_length, h, hl, hi] at this ⊢
    omega

theorem decLoop_mod (c : Ctx) (d : Bytes) : ∀ iv, iv.length = 16 → (decLoop c iv d).1.length % 16 = 0 := by
  refine chunk_induction (P := fun d => ∀ iv, iv.length = 16 → (decLoop c iv d).1.length % 16 = 0) ?_ ?_ d
  · intro d h iv _; rw [decLoop_short c iv d h]; rfl
  · intro a r h ih iv hi
    rw [decLoop_block c iv a r h]
    have := ih a h
    have hl := decBlock_length c a
    simp only [List.length_append, xorBytes_length, hl, hi]
    omega

end Verif.Twofish
