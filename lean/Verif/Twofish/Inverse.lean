import Verif.Twofish.Cipher
/-! # Helper lemmas: Twofish decryption inverts encryption -/
namespace Verif.Twofish

theorem byte_lt (x n : Nat) : byte x n < 256 := by
  unfold byte
  exact Nat.lt_of_le_of_lt Nat.and_le_right (by decide)

theorem testBit_ff (i : Nat) : Nat.testBit 0xFFFFFFFF i = decide (i < 32) := by
  have : (0xFFFFFFFF : Nat) = 2 ^ 32 - 1 := by decide
  rw [this, Nat.testBit_two_pow_sub_one]

theorem rotr32_lt (x : Nat) (h : x < 2 ^ 32) : rotr32 x 1 < 2 ^ 32 := by
  unfold rotr32
  apply Nat.or_lt_two_pow
  · rw [Nat.shiftRight_eq_div_pow]; omega
  · exact Nat.lt_of_le_of_lt Nat.and_le_right (by decide)

theorem rotl32_lt (x n : Nat) (h : x < 2 ^ 32) : rotl32 x n < 2 ^ 32 := by
  unfold rotl32
  apply Nat.or_lt_two_pow
  · exact Nat.lt_of_le_of_lt Nat.and_le_right (by decide)
  · rw [Nat.shiftRight_eq_div_pow]; exact Nat.lt_of_le_of_lt (Nat.div_le_self _ _) h

theorem testBit_ge {x i : Nat} (h : x < 2 ^ 32) (hi : 32 ≤ i) : x.testBit i = false :=
  Nat.testBit_lt_two_pow (Nat.lt_of_lt_of_le h (Nat.pow_le_pow_right (by decide) hi))

theorem rotl_rotr (x : Nat) (h : x < 2 ^ 32) : rotl32 (rotr32 x 1) 1 = x := by
  apply Nat.eq_of_testBit_eq
  intro i
  simp only [rotl32, rotr32, Nat.testBit_or, Nat.testBit_and, Nat.testBit_shiftLeft,
    Nat.testBit_shiftRight, testBit_ff]
  by_cases hi : i < 32
  · rcases Nat.eq_zero_or_pos i with rfl | hp
    · have g2 : x.testBit 32 = false := testBit_ge h (by omega)
      simp [g2]
    · have e : 1 + (i - 1) = i := by omega
      have g1 : x.testBit (32 - 1 + i) = false ∨ i = 0 := by
        left; exact testBit_ge h (by omega)
      have g2 : x.testBit (1 + (32 - 1 + i)) = false := testBit_ge h (by omega)
      have n1 : ¬ (i - 1 ≥ 32 - 1) := by omega
      have n2 : ¬ (32 - 1 + i < 32) := by omega
      simp [hi, e, g2, n1, n2, show i ≥ 1 from hp]
  · have g : x.testBit i = false := testBit_ge h (by omega)
    have g2 : x.testBit (1 + (32 - 1 + i)) = false := testBit_ge h (by omega)
    have n2 : ¬ (32 - 1 + i < 32) := by omega
    simp [hi, g, g2, n2]

theorem rotr_rotl (x : Nat) (h : x < 2 ^ 32) : rotr32 (rotl32 x 1) 1 = x := by
  apply Nat.eq_of_testBit_eq
  intro i
  simp only [rotl32, rotr32, Nat.testBit_or, Nat.testBit_and, Nat.testBit_shiftLeft,
    Nat.testBit_shiftRight, testBit_ff]
  by_cases hi : i < 32
  · by_cases h31 : i = 31
    · subst h31
      simp
      intro h2
      exact absurd (testBit_ge h (i := 63) (by omega)) (by simp [h2])
    · have e : 1 + i - 1 = i := by omega
      have g2 : x.testBit (32 - 1 + (1 + i)) = false := testBit_ge h (by omega)
      have n1 : ¬ (i ≥ 32 - 1) := by omega
      have n2 : 1 + i < 32 := by omega
      simp [e, g2, n1, n2]
  · have g : x.testBit i = false := testBit_ge h (by omega)
    have n2 : ¬ (1 + i < 32) := by omega
    have g2 : x.testBit (32 - 1 + (1 + i)) = false := testBit_ge h (by omega)
    simp [hi, g, g2, n2]

theorem xor_cancel (a b : Nat) : a ^^^ b ^^^ b = a := by
  rw [Nat.xor_assoc, Nat.xor_self, Nat.xor_zero]

theorem mod_lt32 (n : Nat) : n % 0x100000000 < 2 ^ 32 := Nat.mod_lt _ (by decide)

/-- All four words are 32-bit. -/
def Blk.Ok (b : Blk) : Prop := b.w0 < 2 ^ 32 ∧ b.w1 < 2 ^ 32 ∧ b.w2 < 2 ^ 32 ∧ b.w3 < 2 ^ 32

/-- Exchange the two halves, as the output whitening does. -/
def Blk.swap (b : Blk) : Blk := ⟨b.w2, b.w3, b.w0, b.w1⟩

theorem Blk.swap_swap (b : Blk) : b.swap.swap = b := rfl
theorem Blk.Ok.swap {b : Blk} (h : b.Ok) : b.swap.Ok := ⟨h.2.2.1, h.2.2.2, h.1, h.2.1⟩

theorem encRound_ok (c : Ctx) (b : Blk) (i : Nat) (h : b.Ok) : (encRound c b i).Ok := by
  obtain ⟨h0, h1, h2, h3⟩ := h
  refine ⟨?_, ?_, ?_, ?_⟩
  · exact rotr32_lt _ (Nat.xor_lt_two_pow h0 (mod_lt32 _))
  · exact Nat.xor_lt_two_pow (rotl32_lt _ _ h1) (mod_lt32 _)
  · exact rotr32_lt _ (Nat.xor_lt_two_pow h2 (mod_lt32 _))
  · exact Nat.xor_lt_two_pow (rotl32_lt _ _ h3) (mod_lt32 _)

theorem decRound_ok (c : Ctx) (b : Blk) (i : Nat) (h : b.Ok) : (decRound c b i).Ok := by
  obtain ⟨h0, h1, h2, h3⟩ := h
  refine ⟨?_, ?_, ?_, ?_⟩
  · exact Nat.xor_lt_two_pow (rotl32_lt _ _ h0) (mod_lt32 _)
  · exact rotr32_lt _ (Nat.xor_lt_two_pow h1 (mod_lt32 _))
  · exact Nat.xor_lt_two_pow (rotl32_lt _ _ h2) (mod_lt32 _)
  · exact rotr32_lt _ (Nat.xor_lt_two_pow h3 (mod_lt32 _))

/-- One decryption round undoes one encryption round (halves exchanged). -/
theorem dec_enc_round (c : Ctx) (b : Blk) (i : Nat) (h : b.Ok) :
    decRound c (encRound c b i).swap i = b.swap := by
  obtain ⟨h0, h1, h2, h3⟩ := h
  simp only [encRound, decRound, Blk.swap]
  rw [rotl_rotr _ (Nat.xor_lt_two_pow h0 (mod_lt32 _)), xor_cancel, xor_cancel,
    rotr_rotl _ h1]
  rw [rotl_rotr _ (Nat.xor_lt_two_pow h2 (mod_lt32 _)), xor_cancel, xor_cancel, rotr_rotl _ h3]

/-- One encryption round undoes one decryption round. -/
theorem enc_dec_round (c : Ctx) (b : Blk) (i : Nat) (h : b.Ok) :
    encRound c (decRound c b i).swap i = b.swap := by
  obtain ⟨h0, h1, h2, h3⟩ := h
  simp only [encRound, decRound, Blk.swap]
  rw [rotl_rotr _ (Nat.xor_lt_two_pow h1 (mod_lt32 _)), xor_cancel, xor_cancel,
    rotr_rotl _ h0]
  rw [rotl_rotr _ (Nat.xor_lt_two_pow h3 (mod_lt32 _)), xor_cancel, xor_cancel, rotr_rotl _ h2]

theorem foldl_ok (f : Blk → Nat → Blk) (hf : ∀ b i, b.Ok → (f b i).Ok) (l : List Nat) (b : Blk)
    (h : b.Ok) : (l.foldl f b).Ok := by
  induction l generalizing b with
  | nil => exact h
  | cons i l ih => exact ih _ (hf b i h)

/-- Rounds in reverse order undo the rounds. -/
theorem foldl_inverse (f g : Blk → Nat → Blk) (hf : ∀ b i, b.Ok → (f b i).Ok)
    (hinv : ∀ b i, b.Ok → g (f b i).swap i = b.swap) (l : List Nat) (b : Blk) (h : b.Ok) :
    l.reverse.foldl g (l.foldl f b).swap = b.swap := by
  induction l generalizing b with
  | nil => rfl
  | cons i l ih =>
    rw [List.foldl_cons, List.reverse_cons, List.foldl_append, ih _ (hf b i h)]
    exact hinv b i h

/-- The whitening words are 32-bit. -/
def Ctx.Ok (c : Ctx) : Prop := ∀ i, at1 c.lKey i < 2 ^ 32

theorem whiten_ok {c : Ctx} (hc : c.Ok) {b : Blk} (h : b.Ok) (i j k l : Nat) :
    Blk.Ok ⟨b.w0 ^^^ at1 c.lKey i, b.w1 ^^^ at1 c.lKey j, b.w2 ^^^ at1 c.lKey k,
      b.w3 ^^^ at1 c.lKey l⟩ :=
  ⟨Nat.xor_lt_two_pow h.1 (hc _), Nat.xor_lt_two_pow h.2.1 (hc _),
   Nat.xor_lt_two_pow h.2.2.1 (hc _), Nat.xor_lt_two_pow h.2.2.2 (hc _)⟩

theorem decryptBlk_encryptBlk (c : Ctx) (hc : c.Ok) (b : Blk) (h : b.Ok) :
    decryptBlk c (encryptBlk c b) = b := by
  have hs := whiten_ok hc h 0 1 2 3
  have inv := foldl_inverse (encRound c) (decRound c) (encRound_ok c) (dec_enc_round c)
    [0, 1, 2, 3, 4, 5, 6, 7] _ hs
  simp only [List.reverse_cons, List.reverse_nil, List.nil_append, List.cons_append] at inv
  simp only [encryptBlk, decryptBlk, xor_cancel]
  simp only [Blk.swap] at inv
  rw [inv]
  simp only [xor_cancel]

theorem encryptBlk_decryptBlk (c : Ctx) (hc : c.Ok) (b : Blk) (h : b.Ok) :
    encryptBlk c (decryptBlk c b) = b := by
  have hs := whiten_ok hc h 4 5 6 7
  have inv := foldl_inverse (decRound c) (encRound c) (decRound_ok c) (enc_dec_round c)
    [7, 6, 5, 4, 3, 2, 1, 0] _ hs
  simp only [List.reverse_cons, List.reverse_nil, List.nil_append, List.cons_append] at inv
  simp only [encryptBlk, decryptBlk, xor_cancel]
  simp only [Blk.swap] at inv
  rw [inv]
  simp only [xor_cancel]

theorem encryptBlk_ok (c : Ctx) (hc : c.Ok) (b : Blk) (h : b.Ok) : (encryptBlk c b).Ok := by
  have := foldl_ok (encRound c) (encRound_ok c) [0, 1, 2, 3, 4, 5, 6, 7] _ (whiten_ok hc h 0 1 2 3)
  exact whiten_ok hc this.swap 4 5 6 7

theorem decryptBlk_ok (c : Ctx) (hc : c.Ok) (b : Blk) (h : b.Ok) : (decryptBlk c b).Ok := by
  have := foldl_ok (decRound c) (decRound_ok c) [7, 6, 5, 4, 3, 2, 1, 0] _
    (whiten_ok hc h 4 5 6 7)
  exact whiten_ok hc this.swap 0 1 2 3

theorem pack4_length (b : Blk) : (pack4 b).length = 16 := by simp [pack4]

theorem take_append_length {α} (a b : List α) (n : Nat) (h : a.length = n) :
    (a ++ b).take n = a := by subst h; simp
theorem drop_append_length {α} (a b : List α) (n : Nat) (h : a.length = n) :
    (a ++ b).drop n = b := by subst h; simp

theorem unpack4_pack4 (b : Blk) (h : b.Ok) (rest : Bytes) : unpack4 (pack4 b ++ rest) = b := by
  obtain ⟨w0, w1, w2, w3⟩ := b
  obtain ⟨h0, h1, h2, h3⟩ := h
  simp only at h0 h1 h2 h3
  have e : (256 : Nat) ^ 4 = 2 ^ 32 := by decide
  have l0 := leNat_leBytes 4 w0 (by omega)
  have l1 := leNat_leBytes 4 w1 (by omega)
  have l2 := leNat_leBytes 4 w2 (by omega)
  have l3 := leNat_leBytes 4 w3 (by omega)
  simp only [unpack4, pack4, List.append_assoc]
  rw [show (8 : Nat) = 4 + 4 from rfl, show (12 : Nat) = 4 + (4 + 4) from rfl]
  simp only [← List.drop_drop]
  simp only [drop_append_length _ _ 4 (leBytes_length 4 _),
    take_append_length _ _ 4 (leBytes_length 4 _), l0, l1, l2, l3]

theorem pack4_unpack4 (b : Bytes) (h : b.length = 16) : pack4 (unpack4 b) = b := by
  simp only [pack4, unpack4]
  have key : ∀ s : Bytes, s.length = 4 → leBytes 4 (leNat s) = s := by
    intro s hs; have := leBytes_leNat s; rwa [hs] at this
  rw [key _ (by simp; omega), key _ (by simp; omega), key _ (by simp; omega),
    key _ (by simp; omega)]
  have e3 : (b.drop 12).take 4 = b.drop 12 := List.take_of_length_le (by simp; omega)
  rw [e3]
  have : b.drop 8 = (b.drop 8).take 4 ++ b.drop 12 := by
    have := (List.take_append_drop 4 (b.drop 8)).symm
    rwa [List.drop_drop] at this
  rw [List.append_assoc, ← this]
  have : b.drop 4 = (b.drop 4).take 4 ++ b.drop 8 := by
    have := (List.take_append_drop 4 (b.drop 4)).symm
    rwa [List.drop_drop] at this
  rw [List.append_assoc, ← this, List.take_append_drop]

theorem leNat_lt32 (s : Bytes) (h : s.length ≤ 4) : leNat s < 2 ^ 32 := by
  have := leNat_lt s
  have h2 : 256 ^ s.length ≤ 256 ^ 4 := Nat.pow_le_pow_right (by decide) h
  omega

theorem unpack4_ok (b : Bytes) : (unpack4 b).Ok :=
  ⟨leNat_lt32 _ (by simp; omega), leNat_lt32 _ (by simp; omega), leNat_lt32 _ (by simp; omega),
   leNat_lt32 _ (by simp; omega)⟩

theorem unpack4_take (b : Bytes) : unpack4 (b.take 16) = unpack4 b := by
  simp [unpack4, List.drop_take, List.take_take]

theorem mapBlocks_nil (f : Blk → Blk) : mapBlocks f [] = [] := by
  rw [mapBlocks]; simp

theorem mapBlocks_append16 (f : Blk → Blk) (a r : Bytes) (h : a.length = 16) :
    mapBlocks f (a ++ r) = pack4 (f (unpack4 a)) ++ mapBlocks f r := by
  rw [mapBlocks, dif_neg]
  · rw [drop_append_length _ _ 16 h]
    rw [← unpack4_take (a ++ r), take_append_length _ _ 16 h]
  · intro hn
    have := congrArg List.length hn
    simp at this
    simp [this.1] at h

/-- Induction on data made of whole 16-byte blocks. -/
theorem blocks_induction {P : Bytes → Prop} (nil : P [])
    (step : ∀ a r : Bytes, a.length = 16 → r.length % 16 = 0 → P r → P (a ++ r))
    (b : Bytes) : b.length % 16 = 0 → P b := by
  induction hn : b.length using Nat.strongRecOn generalizing b with
  | _ n ih =>
    intro h
    by_cases h0 : n = 0
    · have : b = [] := List.length_eq_zero_iff.mp (by omega)
      subst this; exact nil
    · have e : b = b.take 16 ++ b.drop 16 := (List.take_append_drop 16 b).symm
      rw [e]
      apply step
      · simp; omega
      · simp; omega
      · exact ih (b.drop 16).length (by simp; omega) _ rfl (by simp; omega)

theorem mapBlocks_length (f : Blk → Blk) (b : Bytes) (h : b.length % 16 = 0) :
    (mapBlocks f b).length = b.length := by
  refine blocks_induction (P := fun b => (mapBlocks f b).length = b.length) ?_ ?_ b h
  · rw [mapBlocks_nil]
  · intro a r ha hr ih
    rw [mapBlocks_append16 f a r ha, List.length_append, ih, pack4_length, List.length_append, ha]

theorem mapBlocks_inverse (f g : Blk → Blk) (hf : ∀ b, b.Ok → (f b).Ok)
    (hg : ∀ b, b.Ok → g (f b) = b) (b : Bytes) (h : b.length % 16 = 0) :
    mapBlocks g (mapBlocks f b) = b := by
  refine blocks_induction (P := fun b => mapBlocks g (mapBlocks f b) = b) ?_ ?_ b h
  · rw [mapBlocks_nil, mapBlocks_nil]
  · intro a r ha hr ih
    rw [mapBlocks_append16 f a r ha, mapBlocks_append16 g _ _ (pack4_length _), ih]
    have := unpack4_pack4 (f (unpack4 a)) (hf _ (unpack4_ok a)) []
    rw [List.append_nil] at this
    rw [this, hg _ (unpack4_ok a), pack4_unpack4 a ha]

theorem getD_flatMap_lt (l : List Nat) (f : Nat → List Nat)
    (hf : ∀ j, ∀ x ∈ f j, x < 2 ^ 32) (i : Nat) : at1 (l.flatMap f) i < 2 ^ 32 := by
  unfold at1
  rw [List.getD_eq_getElem?_getD]
  cases hh : (l.flatMap f)[i]? with
  | none => simp
  | some v =>
    have := List.mem_of_getElem? hh
    rw [List.mem_flatMap] at this
    obtain ⟨j, _, hj⟩ := this
    simpa using hf j v hj

theorem setKeyWords_ok (kLen : Nat) (w : Nat → Nat) : (setKeyWords kLen w).Ok := by
  intro i
  apply getD_flatMap_lt
  intro j x hx
  simp only [lKeyPair, List.mem_cons, List.not_mem_nil, or_false] at hx
  rcases hx with h | h
  · rw [h]; exact mod_lt32 _
  · rw [h]; exact rotl32_lt _ _ (mod_lt32 _)

theorem setKey_ok {key : Bytes} {c : Ctx} (h : setKey key = .ok c) : c.Ok := by
  unfold setKey at h
  split at h
  · injection h with h; subst h; exact setKeyWords_ok _ _
  · cases h

end Verif.Twofish
