import Verif.Crypto.GzipLemmas
/-!
# The tables and codes of RFC 1951, said another way

Lemmas for C93: codes as shares of a code space of 2^15.
-/
namespace Verif.Spec.Gz
open Verif Gzip

/-- The number written by bits, highest first. -/
def high : List Bool → Nat
  | [] => 0
  | b :: r => b.toNat * 2 ^ r.length + high r

/-- How much of a code space of 2^15 is taken by codes of the given lengths. -/
def taken (lens : List Nat) : Nat := (lens.map fun l => 2 ^ (15 - l)).sum

/-- The polynomial x^32 + x^26 + x^23 + x^22 + x^16 + x^12 + x^11 + x^10 + x^8 + x^7 + x^5 + x^4 + x^2 + x + 1 over two elements,
as a number whose bits are its coefficients. -/
def poly : Nat := ([32, 26, 23, 22, 16, 12, 11, 10, 8, 7, 5, 4, 2, 1, 0].map (2 ^ ·)).sum

/-- Multiples of it: sums of it times powers of x. -/
inductive Multiple : Nat → Prop
  | zero : Multiple 0
  | add {n : Nat} (h : Multiple n) (k : Nat) : Multiple (n ^^^ poly <<< k)

/-- 32 bits in the opposite order. -/
def mirror (c : Nat) : Nat := high ((List.range 32).map fun i => c.testBit i)

end Verif.Spec.Gz

namespace Verif.Gzip
open Verif Spec.Gz

theorem high_lt (c : List Bool) : high c < 2 ^ c.length := by
  induction c with
  | nil => simp [high]
  | cons b r ih => rw [high, List.length_cons, Nat.pow_succ]; cases b <;> simp <;> omega

theorem high_inj {c e : List Bool} (hl : c.length = e.length) (h : high c = high e) : c = e := by
  induction c generalizing e with
  | nil => exact (List.length_eq_zero_iff.mp hl.symm).symm
  | cons b r ih =>
    cases e with
    | nil => cases hl
    | cons b' r' =>
      have hr : r.length = r'.length := by simpa using hl
      have h1 := high_lt r
      have h2 := high_lt r'
      rw [high, high, hr] at h
      rw [hr] at h1
      cases b <;> cases b' <;> simp at h
      · rw [ih hr h]
      · omega
      · omega
      · rw [ih hr h]

theorem msb_succ (l n : Nat) : msb (l + 1) n = n.testBit l :: msb l n := by
  unfold msb
  rw [List.range_succ_eq_map, List.map_cons, List.map_map]
  congr 1
  apply List.map_congr_left
  intro i hi
  rw [List.mem_range] at hi
  show n.testBit (l + 1 - 1 - (i + 1)) = _
  rw [show l + 1 - 1 - (i + 1) = l - 1 - i by omega]

theorem high_msb (l n : Nat) : high (msb l n) = n % 2 ^ l := by
  induction l with
  | zero => simp [msb, high, Nat.mod_one]
  | succ l ih => rw [msb_succ, high, msb_length, ih, Nat.mod_pow_succ, Nat.toNat_testBit, Nat.mul_comm, Nat.add_comm]

theorem taken_count (lens : List Nat) (l : Nat) : taken (lens.filter fun k => k = l) = lens.count l * 2 ^ (15 - l) := by
  induction lens with
  | nil => simp [taken]
  | cons k r ih =>
    unfold taken at ih ⊢
    by_cases h : k = l
    · subst h
      rw [List.filter_cons_of_pos (by simp), List.map_cons, List.sum_cons, ih, List.count_cons_self, Nat.add_mul]
      omega
    · rw [List.filter_cons_of_neg (by simpa using h), ih, List.count_cons_of_ne h]

theorem taken_succ (lens : List Nat) (l : Nat) (hl : l ≠ 0) :
    taken (lens.filter fun k => 0 < k ∧ k < l + 1) = taken (lens.filter fun k => 0 < k ∧ k < l) + taken (lens.filter fun k => k = l) := by
  induction lens with
  | nil => simp [taken]
  | cons k r ih =>
    unfold taken at ih ⊢
    simp only [List.filter_cons]
    by_cases h : k = l
    · subst h
      rw [if_pos (by simp; omega), if_neg (by simp), if_pos (by simp)]
      simp only [List.map_cons, List.sum_cons]
      omega
    · by_cases h' : 0 < k ∧ k < l
      · rw [if_pos (by simp; omega), if_pos (by simpa using h'), if_neg (by simpa using h)]
        simp only [List.map_cons, List.sum_cons]
        omega
      · rw [if_neg (by simp; omega), if_neg (by simpa using h'), if_neg (by simpa using h)]
        exact ih

theorem taken_none (lens : List Nat) (p : Nat → Bool) (h : ∀ k ∈ lens, p k = false) : taken (lens.filter p) = 0 := by
  have : lens.filter p = [] := by rw [List.filter_eq_nil_iff]; intro k hk; simp [h k hk]
  rw [this]; rfl

theorem firstCode_taken (lens : List Nat) (l : Nat) (hl : l ≤ 15) :
    firstCode lens l * 2 ^ (15 - l) = taken (lens.filter fun k => 0 < k ∧ k < l) := by
  induction l with
  | zero => rw [taken_none _ _ (by intro k _; simp)]; simp [firstCode]
  | succ l ih =>
    have ih := ih (by omega)
    have hp : 2 * 2 ^ (15 - (l + 1)) = 2 ^ (15 - l) := by
      rw [show 15 - l = 15 - (l + 1) + 1 by omega, Nat.pow_succ, Nat.mul_comm]
    rw [firstCode, Nat.mul_comm 2, Nat.mul_assoc, hp, Nat.add_mul, ih]
    by_cases h0 : l = 0
    · subst h0
      rw [taken_none lens (fun k => 0 < k ∧ k < 0 + 1) (by intro k _; simp; omega), taken_none _ _ (by intro k _; simp)]
      simp [count]
    · rw [taken_succ _ _ h0, taken_count, count, if_neg h0]

/-- Codes up to the length `l`. -/
theorem upto_taken (lens : List Nat) (l : Nat) (hl : l ≤ 15) :
    (firstCode lens l + count lens l) * 2 ^ (15 - l) = taken (lens.filter fun k => 0 < k ∧ k < l + 1) := by
  rw [Nat.add_mul, firstCode_taken lens l hl]
  by_cases h0 : l = 0
  · subst h0
    rw [taken_none lens (fun k => 0 < k ∧ k < 0 + 1) (by intro k _; simp; omega), taken_none _ _ (by intro k _; simp)]
    simp [count]
  · rw [taken_succ _ _ h0, taken_count, count, if_neg h0]

theorem taken_le (lens : List Nat) (p q : Nat → Bool) (h : ∀ k ∈ lens, p k = true → q k = true) : taken (lens.filter p) ≤ taken (lens.filter q) := by
  induction lens with
  | nil => simp [taken]
  | cons k r ih =>
    have ih := ih fun k hk => h k (List.mem_cons_of_mem _ hk)
    have hk := h k List.mem_cons_self
    unfold taken at ih ⊢
    simp only [List.filter_cons]
    cases hp : p k <;> cases hq : q k <;> simp only [Bool.false_eq_true, if_true, if_false, List.map_cons, List.sum_cons] <;>
      first | omega | (exact Nat.le_trans ih (Nat.le_add_left ..)) | (rw [hp, hq] at hk; simp at hk)

theorem upto_all {lens : List Nat} (h : ∀ l ∈ lens, l ≤ 15) :
    (lens.filter fun k => (0 < k ∧ k < 15 + 1 : Bool)) = lens.filter fun k => (0 < k : Bool) := by
  apply List.filter_congr
  intro k hk
  have := h k hk
  simp; omega

theorem usable_iff (strict : Bool) (lens : List Nat) :
    usable strict lens = true ↔ (∀ l ∈ lens, l ≤ 15) ∧ taken (lens.filter fun k => 0 < k) ≤ 2 ^ 15 ∧
      (taken (lens.filter fun k => 0 < k) = 2 ^ 15 ∨ (∀ l ∈ lens, l = 0) ∨ strict = false ∧ ∀ l ∈ lens, l ≤ 1) := by
  simp only [usable, Bool.and_eq_true, List.all_eq_true, List.mem_range, decide_eq_true_eq, Bool.or_eq_true, beq_iff_eq, Bool.not_eq_true']
  have key : (∀ l ∈ lens, l ≤ 15) → firstCode lens 15 + count lens 15 = taken (lens.filter fun k => 0 < k) := by
    intro h
    have := upto_taken lens 15 (Nat.le_refl _)
    rw [Nat.sub_self, Nat.pow_zero, Nat.mul_one] at this
    rw [this]
    have e := upto_all h
    simp only [Bool.decide_and] at e ⊢
    rw [e]
  constructor
  · rintro ⟨⟨h1, h2⟩, h3⟩
    have k := key h1
    rw [k] at h3
    refine ⟨h1, ?_, ?_⟩
    · have := h2 15 (by omega)
      rwa [k] at this
    · rcases h3 with (h3 | h3) | h3
      · exact .inl h3
      · exact .inr (.inl h3)
      · exact .inr (.inr h3)
  · rintro ⟨h1, h2, h3⟩
    have k := key h1
    refine ⟨⟨h1, ?_⟩, ?_⟩
    · intro l hl
      have e := upto_taken lens l (by omega)
      have m : taken (lens.filter fun k => 0 < k ∧ k < l + 1) ≤ taken (lens.filter fun k => 0 < k) := taken_le _ _ _ (by intro k _; simp; omega)
      refine Nat.le_of_mul_le_mul_right ?_ (Nat.two_pow_pos (15 - l))
      rw [e, ← Nat.pow_add, show l + (15 - l) = 15 by omega]
      omega
    · rw [k]
      rcases h3 with h3 | h3 | h3
      · exact .inl (.inl h3)
      · exact .inl (.inr h3)
      · exact .inr h3

theorem canon_iff {strict : Bool} {lens : List Nat} (h : usable strict lens = true) (s : Nat) (c : List Bool) :
    (s, c) ∈ canon lens ↔ ∃ l, lens[s]? = some l ∧ l ≠ 0 ∧ c.length = l ∧
      high c * 2 ^ (15 - l) = taken (lens.filter fun k => 0 < k ∧ k < l) + taken ((lens.take s).filter fun k => k = l) := by
  simp only [usable, Bool.and_eq_true, List.all_eq_true, List.mem_range, decide_eq_true_eq] at h
  obtain ⟨⟨h1, h2⟩, -⟩ := h
  have val : ∀ l, lens[s]? = some l → l ≠ 0 → high (msb l (firstCode lens l + (lens.take s).count l)) * 2 ^ (15 - l) =
      taken (lens.filter fun k => 0 < k ∧ k < l) + taken ((lens.take s).filter fun k => k = l) := by
    intro l a1 a2
    have hl := h1 l (List.mem_of_getElem? a1)
    have cl := count_take_lt a1
    have el : count lens l = lens.count l := by simp [count, a2]
    have kl := h2 l (by omega)
    rw [high_msb, Nat.mod_eq_of_lt (by omega), Nat.add_mul, firstCode_taken lens l hl, taken_count]
  constructor
  · intro hm
    obtain ⟨l, a1, a2, a3⟩ := canon_mem hm
    dsimp only at a1 a3
    subst a3
    exact ⟨l, a1, a2, msb_length .., val l a1 a2⟩
  · rintro ⟨l, a1, a2, a3, a4⟩
    have e : c = msb l (firstCode lens l + (lens.take s).count l) := by
      apply high_inj (by rw [a3, msb_length])
      rw [← val l a1 a2] at a4
      exact Nat.eq_of_mul_eq_mul_right (Nat.two_pow_pos _) a4
    subst e
    obtain ⟨hs, he⟩ := List.getElem?_eq_some_iff.mp a1
    unfold canon
    refine List.mem_filterMap.mpr ⟨s, List.mem_range.mpr hs, ?_⟩
    have g : lens.getD s 0 = l := by simp [List.getD_eq_getElem?_getD, a1]
    simp only [g]
    rw [if_neg a2]

/-! ### The checksum -/

/-- One bit at a time. -/
def crcBit (c : Nat) (x : Bool) : Nat := if (c.testBit 0 ^^ x) then 0xEDB88320 ^^^ (c / 2) else c / 2

theorem crcSteps_bits (n c b : Nat) (hb : b < 2 ^ n) : crcSteps n (c ^^^ b) = ((List.range n).map fun i => b.testBit i).foldl crcBit c := by
  induction n generalizing c b with
  | zero =>
    have : b = 0 := by simpa using hb
    subst this
    simp [crcSteps]
  | succ n ih =>
    have h2 : b / 2 < 2 ^ n := by rw [Nat.pow_succ] at hb; omega
    have hm : ((List.range (n + 1)).map fun i => b.testBit i) = b.testBit 0 :: (List.range n).map fun i => (b / 2).testBit i := by
      rw [List.range_succ_eq_map, List.map_cons, List.map_map]
      congr 1
      apply List.map_congr_left
      intro i _
      show b.testBit (i + 1) = _
      rw [Nat.testBit_succ]
    rw [crcSteps, hm, List.foldl_cons, ← ih _ _ h2]
    congr 1
    have hd : (c ^^^ b) / 2 = c / 2 ^^^ b / 2 := by
      apply Nat.eq_of_testBit_eq
      intro i
      rw [← Nat.testBit_succ, Nat.testBit_xor, Nat.testBit_xor, Nat.testBit_succ, Nat.testBit_succ]
    have ht : ((c ^^^ b) % 2 = 1) = ((c.testBit 0 ^^ b.testBit 0) = true) := by
      rw [← Nat.testBit_xor, Nat.testBit_zero]; simp
    unfold crcBit
    rw [hd]
    by_cases h : (c.testBit 0 ^^ b.testBit 0) = true
    · rw [if_pos (by rw [ht]; exact h), if_pos h, Nat.xor_assoc]
    · rw [if_neg (by rw [ht]; exact h), if_neg h]

theorem high_append (a b : List Bool) : high (a ++ b) = high a * 2 ^ b.length + high b := by
  induction a with
  | nil => simp [high]
  | cons x a ih =>
    rw [List.cons_append, high, high, ih, List.length_append, Nat.pow_add, Nat.add_mul, Nat.mul_assoc]
    omega

theorem high_snoc (a : List Bool) (x : Bool) : high (a ++ [x]) = (high a) <<< 1 ^^^ x.toNat := by
  rw [high_append, Nat.shiftLeft_eq]
  have e : high [x] = x.toNat := by simp [high]
  rw [e, List.length_singleton]
  apply Nat.eq_of_testBit_eq
  intro i
  have hx : x.toNat < 2 ^ 1 := by cases x <;> decide
  rw [Nat.mul_comm, Nat.testBit_two_pow_mul_add _ hx, Nat.testBit_xor, Nat.testBit_two_pow_mul]
  by_cases h : i < 1
  · have : i = 0 := by omega
    subst this
    simp
  · rw [if_neg h, Nat.testBit_lt_two_pow (x := x.toNat) (i := i) (Nat.lt_of_lt_of_le hx (Nat.pow_le_pow_right (by omega) (by omega)))]
    simp; omega

theorem high_testBit (a : List Bool) (i : Nat) : (high a).testBit i = (decide (i < a.length) && a.getD (a.length - 1 - i) false) := by
  induction a with
  | nil => simp [high]
  | cons x a ih =>
    rw [high, Nat.mul_comm, Nat.testBit_two_pow_mul_add _ (high_lt a), List.length_cons]
    by_cases h : i < a.length
    · rw [if_pos h, ih, show a.length + 1 - 1 - i = (a.length - 1 - i) + 1 by omega, List.getD_cons_succ]
      simp [h, Nat.lt_succ_of_lt h]
    · rw [if_neg h]
      by_cases h' : i = a.length
      · subst h'
        cases x <;> simp
      · rw [Nat.testBit_lt_two_pow (x := x.toNat) (i := i - a.length)
          (Nat.lt_of_lt_of_le (m := 2) (by cases x <;> decide) (Nat.le_self_pow (by omega) 2))]
        simp; omega

theorem mirror_testBit (c i : Nat) : (mirror c).testBit i = (decide (i < 32) && c.testBit (31 - i)) := by
  rw [mirror, high_testBit]
  simp only [List.length_map, List.length_range]
  by_cases h : i < 32
  · simp [h, List.getD_eq_getElem?_getD, List.getElem?_range (show 31 - i < 32 by omega)]
  · simp [h]

theorem crcBit_lt {c : Nat} (x : Bool) (h : c < 2 ^ 32) : crcBit c x < 2 ^ 32 := by
  unfold crcBit
  split
  · exact Nat.xor_lt_two_pow (by decide) (by omega)
  · omega

theorem poly_bit (i : Nat) : poly.testBit i = (decide (i = 32) || decide (i < 32) && (0xEDB88320 : Nat).testBit (31 - i)) := by
  by_cases h : i < 33
  · have : ∀ i < 33, poly.testBit i = (decide (i = 32) || decide (i < 32) && (0xEDB88320 : Nat).testBit (31 - i)) := by decide +kernel
    exact this i h
  · rw [Nat.testBit_lt_two_pow (Nat.lt_of_lt_of_le (m := 2 ^ 33) (by decide +kernel) (Nat.pow_le_pow_right (by omega) (by omega)))]
    simp; omega

/-- A step divides by the polynomial. -/
theorem mirror_crcBit {c : Nat} (x : Bool) (h : c < 2 ^ 32) :
    mirror (crcBit c x) = (mirror c) <<< 1 ^^^ x.toNat <<< 32 ^^^ if (c.testBit 0 ^^ x) then poly else 0 := by
  apply Nat.eq_of_testBit_eq
  intro i
  have h32 : c.testBit 32 = false := Nat.testBit_lt_two_pow h
  have hi : (if (c.testBit 0 ^^ x) = true then poly else 0).testBit i = ((c.testBit 0 ^^ x) && poly.testBit i) := by
    by_cases h : (c.testBit 0 ^^ x) = true
    · rw [if_pos h, h]; simp
    · rw [if_neg h, Bool.not_eq_true] at *; rw [h]; simp
  have hs : (x.toNat <<< 32).testBit i = (decide (i = 32) && x) := by
    rw [Nat.testBit_shiftLeft]
    by_cases e : i = 32
    · subst e; cases x <;> decide
    · cases x
      · simp
      · simp only [Bool.toNat_true, Bool.and_true, e, decide_false]
        by_cases g : i ≥ 32
        · rw [Nat.testBit_lt_two_pow (x := 1) (i := i - 32) (Nat.one_lt_two_pow (by omega))]; simp
        · simp [g]
  have hc : (crcBit c x).testBit (31 - i) = (((c.testBit 0 ^^ x) && (0xEDB88320 : Nat).testBit (31 - i)) ^^ c.testBit (31 - i + 1)) := by
    unfold crcBit
    rw [Nat.testBit_succ]
    by_cases h : (c.testBit 0 ^^ x) = true
    · rw [if_pos h, h, Nat.testBit_xor]; simp
    · rw [if_neg h, Bool.not_eq_true] at *; rw [h]; simp
  rw [mirror_testBit, hc, Nat.testBit_xor, Nat.testBit_xor, hi, hs, Nat.testBit_shiftLeft, mirror_testBit, poly_bit]
  rcases Nat.lt_trichotomy i 32 with h1 | h1 | h1
  · by_cases h0 : i = 0
    · subst h0; simp [h32]
    · rw [show 31 - (i - 1) = 31 - i + 1 by omega]
      have a : i ≥ 1 := by omega
      have b : i - 1 < 32 := by omega
      have e : i ≠ 32 := by omega
      simp [a, b, e, h1, Bool.xor_comm]
  · subst h1
    simp
  · have a : ¬ i < 32 := by omega
    have b : ¬ i - 1 < 32 := by omega
    have e : i ≠ 32 := by omega
    simp [a, b, e]

theorem multiple_xor {a b : Nat} (ha : Multiple a) (hb : Multiple b) : Multiple (a ^^^ b) := by
  induction hb with
  | zero => rwa [Nat.xor_zero]
  | add _ k ih => rw [← Nat.xor_assoc]; exact .add ih k

theorem shl_xor (a b k : Nat) : (a ^^^ b) <<< k = a <<< k ^^^ b <<< k := Nat.shiftLeft_xor_distrib

theorem multiple_shift {a : Nat} (ha : Multiple a) : Multiple (a <<< 1) := by
  induction ha with
  | zero => exact .zero
  | add _ k ih => rw [shl_xor, ← Nat.shiftLeft_add]; exact .add ih _

theorem crcBits (x : List Bool) : (x.foldl crcBit 0xFFFFFFFF) < 2 ^ 32 ∧
    Multiple (high x <<< 32 ^^^ 0xFFFFFFFF <<< x.length ^^^ mirror (x.foldl crcBit 0xFFFFFFFF)) := by
  suffices H : ∀ y : List Bool, (y.reverse.foldl crcBit 0xFFFFFFFF) < 2 ^ 32 ∧
      Multiple (high y.reverse <<< 32 ^^^ 0xFFFFFFFF <<< y.reverse.length ^^^ mirror (y.reverse.foldl crcBit 0xFFFFFFFF)) by
    have := H x.reverse
    rwa [List.reverse_reverse] at this
  intro y
  induction y with
  | nil =>
    refine ⟨by decide, ?_⟩
    have : high ([] : List Bool).reverse <<< 32 ^^^ 0xFFFFFFFF <<< ([] : List Bool).reverse.length ^^^
      mirror (([] : List Bool).reverse.foldl crcBit 0xFFFFFFFF) = 0 := by decide +kernel
    rw [this]
    exact .zero
  | cons b y ih =>
    obtain ⟨h1, h2⟩ := ih
    rw [List.reverse_cons, List.foldl_append]
    generalize hc : y.reverse.foldl crcBit 0xFFFFFFFF = c at *
    refine ⟨crcBit_lt b h1, ?_⟩
    simp only [List.foldl_cons, List.foldl_nil]
    rw [mirror_crcBit b h1, high_snoc, List.length_append, List.length_singleton, Nat.shiftLeft_add, shl_xor]
    have hm : Multiple (if (c.testBit 0 ^^ b) then poly else 0) := by
      split
      · have := Multiple.add .zero 0
        rwa [Nat.zero_xor] at this
      · exact .zero
    have := multiple_xor (multiple_shift h2) hm
    rw [shl_xor, shl_xor] at this
    generalize (if (c.testBit 0 ^^ b) = true then poly else 0) = g at *
    have e : high y.reverse <<< 1 <<< 32 = high y.reverse <<< 32 <<< 1 := by
      rw [← Nat.shiftLeft_add, ← Nat.shiftLeft_add]
    rw [e]
    generalize high y.reverse <<< 32 <<< 1 = A at *
    generalize 0xFFFFFFFF <<< y.reverse.length <<< 1 = B at *
    generalize mirror c <<< 1 = C at *
    generalize b.toNat <<< 32 = D at *
    have e2 : A ^^^ D ^^^ B ^^^ (C ^^^ D ^^^ g) = A ^^^ B ^^^ C ^^^ g := by
      apply Nat.eq_of_testBit_eq
      intro i
      simp only [Nat.testBit_xor]
      cases A.testBit i <;> cases B.testBit i <;> cases C.testBit i <;> cases D.testBit i <;> cases g.testBit i <;> rfl
    rw [e2]
    exact this

theorem crc32_eq (d : Bytes) : crc32 d = (bits d).foldl crcBit 0xFFFFFFFF ^^^ 0xFFFFFFFF := by
  unfold crc32 bits
  rw [List.foldl_flatMap]
  congr 2
  funext c b
  rw [crcSteps_bits 8 c b.toNat (by have := b.toNat_lt; omega)]
  rfl

theorem mirror_inj {a b : Nat} (ha : a < 2 ^ 32) (hb : b < 2 ^ 32) (h : mirror a = mirror b) : a = b := by
  apply Nat.eq_of_testBit_eq
  intro i
  by_cases hi : i < 32
  · have := congrArg (fun n => n.testBit (31 - i)) h
    simp only [mirror_testBit] at this
    have e : 31 - i < 32 := by omega
    simpa [e, show 31 - (31 - i) = i by omega] using this
  · rw [Nat.testBit_lt_two_pow (Nat.lt_of_lt_of_le ha (Nat.pow_le_pow_right (by omega) (by omega))),
      Nat.testBit_lt_two_pow (Nat.lt_of_lt_of_le hb (Nat.pow_le_pow_right (by omega) (by omega)))]

theorem mirror_lt (c : Nat) : mirror c < 2 ^ 32 := by
  have := high_lt ((List.range 32).map fun i => c.testBit i)
  simpa [mirror] using this

/-- Sums of shifts below `m`. -/
inductive Below (m : Nat) : Nat → Prop
  | zero : Below m 0
  | add {n : Nat} (h : Below m n) (k : Nat) (hk : k < m) : Below m (n ^^^ poly <<< k)

theorem Below.mono {m m' n : Nat} (h : Below m n) (hm : m ≤ m') : Below m' n := by
  induction h with
  | zero => exact .zero
  | add _ k hk ih => exact .add ih k (by omega)

theorem multiple_below {n : Nat} (h : Multiple n) : ∃ m, Below m n := by
  induction h with
  | zero => exact ⟨0, .zero⟩
  | @add n _ k ih =>
    obtain ⟨m, hm⟩ := ih
    exact ⟨m + k + 1, .add (hm.mono (by omega)) k (by omega)⟩

theorem poly_lt : poly < 2 ^ 33 := by decide +kernel

theorem Below.lt {m n : Nat} (h : Below m n) : n < 2 ^ (m + 32) := by
  induction h with
  | zero => exact Nat.two_pow_pos _
  | add _ k hk ih =>
    refine Nat.xor_lt_two_pow ih ?_
    rw [Nat.shiftLeft_eq]
    have : 2 ^ 33 * 2 ^ k ≤ 2 ^ (m + 32) := by rw [← Nat.pow_add]; exact Nat.pow_le_pow_right (by omega) (by omega)
    exact Nat.lt_of_lt_of_le (Nat.mul_lt_mul_of_pos_right poly_lt (Nat.two_pow_pos _)) this

theorem Below.split {m n : Nat} (h : Below (m + 1) n) : Below m n ∨ Below m (n ^^^ poly <<< m) := by
  induction h with
  | zero => exact .inl .zero
  | @add n _ k hk ih =>
    by_cases e : k = m
    · subst e
      rcases ih with ih | ih
      · right; rw [Nat.xor_assoc, Nat.xor_self, Nat.xor_zero]; exact ih
      · exact .inl ih
    · rcases ih with ih | ih
      · exact .inl (.add ih k (by omega))
      · right
        rw [Nat.xor_assoc, Nat.xor_comm (poly <<< k), ← Nat.xor_assoc]
        exact .add ih k (by omega)

theorem Below.large {m n : Nat} (h : Below m n) (hn : n < 2 ^ 32) : n = 0 := by
  induction m generalizing n with
  | zero =>
    cases h with
    | zero => rfl
    | add _ k hk => omega
  | succ m ih =>
    rcases h.split with h | h
    · exact ih h hn
    · exfalso
      have h1 := Nat.testBit_lt_two_pow h.lt
      have h2 : n.testBit (m + 32) = false :=
        Nat.testBit_lt_two_pow (Nat.lt_of_lt_of_le hn (Nat.pow_le_pow_right (by omega) (by omega)))
      rw [Nat.testBit_xor, h2, Nat.testBit_shiftLeft, poly_bit, show m + 32 - m = 32 by omega] at h1
      simp at h1

/-- The checksum is the remainder. -/
theorem crc32_iff (d : Bytes) (r : Nat) : crc32 d = r ↔ r < 2 ^ 32 ∧
    Multiple (high (bits d) <<< 32 ^^^ 0xFFFFFFFF <<< (bits d).length ^^^ mirror (r ^^^ 0xFFFFFFFF)) := by
  obtain ⟨h1, h2⟩ := crcBits (bits d)
  rw [crc32_eq]
  generalize (bits d).foldl crcBit 0xFFFFFFFF = c at *
  generalize high (bits d) <<< 32 ^^^ 0xFFFFFFFF <<< (bits d).length = A at *
  constructor
  · rintro rfl
    refine ⟨Nat.xor_lt_two_pow h1 (by decide), ?_⟩
    rwa [Nat.xor_assoc, Nat.xor_self, Nat.xor_zero]
  · rintro ⟨hr, hm⟩
    obtain ⟨m, hb⟩ := multiple_below (multiple_xor h2 hm)
    have e : A ^^^ mirror c ^^^ (A ^^^ mirror (r ^^^ 0xFFFFFFFF)) = mirror c ^^^ mirror (r ^^^ 0xFFFFFFFF) := by
      apply Nat.eq_of_testBit_eq
      intro i
      simp only [Nat.testBit_xor]
      cases A.testBit i <;> simp
    rw [e] at hb
    have z := hb.large (Nat.xor_lt_two_pow (mirror_lt _) (mirror_lt _))
    have same : mirror c = mirror (r ^^^ 0xFFFFFFFF) := by
      have := congrArg (fun n => n ^^^ mirror (r ^^^ 0xFFFFFFFF)) z
      simpa only [Nat.xor_assoc, Nat.xor_self, Nat.xor_zero, Nat.zero_xor] using this
    have := mirror_inj h1 (Nat.xor_lt_two_pow hr (by decide)) same
    rw [this, Nat.xor_assoc, Nat.xor_self, Nat.xor_zero]

end Verif.Gzip
