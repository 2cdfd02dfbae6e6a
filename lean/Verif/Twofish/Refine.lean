import Verif.Twofish.Inverse
import Verif.Spec.Twofish
/-!
# The table-driven cipher computes the published one: lemmas
-/
namespace Verif.Twofish
open Verif Spec

/-! ## Words -/

theorem byte_eq (x n : Nat) : byte x n = Twofish.byteAt x n := by
  unfold byte Twofish.byteAt
  rw [Nat.shiftRight_eq_div_pow, show (0xff : Nat) = 2 ^ 8 - 1 from rfl, Nat.and_two_pow_sub_one_eq_mod, Nat.pow_mul]

theorem mask_eq (x : Nat) : x &&& 0xFFFFFFFF = x % 2 ^ 32 := by
  rw [show (0xFFFFFFFF : Nat) = 2 ^ 32 - 1 from rfl, Nat.and_two_pow_sub_one_eq_mod]

theorem rotl_eq {x n : Nat} (hn : n = 1 ∨ n = 8 ∨ n = 9) (h : x < 2 ^ 32) : rotl32 x n = Twofish.rol x n := by
  unfold rotl32 Twofish.rol
  rw [mask_eq, Nat.shiftLeft_eq, Nat.shiftRight_eq_div_pow]
  have e : x * 2 ^ n % 2 ^ 32 = 2 ^ n * (x % 2 ^ (32 - n)) := by
    rcases hn with rfl | rfl | rfl <;> omega
  rw [e, ← Nat.two_pow_add_eq_or_of_lt]
  · rcases hn with rfl | rfl | rfl <;> omega
  · rcases hn with rfl | rfl | rfl <;> omega

theorem rotr_eq {x : Nat} (h : x < 2 ^ 32) : rotr32 x 1 = Twofish.ror x 1 := by
  unfold rotr32 Twofish.ror Twofish.rol
  rw [mask_eq, Nat.shiftLeft_eq, Nat.shiftRight_eq_div_pow]
  have e : x * 2 ^ (32 - 1) % 2 ^ 32 = 2 ^ 31 * (x % 2) := by omega
  rw [e, Nat.or_comm, ← Nat.two_pow_add_eq_or_of_lt]
  · omega
  · omega

theorem low_xor {a b : Nat} (hb : b < 256) : (256 * a) ^^^ b = 256 * a + b := by
  rw [show (256 : Nat) = 2 ^ 8 from rfl, Nat.two_pow_add_eq_or_of_lt hb]
  apply Nat.eq_of_testBit_eq
  intro i
  rw [Nat.testBit_xor, Nat.testBit_or, Nat.testBit_two_pow_mul]
  by_cases h : 8 ≤ i
  · have : b.testBit i = false := Nat.testBit_lt_two_pow (Nat.lt_of_lt_of_le hb (Nat.pow_le_pow_right (n := 2) (i := 8) (by decide) h))
    simp [this]
  · simp [h]

theorem cons_xor {a b x y : Nat} (ha : a < 256) (hb : b < 256) : (a + 256 * x) ^^^ (b + 256 * y) = (a ^^^ b) + 256 * (x ^^^ y) := by
  have hx : a ^^^ b < 256 := Nat.xor_lt_two_pow (n := 8) ha hb
  rw [Nat.add_comm a, Nat.add_comm b, Nat.add_comm (a ^^^ b), ← low_xor ha, ← low_xor hb, ← low_xor hx]
  rw [show (256 * x ^^^ a) ^^^ (256 * y ^^^ b) = (256 * x ^^^ 256 * y) ^^^ (a ^^^ b) by
    rw [Nat.xor_assoc, Nat.xor_assoc]; congr 1; rw [← Nat.xor_assoc, Nat.xor_comm a, Nat.xor_assoc]]
  congr 1
  rw [show (256 : Nat) = 2 ^ 8 from rfl]
  have := (Nat.shiftLeft_xor_distrib (a := x) (b := y) (i := 8)).symm
  simpa only [Nat.shiftLeft_eq, Nat.mul_comm] using this

theorem word_xor {a b c d a' b' c' d' : Nat} (ha : a < 256) (hb : b < 256) (hc : c < 256) (hd : d < 256)
    (ha' : a' < 256) (hb' : b' < 256) (hc' : c' < 256) (hd' : d' < 256) :
    Twofish.word [a ^^^ a', b ^^^ b', c ^^^ c', d ^^^ d'] = Twofish.word [a, b, c, d] ^^^ Twofish.word [a', b', c', d'] := by
  simp only [Twofish.word]
  rw [cons_xor ha ha', cons_xor hb hb', cons_xor hc hc', cons_xor hd hd']
  rfl

/-! ## The fields -/

theorem xtime_form {p a : Nat} (h : a < 256) : Twofish.xtime p a = (2 * a) ^^^ (if a.testBit 7 then p else 0) := by
  unfold Twofish.xtime
  have ht : a.testBit 7 = decide (128 ≤ a) := by
    rw [Nat.testBit_eq_decide_div_mod_eq]
    rw [decide_eq_decide]
    omega
  rw [ht]
  by_cases h1 : a < 128
  · rw [if_pos h1, if_neg (by simp; omega), Nat.xor_zero]
  · rw [if_neg h1, if_pos (by simp; omega)]

theorem two_xor (a b : Nat) : 2 * (a ^^^ b) = (2 * a) ^^^ (2 * b) := by
  have := Nat.shiftLeft_xor_distrib (a := a) (b := b) (i := 1)
  simpa only [Nat.shiftLeft_eq, Nat.mul_comm, Nat.pow_one] using this

theorem xor_swap (a b c d : Nat) : (a ^^^ b) ^^^ (c ^^^ d) = (a ^^^ c) ^^^ (b ^^^ d) := by
  rw [Nat.xor_assoc, Nat.xor_assoc]
  congr 1
  rw [← Nat.xor_assoc, Nat.xor_comm b, Nat.xor_assoc]

theorem xtime_xor {p a b : Nat} (ha : a < 256) (hb : b < 256) :
    Twofish.xtime p (a ^^^ b) = Twofish.xtime p a ^^^ Twofish.xtime p b := by
  rw [xtime_form ha, xtime_form hb, xtime_form (Nat.xor_lt_two_pow (n := 8) ha hb), two_xor, xor_swap, Nat.testBit_xor]
  congr 1
  cases a.testBit 7 <;> cases b.testBit 7 <;> simp

/-- A polynomial of degree 8. -/
def Deg8 (p : Nat) : Prop := ∀ a, a < 256 → Twofish.xtime p a < 256

theorem deg8_of {p : Nat} (h : ((List.range 256).all fun a => decide (Twofish.xtime p a < 256)) = true) : Deg8 p := by
  intro a ha
  simpa using List.all_eq_true.mp h a (List.mem_range.mpr ha)

theorem deg_v : Deg8 Twofish.v := deg8_of (by decide +kernel)
theorem deg_w : Deg8 Twofish.w := deg8_of (by decide +kernel)

theorem mulBits_lt {p : Nat} (hp : Deg8 p) (n : Nat) : ∀ {a b : Nat}, a < 256 → Twofish.mulBits p n a b < 256 := by
  induction n with
  | zero => intro a b _; exact Nat.zero_lt_succ _
  | succ n ih =>
    intro a b ha
    rw [Twofish.mulBits]
    refine Nat.xor_lt_two_pow (n := 8) ?_ (ih (hp a ha))
    split
    · exact ha
    · decide

theorem mul_lt {p : Nat} (hp : Deg8 p) {a : Nat} (b : Nat) (ha : a < 256) : Twofish.mul p a b < 256 := mulBits_lt hp 8 ha

theorem mulBits_xor {p : Nat} (hp : Deg8 p) (n : Nat) : ∀ {a a' b : Nat}, a < 256 → a' < 256 →
    Twofish.mulBits p n (a ^^^ a') b = Twofish.mulBits p n a b ^^^ Twofish.mulBits p n a' b := by
  induction n with
  | zero => intro a a' b _ _; simp [Twofish.mulBits]
  | succ n ih =>
    intro a a' b ha ha'
    simp only [Twofish.mulBits]
    rw [xtime_xor ha ha', ih (hp a ha) (hp a' ha'), xor_swap]
    congr 1
    split <;> rfl

theorem mul_xor {p : Nat} (hp : Deg8 p) {a a' : Nat} (b : Nat) (ha : a < 256) (ha' : a' < 256) :
    Twofish.mul p (a ^^^ a') b = Twofish.mul p a b ^^^ Twofish.mul p a' b := mulBits_xor hp 8 ha ha'

/-! ## The tables -/

theorem all_range {n : Nat} {f : Nat → Bool} (h : (List.range n).all f = true) {a : Nat} (ha : a < n) : f a = true :=
  List.all_eq_true.mp h a (List.mem_range.mpr ha)

theorem q0_eq {x : Nat} (h : x < 256) : at2 qTab 0 x = Twofish.q0 x :=
  beq_iff_eq.mp (all_range (n := 256) (f := fun x => at2 qTab 0 x == Twofish.q0 x) (by decide +kernel) h)
theorem q1_eq {x : Nat} (h : x < 256) : at2 qTab 1 x = Twofish.q1 x :=
  beq_iff_eq.mp (all_range (n := 256) (f := fun x => at2 qTab 1 x == Twofish.q1 x) (by decide +kernel) h)
theorem q0_lt {x : Nat} (h : x < 256) : Twofish.q0 x < 256 :=
  of_decide_eq_true (all_range (n := 256) (f := fun x => decide (Twofish.q0 x < 256)) (by decide +kernel) h)
theorem q1_lt {x : Nat} (h : x < 256) : Twofish.q1 x < 256 :=
  of_decide_eq_true (all_range (n := 256) (f := fun x => decide (Twofish.q1 x < 256)) (by decide +kernel) h)

/-- A column of the matrix times a byte. -/
def mcol (a b c d x : Nat) : Nat :=
  Twofish.word [Twofish.mul Twofish.v x a, Twofish.mul Twofish.v x b, Twofish.mul Twofish.v x c, Twofish.mul Twofish.v x d]

theorem m0_eq {x : Nat} (h : x < 256) : at2 mTab 0 x = mcol 0x01 0x5B 0xEF 0xEF (Twofish.q1 x) :=
  beq_iff_eq.mp (all_range (n := 256) (f := fun x => at2 mTab 0 x == mcol 0x01 0x5B 0xEF 0xEF (Twofish.q1 x)) (by decide +kernel) h)
theorem m1_eq {x : Nat} (h : x < 256) : at2 mTab 1 x = mcol 0xEF 0xEF 0x5B 0x01 (Twofish.q0 x) :=
  beq_iff_eq.mp (all_range (n := 256) (f := fun x => at2 mTab 1 x == mcol 0xEF 0xEF 0x5B 0x01 (Twofish.q0 x)) (by decide +kernel) h)
theorem m2_eq {x : Nat} (h : x < 256) : at2 mTab 2 x = mcol 0x5B 0xEF 0x01 0xEF (Twofish.q1 x) :=
  beq_iff_eq.mp (all_range (n := 256) (f := fun x => at2 mTab 2 x == mcol 0x5B 0xEF 0x01 0xEF (Twofish.q1 x)) (by decide +kernel) h)
theorem m3_eq {x : Nat} (h : x < 256) : at2 mTab 3 x = mcol 0x5B 0x01 0xEF 0x5B (Twofish.q0 x) :=
  beq_iff_eq.mp (all_range (n := 256) (f := fun x => at2 mTab 3 x == mcol 0x5B 0x01 0xEF 0x5B (Twofish.q0 x)) (by decide +kernel) h)

theorem xor4_lt {a b : Nat} (ha : a < 256) (hb : b < 256) : a ^^^ b < 256 := Nat.xor_lt_two_pow (n := 8) ha hb

/-- The four columns together are the matrix. -/
theorem mds_cols {a b c d : Nat} (ha : a < 256) (hb : b < 256) (hc : c < 256) (hd : d < 256) :
    mcol 0x01 0x5B 0xEF 0xEF a ^^^ mcol 0xEF 0xEF 0x5B 0x01 b ^^^ mcol 0x5B 0xEF 0x01 0xEF c ^^^ mcol 0x5B 0x01 0xEF 0x5B d =
      Twofish.word (Twofish.apply Twofish.v Twofish.mds [a, b, c, d]) := by
  have m : ∀ {x : Nat} (k : Nat), x < 256 → Twofish.mul Twofish.v x k < 256 := fun k hx => mul_lt deg_v k hx
  simp only [mcol]
  rw [← word_xor (m _ ha) (m _ ha) (m _ ha) (m _ ha) (m _ hb) (m _ hb) (m _ hb) (m _ hb)]
  rw [← word_xor (xor4_lt (m _ ha) (m _ hb)) (xor4_lt (m _ ha) (m _ hb)) (xor4_lt (m _ ha) (m _ hb)) (xor4_lt (m _ ha) (m _ hb))
    (m _ hc) (m _ hc) (m _ hc) (m _ hc)]
  rw [← word_xor (xor4_lt (xor4_lt (m _ ha) (m _ hb)) (m _ hc)) (xor4_lt (xor4_lt (m _ ha) (m _ hb)) (m _ hc))
    (xor4_lt (xor4_lt (m _ ha) (m _ hb)) (m _ hc)) (xor4_lt (xor4_lt (m _ ha) (m _ hb)) (m _ hc))
    (m _ hd) (m _ hd) (m _ hd) (m _ hd)]
  simp only [Twofish.apply, Twofish.mds, List.map_cons, List.map_nil, List.zipWith_cons_cons, List.zipWith_nil_left, List.foldr_cons,
    List.foldr_nil, Nat.xor_zero, Nat.xor_assoc]

/-! ## The function `h` -/

theorem byteAt_lt (x j : Nat) : Twofish.byteAt x j < 256 := Nat.mod_lt _ (by decide)

theorem hFun_eq {k : Nat} (hk : k = 2 ∨ k = 3 ∨ k = 4) (x : Nat) {key L : List Nat} (hL : L.length = k)
    (hl : ∀ i, i < k → at1 key i = L.getD i 0) : hFun k x key = Twofish.h x L := by
  have b := byteAt_lt
  have l0 : at1 key 0 = L.getD 0 0 := hl 0 (by omega)
  have l1 : at1 key 1 = L.getD 1 0 := hl 1 (by omega)
  unfold hFun Twofish.h
  rcases hk with rfl | rfl | rfl
  · simp only [hStep4, hStep3, hStep2, hL, byte_eq, Twofish.split, Twofish.through, Twofish.plus, List.zipWith_cons_cons, List.zipWith_nil_left,
      if_true, if_false, Nat.le_refl, l0, l1, show ¬ (4 ≤ 2) by decide, show ¬ (3 ≤ 2) by decide, show ¬ (2 = 4) by decide]
    simp (maxDischargeDepth := 12) only [q0_eq, q1_eq, q0_lt, q1_lt, xor4_lt, byteAt_lt, m0_eq, m1_eq, m2_eq, m3_eq]
    apply mds_cols <;> simp (maxDischargeDepth := 12) only [q0_lt, q1_lt, xor4_lt, byteAt_lt]
  · have l2 : at1 key 2 = L.getD 2 0 := hl 2 (by omega)
    simp only [hStep4, hStep3, hStep2, hL, byte_eq, Twofish.split, Twofish.through, Twofish.plus, List.zipWith_cons_cons, List.zipWith_nil_left,
      if_true, if_false, Nat.le_refl, l0, l1, l2, show ¬ (4 ≤ 3) by decide, show 2 ≤ 3 by decide, show ¬ (3 = 4) by decide]
    simp (maxDischargeDepth := 12) only [q0_eq, q1_eq, q0_lt, q1_lt, xor4_lt, byteAt_lt, m0_eq, m1_eq, m2_eq, m3_eq]
    apply mds_cols <;> simp (maxDischargeDepth := 12) only [q0_lt, q1_lt, xor4_lt, byteAt_lt]
  · have l2 : at1 key 2 = L.getD 2 0 := hl 2 (by omega)
    have l3 : at1 key 3 = L.getD 3 0 := hl 3 (by omega)
    simp only [hStep4, hStep3, hStep2, hL, byte_eq, Twofish.split, Twofish.through, Twofish.plus, List.zipWith_cons_cons, List.zipWith_nil_left,
      if_true, Nat.le_refl, l0, l1, l2, l3, show 3 ≤ 4 by decide, show 2 ≤ 4 by decide]
    simp (maxDischargeDepth := 12) only [q0_eq, q1_eq, q0_lt, q1_lt, xor4_lt, byteAt_lt, m0_eq, m1_eq, m2_eq, m3_eq]
    apply mds_cols <;> simp (maxDischargeDepth := 12) only [q0_lt, q1_lt, xor4_lt, byteAt_lt]

theorem word_lt {l : List Nat} (h : ∀ b ∈ l, b < 256) : Twofish.word l < 256 ^ l.length := by
  induction l with
  | nil => exact Nat.zero_lt_succ _
  | cons b bs ih =>
    have h1 := ih fun x hx => h x (List.mem_cons_of_mem _ hx)
    have h2 := h b (List.mem_cons_self ..)
    rw [Twofish.word, List.length_cons, Nat.pow_succ]
    omega

theorem foldr_lt (l : List Nat) (h : ∀ b ∈ l, b < 256) : l.foldr (· ^^^ ·) 0 < 256 := by
  induction l with
  | nil => decide
  | cons b bs ih => exact xor4_lt (h b (List.mem_cons_self ..)) (ih fun x hx => h x (List.mem_cons_of_mem _ hx))

theorem apply_lt {p : Nat} (hp : Deg8 p) (m : List (List Nat)) {y : List Nat} (hy : ∀ b ∈ y, b < 256) :
    ∀ b ∈ Twofish.apply p m y, b < 256 := by
  intro b hb
  obtain ⟨row, -, rfl⟩ := List.mem_map.mp hb
  refine foldr_lt _ fun b hb => ?_
  obtain ⟨i, hi, rfl⟩ := List.mem_iff_getElem.mp hb
  rw [List.getElem_zipWith]
  exact mul_lt hp _ (hy _ (List.getElem_mem _))

/-- Every element is a byte. -/
def AllBytes (l : List Nat) : Prop := ∀ b ∈ l, b < 256

theorem split_bytes (x : Nat) : AllBytes (Twofish.split x) := by
  intro b hb
  simp only [Twofish.split, List.mem_cons, List.not_mem_nil, or_false] at hb
  rcases hb with rfl | rfl | rfl | rfl <;> exact byteAt_lt ..

theorem plus_bytes {y : List Nat} (l : Nat) (h : AllBytes y) : AllBytes (Twofish.plus l y) := by
  intro b hb
  unfold Twofish.plus at hb
  obtain ⟨i, hi, rfl⟩ := List.mem_iff_getElem.mp hb
  rw [List.getElem_zipWith]
  exact xor4_lt (h _ (List.getElem_mem _)) (split_bytes l _ (List.getElem_mem _))

theorem through_bytes {y : List Nat} {qs : List (Nat → Nat)} (hq : ∀ q ∈ qs, q = Twofish.q0 ∨ q = Twofish.q1) (h : AllBytes y) :
    AllBytes (Twofish.through qs y) := by
  intro b hb
  unfold Twofish.through at hb
  obtain ⟨i, hi, rfl⟩ := List.mem_iff_getElem.mp hb
  rw [List.getElem_zipWith]
  rw [List.length_zipWith] at hi
  have hy := h _ (List.getElem_mem (by omega : i < y.length))
  rcases hq _ (List.getElem_mem (by omega : i < qs.length)) with e | e
  · rw [e]; exact q0_lt hy
  · rw [e]; exact q1_lt hy

/-- `h` yields a word. -/
theorem h_lt (x : Nat) (L : List Nat) : Twofish.h x L < 2 ^ 32 := by
  refine Nat.lt_of_lt_of_eq (word_lt (apply_lt deg_v _ ?_)) (show 256 ^ 4 = 2 ^ 32 by decide)
  refine through_bytes (by simp) (plus_bytes _ (through_bytes (by simp) (plus_bytes _ (through_bytes (by simp) ?_))))
  have h4 : AllBytes (if L.length = 4 then Twofish.plus (L.getD 3 0) (Twofish.through [Twofish.q1, Twofish.q0, Twofish.q0, Twofish.q1] (Twofish.split x))
      else Twofish.split x) := by
    split
    · exact plus_bytes _ (through_bytes (by simp) (split_bytes x))
    · exact split_bytes x
  split
  · exact plus_bytes _ (through_bytes (by simp) h4)
  · exact h4

/-! ## The round function -/

theorem at1_map (f : Nat → Nat) {n i : Nat} (h : i < n) : at1 ((List.range n).map f) i = f i := by
  unfold at1
  rw [List.getD_eq_getElem?_getD, List.getElem?_map, List.getElem?_range h]
  rfl

theorem at2_0 (a : List Nat) (l : List (List Nat)) (i : Nat) : at2 (a :: l) 0 i = at1 a i := rfl
theorem at2_1 (a b : List Nat) (l : List (List Nat)) (i : Nat) : at2 (a :: b :: l) 1 i = at1 b i := rfl
theorem at2_2 (a b c : List Nat) (l : List (List Nat)) (i : Nat) : at2 (a :: b :: c :: l) 2 i = at1 c i := rfl
theorem at2_3 (a b c d : List Nat) (l : List (List Nat)) (i : Nat) : at2 (a :: b :: c :: d :: l) 3 i = at1 d i := rfl

/-- The keyed tables for the four positions. -/
theorem mk_eq {k : Nat} (hk : k = 2 ∨ k = 3 ∨ k = 4) (key : List Nat) {a b c d : Nat} (ha : a < 256) (hb : b < 256) (hc : c < 256) (hd : d < 256) (x : Nat)
    (ea : byte x 0 = a) (eb : byte x 1 = b) (ec : byte x 2 = c) (ed : byte x 3 = d) :
    at2 (genMkTab k key) 0 a ^^^ at2 (genMkTab k key) 1 b ^^^ at2 (genMkTab k key) 2 c ^^^ at2 (genMkTab k key) 3 d = hFun k x key := by
  subst ea eb ec ed
  rcases hk with rfl | rfl | rfl
  · simp only [genMkTab, if_true, at2_0, at2_1, at2_2, at2_3]
    rw [at1_map _ ha, at1_map _ hb, at1_map _ hc, at1_map _ hd]
    rfl
  · simp only [genMkTab, if_true, if_false, at2_0, at2_1, at2_2, at2_3, show ¬ (3 = 2) by decide]
    rw [at1_map _ ha, at1_map _ hb, at1_map _ hc, at1_map _ hd]
    rfl
  · simp only [genMkTab, if_true, if_false, at2_0, at2_1, at2_2, at2_3, show ¬ (4 = 2) by decide, show ¬ (4 = 3) by decide]
    rw [at1_map _ ha, at1_map _ hb, at1_map _ hc, at1_map _ hd]
    rfl

theorem t0_eq {k : Nat} (hk : k = 2 ∨ k = 3 ∨ k = 4) (w : Nat → Nat) (x : Nat) :
    t0 (setKeyWords k w) x = hFun k x (sKey k w) :=
  mk_eq hk _ (byte_lt ..) (byte_lt ..) (byte_lt ..) (byte_lt ..) x rfl rfl rfl rfl

theorem bytes_of {x : Nat} (hx : x < 2 ^ 32) : ∃ a b c d, a < 256 ∧ b < 256 ∧ c < 256 ∧ d < 256 ∧ x = a + 256 * b + 65536 * c + 16777216 * d :=
  ⟨x % 256, x / 256 % 256, x / 65536 % 256, x / 16777216, by omega, by omega, by omega, by omega, by omega⟩

theorem rol8_eq {a b c d : Nat} (ha : a < 256) (hb : b < 256) (hc : c < 256) (hd : d < 256) :
    Twofish.rol (a + 256 * b + 65536 * c + 16777216 * d) 8 = d + 256 * a + 65536 * b + 16777216 * c := by
  unfold Twofish.rol
  simp only [Nat.reducePow, Nat.reduceSub]
  have e : (a + 256 * b + 65536 * c + 16777216 * d) / 16777216 = d := by omega
  rw [e]
  omega

theorem byteAt_sum {a b c d : Nat} (ha : a < 256) (hb : b < 256) (hc : c < 256) (hd : d < 256) :
    Twofish.byteAt (a + 256 * b + 65536 * c + 16777216 * d) 0 = a ∧ Twofish.byteAt (a + 256 * b + 65536 * c + 16777216 * d) 1 = b ∧
    Twofish.byteAt (a + 256 * b + 65536 * c + 16777216 * d) 2 = c ∧ Twofish.byteAt (a + 256 * b + 65536 * c + 16777216 * d) 3 = d := by
  unfold Twofish.byteAt
  simp only [Nat.reducePow]
  refine ⟨?_, ?_, ?_, ?_⟩ <;> omega

theorem t1_eq {k : Nat} (hk : k = 2 ∨ k = 3 ∨ k = 4) (w : Nat → Nat) {x : Nat} (hx : x < 2 ^ 32) :
    t1 (setKeyWords k w) x = hFun k (Twofish.rol x 8) (sKey k w) := by
  obtain ⟨a, b, c, d, ha, hb, hc, hd, rfl⟩ := bytes_of hx
  obtain ⟨e0, e1, e2, e3⟩ := byteAt_sum ha hb hc hd
  obtain ⟨f0, f1, f2, f3⟩ := byteAt_sum hd ha hb hc
  refine mk_eq hk _ (byte_lt ..) (byte_lt ..) (byte_lt ..) (byte_lt ..) _ ?_ ?_ ?_ ?_
  · rw [byte_eq, byte_eq, rol8_eq ha hb hc hd, f0, e3]
  · rw [byte_eq, byte_eq, rol8_eq ha hb hc hd, f1, e0]
  · rw [byte_eq, byte_eq, rol8_eq ha hb hc hd, f2, e1]
  · rw [byte_eq, byte_eq, rol8_eq ha hb hc hd, f3, e2]

/-! ## The Reed-Solomon code -/

/-- What a step adds, for the byte shifted out. -/
def stepG (t : Nat) : Nat :=
  Twofish.word [t, Twofish.mul Twofish.w t 0xA4, Twofish.mul Twofish.w t 0x02, Twofish.mul Twofish.w t 0xA4]

/-- What a step adds, as computed. -/
def stepC (t : Nat) : Nat :=
  let u := (t <<< 1) &&& 0xffffffff
  let u := if t &&& 0x80 ≠ 0 then u ^^^ 0x0000014d else u
  let a := t ^^^ ((u <<< 16) &&& 0xffffffff)
  let u := u ^^^ (t >>> 1)
  let u := if t &&& 0x01 ≠ 0 then u ^^^ (0x0000014d >>> 1) else u
  a ^^^ (((u <<< 24) &&& 0xffffffff) ||| ((u <<< 8) &&& 0xffffffff))

theorem stepC_eq {t : Nat} (h : t < 256) : stepC t = stepG t :=
  beq_iff_eq.mp (all_range (n := 256) (f := fun t => stepC t == stepG t) (by decide +kernel) h)

theorem or_xor {a b : Nat} (hb : b < 256) : (256 * a) ||| b = (256 * a) ^^^ b := by
  rw [low_xor hb, show (256 : Nat) = 2 ^ 8 from rfl, Nat.two_pow_add_eq_or_of_lt hb]

theorem step_eq {p0 p1 : Nat} (h0 : p0 < 2 ^ 32) (h1 : p1 < 2 ^ 32) :
    mdsRemStep (p0, p1) = (256 * (p0 % 2 ^ 24), ((256 * (p1 % 2 ^ 24)) ^^^ (p0 / 2 ^ 24)) ^^^ stepG (p1 / 2 ^ 24)) := by
  have e : mdsRemStep (p0, p1) =
      ((p0 <<< 8) &&& 0xffffffff, ((((p1 <<< 8) &&& 0xffffffff) ||| (p0 >>> 24)) ^^^ stepC (p1 >>> 24))) := by
    unfold mdsRemStep stepC
    simp only [Nat.xor_assoc]
  rw [e, Nat.shiftRight_eq_div_pow, Nat.shiftRight_eq_div_pow, stepC_eq (by omega), mask_eq, mask_eq, Nat.shiftLeft_eq, Nat.shiftLeft_eq]
  have f : ∀ p, p * 2 ^ 8 % 2 ^ 32 = 256 * (p % 2 ^ 24) := by intro p; omega
  rw [f, f, or_xor (by omega)]

theorem stepG_xor {a b : Nat} (ha : a < 256) (hb : b < 256) : stepG (a ^^^ b) = stepG a ^^^ stepG b := by
  have m : ∀ {x : Nat} (k : Nat), x < 256 → Twofish.mul Twofish.w x k < 256 := fun k hx => mul_lt deg_w k hx
  unfold stepG
  rw [mul_xor deg_w _ ha hb, mul_xor deg_w _ ha hb, word_xor ha (m _ ha) (m _ ha) (m _ ha) hb (m _ hb) (m _ hb) (m _ hb)]

theorem stepG_lt {a : Nat} (ha : a < 256) : stepG a < 2 ^ 32 := by
  refine Nat.lt_of_lt_of_eq (word_lt ?_) (show 256 ^ 4 = 2 ^ 32 by decide)
  intro b hb
  simp only [List.mem_cons, List.not_mem_nil, or_false] at hb
  rcases hb with rfl | rfl | rfl | rfl
  · exact ha
  all_goals exact mul_lt deg_w _ ha

/-- A pair of words. -/
def Pair (p : Nat × Nat) : Prop := p.1 < 2 ^ 32 ∧ p.2 < 2 ^ 32

def pxor (p q : Nat × Nat) : Nat × Nat := (p.1 ^^^ q.1, p.2 ^^^ q.2)

theorem pxor_pair {p q : Nat × Nat} (hp : Pair p) (hq : Pair q) : Pair (pxor p q) :=
  ⟨Nat.xor_lt_two_pow hp.1 hq.1, Nat.xor_lt_two_pow hp.2 hq.2⟩

theorem step_pair {p : Nat × Nat} (h : Pair p) : Pair (mdsRemStep p) := by
  obtain ⟨a, b⟩ := p
  obtain ⟨ha, hb⟩ := h
  dsimp only at ha hb
  rw [step_eq ha hb]
  refine ⟨by dsimp only; omega, ?_⟩
  exact Nat.xor_lt_two_pow (Nat.xor_lt_two_pow (by omega) (by omega)) (stepG_lt (by omega))

theorem step_xor {p q : Nat × Nat} (hp : Pair p) (hq : Pair q) : mdsRemStep (pxor p q) = pxor (mdsRemStep p) (mdsRemStep q) := by
  obtain ⟨a, b⟩ := p
  obtain ⟨c, d⟩ := q
  have hx := pxor_pair hp hq
  obtain ⟨ha, hb⟩ := hp
  obtain ⟨hc, hd⟩ := hq
  dsimp only at ha hb hc hd
  unfold pxor at hx ⊢
  dsimp only at hx ⊢
  rw [step_eq hx.1 hx.2, step_eq ha hb, step_eq hc hd]
  have m : ∀ x y : Nat, 256 * ((x ^^^ y) % 2 ^ 24) = (256 * (x % 2 ^ 24)) ^^^ (256 * (y % 2 ^ 24)) := by
    intro x y
    rw [Nat.xor_mod_two_pow]
    have := Nat.shiftLeft_xor_distrib (a := x % 2 ^ 24) (b := y % 2 ^ 24) (i := 8)
    simpa only [Nat.shiftLeft_eq, Nat.mul_comm, Nat.reducePow] using this
  dsimp only
  rw [m, m, Nat.xor_div_two_pow, Nat.xor_div_two_pow, stepG_xor (by omega) (by omega)]
  congr 1
  rw [xor_swap (256 * (b % 2 ^ 24) ^^^ a / 2 ^ 24), xor_swap (256 * (b % 2 ^ 24)) (a / 2 ^ 24)]

/-- Eight steps. -/
def steps (p : Nat × Nat) : Nat × Nat :=
  mdsRemStep (mdsRemStep (mdsRemStep (mdsRemStep (mdsRemStep (mdsRemStep (mdsRemStep (mdsRemStep p)))))))

theorem steps_xor {p q : Nat × Nat} (hp : Pair p) (hq : Pair q) : steps (pxor p q) = pxor (steps p) (steps q) := by
  unfold steps
  have a1 := step_pair hp
  have b1 := step_pair hq
  have a2 := step_pair a1
  have b2 := step_pair b1
  have a3 := step_pair a2
  have b3 := step_pair b2
  have a4 := step_pair a3
  have b4 := step_pair b3
  have a5 := step_pair a4
  have b5 := step_pair b4
  have a6 := step_pair a5
  have b6 := step_pair b5
  have a7 := step_pair a6
  have b7 := step_pair b6
  rw [step_xor hp hq, step_xor a1 b1, step_xor a2 b2, step_xor a3 b3, step_xor a4 b4, step_xor a5 b5, step_xor a6 b6, step_xor a7 b7]

theorem steps_eq (p q : Nat) : (steps (p, q)).2 = mdsRem p q := rfl

/-- `mds_rem` is linear. -/
theorem mdsRem_xor {a b c d : Nat} (ha : a < 2 ^ 32) (hb : b < 2 ^ 32) (hc : c < 2 ^ 32) (hd : d < 2 ^ 32) :
    mdsRem (a ^^^ c) (b ^^^ d) = mdsRem a b ^^^ mdsRem c d := by
  have := steps_xor (p := (a, b)) (q := (c, d)) ⟨ha, hb⟩ ⟨hc, hd⟩
  exact congrArg Prod.snd this

/-- A column of the code matrix times a byte. -/
def rcol (a b c d x : Nat) : Nat :=
  Twofish.word [Twofish.mul Twofish.w x a, Twofish.mul Twofish.w x b, Twofish.mul Twofish.w x c, Twofish.mul Twofish.w x d]

theorem r0_eq {x : Nat} (h : x < 256) : mdsRem x 0 = rcol 0x01 0xA4 0x02 0xA4 x :=
  beq_iff_eq.mp (all_range (n := 256) (f := fun x => mdsRem x 0 == rcol 0x01 0xA4 0x02 0xA4 x) (by decide +kernel) h)
theorem r1_eq {x : Nat} (h : x < 256) : mdsRem (256 * x) 0 = rcol 0xA4 0x56 0xA1 0x55 x :=
  beq_iff_eq.mp (all_range (n := 256) (f := fun x => mdsRem (256 * x) 0 == rcol 0xA4 0x56 0xA1 0x55 x) (by decide +kernel) h)
theorem r2_eq {x : Nat} (h : x < 256) : mdsRem (65536 * x) 0 = rcol 0x55 0x82 0xFC 0x87 x :=
  beq_iff_eq.mp (all_range (n := 256) (f := fun x => mdsRem (65536 * x) 0 == rcol 0x55 0x82 0xFC 0x87 x) (by decide +kernel) h)
theorem r3_eq {x : Nat} (h : x < 256) : mdsRem (16777216 * x) 0 = rcol 0x87 0xF3 0xC1 0x5A x :=
  beq_iff_eq.mp (all_range (n := 256) (f := fun x => mdsRem (16777216 * x) 0 == rcol 0x87 0xF3 0xC1 0x5A x) (by decide +kernel) h)
theorem r4_eq {x : Nat} (h : x < 256) : mdsRem 0 x = rcol 0x5A 0x1E 0x47 0x58 x :=
  beq_iff_eq.mp (all_range (n := 256) (f := fun x => mdsRem 0 x == rcol 0x5A 0x1E 0x47 0x58 x) (by decide +kernel) h)
theorem r5_eq {x : Nat} (h : x < 256) : mdsRem 0 (256 * x) = rcol 0x58 0xC6 0xAE 0xDB x :=
  beq_iff_eq.mp (all_range (n := 256) (f := fun x => mdsRem 0 (256 * x) == rcol 0x58 0xC6 0xAE 0xDB x) (by decide +kernel) h)
theorem r6_eq {x : Nat} (h : x < 256) : mdsRem 0 (65536 * x) = rcol 0xDB 0x68 0x3D 0x9E x :=
  beq_iff_eq.mp (all_range (n := 256) (f := fun x => mdsRem 0 (65536 * x) == rcol 0xDB 0x68 0x3D 0x9E x) (by decide +kernel) h)
theorem r7_eq {x : Nat} (h : x < 256) : mdsRem 0 (16777216 * x) = rcol 0x9E 0xE5 0x19 0x03 x :=
  beq_iff_eq.mp (all_range (n := 256) (f := fun x => mdsRem 0 (16777216 * x) == rcol 0x9E 0xE5 0x19 0x03 x) (by decide +kernel) h)

/-- The bytes of a word, added. -/
theorem word_split {a b c d : Nat} (ha : a < 256) (hb : b < 256) (hc : c < 256) (hd : d < 256) :
    Twofish.word [a, b, c, d] = a ^^^ (256 * b ^^^ (65536 * c ^^^ 16777216 * d)) := by
  have z : (0 : Nat) < 256 := by decide
  have e1 := word_xor ha z z z z hb z z
  have e2 := word_xor z z hc z z z z hd
  have e3 := word_xor ha hb z z z z hc hd
  simp only [Nat.xor_zero, Nat.zero_xor] at e1 e2 e3
  rw [e3, e1, e2]
  simp only [Twofish.word, Nat.mul_zero, Nat.add_zero, Nat.zero_add, ← Nat.mul_assoc, Nat.reduceMul, Nat.xor_assoc]

seal Twofish.mul mdsRem Twofish.word rcol in
/-- `mds_rem` multiplies by the code matrix. -/
theorem mdsRem_eq {a b c d e f g h : Nat} (ha : a < 256) (hb : b < 256) (hc : c < 256) (hd : d < 256)
    (he : e < 256) (hf : f < 256) (hg : g < 256) (hh : h < 256) :
    mdsRem (Twofish.word [a, b, c, d]) (Twofish.word [e, f, g, h]) = Twofish.word (Twofish.apply Twofish.w Twofish.rs [a, b, c, d, e, f, g, h]) := by
  have m : ∀ {x : Nat} (k : Nat), x < 256 → Twofish.mul Twofish.w x k < 256 := fun k hx => mul_lt deg_w k hx
  have X : ∀ {p q : Nat}, p < 2 ^ 32 → q < 2 ^ 32 → p ^^^ q < 2 ^ 32 := fun h1 h2 => Nat.xor_lt_two_pow h1 h2
  have z : (0 : Nat) < 2 ^ 32 := by decide
  have lin0 : ∀ {p q : Nat}, p < 2 ^ 32 → q < 2 ^ 32 → mdsRem (p ^^^ q) 0 = mdsRem p 0 ^^^ mdsRem q 0 := fun h1 h2 => mdsRem_xor h1 z h2 z
  have lin1 : ∀ {p q : Nat}, p < 2 ^ 32 → q < 2 ^ 32 → mdsRem 0 (p ^^^ q) = mdsRem 0 p ^^^ mdsRem 0 q := fun h1 h2 => mdsRem_xor z h1 z h2
  have both : ∀ {p q : Nat}, p < 2 ^ 32 → q < 2 ^ 32 → mdsRem p q = mdsRem p 0 ^^^ mdsRem 0 q := fun {p q} h1 h2 => by
    have := mdsRem_xor h1 z z h2
    rwa [Nat.xor_zero, Nat.zero_xor] at this
  have w3 : ∀ {x : Nat}, x < 256 → 16777216 * x < 2 ^ 32 := by intro x hx; omega
  have w2 : ∀ {x : Nat}, x < 256 → 65536 * x < 2 ^ 32 := by intro x hx; omega
  have w1 : ∀ {x : Nat}, x < 256 → 256 * x < 2 ^ 32 := by intro x hx; omega
  have w0 : ∀ {x : Nat}, x < 256 → x < 2 ^ 32 := by intro x hx; omega
  rw [word_split ha hb hc hd, word_split he hf hg hh]
  rw [both (X (w0 ha) (X (w1 hb) (X (w2 hc) (w3 hd)))) (X (w0 he) (X (w1 hf) (X (w2 hg) (w3 hh))))]
  rw [lin0 (w0 ha) (X (w1 hb) (X (w2 hc) (w3 hd))), lin0 (w1 hb) (X (w2 hc) (w3 hd)), lin0 (w2 hc) (w3 hd)]
  rw [lin1 (w0 he) (X (w1 hf) (X (w2 hg) (w3 hh))), lin1 (w1 hf) (X (w2 hg) (w3 hh)), lin1 (w2 hg) (w3 hh)]
  rw [r0_eq ha, r1_eq hb, r2_eq hc, r3_eq hd, r4_eq he, r5_eq hf, r6_eq hg, r7_eq hh]
  have fold : ∀ {x r s t u p q v w' : Nat}, x < 256 → p < 256 → q < 256 → v < 256 → w' < 256 →
      rcol r s t u x ^^^ Twofish.word [p, q, v, w'] = Twofish.word [Twofish.mul Twofish.w x r ^^^ p, Twofish.mul Twofish.w x s ^^^ q,
        Twofish.mul Twofish.w x t ^^^ v, Twofish.mul Twofish.w x u ^^^ w'] := by
    intro x r s t u p q v w' hx h1 h2 h3 h4
    unfold rcol
    exact (word_xor (m _ hx) (m _ hx) (m _ hx) (m _ hx) h1 h2 h3 h4).symm
  simp only [Nat.xor_assoc]
  rw [show rcol 0x9E 0xE5 0x19 0x03 h = Twofish.word [Twofish.mul Twofish.w h 0x9E, Twofish.mul Twofish.w h 0xE5, Twofish.mul Twofish.w h 0x19, Twofish.mul Twofish.w h 0x03] by unfold rcol; rfl]
  have i7 := fun k => m (x := h) k hh
  have i6 := fun k {y : Nat} (hy : y < 256) => xor4_lt (m (x := g) k hg) hy
  have i5 := fun k {y : Nat} (hy : y < 256) => xor4_lt (m (x := f) k hf) hy
  have i4 := fun k {y : Nat} (hy : y < 256) => xor4_lt (m (x := e) k he) hy
  have i3 := fun k {y : Nat} (hy : y < 256) => xor4_lt (m (x := d) k hd) hy
  have i2 := fun k {y : Nat} (hy : y < 256) => xor4_lt (m (x := c) k hc) hy
  have i1 := fun k {y : Nat} (hy : y < 256) => xor4_lt (m (x := b) k hb) hy
  rw [fold hg (i7 _) (i7 _) (i7 _) (i7 _)]
  rw [fold hf (i6 _ (i7 _)) (i6 _ (i7 _)) (i6 _ (i7 _)) (i6 _ (i7 _))]
  rw [fold he (i5 _ (i6 _ (i7 _))) (i5 _ (i6 _ (i7 _))) (i5 _ (i6 _ (i7 _))) (i5 _ (i6 _ (i7 _)))]
  rw [fold hd (i4 _ (i5 _ (i6 _ (i7 _)))) (i4 _ (i5 _ (i6 _ (i7 _)))) (i4 _ (i5 _ (i6 _ (i7 _)))) (i4 _ (i5 _ (i6 _ (i7 _))))]
  rw [fold hc (i3 _ (i4 _ (i5 _ (i6 _ (i7 _))))) (i3 _ (i4 _ (i5 _ (i6 _ (i7 _))))) (i3 _ (i4 _ (i5 _ (i6 _ (i7 _))))) (i3 _ (i4 _ (i5 _ (i6 _ (i7 _)))))]
  rw [fold hb (i2 _ (i3 _ (i4 _ (i5 _ (i6 _ (i7 _)))))) (i2 _ (i3 _ (i4 _ (i5 _ (i6 _ (i7 _)))))) (i2 _ (i3 _ (i4 _ (i5 _ (i6 _ (i7 _))))))
    (i2 _ (i3 _ (i4 _ (i5 _ (i6 _ (i7 _))))))]
  rw [fold ha (i1 _ (i2 _ (i3 _ (i4 _ (i5 _ (i6 _ (i7 _))))))) (i1 _ (i2 _ (i3 _ (i4 _ (i5 _ (i6 _ (i7 _)))))))
    (i1 _ (i2 _ (i3 _ (i4 _ (i5 _ (i6 _ (i7 _))))))) (i1 _ (i2 _ (i3 _ (i4 _ (i5 _ (i6 _ (i7 _)))))))]
  simp only [Twofish.apply, Twofish.rs, List.map_cons, List.map_nil, List.zipWith_cons_cons, List.zipWith_nil_left, List.foldr_cons,
    List.foldr_nil, Nat.xor_zero]

/-! ## Bytes -/

theorem leNat_word (b : Bytes) : leNat b = Twofish.word (b.map UInt8.toNat) := by
  induction b with
  | nil => rfl
  | cons x xs ih => simp only [List.map_cons, Twofish.word, leNat, ih]

end Verif.Twofish
