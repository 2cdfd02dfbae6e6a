import Verif.Spec.Gzip
/-!
# The decoder and the relations of `Verif/Spec/Gzip.lean`
-/
namespace Verif.Gzip
open Verif Spec.Gz

theorem bits_length (d : Bytes) : (bits d).length = 8 * d.length := by
  induction d with
  | nil => rfl
  | cons b d ih =>
    have h : (bitsOf b).length = 8 := by simp [bitsOf]
    simp only [bits, List.flatMap_cons, List.length_append, List.length_cons] at ih ⊢
    omega

theorem bits_append (a b : Bytes) : bits (a ++ b) = bits a ++ bits b := List.flatMap_append

theorem bits_cons (a : UInt8) (b : Bytes) : bits (a :: b) = bitsOf a ++ bits b := rfl

theorem take?_append {n : Nat} {x : List Bool} (r : List Bool) (h : x.length = n) : take? n (x ++ r) = some (value x, r) := by
  subst h
  unfold take?
  rw [if_neg (by simp), List.take_left, List.drop_left]

theorem take?_sound {n v : Nat} {b r : List Bool} (h : take? n b = some (v, r)) : ∃ x, b = x ++ r ∧ x.length = n ∧ v = value x := by
  unfold take? at h
  split at h
  · cases h
  · rename_i hn
    cases h
    exact ⟨b.take n, (List.take_append_drop ..).symm, by rw [List.length_take]; omega, rfl⟩

theorem value_fin : ∀ n : Fin 256, value ((List.range 8).map fun i => n.val.testBit i) = n.val := by decide +kernel

theorem value_bitsOf (b : UInt8) : value (bitsOf b) = b.toNat := value_fin ⟨b.toNat, b.toNat_lt⟩

theorem bitsOf_bools : ∀ a b c d e f g h : Bool,
    ((List.range 8).map fun i => (value [a, b, c, d, e, f, g, h]).testBit i) = [a, b, c, d, e, f, g, h] := by decide +kernel

theorem value_lt (x : List Bool) : value x < 2 ^ x.length := by
  induction x with
  | nil => decide
  | cons b x ih =>
    simp only [value, List.length_cons, Nat.pow_succ]
    cases b <;> simp <;> omega

theorem bitsOf_value {x : List Bool} (h : x.length = 8) : bitsOf (UInt8.ofNat (value x)) = x := by
  have hv : value x < 256 := by have := value_lt x; rw [h] at this; omega
  unfold bitsOf
  rw [show (UInt8.ofNat (value x)).toNat = value x from by rw [UInt8.toNat_ofNat']; omega]
  match x, h with
  | [a, b, c, d, e, f, g, i], _ => exact bitsOf_bools ..

theorem bytes?_append (d : Bytes) (r : List Bool) : bytes? d.length (bits d ++ r) = some (d, r) := by
  induction d with
  | nil => rfl
  | cons b d ih =>
    rw [List.length_cons, bytes?, bits_cons, List.append_assoc, take?_append _ (by simp [bitsOf])]
    simp only [ih, value_bitsOf, UInt8.ofNat_toNat]

theorem bytes?_sound {n : Nat} {b r : List Bool} {d : Bytes} (h : bytes? n b = some (d, r)) : b = bits d ++ r ∧ d.length = n := by
  induction n generalizing b d with
  | zero => cases h; exact ⟨rfl, rfl⟩
  | succ n ih =>
    rw [bytes?] at h
    split at h
    · cases h
    · rename_i v b1 h1
      split at h
      · cases h
      · rename_i d2 b2 h2
        cases h
        obtain ⟨x, rfl, hx, rfl⟩ := take?_sound h1
        obtain ⟨rfl, rfl⟩ := ih h2
        exact ⟨by rw [bits_cons, bitsOf_value hx, List.append_assoc], rfl⟩

/-! ### Codes -/

/-- No code begins with another. -/
def Free (t : Table) : Prop := (∀ p ∈ t, ∀ q ∈ t, p.2 <+: q.2 → p = q) ∧ ∀ p ∈ t, p.2 ≠ []

theorem symbol?_append {t : Table} (ht : Free t) {s : Nat} {c : List Bool} (h : (s, c) ∈ t) (r : List Bool) :
    symbol? t (c ++ r) = some (s, r) := by
  unfold symbol?
  cases hf : t.find? fun p => p.2.isPrefixOf (c ++ r) with
  | none =>
    have := List.find?_eq_none.mp hf _ h
    simp at this
  | some p =>
    have hp := List.mem_of_find?_eq_some hf
    have hq : p.2 <+: c ++ r := by have := List.find?_some hf; simpa using this
    have : p = (s, c) := by
      rcases List.prefix_or_prefix_of_prefix hq (List.prefix_append c r) with h1 | h1
      · exact ht.1 p hp _ h h1
      · exact (ht.1 _ h p hp h1).symm
    subst this
    simp

theorem symbol?_sound {t : Table} {s : Nat} {b r : List Bool} (h : symbol? t b = some (s, r)) : ∃ c, (s, c) ∈ t ∧ b = c ++ r := by
  unfold symbol? at h
  cases hf : t.find? fun p => p.2.isPrefixOf b with
  | none => rw [hf] at h; cases h
  | some p =>
    rw [hf] at h
    cases h
    have hq : p.2 <+: b := by have := List.find?_some hf; simpa using this
    obtain ⟨z, rfl⟩ := hq
    exact ⟨p.2, List.mem_of_find?_eq_some hf, by simp⟩

theorem msb_length (l n : Nat) : (msb l n).length = l := by simp [msb]

theorem msb_prefix {l m v w : Nat} (h : msb l v <+: msb m w) (hv : v < 2 ^ l) (hw : w < 2 ^ m) : l ≤ m ∧ v = w / 2 ^ (m - l) := by
  have hl : l ≤ m := by have := h.length_le; simpa [msb_length] using this
  refine ⟨hl, ?_⟩
  rw [List.prefix_iff_eq_take, msb_length] at h
  apply Nat.eq_of_testBit_eq
  intro j
  rw [Nat.testBit_div_two_pow]
  by_cases hj : j < l
  · have h1 : (msb l v)[l - 1 - j]? = ((msb m w).take l)[l - 1 - j]? := by rw [← h]
    rw [List.getElem?_take_of_lt (by omega)] at h1
    simp only [msb, List.getElem?_map] at h1
    rw [List.getElem?_range (by omega), List.getElem?_range (by omega)] at h1
    simp only [Option.map_some, Option.some.injEq] at h1
    rw [show l - 1 - (l - 1 - j) = j by omega, show m - 1 - (l - 1 - j) = j + (m - l) by omega] at h1
    exact h1
  · rw [Nat.testBit_lt_two_pow (Nat.lt_of_lt_of_le hv (Nat.pow_le_pow_right (by omega) (by omega))),
      Nat.testBit_lt_two_pow (Nat.lt_of_lt_of_le hw (Nat.pow_le_pow_right (by omega) (by omega)))]

theorem firstCode_le (lens : List Nat) (l k : Nat) : 2 ^ (k + 1) * (firstCode lens l + count lens l) ≤ firstCode lens (l + k + 1) := by
  induction k with
  | zero => simp [firstCode]
  | succ k ih =>
    rw [show l + (k + 1) + 1 = (l + k + 1) + 1 by omega, firstCode, Nat.pow_succ]
    have : 2 ^ (k + 1) * 2 * (firstCode lens l + count lens l) = 2 * (2 ^ (k + 1) * (firstCode lens l + count lens l)) := by
      rw [Nat.mul_comm (2 ^ (k + 1)) 2, Nat.mul_assoc]
    omega

theorem count_take_lt {lens : List Nat} {s l : Nat} (h : lens[s]? = some l) : (lens.take s).count l < lens.count l := by
  obtain ⟨hs, hl⟩ := List.getElem?_eq_some_iff.mp h
  conv => rhs; rw [← List.take_append_drop s lens]
  rw [List.count_append, List.drop_eq_getElem_cons hs, hl, List.count_cons_self]
  omega

theorem count_take_mono {lens : List Nat} {s s' l : Nat} (h : lens[s]? = some l) (hs : s < s') :
    (lens.take s).count l < (lens.take s').count l := by
  have h' : (lens.take s')[s]? = some l := by rw [List.getElem?_take_of_lt hs]; exact h
  have := count_take_lt h'
  rwa [List.take_take, Nat.min_eq_left (by omega)] at this

theorem canon_mem {lens : List Nat} {p : Nat × List Bool} (h : p ∈ canon lens) :
    ∃ l, lens[p.1]? = some l ∧ l ≠ 0 ∧ p.2 = msb l (firstCode lens l + (lens.take p.1).count l) := by
  unfold canon at h
  obtain ⟨s, hs, h⟩ := List.mem_filterMap.mp h
  rw [List.mem_range] at hs
  simp only at h
  split at h
  · cases h
  · rename_i hl
    cases h
    refine ⟨lens[s], List.getElem?_eq_getElem hs, ?_, ?_⟩ <;> simp [List.getD_eq_getElem?_getD, List.getElem?_eq_getElem hs] at hl ⊢
    exact hl

theorem canon_free {strict : Bool} {lens : List Nat} (h : usable strict lens = true) : Free (canon lens) := by
  simp only [usable, Bool.and_eq_true, List.all_eq_true, List.mem_range, decide_eq_true_eq] at h
  obtain ⟨⟨h1, h2⟩, -⟩ := h
  constructor
  · intro p hp q hq hpre
    obtain ⟨l, a1, a2, a3⟩ := canon_mem hp
    obtain ⟨m, b1, b2, b3⟩ := canon_mem hq
    have hl := h1 l (List.mem_of_getElem? a1)
    have hm := h1 m (List.mem_of_getElem? b1)
    have cl := count_take_lt a1
    have cm := count_take_lt b1
    have el : count lens l = lens.count l := by simp [count, a2]
    have em : count lens m = lens.count m := by simp [count, b2]
    have kl := h2 l (by omega)
    have km := h2 m (by omega)
    rw [a3, b3] at hpre
    obtain ⟨hle, hv⟩ := msb_prefix hpre (by omega) (by omega)
    rcases Nat.lt_or_eq_of_le hle with hlt | rfl
    · exfalso
      have := firstCode_le lens l (m - l - 1)
      rw [show m - l - 1 + 1 = m - l by omega, show l + (m - l - 1) + 1 = m by omega] at this
      have h3 : firstCode lens l + count lens l ≤ (firstCode lens m + (lens.take q.1).count m) / 2 ^ (m - l) := by
        rw [Nat.le_div_iff_mul_le (Nat.two_pow_pos _), Nat.mul_comm]
        omega
      omega
    · rw [Nat.sub_self, Nat.pow_zero, Nat.div_one] at hv
      have hs : p.1 = q.1 := by
        rcases Nat.lt_trichotomy p.1 q.1 with hs | hs | hs
        · have := count_take_mono a1 hs; omega
        · exact hs
        · have := count_take_mono b1 hs; omega
      exact Prod.ext hs (by rw [a3, b3, hs])
  · intro p hp hnil
    obtain ⟨l, a1, a2, a3⟩ := canon_mem hp
    have := msb_length l (firstCode lens l + (lens.take p.1).count l)
    rw [← a3, hnil] at this
    exact a2 this.symm

theorem fixedLit_usable : usable false fixedLit = true := by decide +kernel
theorem fixedDist_usable : usable false fixedDist = true := by decide +kernel

/-! ### Repetitions -/

theorem copy_spec (n d : Nat) (out : Bytes) (h1 : 1 ≤ d) (h2 : d ≤ out.length) :
    ∃ s, copy n d out = out ++ s ∧ s.length = n ∧ ∀ i < n, (out ++ s)[out.length + i]? = (out ++ s)[out.length + i - d]? := by
  induction n generalizing out with
  | zero => exact ⟨[], by simp [copy], rfl, fun i hi => absurd hi (by omega)⟩
  | succ n ih =>
    obtain ⟨s, a1, a2, a3⟩ := ih (out ++ [out.getD (out.length - d) 0]) (by rw [List.length_append]; omega)
    refine ⟨out.getD (out.length - d) 0 :: s, by rw [copy, a1]; simp, by simp [a2], ?_⟩
    intro i hi
    rw [show out ++ out.getD (out.length - d) 0 :: s = out ++ [out.getD (out.length - d) 0] ++ s by simp]
    rcases i with _ | i
    · have hlt : out.length - d < out.length := by omega
      have e : out[out.length - d]? = some (out.getD (out.length - d) 0) := by
        rw [List.getD_eq_getElem?_getD, List.getElem?_eq_getElem hlt]; rfl
      generalize out.getD (out.length - d) 0 = z at e
      rw [Nat.add_zero, List.append_assoc, List.getElem?_append_left hlt, e, List.getElem?_append_right (Nat.le_refl _)]
      simp
    · have := a3 i (by omega)
      simp only [List.length_append, List.length_cons, List.length_nil] at this
      rw [show out.length + (i + 1) = out.length + (0 + 1) + i by omega]
      exact this

theorem copy_unique {n d : Nat} {out s s' : Bytes} (h1 : 1 ≤ d) (h2 : d ≤ out.length) (l : s.length = n) (l' : s'.length = n)
    (h : ∀ i < n, (out ++ s)[out.length + i]? = (out ++ s)[out.length + i - d]?)
    (h' : ∀ i < n, (out ++ s')[out.length + i]? = (out ++ s')[out.length + i - d]?) : out ++ s = out ++ s' := by
  apply List.ext_getElem?
  intro j
  induction j using Nat.strongRecOn with
  | ind j ih =>
    by_cases hj : j < out.length
    · rw [List.getElem?_append_left hj, List.getElem?_append_left hj]
    · by_cases hn : j < out.length + n
      · obtain ⟨i, rfl⟩ : ∃ i, j = out.length + i := ⟨j - out.length, by omega⟩
        rw [h i (by omega), h' i (by omega)]
        exact ih _ (by omega)
      · rw [List.getElem?_eq_none (by simp; omega), List.getElem?_eq_none (by simp; omega)]

theorem does_copy {n d : Nat} {out o1 : Bytes} (h : (Tok.copy n d).Does out o1) : ¬ out.length < d ∧ o1 = copy n d out := by
  cases h with
  | copy pos back len same =>
    obtain ⟨s', a1, a2, a3⟩ := copy_spec n d out pos back
    exact ⟨by omega, by rw [a1]; exact copy_unique pos back len a2 same a3⟩

theorem distances_pos : ∀ p ∈ distances, 1 ≤ p.1 := by decide
theorem lengths_length : lengths.length = 29 := rfl

/-! ### Symbols -/

theorem match?_append {D : Table} (hD : Free D) {s d base dbase : Nat} {x c' y : List Bool} (len : lengths[s]? = some (base, x.length))
    (dsym : (d, c') ∈ D) (dlen : distances[d]? = some (dbase, y.length)) (r : List Bool) :
    match? D s (x ++ (c' ++ (y ++ r))) = some (base + value x, dbase + value y, r) := by
  unfold match?
  simp only [len, dlen, take?_append _ rfl, symbol?_append hD dsym, Option.bind_eq_bind, Option.bind_some]

theorem match?_sound {D : Table} {s n d : Nat} {b r : List Bool} (h : match? D s b = some (n, d, r)) :
    ∃ base dbase k x c' y, lengths[s]? = some (base, x.length) ∧ (k, c') ∈ D ∧ distances[k]? = some (dbase, y.length) ∧
      n = base + value x ∧ d = dbase + value y ∧ b = x ++ (c' ++ (y ++ r)) := by
  unfold match? at h
  simp only [Option.bind_eq_bind, Option.bind_eq_some_iff, Prod.exists] at h
  obtain ⟨base, ex, h1, v, b1, h2, k, b2, h3, dbase, dex, h4, w, b3, h5, h6⟩ := h
  cases h6
  obtain ⟨x, rfl, rfl, rfl⟩ := take?_sound h2
  obtain ⟨c', hc, rfl⟩ := symbol?_sound h3
  obtain ⟨y, rfl, rfl, rfl⟩ := take?_sound h5
  exact ⟨base, dbase, k, x, c', y, h1, hc, h4, rfl, rfl, rfl⟩

theorem item?_lit {L D : Table} (hL : Free L) {b : UInt8} {c : List Bool} (h : (b.toNat, c) ∈ L) (r : List Bool) :
    item? L D (c ++ r) = some (.byte b, r) := by
  unfold item?
  rw [symbol?_append hL h]
  simp only [Option.bind_eq_bind, Option.bind_some]
  rw [if_pos b.toNat_lt, UInt8.ofNat_toNat]

theorem item?_stop {L D : Table} (hL : Free L) {c : List Bool} (h : (256, c) ∈ L) (r : List Bool) :
    item? L D (c ++ r) = some (.stop, r) := by
  unfold item?
  rw [symbol?_append hL h]
  simp only [Option.bind_eq_bind, Option.bind_some]
  rw [if_neg (by omega), if_pos trivial]

theorem item?_back {L D : Table} (hL : Free L) (hD : Free D) {s d base dbase : Nat} {c x c' y : List Bool} (sym : (257 + s, c) ∈ L)
    (len : lengths[s]? = some (base, x.length)) (dsym : (d, c') ∈ D) (dlen : distances[d]? = some (dbase, y.length)) (r : List Bool) :
    item? L D (c ++ (x ++ (c' ++ (y ++ r)))) = some (.back (base + value x) (dbase + value y), r) := by
  unfold item?
  rw [symbol?_append hL sym]
  simp only [Option.bind_eq_bind, Option.bind_some]
  rw [if_neg (by omega), if_neg (by omega), show 257 + s - 257 = s by omega, match?_append hD len dsym dlen]
  rfl

theorem symbols_append {L D : Table} (hL : Free L) (hD : Free D) {x : List Bool} {o o' : Bytes} (h : Toks L D x o o') (r : List Bool) :
    ∀ fuel, x.length < fuel → symbols L D fuel (x ++ r) o = some (o', r) := by
  induction h with
  | stop h =>
    intro fuel hf
    obtain ⟨f, rfl⟩ : ∃ f, fuel = f + 1 := ⟨fuel - 1, by omega⟩
    rw [symbols, item?_stop hL h]
  | @step t x y o o1 o2 enc does rest ih =>
    intro fuel hf
    obtain ⟨f, rfl⟩ : ∃ f, fuel = f + 1 := ⟨fuel - 1, by omega⟩
    rw [List.length_append] at hf
    cases enc with
    | @lit b c hb =>
      have hc : x ≠ [] := hL.2 _ hb
      have := List.length_pos_iff.mpr hc
      rw [symbols, List.append_assoc, item?_lit hL hb]
      cases does
      exact ih f (by omega)
    | @copy s d base dbase c x c' y' sym len dsym dlen =>
      have hc : c ≠ [] := hL.2 _ sym
      have := List.length_pos_iff.mpr hc
      simp only [List.length_append] at hf
      rw [symbols, List.append_assoc, List.append_assoc, List.append_assoc, List.append_assoc, item?_back hL hD sym len dsym dlen]
      obtain ⟨d1, rfl⟩ := does_copy does
      simp only
      rw [if_neg d1]
      exact ih f (by omega)

theorem item?_sound {L D : Table} {b r : List Bool} {i : Item} (h : item? L D b = some (i, r)) :
    (∃ a, i = .byte a ∧ ∃ c, (a.toNat, c) ∈ L ∧ b = c ++ r) ∨ (i = .stop ∧ ∃ c, (256, c) ∈ L ∧ b = c ++ r) ∨
      ∃ s k base dbase c x c' y, i = .back (base + value x) (dbase + value y) ∧ (257 + s, c) ∈ L ∧
        lengths[s]? = some (base, x.length) ∧ (k, c') ∈ D ∧ distances[k]? = some (dbase, y.length) ∧ b = c ++ x ++ c' ++ y ++ r := by
  unfold item? at h
  simp only [Option.bind_eq_bind, Option.bind_eq_some_iff, Prod.exists] at h
  obtain ⟨s, b1, h1, h⟩ := h
  obtain ⟨c, hc, rfl⟩ := symbol?_sound h1
  split at h
  · rename_i hs
    cases h
    refine .inl ⟨_, rfl, c, ?_, rfl⟩
    rw [UInt8.toNat_ofNat', Nat.mod_eq_of_lt (by omega)]
    exact hc
  · split at h
    · rename_i hs
      cases h
      exact .inr (.inl ⟨rfl, c, hs ▸ hc, rfl⟩)
    · simp only [Option.bind_eq_some_iff, Prod.exists] at h
      obtain ⟨n, d, b2, h2, h⟩ := h
      cases h
      obtain ⟨base, dbase, k, x, c', y, l1, l2, l3, rfl, rfl, rfl⟩ := match?_sound h2
      have hs : 257 + (s - 257) = s := by omega
      exact .inr (.inr ⟨s - 257, k, base, dbase, c, x, c', y, rfl, hs.symm ▸ hc, l1, l2, l3, by simp⟩)

theorem symbols_sound {L D : Table} {fuel : Nat} {b r : List Bool} {o o' : Bytes} (h : symbols L D fuel b o = some (o', r)) :
    ∃ x, b = x ++ r ∧ Toks L D x o o' := by
  induction fuel generalizing b o with
  | zero => cases h
  | succ f ih =>
    rw [symbols] at h
    cases hi : item? L D b with
    | none => rw [hi] at h; cases h
    | some p =>
      obtain ⟨i, b1⟩ := p
      rw [hi] at h
      rcases item?_sound hi with ⟨a, rfl, c, hc, rfl⟩ | ⟨rfl, c, hc, rfl⟩ | ⟨s, k, base, dbase, c, x, c', y, rfl, hc, l1, l2, l3, rfl⟩
      · obtain ⟨x, rfl, hx⟩ := ih h
        exact ⟨c ++ x, by simp, .step (.lit hc) .lit hx⟩
      · cases h
        exact ⟨c, rfl, .stop hc⟩
      · simp only at h
        split at h
        · cases h
        · rename_i hd
          obtain ⟨z, rfl, hz⟩ := ih h
          have h1 : 1 ≤ dbase + value y := by
            have := distances_pos _ (List.mem_of_getElem? l3)
            simp only at this
            omega
          obtain ⟨t, e1, e2, e3⟩ := copy_spec (base + value x) (dbase + value y) o h1 (by omega)
          rw [e1] at hz
          exact ⟨c ++ x ++ c' ++ y ++ z, by simp, .step (.copy hc l1 l2 l3) (.copy h1 (by omega) e2 e3) hz⟩

/-! ### Code lengths -/

theorem lens_length {C : Table} {x : List Bool} {acc r : List Nat} (h : Lens C x acc r) : acc.length ≤ r.length := by
  induction h with
  | stop => exact Nat.le_refl _
  | _ => simp only [List.length_append] at *; omega

theorem codeLengths_append {C : Table} (hC : Free C) {x : List Bool} {acc res : List Nat} (h : Lens C x acc res) (r : List Bool) :
    ∀ fuel, x.length < fuel → codeLengths C res.length fuel (x ++ r) acc = some (res, r) := by
  induction h with
  | stop =>
    intro fuel hf
    obtain ⟨f, rfl⟩ : ∃ f, fuel = f + 1 := ⟨fuel - 1, by omega⟩
    simp [codeLengths]
  | @len l c y acc res small h rest ih =>
    intro fuel hf
    obtain ⟨f, rfl⟩ : ∃ f, fuel = f + 1 := ⟨fuel - 1, by omega⟩
    have hl := lens_length rest
    have := List.length_pos_iff.mpr (hC.2 _ h)
    simp only [List.length_append, List.length_cons, List.length_nil] at hl hf this
    rw [codeLengths, if_neg (by omega), if_neg (by omega), List.append_assoc, symbol?_append hC h]
    simp only [small, if_true]
    exact ih f (by omega)
  | @again p c x y acc res h hx rest ih =>
    intro fuel hf
    obtain ⟨f, rfl⟩ : ∃ f, fuel = f + 1 := ⟨fuel - 1, by omega⟩
    have hl := lens_length rest
    have := List.length_pos_iff.mpr (hC.2 _ h)
    simp only [List.length_append, List.length_cons, List.length_nil, List.length_replicate] at hl hf this
    rw [codeLengths, if_neg (by simp; omega), if_neg (by simp; omega), List.append_assoc, List.append_assoc, symbol?_append hC h]
    simp only [show ¬ 16 < 16 by omega, if_false, if_true, List.getLast?_concat, take?_append _ hx]
    exact ih f (by omega)
  | @zeros c x y acc res h hx rest ih =>
    intro fuel hf
    obtain ⟨f, rfl⟩ : ∃ f, fuel = f + 1 := ⟨fuel - 1, by omega⟩
    have hl := lens_length rest
    have := List.length_pos_iff.mpr (hC.2 _ h)
    simp only [List.length_append, List.length_replicate] at hl hf this
    rw [codeLengths, if_neg (by omega), if_neg (by omega), List.append_assoc, List.append_assoc, symbol?_append hC h]
    simp only [show ¬ 17 < 16 by omega, show ¬ 17 = 16 by omega, if_false, if_true, take?_append _ hx]
    exact ih f (by omega)
  | @manyZeros c x y acc res h hx rest ih =>
    intro fuel hf
    obtain ⟨f, rfl⟩ : ∃ f, fuel = f + 1 := ⟨fuel - 1, by omega⟩
    have hl := lens_length rest
    have := List.length_pos_iff.mpr (hC.2 _ h)
    simp only [List.length_append, List.length_replicate] at hl hf this
    rw [codeLengths, if_neg (by omega), if_neg (by omega), List.append_assoc, List.append_assoc, symbol?_append hC h]
    simp only [show ¬ 18 < 16 by omega, show ¬ 18 = 16 by omega, show ¬ 18 = 17 by omega, if_false, take?_append _ hx]
    exact ih f (by omega)

theorem codeLengths_sound {C : Table} (hC : ∀ p ∈ C, p.1 < 19) {n fuel : Nat} {b r : List Bool} {acc res : List Nat}
    (h : codeLengths C n fuel b acc = some (res, r)) : ∃ x, b = x ++ r ∧ Lens C x acc res ∧ res.length = n := by
  induction fuel generalizing b acc with
  | zero => cases h
  | succ f ih =>
    rw [codeLengths] at h
    split at h
    · cases h; exact ⟨[], rfl, .stop, ‹_›⟩
    · split at h
      · cases h
      · split at h
        · cases h
        · rename_i s b1 h1
          obtain ⟨c, hc, rfl⟩ := symbol?_sound h1
          have hs := hC _ hc
          simp only at hs
          split at h
          · obtain ⟨x, rfl, hx, hn⟩ := ih h
            exact ⟨c ++ x, by simp, .len ‹_› hc hx, hn⟩
          · split at h
            · subst s
              split at h
              · rename_i p v b2 hp h2
                obtain ⟨x, rfl, hx, rfl⟩ := take?_sound h2
                obtain ⟨y, rfl, hy, hn⟩ := ih h
                obtain ⟨acc', rfl⟩ := List.getLast?_eq_some_iff.mp hp
                exact ⟨c ++ x ++ y, by simp, .again hc hx hy, hn⟩
              · cases h
            · split at h
              · subst s
                split at h
                · rename_i v b2 h2
                  obtain ⟨x, rfl, hx, rfl⟩ := take?_sound h2
                  obtain ⟨y, rfl, hy, hn⟩ := ih h
                  exact ⟨c ++ x ++ y, by simp, .zeros hc hx hy, hn⟩
                · cases h
              · have : s = 18 := by omega
                subst this
                split at h
                · rename_i v b2 h2
                  obtain ⟨x, rfl, hx, rfl⟩ := take?_sound h2
                  obtain ⟨y, rfl, hy, hn⟩ := ih h
                  exact ⟨c ++ x ++ y, by simp, .manyZeros hc hx hy, hn⟩
                · cases h

theorem triples_append {cl : List (List Bool)} (h : ∀ c ∈ cl, c.length = 3) (r : List Bool) :
    triples cl.length (cl.flatten ++ r) = some (cl.map value, r) := by
  induction cl with
  | nil => rfl
  | cons c cl ih =>
    rw [List.length_cons, triples, List.flatten_cons, List.append_assoc, take?_append _ (h c (List.mem_cons_self ..))]
    simp only [ih fun c hc => h c (List.mem_cons_of_mem _ hc), List.map_cons]

theorem triples_sound {n : Nat} {b r : List Bool} {l : List Nat} (h : triples n b = some (l, r)) :
    ∃ cl : List (List Bool), b = cl.flatten ++ r ∧ cl.length = n ∧ (∀ c ∈ cl, c.length = 3) ∧ l = cl.map value := by
  induction n generalizing b l with
  | zero => cases h; exact ⟨[], rfl, rfl, by simp, rfl⟩
  | succ n ih =>
    rw [triples] at h
    split at h
    · cases h
    · rename_i v b1 h1
      split at h
      · cases h
      · rename_i l2 b2 h2
        cases h
        obtain ⟨x, rfl, hx, rfl⟩ := take?_sound h1
        obtain ⟨cl, rfl, rfl, h3, rfl⟩ := ih h2
        exact ⟨x :: cl, by simp, rfl, by simpa [hx] using h3, rfl⟩

theorem unordered_length (cl : List Nat) : (unordered cl).length = 19 := by simp [unordered]

theorem canon_lt {lens : List Nat} {p : Nat × List Bool} (h : p ∈ canon lens) : p.1 < lens.length := by
  obtain ⟨l, h1, -⟩ := canon_mem h
  exact (List.getElem?_eq_some_iff.mp h1).1

theorem dynamic_append {h : List Bool} {lit dist : List Nat} (hc : Codes h lit dist) (r : List Bool) :
    dynamic (h ++ r) = some (lit, dist, r) := by
  cases hc with
  | @mk h1 h2 h3 x cl _ _ l1 l2 l3 lc three v1 v2 uc lens ll ld stop ul ud =>
    unfold dynamic
    simp only [List.append_assoc, take?_append _ l1, take?_append _ l2, take?_append _ l3, Option.bind_eq_bind, Option.bind_some, ← lc,
      triples_append three]
    rw [if_neg (by simp [uc]; omega)]
    have := codeLengths_append (canon_free uc) lens r ((x ++ r).length + 1) (by simp; omega)
    rw [List.length_append (as := lit), ll, ld] at this
    rw [this]
    simp only [Option.bind_some, ← ll, List.take_left, List.drop_left]
    rw [if_neg (by simp only [ul, ud]; simpa using stop)]

theorem dynamic_sound {b r : List Bool} {lit dist : List Nat} (h : dynamic b = some (lit, dist, r)) :
    ∃ x, b = x ++ r ∧ Codes x lit dist := by
  unfold dynamic at h
  simp only [Option.bind_eq_bind, Option.bind_eq_some_iff, Prod.exists] at h
  obtain ⟨v1, b1, h1, v2, b2, h2, v3, b3, h3, l, b4, h4, h⟩ := h
  split at h
  · cases h
  · rename_i hno
    simp only [Option.bind_eq_some_iff, Prod.exists] at h
    obtain ⟨ls, b5, h5, h⟩ := h
    split at h
    · cases h
    · rename_i hno'
      cases h
      obtain ⟨x1, rfl, l1, rfl⟩ := take?_sound h1
      obtain ⟨x2, rfl, l2, rfl⟩ := take?_sound h2
      obtain ⟨x3, rfl, l3, rfl⟩ := take?_sound h3
      obtain ⟨cl, rfl, lc, three, rfl⟩ := triples_sound h4
      obtain ⟨x5, rfl, hx, hn⟩ := codeLengths_sound (fun p hp => by have := canon_lt hp; rwa [unordered_length] at this) h5
      simp only [not_or, Bool.not_eq_false] at hno hno'
      refine ⟨x1 ++ x2 ++ x3 ++ cl.flatten ++ x5, by simp, .mk l1 l2 l3 lc three (by omega) (by omega) hno.2.2 ?_ ?_ ?_ hno'.1 hno'.2.1 hno'.2.2⟩
      · rw [List.take_append_drop]; exact hx
      · rw [List.length_take]; omega
      · rw [List.length_drop]; omega

/-! ### Blocks -/

theorem codes_usable {h : List Bool} {lit dist : List Nat} (hc : Codes h lit dist) : usable false lit = true ∧ usable false dist = true := by
  cases hc; exact ⟨‹_›, ‹_›⟩

theorem block_append {pos : Nat} {fin : Bool} {x : List Bool} {o o' : Bytes} (h : Block pos fin x o o') (r : List Bool)
    (hr : (pos + x.length + r.length) % 8 = 0) : block (x ++ r) o = some (fin, o', r) := by
  cases h with
  | @stored pad n m d _ short aligned ln vn lm vm =>
    have hlt := value_lt n
    simp only [List.length_append, List.length_cons, bits_length] at hr
    simp only [List.cons_append, block, List.append_assoc]
    rw [show (pad ++ (n ++ (m ++ (bits d ++ r)))).length % 8 = pad.length by simp only [List.length_append, bits_length]; omega,
      List.drop_left]
    simp only [take?_append _ ln, take?_append _ lm, Option.bind_eq_bind, Option.bind_some, vn, vm, bytes?_append]
    rw [if_neg (by rw [ln] at hlt; omega)]
  | fixed h =>
    simp only [List.cons_append, block]
    rw [symbols_append (canon_free fixedLit_usable) (canon_free fixedDist_usable) h r _ (by simp; omega)]
    rfl
  | @dynamic h x lit dist _ _ codes toks =>
    simp only [List.cons_append, block, List.append_assoc]
    rw [dynamic_append codes]
    simp only [Option.bind_eq_bind, Option.bind_some]
    rw [symbols_append (canon_free (codes_usable codes).1) (canon_free (codes_usable codes).2) toks r _ (by simp; omega)]
    rfl

theorem block_sound {pos : Nat} {fin : Bool} {b r : List Bool} {o o' : Bytes} (h : block b o = some (fin, o', r))
    (hb : (pos + b.length) % 8 = 0) : ∃ x, b = x ++ r ∧ Block pos fin x o o' := by
  unfold block at h
  split at h
  · rename_i f b1
    simp only [Option.bind_eq_bind, Option.bind_eq_some_iff, Prod.exists] at h
    obtain ⟨v1, b2, h1, v2, b3, h2, h⟩ := h
    split at h
    · cases h
    · rename_i hs
      simp only [Option.bind_eq_some_iff, Prod.exists] at h
      obtain ⟨d, b4, h3, h⟩ := h
      cases h
      obtain ⟨n, e1, ln, rfl⟩ := take?_sound h1
      obtain ⟨m, rfl, lm, rfl⟩ := take?_sound h2
      obtain ⟨rfl, ld⟩ := bytes?_sound h3
      have e2 : b1 = b1.take (b1.length % 8) ++ (n ++ (m ++ (bits d ++ r))) := by rw [← e1, List.take_append_drop]
      have hp : (b1.take (b1.length % 8)).length = b1.length % 8 := by
        rw [List.length_take]; exact Nat.min_eq_left (Nat.mod_le _ _)
      simp only [List.length_cons] at hb
      refine ⟨fin :: false :: false :: (b1.take (b1.length % 8) ++ n ++ m ++ bits d), ?_,
        .stored (by rw [hp]; exact Nat.mod_lt _ (by omega)) ?_ ln ld.symm lm (by omega)⟩
      · conv => lhs; rw [e2]
        simp
      · rw [hp]
        have e3 := congrArg List.length e2
        simp only [List.length_append, bits_length, hp] at e3
        omega
  · simp only [Option.bind_eq_bind, Option.bind_eq_some_iff, Prod.exists] at h
    obtain ⟨o2, b2, h1, h⟩ := h
    cases h
    obtain ⟨x, rfl, hx⟩ := symbols_sound h1
    exact ⟨_, by simp, .fixed hx⟩
  · simp only [Option.bind_eq_bind, Option.bind_eq_some_iff, Prod.exists] at h
    obtain ⟨lit, dist, b1, h1, o2, b2, h2, h⟩ := h
    cases h
    obtain ⟨x, rfl, hx⟩ := dynamic_sound h1
    obtain ⟨y, rfl, hy⟩ := symbols_sound h2
    exact ⟨_, by simp, .dynamic hx hy⟩
  · cases h

theorem block_pos {pos : Nat} {fin : Bool} {x : List Bool} {o o' : Bytes} (h : Block pos fin x o o') : 0 < x.length := by
  cases h <;> simp

theorem inflate_append {pos : Nat} {x : List Bool} {o o' : Bytes} (h : Blocks pos x o o') (r : List Bool)
    (hr : (pos + x.length + r.length) % 8 = 0) : ∀ fuel, x.length < fuel → inflate fuel (x ++ r) o = some (o', r) := by
  induction h with
  | last h =>
    intro fuel hf
    obtain ⟨f, rfl⟩ : ∃ f, fuel = f + 1 := ⟨fuel - 1, by omega⟩
    rw [inflate, block_append h r hr]
    simp
  | @more pos x y o o1 o2 h rest ih =>
    intro fuel hf
    obtain ⟨f, rfl⟩ : ∃ f, fuel = f + 1 := ⟨fuel - 1, by omega⟩
    rw [List.length_append] at hf hr
    have := block_pos h
    rw [inflate, List.append_assoc, block_append h (y ++ r) (by rw [List.length_append]; omega)]
    simp only [Bool.false_eq_true, if_false]
    exact ih (by omega) f (by omega)

theorem inflate_sound {fuel pos : Nat} {b r : List Bool} {o o' : Bytes} (h : inflate fuel b o = some (o', r))
    (hb : (pos + b.length) % 8 = 0) : ∃ x, b = x ++ r ∧ Blocks pos x o o' := by
  induction fuel generalizing b o pos with
  | zero => cases h
  | succ f ih =>
    rw [inflate] at h
    split at h
    · cases h
    · rename_i fin o1 b1 h1
      obtain ⟨x, rfl, hx⟩ := block_sound h1 hb
      cases fin with
      | true => cases h; exact ⟨x, rfl, .last hx⟩
      | false =>
        simp only [Bool.false_eq_true, if_false] at h
        rw [List.length_append] at hb
        obtain ⟨y, rfl, hy⟩ := ih (pos := pos + x.length) h (by omega)
        exact ⟨x ++ y, by simp, .more hx hy⟩

/-! ### The container -/

theorem trailer_length (d : Bytes) : (trailer d).length = 8 := by simp [trailer, leBytes]

theorem extra_append {on : Bool} {x : Bytes} (h : Extra on x) (r : Bytes) : extra? on (x ++ r) = some r := by
  unfold Extra at h
  unfold extra?
  cases on with
  | false => rw [if_neg (by decide)] at h; subst h; rfl
  | true =>
    rw [if_pos rfl] at h
    obtain ⟨d, hd, rfl⟩ := h
    have e : leNat ((leBytes 2 d.length ++ d ++ r).take 2) = d.length := by
      rw [List.append_assoc, List.take_append_of_le_length (by simp), List.take_of_length_le (by simp), leNat_leBytes 2 _ hd]
    rw [if_pos rfl, e, if_pos (by simp), List.drop_append_of_le_length (by simp), List.drop_of_length_le (by simp)]
    rfl

theorem extra_sound {on : Bool} {b r : Bytes} (h : extra? on b = some r) : ∃ x, Extra on x ∧ b = x ++ r := by
  unfold extra? at h
  cases on with
  | false => cases h; exact ⟨[], rfl, rfl⟩
  | true =>
    rw [if_pos rfl] at h
    split at h
    · rename_i hl
      cases h
      have h2 : (b.take 2).length = 2 := by rw [List.length_take]; omega
      have hlt : leNat (b.take 2) < 2 ^ 16 := by
        have := leNat_lt (b.take 2)
        rw [h2] at this
        exact this
      have hd : ((b.drop 2).take (leNat (b.take 2))).length = leNat (b.take 2) := by rw [List.length_take, List.length_drop]; omega
      refine ⟨b.take 2 ++ (b.drop 2).take (leNat (b.take 2)), ?_, ?_⟩
      · unfold Extra
        rw [if_pos rfl]
        refine ⟨_, by rw [hd]; exact hlt, ?_⟩
        rw [hd]
        congr 1
        have := leBytes_leNat (b.take 2)
        rw [h2] at this
        exact this.symm
      · rw [← List.drop_drop, List.append_assoc, List.take_append_drop, List.take_append_drop]
    · cases h

theorem text_append {on : Bool} {x : Bytes} (h : Text on x) (r : Bytes) : text? on (x ++ r) = some r := by
  unfold Text at h
  unfold text?
  cases on with
  | false => rw [if_neg (by decide)] at h; subst h; rfl
  | true =>
    rw [if_pos rfl] at h
    obtain ⟨s, hs, rfl⟩ := h
    rw [if_pos rfl, if_pos (by simp), List.append_assoc, List.dropWhile_append_of_pos (fun a ha => by
      have : a ≠ 0 := fun e => hs (e ▸ ha)
      simpa using this)]
    simp

theorem text_sound {on : Bool} {b r : Bytes} (h : text? on b = some r) : ∃ x, Text on x ∧ b = x ++ r := by
  unfold text? at h
  cases on with
  | false => cases h; exact ⟨[], rfl, rfl⟩
  | true =>
    rw [if_pos rfl] at h
    split at h
    · rename_i h0
      cases h
      have hne : b.dropWhile (· != 0) ≠ [] := by
        intro he
        have := List.takeWhile_append_dropWhile (p := (· != (0 : UInt8))) (l := b)
        rw [he, List.append_nil] at this
        have h1 := List.all_takeWhile (p := (· != (0 : UInt8))) (l := b)
        rw [this, List.all_eq_true] at h1
        have := h1 0 h0
        simp at this
      obtain ⟨y, z, hyz⟩ := List.exists_cons_of_ne_nil hne
      have hy : y = 0 := by
        have := List.head_dropWhile_not (p := (· != (0 : UInt8))) (w := hne)
        simpa [hyz] using this
      subst hy
      refine ⟨b.takeWhile (· != 0) ++ [0], ?_, ?_⟩
      · unfold Text
        rw [if_pos rfl]
        refine ⟨_, ?_, rfl⟩
        intro hm
        have h1 := List.all_takeWhile (p := (· != (0 : UInt8))) (l := b)
        rw [List.all_eq_true] at h1
        have := h1 0 hm
        simp at this
      · rw [hyz]
        conv => lhs; rw [← List.takeWhile_append_dropWhile (p := (· != (0 : UInt8))) (l := b), hyz]
        simp
    · cases h

theorem afterHeader_append {head : Bytes} {flg : UInt8} {x : Bytes} (h : Parts head flg x) (r : Bytes) :
    afterHeader head flg (x ++ r) = some r := by
  obtain ⟨hf, e, n, c, he, hn, hc, rfl⟩ := h
  unfold afterHeader
  rw [if_pos hf]
  generalize hk : (if flg.toNat.testBit 1 = true then leBytes 2 (crc32 (head ++ e ++ n ++ c)) else []) = k
  rw [show e ++ n ++ c ++ k ++ r = e ++ (n ++ (c ++ (k ++ r))) by simp, extra_append he, Option.bind_some, text_append hn, Option.bind_some,
    text_append hc, Option.bind_some,
    show (e ++ (n ++ (c ++ (k ++ r)))).take ((e ++ (n ++ (c ++ (k ++ r)))).length - (k ++ r).length) = e ++ (n ++ c) by
      rw [show e ++ (n ++ (c ++ (k ++ r))) = (e ++ (n ++ c)) ++ (k ++ r) by simp, List.length_append (bs := k ++ r), Nat.add_sub_cancel,
        List.take_left]]
  unfold check?
  cases hb : flg.toNat.testBit 1 with
  | false => rw [hb, if_neg (by decide)] at hk; subst hk; rfl
  | true =>
    rw [hb, if_pos rfl] at hk
    subst hk
    rw [if_pos rfl, show head ++ (e ++ (n ++ c)) = head ++ e ++ n ++ c by simp, List.take_append_of_le_length (by simp),
      List.take_of_length_le (by simp), if_pos rfl, List.drop_append_of_le_length (by simp), List.drop_of_length_le (by simp)]
    rfl

theorem afterHeader_sound {head : Bytes} {flg : UInt8} {b r : Bytes} (h : afterHeader head flg b = some r) :
    ∃ x, Parts head flg x ∧ b = x ++ r := by
  unfold afterHeader at h
  split at h
  · rename_i hf
    obtain ⟨r1, h1, h⟩ := Option.bind_eq_some_iff.mp h
    obtain ⟨r2, h2, h⟩ := Option.bind_eq_some_iff.mp h
    obtain ⟨r3, h3, h⟩ := Option.bind_eq_some_iff.mp h
    obtain ⟨e, he, rfl⟩ := extra_sound h1
    obtain ⟨n, hn, rfl⟩ := text_sound h2
    obtain ⟨c, hc, rfl⟩ := text_sound h3
    rw [show (e ++ (n ++ (c ++ r3))).take ((e ++ (n ++ (c ++ r3))).length - r3.length) = e ++ (n ++ c) by
      rw [show e ++ (n ++ (c ++ r3)) = (e ++ (n ++ c)) ++ r3 by simp, List.length_append (bs := r3), Nat.add_sub_cancel, List.take_left]] at h
    refine ⟨_, ⟨hf, e, n, c, he, hn, hc, rfl⟩, ?_⟩
    unfold check? at h
    cases hb : flg.toNat.testBit 1 with
    | false => rw [hb] at h; cases h; simp
    | true =>
      rw [hb, if_pos rfl] at h
      split at h
      · rename_i hk
        cases h
        rw [if_pos rfl, show head ++ e ++ n ++ c = head ++ (e ++ (n ++ c)) by simp, ← hk]
        simp
      · cases h
  · cases h

theorem six {l : Bytes} (h : l.length = 6) : ∃ a b c d e f, l = [a, b, c, d, e, f] := by
  match l, h with
  | [a, b, c, d, e, f], _ => exact ⟨a, b, c, d, e, f, rfl⟩

theorem gunzip_complete {file d : Bytes} (h : IsGzip file d) (suffix : Bytes) : gunzip (file ++ suffix) = .ok d := by
  obtain ⟨flg, misc, name, body, x, pad, hm, hn, rfl, hb, hp, hx⟩ := h
  obtain ⟨a, b, c, e, f, g, rfl⟩ := six hm
  rw [List.append_assoc, List.append_assoc, List.append_assoc, List.append_assoc]
  show (match afterHeader [0x1f, 0x8b, 8, flg, a, b, c, e, f, g] flg (name ++ (body ++ (trailer d ++ suffix))) with
    | none => Except.error PyErr.zlib
    | some r =>
      match inflate ((bits r).length + 1) (bits r) [] with
      | none => .error .zlib
      | some (d, b) => if (r.drop (r.length - b.length / 8)).take 8 = trailer d then .ok d else .error .zlib) = _
  replace hn : Parts [0x1f, 0x8b, 8, flg, a, b, c, e, f, g] flg name := hn
  rw [afterHeader_append hn]
  have hlen : x.length + pad.length = 8 * body.length := by rw [← bits_length, hb, List.length_append]
  have hi := inflate_append hx (pad ++ bits (trailer d ++ suffix)) (by
    simp only [List.length_append, bits_length]; omega) ((bits (body ++ (trailer d ++ suffix))).length + 1)
    (by simp only [bits_length, List.length_append]; omega)
  have e : bits (body ++ (trailer d ++ suffix)) = x ++ (pad ++ bits (trailer d ++ suffix)) := by
    rw [bits_append, hb, List.append_assoc]
  simp only
  rw [← e] at hi
  rw [hi]
  simp only
  rw [if_pos]
  have : (body ++ (trailer d ++ suffix)).length - (pad ++ bits (trailer d ++ suffix)).length / 8 = body.length := by
    simp only [List.length_append, bits_length]; omega
  rw [this, List.drop_left, ← trailer_length d, List.take_left]

theorem gunzip_sound {file d : Bytes} (h : gunzip file = .ok d) : ∃ g suffix, file = g ++ suffix ∧ IsGzip g d := by
  unfold gunzip at h
  split at h
  · rename_i flg a b c e f g r
    split at h
    · cases h
    · rename_i r' hr
      obtain ⟨name, hn, rfl⟩ := afterHeader_sound hr
      split at h
      · cases h
      · rename_i d' b' hi
        split at h
        · rename_i ht
          cases h
          obtain ⟨x, hx, hbl⟩ := inflate_sound (pos := 0) hi (by rw [bits_length]; omega)
          have hl := congrArg List.length hx
          rw [bits_length, List.length_append] at hl
          have hk : b'.length / 8 ≤ r'.length := by omega
          refine ⟨[0x1f, 0x8b, 8, flg] ++ [a, b, c, e, f, g] ++ name ++ r'.take (r'.length - b'.length / 8) ++ trailer d,
            (r'.drop (r'.length - b'.length / 8)).drop 8, ?_, flg, [a, b, c, e, f, g], name, _, x, b'.take (b'.length % 8), rfl, hn, rfl, ?_, ?_, hbl⟩
          · have e : r' = r'.take (r'.length - b'.length / 8) ++ (trailer d ++ (r'.drop (r'.length - b'.length / 8)).drop 8) := by
              rw [← ht, List.take_append_drop, List.take_append_drop]
            conv => lhs; rw [e]
            simp
          · have h1 : bits r' = bits (r'.take (r'.length - b'.length / 8)) ++ bits (r'.drop (r'.length - b'.length / 8)) := by
              rw [← bits_append, List.take_append_drop]
            have h2 : bits (r'.take (r'.length - b'.length / 8)) = (bits r').take (8 * (r'.length - b'.length / 8)) := by
              have h3 : (bits (r'.take (r'.length - b'.length / 8))).length = 8 * (r'.length - b'.length / 8) := by
                rw [bits_length, List.length_take]; omega
              conv => rhs; rw [h1]
              rw [← h3, List.take_left]
            rw [h2, hx, show 8 * (r'.length - b'.length / 8) = x.length + b'.length % 8 by omega, List.take_length_add_append]
          · rw [List.length_take]; have := Nat.mod_lt b'.length (show 8 > 0 by omega); omega
        · cases h
  · cases h

theorem gunzip_error {file : Bytes} {e : PyErr} (h : gunzip file = .error e) : e = .zlib := by
  unfold gunzip at h
  split at h
  · split at h
    · exact (Except.error.inj h).symm
    · split at h
      · exact (Except.error.inj h).symm
      · split at h
        · cases h
        · exact (Except.error.inj h).symm
  · exact (Except.error.inj h).symm

/-! ### A compressor -/
/-- A compressor: stored blocks only (RFC 1951 §3.2.4). It stands for one that `zlib` may be; kdbx_parsing/common.py:375-385 calls
another one. -/
def storedBlocks (d : Bytes) : Bytes :=
  if d.length ≤ 65535 then 1 :: (leBytes 2 d.length ++ leBytes 2 (65535 - d.length) ++ d)
  else 0 :: (leBytes 2 65535 ++ leBytes 2 0 ++ d.take 65535) ++ storedBlocks (d.drop 65535)
termination_by d.length
decreasing_by rw [List.length_drop]; omega

/-- The file with these blocks. -/
def stored (d : Bytes) : Bytes := [0x1f, 0x8b, 8, 0, 0, 0, 0, 0, 0, 255] ++ storedBlocks d ++ trailer d

theorem value_append (x y : List Bool) : value (x ++ y) = value x + 2 ^ x.length * value y := by
  induction x with
  | nil => simp [value]
  | cons b x ih =>
    simp only [List.cons_append, value, ih, List.length_cons, Nat.pow_succ]
    rw [Nat.mul_add, Nat.mul_comm (2 ^ x.length) 2, Nat.mul_assoc]
    omega

theorem value_bits (d : Bytes) : value (bits d) = leNat d := by
  induction d with
  | nil => rfl
  | cons b d ih =>
    rw [bits_cons, value_append, value_bitsOf, ih, show (bitsOf b).length = 8 by simp [bitsOf]]
    rfl

theorem value_le {n : Nat} (h : n < 65536) : (bits (leBytes 2 n)).length = 16 ∧ value (bits (leBytes 2 n)) = n :=
  ⟨by rw [bits_length]; rfl, by rw [value_bits, leNat_leBytes 2 n h]⟩

theorem stored_block (fin : Bool) (pos : Nat) (h : pos % 8 = 0) {d : Bytes} (hd : d.length ≤ 65535) (out : Bytes) :
    Block pos fin (bits ((if fin then 1 else 0) :: (leBytes 2 d.length ++ leBytes 2 (65535 - d.length) ++ d))) out (out ++ d) := by
  obtain ⟨a1, a2⟩ := value_le (n := d.length) (by omega)
  obtain ⟨b1, b2⟩ := value_le (n := 65535 - d.length) (by omega)
  have := Block.stored (pos := pos) (fin := fin) (out := out) (pad := List.replicate 5 false) (d := d) (by decide)
    (by rw [List.length_replicate]; omega) a1 a2 b1 b2
  have e : bits ((if fin then 1 else 0) :: (leBytes 2 d.length ++ leBytes 2 (65535 - d.length) ++ d)) =
      fin :: false :: false :: (List.replicate 5 false ++ bits (leBytes 2 d.length) ++ bits (leBytes 2 (65535 - d.length)) ++ bits d) := by
    rw [bits_cons, bits_append, bits_append]
    have : bitsOf (if fin then 1 else 0) = fin :: false :: false :: List.replicate 5 false := by cases fin <;> decide
    rw [this]
    simp
  rw [e]
  exact this

theorem stored_blocks (d : Bytes) (pos : Nat) (h : pos % 8 = 0) (out : Bytes) : Blocks pos (bits (storedBlocks d)) out (out ++ d) := by
  induction d using storedBlocks.induct generalizing pos out with
  | case1 d hd =>
    rw [storedBlocks, if_pos hd]
    exact .last (stored_block true pos h hd out)
  | case2 d hd ih =>
    rw [storedBlocks, if_neg hd, bits_append]
    have hl : (d.take 65535).length = 65535 := by rw [List.length_take]; omega
    have := stored_block false pos h (d := d.take 65535) (by omega) out
    rw [hl] at this
    have h2 := ih (pos + (bits (0 :: (leBytes 2 65535 ++ leBytes 2 0 ++ d.take 65535))).length)
      (by rw [bits_length]; omega) (out ++ d.take 65535)
    rw [show out ++ d.take 65535 ++ d.drop 65535 = out ++ d by rw [List.append_assoc, List.take_append_drop]] at h2
    exact .more this h2

theorem stored_isGzip (d : Bytes) : IsGzip (stored d) d :=
  ⟨0, [0, 0, 0, 0, 0, 255], [], storedBlocks d, bits (storedBlocks d), [], rfl,
    ⟨by decide, [], [], [], rfl, rfl, rfl, rfl⟩, by simp [stored],
    by simp, by decide, by have := stored_blocks d 0 rfl []; simpa using this⟩

/-- No gzip file is the beginning of another. -/
theorem isGzip_prefix {f g d e : Bytes} (hf : IsGzip f d) (hg : IsGzip g e) (h : g <+: f) : g = f := by
  obtain ⟨s, rfl⟩ := h
  obtain ⟨flg, misc, name, body, x, pad, hm, hn, ef, hb, hp, hx⟩ := hf
  obtain ⟨flg', misc', name', body', x', pad', hm', hn', rfl, hb', hp', hx'⟩ := hg
  have hde : d = e := by
    have h1 := gunzip_complete (⟨flg', misc', name', body', x', pad', hm', hn', rfl, hb', hp', hx'⟩ : IsGzip _ e) s
    have h2 := gunzip_complete (⟨flg, misc, name, body, x, pad, hm, hn, ef, hb, hp, hx⟩ : IsGzip _ d) []
    rw [List.append_nil] at h2
    rw [h2] at h1
    exact Except.ok.inj h1
  subst hde
  simp only [List.cons_append, List.nil_append, List.append_assoc, List.cons.injEq, true_and] at ef
  obtain ⟨rfl, ef⟩ := ef
  obtain ⟨rfl, en⟩ := List.append_inj ef (by rw [hm, hm'])
  have er : body' ++ (trailer d ++ s) = body ++ trailer d := by
    have h1 := afterHeader_append hn' (body' ++ (trailer d ++ s))
    rw [en, afterHeader_append hn] at h1
    exact (Option.some.inj h1).symm
  have l1 : x.length + pad.length = 8 * body.length := by rw [← bits_length, hb, List.length_append]
  have l2 : x'.length + pad'.length = 8 * body'.length := by rw [← bits_length, hb', List.length_append]
  have i1 := inflate_append hx (pad ++ bits (trailer d)) (by simp only [List.length_append, bits_length]; omega)
    (x.length + x'.length + 1) (by omega)
  have i2 := inflate_append hx' (pad' ++ bits (trailer d ++ s)) (by simp only [List.length_append, bits_length]; omega)
    (x.length + x'.length + 1) (by omega)
  rw [← List.append_assoc, ← hb, ← bits_append] at i1
  rw [← List.append_assoc, ← hb', ← bits_append, er, i1] at i2
  have h3 : pad ++ bits (trailer d) = pad' ++ bits (trailer d ++ s) := (Prod.mk.inj (Option.some.inj i2)).2
  have h4 := congrArg List.length h3
  have h5 := congrArg List.length er
  simp only [List.length_append, bits_length] at h4 h5
  have : s = [] := List.eq_nil_of_length_eq_zero (by omega)
  subst this
  simp

end Verif.Gzip
