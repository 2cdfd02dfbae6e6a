import Verif.Spec.Numeral
import Verif.Api.TextLemmas
/-!
# `int(text)`
-/
namespace Verif.Api
open Verif Spec

theorem digit_list (c : Char) : c ∈ digitList ↔ isDigit c = true := by
  constructor
  · intro h
    have : ∀ c ∈ digitList, isDigit c = true := by decide
    exact this c h
  · intro h
    unfold isDigit at h
    rw [Bool.and_eq_true, decide_eq_true_iff, decide_eq_true_iff] at h
    have hc : c = Char.ofNat c.toNat := (Char.ofNat_toNat c).symm
    have : ∀ n, 48 ≤ n → n ≤ 57 → Char.ofNat n ∈ digitList := by
      intro n h1 h2
      have : n = 48 ∨ n = 49 ∨ n = 50 ∨ n = 51 ∨ n = 52 ∨ n = 53 ∨ n = 54 ∨ n = 55 ∨ n = 56 ∨ n = 57 := by omega
      rcases this with rfl | rfl | rfl | rfl | rfl | rfl | rfl | rfl | rfl | rfl <;> decide
    rw [hc]
    exact this _ h.1 h.2

theorem digit_idx {c : Char} (h : isDigit c = true) : digitVal c = digitList.idxOf c := by
  have : ∀ c ∈ digitList, digitVal c = digitList.idxOf c := by decide
  exact this c ((digit_list c).mpr h)

theorem digits_from (ds : Str) (a : Nat) (h : ∀ c ∈ ds, isDigit c = true) :
    ds.foldl (fun a c => a * 10 + digitVal c) a = a * 10 ^ ds.length + decimal ds := by
  induction ds generalizing a with
  | nil => simp [decimal]
  | cons c cs ih =>
    rw [List.foldl_cons, ih _ fun x hx => h x (List.mem_cons_of_mem _ hx), digit_idx (h c (List.mem_cons_self ..)), decimal, List.length_cons,
      Nat.pow_succ, Nat.add_mul, Nat.add_assoc, Nat.mul_assoc, Nat.mul_comm 10]

theorem digits_decimal {ds : Str} (h : ∀ c ∈ ds, isDigit c = true) : digitsVal ds = decimal ds := by
  unfold digitsVal
  rw [digits_from ds 0 h, Nat.zero_mul, Nat.zero_add]

/-- Digits, then groups of digits after underscores. -/
theorem digitsOk_iff (cs : Str) (b : Bool) : digitsOk b cs = true ↔
    ∃ (g : Str) (gs : List Str), cs = g ++ gs.flatMap ('_' :: ·) ∧ (b = false → g ≠ []) ∧ (∀ c ∈ g, isDigit c = true) ∧ ∀ k ∈ gs, k ≠ [] ∧ ∀ c ∈ k, isDigit c = true := by
  induction cs generalizing b with
  | nil =>
    constructor
    · intro h
      have h : b = true := h
      subst h
      exact ⟨[], [], rfl, nofun, nofun, nofun⟩
    · rintro ⟨g, gs, h1, h2, _⟩
      cases b with
      | true => rfl
      | false =>
        have := congrArg List.length h1
        rw [List.length_append] at this
        have : g = [] := List.eq_nil_of_length_eq_zero (by simp at this; omega)
        exact absurd this (h2 rfl)
  | cons c cs ih =>
    rw [digitsOk]
    by_cases hc : isDigit c = true
    · rw [if_pos hc, ih]
      constructor
      · rintro ⟨g, gs, rfl, _, h3, h4⟩
        exact ⟨c :: g, gs, rfl, nofun, fun x hx => by rcases List.mem_cons.mp hx with rfl | hx; exact hc; exact h3 x hx, h4⟩
      · rintro ⟨g, gs, h1, h2, h3, h4⟩
        cases g with
        | nil =>
          cases gs with
          | nil => cases h1
          | cons k gs =>
            have h1 : c :: cs = '_' :: (k ++ gs.flatMap ('_' :: ·)) := h1
            injection h1 with h1 _
            rw [h1] at hc
            exact absurd hc (by decide)
        | cons x g =>
          injection h1 with h1 h5
          subst h1
          exact ⟨g, gs, h5, nofun, fun y hy => h3 y (List.mem_cons_of_mem _ hy), h4⟩
    · rw [if_neg hc]
      constructor
      · intro h
        rw [Bool.and_eq_true, Bool.and_eq_true, Bool.and_eq_true, beq_iff_eq, ih] at h
        obtain ⟨⟨⟨rfl, rfl⟩, _⟩, g, gs, rfl, h2, h3, h4⟩ := h
        exact ⟨[], g :: gs, rfl, nofun, nofun, fun k hk => by
          rcases List.mem_cons.mp hk with rfl | hk
          · exact ⟨h2 rfl, h3⟩
          · exact h4 k hk⟩
      · rintro ⟨g, gs, h1, h2, h3, h4⟩
        cases g with
        | cons x g =>
          injection h1 with h1 _
          exact absurd (h3 c (h1 ▸ List.mem_cons_self ..)) hc
        | nil =>
          have hb : b = true := by
            cases b with
            | true => rfl
            | false => exact absurd rfl (h2 rfl)
          cases gs with
          | nil => cases h1
          | cons k gs =>
            have h1 : c :: cs = '_' :: (k ++ gs.flatMap ('_' :: ·)) := h1
            injection h1 with h1 h5
            obtain ⟨k1, k2⟩ := h4 k (List.mem_cons_self ..)
            rw [Bool.and_eq_true, Bool.and_eq_true, Bool.and_eq_true, beq_iff_eq, ih]
            refine ⟨⟨⟨h1, hb⟩, ?_⟩, k, gs, h5, fun _ => k1, k2, fun k hk => h4 k (List.mem_cons_of_mem _ hk)⟩
            rw [bne_iff_ne]
            intro e
            rw [e] at h5
            cases k with
            | nil => exact k1 rfl
            | cons a k => cases h5

theorem groups_filter (g : Str) (gs : List Str) (hg : ∀ c ∈ g, isDigit c = true) (hgs : ∀ k ∈ gs, k ≠ [] ∧ ∀ c ∈ k, isDigit c = true) :
    (g ++ gs.flatMap ('_' :: ·)).filter isDigit = g ++ gs.flatten := by
  rw [List.filter_append, filter_digits g hg]
  congr 1
  induction gs with
  | nil => rfl
  | cons k gs ih =>
    rw [List.flatMap_cons, List.flatten_cons, List.filter_append, ih fun k hk => hgs k (List.mem_cons_of_mem _ hk), List.filter_cons,
      if_neg (by decide), filter_digits k (hgs k (List.mem_cons_self ..)).2]

theorem groups_digits {g : Str} {gs : List Str} (hg : ∀ c ∈ g, isDigit c = true) (hgs : ∀ k ∈ gs, k ≠ [] ∧ ∀ c ∈ k, isDigit c = true) :
    ∀ c ∈ g ++ gs.flatten, isDigit c = true := by
  intro c hc
  rcases List.mem_append.mp hc with h | h
  · exact hg c h
  · obtain ⟨k, k1, k2⟩ := List.mem_flatten.mp h
    exact (hgs k k1).2 c k2

/-- Stripping takes white space from both ends. -/
theorem strip_split (t : Str) : ∃ l r, t = l ++ pyStrip t ++ r ∧ ∀ c ∈ l ++ r, pySpace c = true := by
  have h1 := List.takeWhile_append_dropWhile (p := pySpace) (l := t)
  have h2 := List.takeWhile_append_dropWhile (p := pySpace) (l := (t.dropWhile pySpace).reverse)
  refine ⟨t.takeWhile pySpace, ((t.dropWhile pySpace).reverse.takeWhile pySpace).reverse, ?_, ?_⟩
  · unfold pyStrip
    rw [List.append_assoc, ← List.reverse_append, h2, List.reverse_reverse, h1]
  · have tw : ∀ (l : Str), ∀ c ∈ l.takeWhile pySpace, pySpace c = true := by
      intro l
      induction l with
      | nil => exact nofun
      | cons a l ih =>
        intro c hc
        rw [List.takeWhile_cons] at hc
        split at hc
        · next h =>
          rcases List.mem_cons.mp hc with rfl | hc
          · exact h
          · exact ih c hc
        · cases hc
    intro c hc
    rcases List.mem_append.mp hc with h | h
    · exact tw _ c h
    · exact tw _ c (List.mem_reverse.mp h)

theorem dropWhile_pre (l m : Str) (hl : ∀ c ∈ l, pySpace c = true) : (l ++ m).dropWhile pySpace = m.dropWhile pySpace := by
  induction l with
  | nil => rfl
  | cons a l ih => rw [List.cons_append, List.dropWhile_cons, if_pos (hl a (List.mem_cons_self ..)), ih fun c hc => hl c (List.mem_cons_of_mem _ hc)]

/-- Text without white space inside is what is left. -/
theorem strip_of {l m r : Str} (hb : ∀ c ∈ l ++ r, pySpace c = true) (hm : ∀ c ∈ m, pySpace c = false) (hne : m ≠ []) : pyStrip (l ++ m ++ r) = m := by
  unfold pyStrip
  rw [List.append_assoc, dropWhile_pre l _ fun c hc => hb c (List.mem_append.mpr (.inl hc))]
  have h1 : (m ++ r).dropWhile pySpace = m ++ r := by
    cases m with
    | nil => exact absurd rfl hne
    | cons a m => rw [List.cons_append, List.dropWhile_cons, if_neg (by rw [hm a (List.mem_cons_self ..)]; decide)]
  rw [h1, List.reverse_append, dropWhile_pre _ _ fun c hc => hb c (List.mem_append.mpr (.inr (List.mem_reverse.mp hc))),
    dropWhile_none _ _ fun c hc => hm c (List.mem_reverse.mp hc), List.reverse_reverse]

/-- `str.isspace` on one character is the list of the specification. -/
theorem white_iff (c : Char) : pySpace c = true ↔ c.toNat ∈ whiteList := by
  unfold pySpace whiteList
  simp only [List.mem_cons, List.not_mem_nil, or_false, Bool.or_eq_true, Bool.and_eq_true, decide_eq_true_eq, beq_iff_eq]
  omega

/-- `int(text)` reads exactly the numerals. -/
theorem pyInt_iff (t : Str) (n : Int) : pyInt t = .ok n ↔ Numeral t n := by
  have fold : pyInt t = (if digitsOk false (signSplit (pyStrip t)).2 then
      .ok (if (signSplit (pyStrip t)).1 then -(digitsVal ((signSplit (pyStrip t)).2.filter isDigit) : Int)
        else (digitsVal ((signSplit (pyStrip t)).2.filter isDigit) : Int)) else .error .value) := rfl
  rw [fold]
  constructor
  · intro h
    split at h
    · next hd =>
      injection h with h
      obtain ⟨l, r, ht, hb'⟩ := strip_split t
      have hb : ∀ c ∈ l ++ r, c.toNat ∈ whiteList := fun c hc => (white_iff c).mp (hb' c hc)
      obtain ⟨g, gs, e, e2, e3, e4⟩ := (digitsOk_iff _ _).mp hd
      rw [e, groups_filter g gs e3 e4, digits_decimal (groups_digits e3 e4)] at h
      have hgs : ∀ k ∈ g :: gs, k ≠ [] ∧ ∀ c ∈ k, c ∈ digitList := by
        intro k hk
        rcases List.mem_cons.mp hk with rfl | hk
        · exact ⟨e2 rfl, fun c hc => (digit_list c).mpr (e3 c hc)⟩
        · exact ⟨(e4 k hk).1, fun c hc => (digit_list c).mpr ((e4 k hk).2 c hc)⟩
      cases hp : pyStrip t with
      | nil =>
        rw [hp] at e
        have e : ([] : Str) = g ++ gs.flatMap ('_' :: ·) := e
        exact absurd (List.append_eq_nil_iff.mp e.symm).1 (e2 rfl)
      | cons c u =>
        rw [hp] at e h ht
        rw [signSplit] at e h
        by_cases c1 : c = '-'
        · rw [if_pos c1] at e h
          subst c1
          refine ⟨l, ['-'], g, gs, r, ?_, hb, hgs, .inr ⟨rfl, h.symm⟩⟩
          rw [← e]; rw [ht]; simp
        · rw [if_neg c1] at e h
          by_cases c2 : c = '+'
          · rw [if_pos c2] at e h
            subst c2
            refine ⟨l, ['+'], g, gs, r, ?_, hb, hgs, .inl ⟨.inr rfl, h.symm⟩⟩
            rw [← e]; rw [ht]; simp
          · rw [if_neg c2] at e h
            refine ⟨l, [], g, gs, r, ?_, hb, hgs, .inl ⟨.inl rfl, h.symm⟩⟩
            rw [← e]; rw [ht]; simp
    · cases h
  · rintro ⟨l, sign, g, gs, r, rfl, hb', hgs, hn⟩
    have hb : ∀ c ∈ l ++ r, pySpace c = true := fun c hc => (white_iff c).mpr (hb' c hc)
    have e3 : ∀ c ∈ g, isDigit c = true := fun c hc => (digit_list c).mp ((hgs g (List.mem_cons_self ..)).2 c hc)
    have e4 : ∀ k ∈ gs, k ≠ [] ∧ ∀ c ∈ k, isDigit c = true := fun k hk =>
      ⟨(hgs k (List.mem_cons_of_mem _ hk)).1, fun c hc => (digit_list c).mp ((hgs k (List.mem_cons_of_mem _ hk)).2 c hc)⟩
    have e2 := (hgs g (List.mem_cons_self ..)).1
    have hbody : ∀ c ∈ g ++ gs.flatMap ('_' :: ·), pySpace c = false := by
      intro c hc
      rcases List.mem_append.mp hc with h | h
      · exact digit_space (e3 c h)
      · obtain ⟨k, k1, k2⟩ := List.mem_flatMap.mp h
        rcases List.mem_cons.mp k2 with rfl | k2
        · decide
        · exact digit_space ((e4 k k1).2 c k2)
    have hs : pyStrip (l ++ sign ++ (g ++ gs.flatMap ('_' :: ·)) ++ r) = sign ++ (g ++ gs.flatMap ('_' :: ·)) := by
      rw [List.append_assoc l]
      refine strip_of hb ?_ ?_
      · intro c hc
        rcases List.mem_append.mp hc with h | h
        · rcases hn with ⟨h1 | h1, _⟩ | ⟨h1, _⟩
          · rw [h1] at h; cases h
          · rw [h1] at h; rw [List.mem_singleton.mp h]; decide
          · rw [h1] at h; rw [List.mem_singleton.mp h]; decide
        · exact hbody c h
      · intro e
        exact e2 (List.append_eq_nil_iff.mp (List.append_eq_nil_iff.mp e).2).1
    rw [hs]
    have hok : digitsOk false (g ++ gs.flatMap ('_' :: ·)) = true := (digitsOk_iff _ _).mpr ⟨g, gs, rfl, fun _ => e2, e3, e4⟩
    have hv : digitsVal ((g ++ gs.flatMap ('_' :: ·)).filter isDigit) = decimal (g ++ gs.flatten) := by
      rw [groups_filter g gs e3 e4, digits_decimal (groups_digits e3 e4)]
    rcases hn with ⟨h1 | h1, h2⟩ | ⟨h1, h2⟩
    · have hsp : signSplit (sign ++ (g ++ gs.flatMap ('_' :: ·))) = (false, g ++ gs.flatMap ('_' :: ·)) := by
        rw [h1, List.nil_append]
        cases g with
        | nil => exact absurd rfl e2
        | cons c g =>
          have hc := e3 c (List.mem_cons_self ..)
          have n1 : c ≠ '-' := by rintro rfl; revert hc; decide
          have n2 : c ≠ '+' := by rintro rfl; revert hc; decide
          rw [List.cons_append, signSplit, if_neg n1, if_neg n2]
      rw [hsp, if_pos hok, hv, h2]; rfl
    · have hsp : signSplit (sign ++ (g ++ gs.flatMap ('_' :: ·))) = (false, g ++ gs.flatMap ('_' :: ·)) := by rw [h1]; rfl
      rw [hsp, if_pos hok, hv, h2]; rfl
    · have hsp : signSplit (sign ++ (g ++ gs.flatMap ('_' :: ·))) = (true, g ++ gs.flatMap ('_' :: ·)) := by rw [h1]; rfl
      rw [hsp, if_pos hok, hv, h2]; rfl

/-- And refuses all others with `ValueError`. -/
theorem pyInt_no (t : Str) : pyInt t = .error .value ↔ ¬ ∃ n, Numeral t n := by
  constructor
  · rintro h ⟨n, hn⟩
    rw [(pyInt_iff t n).mpr hn] at h
    cases h
  · intro h
    cases hp : pyInt t with
    | ok n => exact absurd ⟨n, (pyInt_iff t n).mp hp⟩ h
    | error e =>
      unfold pyInt at hp
      simp only at hp
      split at hp
      · cases hp
      · injection hp with hp; rw [hp]

end Verif.Api
