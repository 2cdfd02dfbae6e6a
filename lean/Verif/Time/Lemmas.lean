import Verif.Time.Clock
/-!
# Lemmas about times
-/
namespace Verif

/-! ## Truncation of the float -/

theorem divHalfEven_bounds (a b : Nat) (hb : 0 < b) :
    a / b ≤ divHalfEven a b ∧ divHalfEven a b ≤ a / b + 1 ∧
      (a % b = 0 → divHalfEven a b = a / b) := by
  unfold divHalfEven
  split
  · exact ⟨by omega, by omega, fun _ => rfl⟩
  · split
    · exact ⟨by omega, by omega, fun h => by omega⟩
    · split
      · exact ⟨by omega, by omega, fun _ => rfl⟩
      · exact ⟨by omega, by omega, fun h => by omega⟩

/-- The stored number of seconds is the whole number of seconds or one more, and exact for whole
seconds. -/
theorem truncSeconds_bounds (n : Nat) :
    n / 1000000 ≤ truncSeconds n ∧ truncSeconds n ≤ n / 1000000 + 1 ∧
      (n % 1000000 = 0 → truncSeconds n = n / 1000000) := by
  unfold truncSeconds
  have hp : 0 < 2 ^ fracBits n := Nat.pow_pos (by decide)
  generalize 2 ^ fracBits n = p at hp
  obtain ⟨h1, h2, h3⟩ := divHalfEven_bounds (n * p) 1000000 (by decide)
  have hq := Nat.div_add_mod n 1000000
  have hr := Nat.mod_lt n (show 1000000 > 0 by decide)
  generalize n / 1000000 = q at *
  generalize n % 1000000 = r at *
  have e : n * p = 1000000 * (q * p) + r * p := by rw [← hq, Nat.add_mul, Nat.mul_assoc]
  have hlo : q * p ≤ n * p / 1000000 := by
    rw [e, Nat.mul_add_div (by decide)]; exact Nat.le_add_right _ _
  have hhi : n * p / 1000000 < (q + 1) * p := by
    rw [Nat.div_lt_iff_lt_mul (by decide), e, Nat.add_mul]
    have : r * p < 1000000 * p := Nat.mul_lt_mul_of_pos_right hr hp
    rw [Nat.add_mul, Nat.one_mul]; omega
  refine ⟨?_, ?_, ?_⟩
  · rw [Nat.le_div_iff_mul_le hp]; omega
  · have : divHalfEven (n * p) 1000000 ≤ (q + 1) * p := by omega
    exact Nat.div_le_of_le_mul (by rw [Nat.mul_comm p]; exact this)
  · intro h0
    subst h0
    have hz : n * p % 1000000 = 0 := by rw [e]; simp [Nat.mul_mod_right]
    rw [h3 hz, e]
    simp only [Nat.zero_mul, Nat.add_zero]
    rw [Nat.mul_div_cancel_left _ (by decide), Nat.mul_div_cancel _ hp]

/-! ## Instants and fields -/

theorem ofMicros_wall (n : Nat) : (DateTime.ofMicros n).wall = n := by
  have h := (ord2ymd_spec (n / dayMicros + 1) (Nat.le_add_left _ _)).2
  unfold DateTime.wall DateTime.ofMicros
  simp only
  rw [h, Nat.add_sub_cancel]
  unfold dayMicros
  omega

theorem ofMicros_instant (n : Nat) : (DateTime.ofMicros n).instant = some (n : Int) := by
  unfold DateTime.instant
  have := ofMicros_wall n
  show (some (0 : Int)).map _ = _
  rw [Option.map_some, this]; simp

theorem ord_9999 (d : Date) (h : d.Ok) : d.year ≤ 9999 ↔ ymd2ord d ≤ 3652059 := by
  have l := monthday_le d h
  constructor
  · intro hy
    have hm := daysBeforeYear_mono (a := d.year + 1) (b := 10000) (by omega) (by omega)
    rw [daysBeforeYear_succ _ h.1] at hm
    have : daysBeforeYear 10000 = 3652059 := by decide
    unfold ymd2ord; omega
  · intro ho
    refine Decidable.byContradiction fun hy => ?_
    have hm := daysBeforeYear_mono (a := 10000) (b := d.year) (by omega) (by omega)
    have : daysBeforeYear 10000 = 3652059 := by decide
    unfold ymd2ord at ho; omega

/-- Wall clock of a valid value. -/
theorem wall_lt (v : DateTime) (h : v.Ok) : v.wall < maxMicros := by
  obtain ⟨hd, hy, h1, h2, h3, h4, -⟩ := h
  have := (ord_9999 v.date hd).mp hy
  unfold DateTime.wall maxMicros dayMicros
  omega

theorem ofMicros_ok (n : Nat) (h : n < maxMicros) : (DateTime.ofMicros n).Ok := by
  have hs := ord2ymd_spec (n / dayMicros + 1) (Nat.le_add_left _ _)
  refine ⟨hs.1, ?_, ?_, ?_, ?_, ?_, ?_⟩
  · refine (ord_9999 _ hs.1).mpr ?_
    show ymd2ord (ord2ymd (n / dayMicros + 1)) ≤ _
    rw [hs.2]; unfold maxMicros dayMicros at h; unfold dayMicros; omega
  all_goals (unfold DateTime.ofMicros dayMicros; simp only)
  · omega
  · omega
  · omega
  · omega
  · intro o ho; injection ho with ho; omega

/-- The fields are determined by the wall clock. -/
theorem wall_inj {a b : DateTime} (ha : a.Ok) (hb : b.Ok) (h : a.wall = b.wall) (ht : a.tz = b.tz) :
    a = b := by
  obtain ⟨ad, -, a1, a2, a3, a4, -⟩ := ha
  obtain ⟨bd, -, b1, b2, b3, b4, -⟩ := hb
  have pa : 1 ≤ ymd2ord a.date := by have := ad.2.2.2.1; unfold ymd2ord; omega
  have pb : 1 ≤ ymd2ord b.date := by have := bd.2.2.2.1; unfold ymd2ord; omega
  unfold DateTime.wall dayMicros at h
  have e0 : ymd2ord a.date = ymd2ord b.date := by omega
  have e1 : a.hour = b.hour := by omega
  have e2 : a.minute = b.minute := by omega
  have e3 : a.second = b.second := by omega
  have e4 : a.micro = b.micro := by omega
  have e5 := ymd2ord_inj ad bd e0
  obtain ⟨_, _, _, _, _, _⟩ := a
  obtain ⟨_, _, _, _, _, _⟩ := b
  simp only at *
  subst_vars; rfl

theorem ofMicros_wall_self (v : DateTime) (h : v.Ok) (ht : v.tz = some 0) :
    DateTime.ofMicros v.wall = v :=
  wall_inj (ofMicros_ok _ (wall_lt v h)) h (ofMicros_wall _) ht.symm

/-! ## KDBX4 -/

theorem versionGe4_iff (v : Nat × Nat) : versionGe4 v = true ↔ 4 ≤ v.1 := by
  simp [versionGe4]; omega

theorem decode_pack (v : Nat × Nat) (hv : 4 ≤ v.1) (n : Nat) (h : n < 256 ^ 8) :
    decodeTime v (some (b64encode (leBytes 8 n))) =
      if maxMicros ≤ n * 1000000 then .error .overflow else .ok (DateTime.ofMicros (n * 1000000)) := by
  unfold decodeTime
  rw [if_pos ((versionGe4_iff v).mpr hv)]
  simp only [b64decode_b64encode, leBytes_length, leNat_leBytes 8 n h]
  rw [if_neg (by simp)]

/-! ## ISO format -/

theorem takeDigits_pad (k n acc : Nat) (r : Str) (h : n < 10 ^ k) :
    takeDigits k acc (padNat k n ++ r) = some (acc * 10 ^ k + n, r) := by
  have gen : ∀ (k n acc : Nat) (r : Str) (j : Nat), n < 10 ^ k →
      takeDigits (k + j) acc (padNat k n ++ r) = takeDigits j (acc * 10 ^ k + n) r := by
    intro k
    induction k with
    | zero =>
      intro n acc r j h
      have : n = 0 := by simpa using h
      subst this
      simp [padNat]
    | succ k ih =>
      intro n acc r j h
      have hq : n / 10 < 10 ^ k := by rw [Nat.pow_succ] at h; omega
      have hd : n % 10 < 10 := by omega
      unfold padNat
      rw [List.append_assoc, Nat.add_right_comm, Nat.add_assoc, ih (n / 10) acc _ (j + 1) hq]
      simp only [List.cons_append, List.nil_append, takeDigits, digitChar_isDigit _ hd,
        digitVal_digitChar _ hd, if_true]
      congr 1
      rw [Nat.pow_succ, ← Nat.mul_assoc]
      omega
  have := gen k n acc r 0 h
  simpa [takeDigits] using this

theorem padNat_length (k n : Nat) : (padNat k n).length = k := by
  induction k generalizing n with
  | zero => rfl
  | succ k ih => simp [padNat, ih]

theorem padNat_isDigit (k n : Nat) : ∀ c ∈ padNat k n, isDigit c = true := by
  induction k generalizing n with
  | zero => intro c hc; cases hc
  | succ k ih =>
    intro c hc
    rcases List.mem_append.mp hc with hc | hc
    · exact ih _ c hc
    · rw [List.mem_singleton] at hc
      rw [hc]; exact digitChar_isDigit _ (by omega)

theorem parseFrac_micro (f : Nat) (h : f < 1000000) :
    parseFrac (if f = 0 then [] else ['.'] ++ padNat 6 f) = some f := by
  split
  · next h0 => subst h0; rfl
  · have ht := takeDigits_pad 6 f 0 [] h
    rw [List.append_nil] at ht
    have : (padNat 6 f).length = 6 := padNat_length 6 f
    show parseFrac ('.' :: padNat 6 f) = _
    simp only [parseFrac, this, if_true, ht]
    simp

/-- Time of day as `isoformat` writes it. -/
theorem parseHms_iso (h mi s f : Nat) (h1 : h < 100) (h2 : mi < 100) (h3 : s < 100) (h4 : f < 1000000) :
    parseHms (padNat 2 h ++ [':'] ++ padNat 2 mi ++ [':'] ++ padNat 2 s ++
      (if f = 0 then [] else ['.'] ++ padNat 6 f)) = some (h, mi, s, f) := by
  unfold parseHms
  simp only [List.append_assoc]
  rw [takeDigits_pad 2 h 0 _ (by omega)]
  simp only [Nat.zero_mul, Nat.zero_add, List.cons_append, List.nil_append, parseMin]
  rw [takeDigits_pad 2 mi 0 _ (by omega)]
  simp only [Nat.zero_mul, Nat.zero_add, parseSec]
  rw [takeDigits_pad 2 s 0 _ (by omega)]
  simp only [Nat.zero_mul, Nat.zero_add]
  have := parseFrac_micro f h4
  simp only [List.cons_append, List.nil_append] at this
  rw [this]; rfl

theorem parseHms_offset (a : Nat) (h : a < dayMicros) :
    ∃ zh zm zs zf, parseHms (padNat 2 (a / 3600000000) ++ [':'] ++
      padNat 2 (a / 60000000 % 60) ++
      (if a % 60000000 = 0 then [] else
        [':'] ++ padNat 2 (a / 1000000 % 60) ++
        (if a % 1000000 = 0 then [] else ['.'] ++ padNat 6 (a % 1000000)))) = some (zh, zm, zs, zf) ∧
      ((zh * 60 + zm) * 60 + zs) * 1000000 + zf < dayMicros := by
  unfold dayMicros at h ⊢
  by_cases h0 : a % 60000000 = 0
  · rw [if_pos h0, List.append_nil]
    refine ⟨a / 3600000000, a / 60000000 % 60, 0, 0, ?_, by omega⟩
    unfold parseHms
    simp only [List.append_assoc]
    rw [takeDigits_pad 2 _ 0 _ (by omega)]
    simp only [Nat.zero_mul, Nat.zero_add, List.cons_append, List.nil_append, parseMin]
    have := takeDigits_pad 2 (a / 60000000 % 60) 0 [] (by omega)
    rw [List.append_nil] at this
    rw [this]
    simp [parseSec]
  · rw [if_neg h0]
    refine ⟨a / 3600000000, a / 60000000 % 60, a / 1000000 % 60, a % 1000000, ?_, by omega⟩
    have := parseHms_iso (a / 3600000000) (a / 60000000 % 60) (a / 1000000 % 60) (a % 1000000)
      (by omega) (by omega) (by omega) (by omega)
    simp only [List.append_assoc] at this ⊢
    exact this

theorem span_all {α} (p : α → Bool) (l : List α) (h : ∀ x ∈ l, p x = true) :
    l.takeWhile p = l ∧ l.dropWhile p = [] := by
  have h1 := List.takeWhile_append_of_pos (l₂ := []) h
  have h2 := List.dropWhile_append_of_pos (l₂ := []) h
  simp only [List.append_nil, List.takeWhile_nil, List.dropWhile_nil] at h1 h2
  exact ⟨h1, h2⟩

theorem span_stop {α} (p : α → Bool) (l r : List α) (x : α) (h : ∀ y ∈ l, p y = true)
    (hx : p x = false) :
    (l ++ x :: r).takeWhile p = l ∧ (l ++ x :: r).dropWhile p = x :: r := by
  constructor
  · rw [List.takeWhile_append_of_pos h, List.takeWhile_cons_of_neg (by simp [hx]), List.append_nil]
  · rw [List.dropWhile_append_of_pos h, List.dropWhile_cons_of_neg (by simp [hx])]

/-- Characters of an ISO time: digits, `:`, `.`. -/
def isoTimeChar (c : Char) : Bool := isDigit c || c == ':' || c == '.'

theorem isoTimeChar_noSign (c : Char) (h : isoTimeChar c = true) :
    (c != '+' && c != '-') = true := by
  simp only [Bool.and_eq_true, bne_iff_ne]
  refine ⟨?_, ?_⟩ <;> (rintro rfl; revert h; decide)

theorem mem_hms (h mi s f : Nat) :
    ∀ c ∈ padNat 2 h ++ [':'] ++ padNat 2 mi ++ [':'] ++ padNat 2 s ++
      (if f = 0 then [] else ['.'] ++ padNat 6 f), isoTimeChar c = true := by
  intro c hc
  have dig : ∀ k n, c ∈ padNat k n → isoTimeChar c = true := fun k n hm => by
    simp [isoTimeChar, padNat_isDigit k n c hm]
  simp only [List.mem_append, List.mem_singleton] at hc
  rcases hc with ((((hc | hc) | hc) | hc) | hc) | hc
  · exact dig _ _ hc
  · subst hc; decide
  · exact dig _ _ hc
  · subst hc; decide
  · exact dig _ _ hc
  · split at hc
    · cases hc
    · rcases List.mem_append.mp hc with hc | hc
      · rw [List.mem_singleton] at hc; subst hc; decide
      · exact dig _ _ hc

theorem parseTime_iso (v : DateTime) (hv : v.Ok) :
    parseTime (padNat 2 v.hour ++ [':'] ++ padNat 2 v.minute ++ [':'] ++ padNat 2 v.second ++
      (if v.micro = 0 then [] else ['.'] ++ padNat 6 v.micro) ++
      (match v.tz with | none => [] | some o => isoOffset o)) =
      some (v.hour, v.minute, v.second, v.micro) := by
  obtain ⟨-, -, h1, h2, h3, h4, h5⟩ := hv
  have hp := parseHms_iso v.hour v.minute v.second v.micro (by omega) (by omega) (by omega) h4
  have hm := mem_hms v.hour v.minute v.second v.micro
  generalize padNat 2 v.hour ++ [':'] ++ padNat 2 v.minute ++ [':'] ++ padNat 2 v.second ++
      (if v.micro = 0 then [] else ['.'] ++ padNat 6 v.micro) = t at hp hm
  unfold parseTime
  cases hz : v.tz with
  | none =>
    simp only [List.append_nil]
    have sp := span_all _ t fun x hx => isoTimeChar_noSign x (hm x hx)
    rw [sp.1, sp.2]
    exact hp
  | some o =>
    obtain ⟨o1, o2⟩ := h5 o hz
    have ha : o.natAbs < dayMicros := by omega
    obtain ⟨zh, zm, zs, zf, z1, z2⟩ := parseHms_offset o.natAbs ha
    have hs : ∃ sg, (sg = '+' ∨ sg = '-') ∧ isoOffset o = sg :: (padNat 2 (o.natAbs / 3600000000) ++ [':'] ++
      padNat 2 (o.natAbs / 60000000 % 60) ++
      (if o.natAbs % 60000000 = 0 then [] else
        [':'] ++ padNat 2 (o.natAbs / 1000000 % 60) ++
        (if o.natAbs % 1000000 = 0 then [] else ['.'] ++ padNat 6 (o.natAbs % 1000000)))) := by
      unfold isoOffset
      by_cases hneg : o < 0
      · exact ⟨'-', Or.inr rfl, by simp only [hneg, if_true, List.append_assoc, List.cons_append, List.nil_append]⟩
      · exact ⟨'+', Or.inl rfl, by simp only [hneg, if_false, List.append_assoc, List.cons_append, List.nil_append]⟩
    obtain ⟨sg, hsg, he⟩ := hs
    simp only [he]
    have sp := fun r => span_stop _ t r sg (fun x hx => isoTimeChar_noSign x (hm x hx))
      (by rcases hsg with rfl | rfl <;> decide)
    rw [(sp _).1, (sp _).2]
    simp only [z1, z2, if_true]
    exact hp

theorem isoOffset_noZ (o : Int) : 'Z' ∉ isoOffset o := by
  have dig : ∀ k n, 'Z' ∉ padNat k n := fun k n hm => by
    have := padNat_isDigit k n _ hm; revert this; decide
  unfold isoOffset
  simp only [List.mem_append, not_or]
  refine ⟨⟨⟨⟨by split <;> decide, dig _ _⟩, by decide⟩, dig _ _⟩, ?_⟩
  split
  · simp
  · simp only [List.mem_append, not_or]
    refine ⟨⟨by decide, dig _ _⟩, ?_⟩
    split
    · simp
    · simp only [List.mem_append, not_or]; exact ⟨by decide, dig _ _⟩

theorem isoformat_noZ (v : DateTime) : 'Z' ∉ isoformat v := by
  have dig : ∀ k n, 'Z' ∉ padNat k n := fun k n hm => by
    have := padNat_isDigit k n _ hm; revert this; decide
  unfold isoformat
  simp only [List.mem_append, not_or]
  refine ⟨⟨⟨⟨⟨⟨⟨⟨⟨⟨⟨⟨dig _ _, by decide⟩, dig _ _⟩, by decide⟩, dig _ _⟩, by decide⟩, dig _ _⟩,
    by decide⟩, dig _ _⟩, by decide⟩, dig _ _⟩, ?_⟩, ?_⟩
  · split
    · simp
    · simp only [List.mem_append, not_or]; exact ⟨by decide, dig _ _⟩
  · split
    · simp
    · exact isoOffset_noZ _

theorem replaceZ_id (s : Str) (h : 'Z' ∉ s) : replaceZ s = s := by
  unfold replaceZ
  induction s with
  | nil => rfl
  | cons c s ih =>
    simp only [List.mem_cons, not_or] at h
    simp only [List.flatMap_cons]
    rw [ih h.2, if_neg (Ne.symm h.1)]; rfl

theorem dim_le : ∀ y m, daysInMonth y m ≤ 31 := by
  intro y m
  unfold daysInMonth
  have : ∀ m : Fin 13,
        ([0, 31, 28, 31, 30, 31, 30, 31, 31, 30, 31, 30, 31].getD m.val 0) ≤ 31 := by decide +kernel
  split
  · decide
  · by_cases h : m < 13
    · exact this ⟨m, h⟩
    · rw [List.getD_eq_getElem?_getD, List.getElem?_eq_none (by simp; omega)]; decide

/-- `fromisoformat(isoformat(v))` with the time zone replaced. -/
theorem fromIso_isoformat (v : DateTime) (hv : v.Ok) :
    fromIso (isoformat v) = .ok { v with tz := some 0 } := by
  have ht := parseTime_iso v hv
  obtain ⟨hd, hy, h1, h2, h3, h4, h5⟩ := hv
  have hdim := dim_le v.date.year v.date.month
  obtain ⟨d1, d2, d3, d4, d5⟩ := hd
  have hdate : parseDate (isoformat v) = some (v.date, ['T'] ++ (padNat 2 v.hour ++ [':'] ++ padNat 2 v.minute ++ [':'] ++ padNat 2 v.second ++
      (if v.micro = 0 then [] else ['.'] ++ padNat 6 v.micro) ++
      (match v.tz with | none => [] | some o => isoOffset o))) := by
    unfold parseDate isoformat
    simp only [List.append_assoc]
    rw [takeDigits_pad 4 _ 0 _ (by omega)]
    simp only [Nat.zero_mul, Nat.zero_add, List.cons_append, List.nil_append]
    rw [takeDigits_pad 2 _ 0 _ (by omega)]
    simp only [Nat.zero_mul, Nat.zero_add]
    rw [takeDigits_pad 2 _ 0 _ (by omega)]
    simp only [Nat.zero_mul, Nat.zero_add]
    rfl
  unfold fromIso
  rw [hdate]
  simp only [List.cons_append, List.nil_append]
  simp only [List.cons_append, List.nil_append] at ht
  rw [ht]
  simp only
  rw [if_pos ⟨⟨d1, d2, d3, d4, d5⟩, hy, h1, h2, h3⟩]

end Verif
