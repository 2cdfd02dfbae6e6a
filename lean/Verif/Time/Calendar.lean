import Verif.Base.Py
/-!
# Dates: CPython's proleptic Gregorian calendar

`datetime` objects as their fields, and the ordinal arithmetic of CPython's `datetime` module
(`Lib/_pydatetime.py`: `_is_leap`, `_days_before_year`, `_days_in_month`, `_days_before_month`,
`_ymd2ord`, `_ord2ymd`), on which subtraction, comparison and `timedelta` addition rest.
-/
namespace Verif

/-- A calendar date. -/
structure Date where
  year : Nat
  month : Nat
  day : Nat
  deriving DecidableEq, Repr

/-- `_is_leap(year)`. -/
def isLeap (y : Nat) : Bool := y % 4 == 0 && (y % 100 != 0 || y % 400 == 0)

/-- `_days_before_year(year)`: days before January 1st of `year ≥ 1`. -/
def daysBeforeYear (y : Nat) : Nat := (y - 1) * 365 + (y - 1) / 4 - (y - 1) / 100 + (y - 1) / 400

/-- `_days_in_month(year, month)`. -/
def daysInMonth (y m : Nat) : Nat :=
  if m == 2 && isLeap y then 29
  else ([0, 31, 28, 31, 30, 31, 30, 31, 31, 30, 31, 30, 31].getD m 0)

/-- `_days_before_month(year, month)`. -/
def daysBeforeMonth (y m : Nat) : Nat :=
  ([0, 0, 31, 59, 90, 120, 151, 181, 212, 243, 273, 304, 334].getD m 0)
    + (if decide (m > 2) && isLeap y then 1 else 0)

/-- `_ymd2ord(year, month, day)`; 0001-01-01 is 1. -/
def ymd2ord (d : Date) : Nat := daysBeforeYear d.year + daysBeforeMonth d.year d.month + d.day

/-- The month and day of day `n` (from 0) of a year: last lines of `_ord2ymd`. -/
def ordInYear (leap : Bool) (n : Nat) : Nat × Nat :=
  let month := (n + 50) / 32
  let before (m : Nat) := [0, 0, 31, 59, 90, 120, 151, 181, 212, 243, 273, 304, 334].getD m 0
    + (if decide (m > 2) && leap then 1 else 0)
  let len (m : Nat) := [0, 31, 28, 31, 30, 31, 30, 31, 31, 30, 31, 30, 31].getD m 0
    + (if m == 2 && leap then 1 else 0)
  if before month > n then
    (month - 1, n - (before month - len (month - 1)) + 1)
  else (month, n - before month + 1)

/-- `_ord2ymd(n)` for `n ≥ 1`. -/
def ord2ymd (n : Nat) : Date :=
  let n := n - 1
  let n400 := n / 146097
  let n := n % 146097
  let n100 := n / 36524
  let n := n % 36524
  let n4 := n / 1461
  let n := n % 1461
  let n1 := n / 365
  let n := n % 365
  let year := n400 * 400 + 1 + n100 * 100 + n4 * 4 + n1
  if n1 = 4 ∨ n100 = 4 then ⟨year - 1, 12, 31⟩
  else
    let leap := n1 == 3 && (n4 != 24 || n100 == 3)
    let r := ordInYear leap n
    ⟨year, r.1, r.2⟩

/-- The dates `datetime` accepts, without the upper bound on the year. -/
def Date.Ok (d : Date) : Prop :=
  1 ≤ d.year ∧ 1 ≤ d.month ∧ d.month ≤ 12 ∧ 1 ≤ d.day ∧ d.day ≤ daysInMonth d.year d.month

instance (d : Date) : Decidable d.Ok := by unfold Date.Ok; infer_instance

theorem ordInYear_spec : ∀ leap : Bool, ∀ n, n < (if leap then 366 else 365) →
    let r := ordInYear leap n
    1 ≤ r.1 ∧ r.1 ≤ 12 ∧ 1 ≤ r.2 ∧
      r.2 ≤ (if r.1 == 2 && leap then 29
        else ([0, 31, 28, 31, 30, 31, 30, 31, 31, 30, 31, 30, 31].getD r.1 0)) ∧
      ([0, 0, 31, 59, 90, 120, 151, 181, 212, 243, 273, 304, 334].getD r.1 0)
        + (if decide (r.1 > 2) && leap then 1 else 0) + r.2 = n + 1 := by
  decide +kernel

theorem isLeap_iff (y : Nat) : isLeap y = true ↔ y % 4 = 0 ∧ (y % 100 ≠ 0 ∨ y % 400 = 0) := by
  simp [isLeap]

theorem daysBeforeYear_succ (y : Nat) (h : 1 ≤ y) :
    daysBeforeYear (y + 1) = daysBeforeYear y + (if isLeap y then 366 else 365) := by
  unfold daysBeforeYear
  have hl := isLeap_iff y
  have e4 : y / 4 = (y - 1) / 4 + (if y % 4 = 0 then 1 else 0) := by split <;> omega
  have e100 : y / 100 = (y - 1) / 100 + (if y % 100 = 0 then 1 else 0) := by split <;> omega
  have e400 : y / 400 = (y - 1) / 400 + (if y % 400 = 0 then 1 else 0) := by split <;> omega
  have d1 : y % 400 = 0 → y % 100 = 0 := by omega
  have d2 : y % 100 = 0 → y % 4 = 0 := by omega
  have le : (y - 1) / 100 ≤ (y - 1) / 4 := by omega
  rw [Nat.add_sub_cancel, e4, e100, e400]
  generalize (y - 1) / 4 = a at *
  generalize (y - 1) / 100 = b at *
  generalize (y - 1) / 400 = c at *
  by_cases h4 : y % 4 = 0
  · by_cases h100 : y % 100 = 0
    · by_cases h400 : y % 400 = 0
      · rw [if_pos h4, if_pos h100, if_pos h400, if_pos (hl.mpr ⟨h4, Or.inr h400⟩)]; omega
      · rw [if_pos h4, if_pos h100, if_neg h400,
          if_neg (fun x => (hl.mp x).2.elim (fun k => k h100) h400)]; omega
    · have h400 : ¬ y % 400 = 0 := fun x => h100 (d1 x)
      rw [if_pos h4, if_neg h100, if_neg h400, if_pos (hl.mpr ⟨h4, Or.inl h100⟩)]; omega
  · have h100 : ¬ y % 100 = 0 := fun x => h4 (d2 x)
    have h400 : ¬ y % 400 = 0 := fun x => h100 (d1 x)
    rw [if_neg h4, if_neg h100, if_neg h400, if_neg (fun x => h4 (hl.mp x).1)]; omega

theorem daysBeforeYear_mono {a b : Nat} (h1 : 1 ≤ a) (h : a ≤ b) :
    daysBeforeYear a ≤ daysBeforeYear b := by
  induction b with
  | zero => omega
  | succ b ih =>
    by_cases e : a = b + 1
    · rw [e]; exact Nat.le_refl _
    · have := ih (by omega)
      rw [daysBeforeYear_succ b (by omega)]; omega

/-- The ordinal of a valid date lies within its year. -/
theorem month_bound : ∀ leap : Bool, ∀ m, 1 ≤ m → m ≤ 12 →
    ([0, 0, 31, 59, 90, 120, 151, 181, 212, 243, 273, 304, 334].getD m 0)
        + (if decide (m > 2) && leap then 1 else 0)
      + (if m == 2 && leap then 29
        else ([0, 31, 28, 31, 30, 31, 30, 31, 31, 30, 31, 30, 31].getD m 0))
      = (if m = 12 then (if leap then 366 else 365) else
          ([0, 0, 31, 59, 90, 120, 151, 181, 212, 243, 273, 304, 334].getD (m + 1) 0)
            + (if decide (m + 1 > 2) && leap then 1 else 0)) := by
  have h : ∀ leap : Bool, ∀ m : Fin 13, 1 ≤ m.val →
    ([0, 0, 31, 59, 90, 120, 151, 181, 212, 243, 273, 304, 334].getD m.val 0)
        + (if decide (m.val > 2) && leap then 1 else 0)
      + (if m.val == 2 && leap then 29
        else ([0, 31, 28, 31, 30, 31, 30, 31, 31, 30, 31, 30, 31].getD m.val 0))
      = (if m.val = 12 then (if leap then 366 else 365) else
          ([0, 0, 31, 59, 90, 120, 151, 181, 212, 243, 273, 304, 334].getD (m.val + 1) 0)
            + (if decide (m.val + 1 > 2) && leap then 1 else 0)) := by decide +kernel
  intro leap m h1 h2
  exact h leap ⟨m, by omega⟩ h1

theorem month_end (y m : Nat) (h1 : 1 ≤ m) (h2 : m ≤ 12) :
    daysBeforeMonth y m + daysInMonth y m =
      if m = 12 then (if isLeap y then 366 else 365) else daysBeforeMonth y (m + 1) :=
  month_bound (isLeap y) m h1 h2

theorem daysBeforeMonth_lt {y a b : Nat} (h1 : 1 ≤ a) (h : a < b) (h2 : b ≤ 12) :
    daysBeforeMonth y a + daysInMonth y a ≤ daysBeforeMonth y b := by
  induction b with
  | zero => omega
  | succ b ih =>
    have := month_end y a h1 (by omega)
    by_cases e : a = b
    · subst e
      rw [this, if_neg (by omega)]; exact Nat.le_refl _
    · have i := ih (by omega) (by omega)
      have := month_end y b (by omega) (by omega)
      rw [if_neg (by omega)] at this
      omega

theorem monthday_le (d : Date) (h : d.Ok) :
    1 ≤ daysBeforeMonth d.year d.month + d.day ∧
      daysBeforeMonth d.year d.month + d.day ≤ (if isLeap d.year then 366 else 365) := by
  obtain ⟨hy, hm1, hm2, hd1, hd2⟩ := h
  refine ⟨by omega, ?_⟩
  have e := month_end d.year d.month hm1 hm2
  by_cases h12 : d.month = 12
  · rw [if_pos h12] at e; omega
  · have e2 := daysBeforeMonth_lt (y := d.year) hm1 (show d.month < 12 by omega) (by omega)
    have e3 := month_end d.year 12 (by omega) (by omega)
    rw [if_pos rfl] at e3; omega

/-- Ordinals of valid dates are strictly increasing in the lexicographic order. -/
theorem ymd2ord_lt {a b : Date} (ha : a.Ok) (hb : b.Ok)
    (h : a.year < b.year ∨ (a.year = b.year ∧ (a.month < b.month ∨
      (a.month = b.month ∧ a.day < b.day)))) : ymd2ord a < ymd2ord b := by
  unfold ymd2ord
  have la := monthday_le a ha
  have lb := monthday_le b hb
  rcases h with h | ⟨h, h2 | ⟨h2, h3⟩⟩
  · have := daysBeforeYear_mono (a := a.year + 1) (by omega) (show a.year + 1 ≤ b.year by omega)
    rw [daysBeforeYear_succ _ ha.1] at this; omega
  · have := daysBeforeMonth_lt (y := a.year) ha.2.1 h2 hb.2.2.1
    have := ha.2.2.2.2
    have := hb.2.2.2.1
    rw [← h]; omega
  · rw [h, h2]; omega

theorem ymd2ord_inj {a b : Date} (ha : a.Ok) (hb : b.Ok) (h : ymd2ord a = ymd2ord b) : a = b := by
  have n1 : ¬ (a.year < b.year ∨ (a.year = b.year ∧ (a.month < b.month ∨
      (a.month = b.month ∧ a.day < b.day)))) := fun c => by have := ymd2ord_lt ha hb c; omega
  have n2 : ¬ (b.year < a.year ∨ (b.year = a.year ∧ (b.month < a.month ∨
      (b.month = a.month ∧ b.day < a.day)))) := fun c => by have := ymd2ord_lt hb ha c; omega
  obtain ⟨y, m, d⟩ := a
  obtain ⟨y', m', d'⟩ := b
  simp only at n1 n2
  have : y = y' := by omega
  have : m = m' := by omega
  have : d = d' := by omega
  subst_vars; rfl

theorem ord2ymd_split (n : Nat) :
    ∃ n400 n100 n4 n1 r : Nat, n - 1 = n400 * 146097 + n100 * 36524 + n4 * 1461 + n1 * 365 + r ∧
      ord2ymd n = (if n1 = 4 ∨ n100 = 4 then ⟨n400 * 400 + 1 + n100 * 100 + n4 * 4 + n1 - 1, 12, 31⟩
        else ⟨n400 * 400 + 1 + n100 * 100 + n4 * 4 + n1,
          (ordInYear (n1 == 3 && (n4 != 24 || n100 == 3)) r).1,
          (ordInYear (n1 == 3 && (n4 != 24 || n100 == 3)) r).2⟩) ∧
      n100 ≤ 4 ∧ n4 ≤ 24 ∧ n1 ≤ 4 ∧ r < 365 ∧ (n100 = 4 → n4 = 0 ∧ n1 = 0 ∧ r = 0) ∧
      (n1 = 4 → r = 0 ∧ n4 ≠ 24) := by
  refine ⟨(n-1)/146097, (n-1)%146097/36524, (n-1)%146097%36524/1461,
    (n-1)%146097%36524%1461/365, (n-1)%146097%36524%1461%365, by omega, rfl, ?_⟩
  refine ⟨by omega, by omega, by omega, by omega, ?_, ?_⟩
  · intro h; omega
  · intro h
    refine ⟨by omega, by omega⟩

/-- `_ord2ymd` gives a valid date, and `_ymd2ord` is its inverse. -/
theorem ord2ymd_spec (n : Nat) (h : 1 ≤ n) : (ord2ymd n).Ok ∧ ymd2ord (ord2ymd n) = n := by
  obtain ⟨n400, n100, n4, n1, r, hn, ho, h100, h4, h1, hr, c100, c1⟩ := ord2ymd_split n
  have hlen : ∀ y, 1 ≤ y → isLeap y = true → daysBeforeYear (y + 1) = daysBeforeYear y + 366 := by
    intro y h0 hy
    rw [daysBeforeYear_succ y h0, if_pos hy]
  have hbase : daysBeforeYear (n400 * 400 + 1 + n100 * 100 + n4 * 4 + n1) =
      n400 * 146097 + n100 * 36524 + n4 * 1461 + n1 * 365 +
        (if n100 = 4 then 1 else if n1 = 4 then 1 else 0) := by
    unfold daysBeforeYear
    by_cases a : n100 = 4
    · obtain ⟨b1, b2, b3⟩ := c100 a
      subst a b1 b2
      rw [if_pos rfl]
      omega
    · rw [if_neg a]
      have e1 : (n400 * 400 + 1 + n100 * 100 + n4 * 4 + n1 - 1) / 400 = n400 := by
        by_cases b : n1 = 4
        · have := (c1 b).2; omega
        · omega
      have e2 : (n400 * 400 + 1 + n100 * 100 + n4 * 4 + n1 - 1) / 100 = n400 * 4 + n100 := by
        by_cases b : n1 = 4
        · have := (c1 b).2; omega
        · omega
      have e3 : (n400 * 400 + 1 + n100 * 100 + n4 * 4 + n1 - 1) / 4
          = n400 * 100 + n100 * 25 + n4 + (if n1 = 4 then 1 else 0) := by
        by_cases b : n1 = 4
        · rw [if_pos b]; omega
        · rw [if_neg b]; omega
      rw [e1, e2, e3]
      by_cases b : n1 = 4
      · simp only [b, if_true]; omega
      · simp only [b, if_false]; omega
  rw [ho]
  split
  · next hc =>
    -- last day of a leap year
    have hy : isLeap (n400 * 400 + 1 + n100 * 100 + n4 * 4 + n1 - 1) = true := by
      rw [isLeap_iff]
      rcases hc with hc | hc
      · have := (c1 hc).2
        subst hc
        refine ⟨by omega, ?_⟩
        by_cases hz : n100 = 4
        · have := c100 hz; omega
        · left; omega
      · obtain ⟨b1, b2, b3⟩ := c100 hc
        subst hc b1 b2
        refine ⟨by omega, Or.inr (by omega)⟩
    have hr0 : r = 0 := by
      rcases hc with hc | hc
      · exact (c1 hc).1
      · exact (c100 hc).2.2
    have hy1 : 1 ≤ n400 * 400 + 1 + n100 * 100 + n4 * 4 + n1 - 1 := by omega
    have hs := hlen _ hy1 hy
    rw [show n400 * 400 + 1 + n100 * 100 + n4 * 4 + n1 - 1 + 1
      = n400 * 400 + 1 + n100 * 100 + n4 * 4 + n1 by omega, hbase] at hs
    generalize hY : n400 * 400 + 1 + n100 * 100 + n4 * 4 + n1 - 1 = Y at *
    have hm : daysBeforeMonth Y 12 = 335 := by simp [daysBeforeMonth, hy]
    have hd : daysInMonth Y 12 = 31 := by simp [daysInMonth]
    refine ⟨⟨hy1, (by decide : 1 ≤ 12), (by decide : 12 ≤ 12), (by decide : 1 ≤ 31), by rw [hd]; exact Nat.le_refl _⟩, ?_⟩
    unfold ymd2ord
    rw [hm]
    simp only
    have : (if n100 = 4 then 1 else if n1 = 4 then 1 else 0) = 1 := by
      rcases hc with hc | hc
      · rw [hc]; split <;> rfl
      · rw [hc]; rfl
    rw [this] at hs
    omega
  · next hc =>
    have hc1 : n1 ≠ 4 := fun c => hc (Or.inl c)
    have hc2 : n100 ≠ 4 := fun c => hc (Or.inr c)
    rw [if_neg hc2, if_neg hc1] at hbase
    have hleap : (n1 == 3 && (n4 != 24 || n100 == 3))
        = isLeap (n400 * 400 + 1 + n100 * 100 + n4 * 4 + n1) := by
      rw [Bool.eq_iff_iff, isLeap_iff]
      simp only [Bool.and_eq_true, Bool.or_eq_true, beq_iff_eq, bne_iff_ne, ne_eq]
      constructor
      · rintro ⟨a, b⟩
        subst a
        refine ⟨by omega, ?_⟩
        rcases b with b | b
        · left; omega
        · by_cases z : n4 = 24
          · right; omega
          · left; omega
      · rintro ⟨a, b⟩
        have : n1 = 3 := by omega
        refine ⟨this, ?_⟩
        subst this
        by_cases z : n4 = 24
        · right
          rcases b with b | b
          · exfalso; omega
          · omega
        · exact Or.inl z
    rw [hleap]
    obtain ⟨Y, hY⟩ : ∃ Y, Y = n400 * 400 + 1 + n100 * 100 + n4 * 4 + n1 := ⟨_, rfl⟩
    rw [← hY] at hbase ⊢
    clear hleap ho
    have sp := ordInYear_spec (isLeap Y) r (by split <;> omega)
    generalize ordInYear (isLeap Y) r = md at sp
    obtain ⟨m, d⟩ := md
    simp only at sp
    refine ⟨⟨by simp only; omega, sp.1, sp.2.1, sp.2.2.1, sp.2.2.2.1⟩, ?_⟩
    have h5 := sp.2.2.2.2
    have h6 : daysBeforeMonth Y m + d = r + 1 := h5
    have h7 : ymd2ord ⟨Y, m, d⟩ = daysBeforeYear Y + daysBeforeMonth Y m + d := rfl
    rw [h7, hbase]
    clear sp h5 h7
    omega

theorem ord2ymd_ymd2ord (d : Date) (h : d.Ok) : ord2ymd (ymd2ord d) = d := by
  have h1 : 1 ≤ ymd2ord d := by have := h.2.2.2.1; unfold ymd2ord; omega
  have := ord2ymd_spec (ymd2ord d) h1
  exact ymd2ord_inj this.1 h this.2

/-- The day after a date, by the Gregorian rules: the specification of the calendar. -/
def Date.next (d : Date) : Date :=
  if d.day < daysInMonth d.year d.month then { d with day := d.day + 1 }
  else if d.month < 12 then ⟨d.year, d.month + 1, 1⟩ else ⟨d.year + 1, 1, 1⟩

theorem ymd2ord_next (d : Date) (h : d.Ok) : d.next.Ok ∧ ymd2ord d.next = ymd2ord d + 1 := by
  obtain ⟨hy, hm1, hm2, hd1, hd2⟩ := h
  unfold Date.next
  split
  · next hlt => exact ⟨⟨hy, hm1, hm2, by simp only; omega, by simp only; omega⟩, by unfold ymd2ord; simp only; omega⟩
  · next hge =>
    have he := month_end d.year d.month hm1 hm2
    have pos : ∀ y m, 1 ≤ m → m ≤ 12 → 1 ≤ daysInMonth y m := by
      intro y m a b
      unfold daysInMonth
      have : ∀ m : Fin 13, 1 ≤ m.val →
        1 ≤ ([0, 31, 28, 31, 30, 31, 30, 31, 31, 30, 31, 30, 31].getD m.val 0) := by decide +kernel
      split
      · omega
      · exact this ⟨m, by omega⟩ a
    split
    · next h12 =>
      rw [if_neg (by omega)] at he
      exact ⟨⟨hy, by simp only; omega, by simp only; omega, by simp only; omega, pos _ _ (by simp only; omega) (by simp only; omega)⟩,
        by unfold ymd2ord; simp only; omega⟩
    · next h12 =>
      have e12 : d.month = 12 := by omega
      rw [if_pos e12] at he
      refine ⟨⟨by simp only; omega, by simp only; omega, by simp only; omega, by simp only; omega, pos _ _ (by simp only; omega) (by simp only; omega)⟩, ?_⟩
      have hs := daysBeforeYear_succ d.year hy
      have h1 : daysBeforeMonth (d.year + 1) 1 = 0 := by simp [daysBeforeMonth]
      unfold ymd2ord
      rw [hs, h1]
      simp only
      rw [e12] at he hge hd2 ⊢
      omega

end Verif
