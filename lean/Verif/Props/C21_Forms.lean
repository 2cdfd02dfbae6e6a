import Verif.Time.Lemmas
/-!
# C21, for times written by other programs

A KDBX3 file written elsewhere may give a time with fewer parts, with a fraction of three digits, with a space for the `T`,
with `Z` or with no zone at all.
-/
namespace Verif.Props
open Verif

/-- How far a time of day is written out. -/
inductive Precision where
  | hours | minutes | seconds | millis | micros

/-- A time of day in that form: `08`, `08:30`, `08:30:05`, `08:30:05.250`, `08:30:05.250000`. -/
def clockText (h mi s f : Nat) : Precision → Str
  | .hours => padNat 2 h
  | .minutes => padNat 2 h ++ ':' :: padNat 2 mi
  | .seconds => padNat 2 h ++ ':' :: (padNat 2 mi ++ ':' :: padNat 2 s)
  | .millis => padNat 2 h ++ ':' :: (padNat 2 mi ++ ':' :: (padNat 2 s ++ '.' :: padNat 3 (f / 1000)))
  | .micros => padNat 2 h ++ ':' :: (padNat 2 mi ++ ':' :: (padNat 2 s ++ '.' :: padNat 6 f))

/-- What is left of a time in that form. -/
def cut (h mi s f : Nat) : Precision → Nat × Nat × Nat × Nat
  | .hours => (h, 0, 0, 0)
  | .minutes => (h, mi, 0, 0)
  | .seconds => (h, mi, s, 0)
  | .millis => (h, mi, s, f / 1000 * 1000)
  | .micros => (h, mi, s, f)

def dateText (d : Date) : Str := padNat 4 d.year ++ '-' :: (padNat 2 d.month ++ '-' :: padNat 2 d.day)

theorem clock_parsed (h mi s f : Nat) (h1 : h < 24) (h2 : mi < 60) (h3 : s < 60) (h4 : f < 1000000) (p : Precision) :
    parseHms (clockText h mi s f p) = some (cut h mi s f p) := by
  have last : ∀ k n, n < 10 ^ k → takeDigits k 0 (padNat k n) = some (n, []) := fun k n hn => by
    have := takeDigits_pad k n 0 [] hn
    rwa [List.append_nil, Nat.zero_mul, Nat.zero_add] at this
  have more : ∀ k n r, n < 10 ^ k → takeDigits k 0 (padNat k n ++ r) = some (n, r) := fun k n r hn => by
    have := takeDigits_pad k n 0 r hn
    rwa [Nat.zero_mul, Nat.zero_add] at this
  unfold parseHms
  cases p with
  | hours => simp only [clockText, cut, last 2 h (by omega)]; rfl
  | minutes => simp only [clockText, cut, more 2 h _ (by omega), parseMin, last 2 mi (by omega)]; rfl
  | seconds => simp only [clockText, cut, more 2 h _ (by omega), parseMin, more 2 mi _ (by omega), parseSec, last 2 s (by omega)]; rfl
  | millis =>
    simp only [clockText, cut, more 2 h _ (by omega), parseMin, more 2 mi _ (by omega), parseSec, more 2 s _ (by omega), parseFrac,
      padNat_length, last 3 (f / 1000) (by omega)]
    rfl
  | micros =>
    simp only [clockText, cut, more 2 h _ (by omega), parseMin, more 2 mi _ (by omega), parseSec, more 2 s _ (by omega), parseFrac,
      padNat_length, last 6 f (by omega)]
    rfl

theorem clock_chars (h mi s f : Nat) (p : Precision) : ∀ c ∈ clockText h mi s f p, isoTimeChar c = true := by
  have dig : ∀ k n, ∀ c ∈ padNat k n, isoTimeChar c = true := fun k n c hm => by
    simp [isoTimeChar, padNat_isDigit k n c hm]
  have app : ∀ k n c r, isoTimeChar c = true → (∀ x ∈ r, isoTimeChar x = true) → ∀ x ∈ padNat k n ++ c :: r, isoTimeChar x = true := by
    intro k n c r hc hr x hx
    rcases List.mem_append.mp hx with hx | hx
    · exact dig k n x hx
    · rcases List.mem_cons.mp hx with rfl | hx
      · exact hc
      · exact hr x hx
  cases p with
  | hours => exact dig _ _
  | minutes => exact app _ _ _ _ (by decide) (dig _ _)
  | seconds => exact app _ _ _ _ (by decide) (app _ _ _ _ (by decide) (dig _ _))
  | millis => exact app _ _ _ _ (by decide) (app _ _ _ _ (by decide) (app _ _ _ _ (by decide) (dig _ _)))
  | micros => exact app _ _ _ _ (by decide) (app _ _ _ _ (by decide) (app _ _ _ _ (by decide) (dig _ _)))

theorem date_parsed (d : Date) (hd : d.Ok) (hy : d.year ≤ 9999) (r : Str) : parseDate (dateText d ++ r) = some (d, r) := by
  have hdim := dim_le d.year d.month
  obtain ⟨d1, d2, d3, d4, d5⟩ := hd
  unfold parseDate dateText
  simp only [List.append_assoc, List.cons_append]
  rw [takeDigits_pad 4 _ 0 _ (by omega)]
  simp only [Nat.zero_mul, Nat.zero_add]
  rw [takeDigits_pad 2 _ 0 _ (by omega)]
  simp only [Nat.zero_mul, Nat.zero_add]
  rw [takeDigits_pad 2 _ 0 _ (by omega)]
  simp only [Nat.zero_mul, Nat.zero_add]

/-- Every valid date with a time of day of any precision, with `T` or a space between them and `Z` or nothing after them, is
read as that time in UTC; the parts that are not written are zero. -/
theorem C21_forms (ver : Nat × Nat) (hver : ver.1 < 4) (d : Date) (hd : d.Ok) (hy : d.year ≤ 9999) (h mi s f : Nat)
    (h1 : h < 24) (h2 : mi < 60) (h3 : s < 60) (h4 : f < 1000000) (p : Precision) (sep : Char) (hs : sep = 'T' ∨ sep = ' ')
    (zone : Str) (hz : zone = [] ∨ zone = ['Z']) :
    decodeTime ver (some (dateText d ++ sep :: (clockText h mi s f p ++ zone))) =
      .ok ⟨d, (cut h mi s f p).1, (cut h mi s f p).2.1, (cut h mi s f p).2.2.1, (cut h mi s f p).2.2.2, some 0⟩ := by
  have hg : ¬ versionGe4 ver = true := by rw [versionGe4_iff]; omega
  have hc := clock_chars h mi s f p
  have hp := clock_parsed h mi s f h1 h2 h3 h4 p
  have hb : (cut h mi s f p).1 < 24 ∧ (cut h mi s f p).2.1 < 60 ∧ (cut h mi s f p).2.2.1 < 60 := by
    cases p <;> (refine ⟨h1, ?_, ?_⟩ <;> simp only [cut] <;> omega)
  generalize clockText h mi s f p = t at hc hp
  generalize cut h mi s f p = q at hp hb ⊢
  have dZ : 'Z' ∉ dateText d := by
    have dig : ∀ k n, 'Z' ∉ padNat k n := fun k n hm => by
      have := padNat_isDigit k n _ hm; revert this; decide
    unfold dateText
    simp only [List.mem_append, List.mem_cons, not_or]
    exact ⟨dig _ _, by decide, dig _ _, by decide, dig _ _⟩
  have tZ : 'Z' ∉ t := fun hm => by have := hc _ hm; revert this; decide
  have hsZ : replaceZ [sep] = [sep] := by rcases hs with rfl | rfl <;> decide
  have happ : ∀ a b : Str, replaceZ (a ++ b) = replaceZ a ++ replaceZ b := fun a b => List.flatMap_append
  have hr : replaceZ (dateText d ++ sep :: (t ++ zone)) = dateText d ++ sep :: (t ++ replaceZ zone) := by
    rw [happ, replaceZ_id _ dZ, show sep :: (t ++ zone) = [sep] ++ (t ++ zone) from rfl, happ, happ, hsZ, replaceZ_id _ tZ]
    rfl
  have ht : parseTime (t ++ replaceZ zone) = some q := by
    unfold parseTime
    rcases hz with rfl | rfl
    · have sp := span_all _ t fun x hx => isoTimeChar_noSign x (hc x hx)
      rw [show replaceZ [] = [] from rfl, List.append_nil, sp.1, sp.2]
      exact hp
    · have sp := span_stop _ t "00:00".toList '+' (fun x hx => isoTimeChar_noSign x (hc x hx)) (by decide)
      rw [show replaceZ ['Z'] = '+' :: "00:00".toList from by decide, sp.1, sp.2]
      have : parseHms "00:00".toList = some (0, 0, 0, 0) := by decide +kernel
      simp only [this]
      exact hp
  unfold decodeTime
  rw [if_neg hg]
  show fromIso (replaceZ (dateText d ++ sep :: (t ++ zone))) = _
  rw [hr]
  unfold fromIso
  rw [date_parsed d hd hy]
  simp only [ht]
  rw [if_pos ⟨hd, hy, hb⟩]

/-- A date without a time is midnight. -/
theorem C21_date (ver : Nat × Nat) (hver : ver.1 < 4) (d : Date) (hd : d.Ok) (hy : d.year ≤ 9999) :
    decodeTime ver (some (dateText d)) = .ok ⟨d, 0, 0, 0, 0, some 0⟩ := by
  have hg : ¬ versionGe4 ver = true := by rw [versionGe4_iff]; omega
  have dZ : 'Z' ∉ dateText d := by
    have dig : ∀ k n, 'Z' ∉ padNat k n := fun k n hm => by
      have := padNat_isDigit k n _ hm; revert this; decide
    unfold dateText
    simp only [List.mem_append, List.mem_cons, not_or]
    exact ⟨dig _ _, by decide, dig _ _, by decide, dig _ _⟩
  unfold decodeTime
  rw [if_neg hg]
  show fromIso (replaceZ (dateText d)) = _
  rw [replaceZ_id _ dZ]
  have := date_parsed d hd hy []
  rw [List.append_nil] at this
  unfold fromIso
  rw [this]
  simp only
  rw [if_pos ⟨hd, hy, by decide, by decide, by decide⟩]

/-- One time in the five forms. -/
example : (⟨2024, 2, 29⟩ : Date).Ok ∧
    dateText ⟨2024, 2, 29⟩ ++ 'T' :: (clockText 8 30 5 250999 .millis ++ ['Z']) = "2024-02-29T08:30:05.250Z".toList ∧
    cut 8 30 5 250999 .millis = (8, 30, 5, 250000) :=
  ⟨by unfold Date.Ok; decide +kernel, by decide +kernel, by decide +kernel⟩

end Verif.Props
