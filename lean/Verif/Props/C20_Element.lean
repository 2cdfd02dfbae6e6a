import Verif.Props.C56_Times
/-!
# C20, for the time properties of an element of a KDBX4 database
-/
namespace Verif.Props
open Verif XPath Spec Api

/-- Setting a time property of an element to an aware datetime: reading it gives a UTC datetime less than one second away,
the same instant if it was one of whole seconds; every other time property of every element reads as before. -/
theorem C20_element {s : Db} (hs : Inv s) (h4 : 4 ≤ s.version.1) {e p : Nat} {prop : Str} (hp : timeEl s.heap e prop = some p)
    {v : DateTime} {n : Nat} (hn : v.instant = some (n : Int)) (hmax : n + 1000000 ≤ maxMicros) :
    ∃ s' w m, setTime e prop v s = (.ok (), s') ∧ getTime e prop s' = (.ok (some w), s') ∧ w.Ok ∧ w.tz = some 0 ∧
      w.instant = some (m : Int) ∧ m < n + 1000000 ∧ n < m + 1000000 ∧ (n % 1000000 = 0 → w.instant = v.instant) ∧
      (∀ e' prop', (e', prop') ≠ (e, prop) → (getTime e' prop' s').1 = (getTime e' prop' s).1) ∧
      (prop ≠ "Expires".toList → ∀ e', (getExpires e' s').1 = (getExpires e' s).1) := by
  obtain ⟨x, w, m, h1, h2, h3, h5, h6, h7, h8⟩ := C20_roundtrip s.version h4 v n hn hmax
  obtain ⟨s', g1, _, g2, g3, g4⟩ := C56_set hs hp h1
  refine ⟨s', w, m, g1, ?_, h3, h5, h6, h7, h8, ?_, g3, g4⟩
  · rw [g2]
    unfold stored
    rw [h1]
    show ((decodeTime s.version (some x)).map some, s') = _
    rw [h2]
    rfl
  · intro h0
    obtain ⟨x', w', k1, k2, _, k4⟩ := C20_whole_seconds s.version h4 v n hn (by omega) h0
    rw [h1] at k1
    cases k1
    rw [h2] at k2
    cases k2
    exact k4

/-- A time with an offset, set on an entry. -/
example : (timeEl Sample.db.heap 23 "ExpiryTime".toList).isSome = true ∧ 4 ≤ Sample.db.version.1 ∧
    ∃ n : Nat, (⟨⟨2026, 11, 16⟩, 8, 30, 0, 5, some 3600000000⟩ : DateTime).instant = some (n : Int) ∧ n + 1000000 ≤ maxMicros :=
  ⟨by decide +kernel, by decide +kernel, 63930411000000005, by decide +kernel, by decide +kernel⟩

end Verif.Props
