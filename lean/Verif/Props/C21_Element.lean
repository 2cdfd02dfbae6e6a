import Verif.Props.C56_Times
/-!
# C21, for the time properties of an element of a KDBX3 database
-/
namespace Verif.Props
open Verif XPath Spec Api

/-- Setting a time property of an element: reading it gives the same wall-clock fields labelled UTC; every other time
property of every element reads as before. -/
theorem C21_element {s : Db} (hs : Inv s) (h3 : s.version.1 < 4) {e p : Nat} {prop : Str} (hp : timeEl s.heap e prop = some p)
    {v : DateTime} (hv : v.Ok) :
    ∃ s', setTime e prop v s = (.ok (), s') ∧ getTime e prop s' = (.ok (some { v with tz := some 0 }), s') ∧
      (∀ e' prop', (e', prop') ≠ (e, prop) → (getTime e' prop' s').1 = (getTime e' prop' s).1) ∧
      (prop ≠ "Expires".toList → ∀ e', (getExpires e' s').1 = (getExpires e' s).1) := by
  obtain ⟨x, h1, h2⟩ := C21_roundtrip s.version h3 v hv
  obtain ⟨s', g1, _, g2, g3, g4⟩ := C56_set hs hp h1
  refine ⟨s', g1, ?_, g3, g4⟩
  rw [g2]
  unfold stored
  rw [h1]
  show ((decodeTime s.version (some x)).map some, s') = _
  rw [h2]
  rfl

/-- A naive time with microseconds, set on an entry. -/
example : (timeEl Sample.db3.heap 23 "ExpiryTime".toList).isSome = true ∧ Sample.db3.version.1 < 4 ∧
    (⟨⟨2026, 11, 16⟩, 8, 30, 0, 5, none⟩ : DateTime).Ok :=
  ⟨by decide +kernel, by decide +kernel, by unfold DateTime.Ok Date.Ok; decide +kernel⟩

end Verif.Props
