import Verif.Props.C59_Metadata
/-!
# C55, when the date of the last change cannot be read
-/
namespace Verif.Props
open Verif XPath Spec Api

/-- A date that cannot be read makes both questions raise what reading it raises, also when the setting is -1. -/
theorem C55_unreadable (env : Env) {s : Db} (req : Bool) {e : PyErr} (hd : credDate env s = (.error e, s)) :
    credChange env req s = (.error e, s) := by
  unfold credChange
  rw [bind_run, hd]

/-- An element for the date without text is no date: `TypeError` in KDBX4, `AttributeError` in KDBX3. -/
theorem C55_empty_date (env : Env) {s : Db} (hs : Inv s) {el : Nat}
    (he : (metaEls s.heap "MasterKeyChanged".toList).head? = some el) (ht : s.heap.text el = none) :
    (4 ≤ s.version.1 → credDate env s = (.error .type, s) ∧ ∀ req, credChange env req s = (.error .type, s)) ∧
    (s.version.1 < 4 → credDate env s = (.error .attribute, s) ∧ ∀ req, credChange env req s = (.error .attribute, s)) := by
  have h := credDate_run env hs
  rw [he] at h
  replace h : credDate env s = ((decodeTime s.version (s.heap.text el)).map some, s) := h
  rw [ht] at h
  unfold decodeTime at h
  constructor
  · intro hv
    rw [if_pos ((versionGe4_iff s.version).mpr hv)] at h
    exact ⟨h, fun req => C55_unreadable env req h⟩
  · intro hv
    rw [if_neg (fun hc => absurd ((versionGe4_iff s.version).mp hc) (by omega))] at h
    exact ⟨h, fun req => C55_unreadable env req h⟩

/-- The sample database with the text of that element removed. -/
def dateless : Db := (setText 6 none Sample.db).2

example : (metaEls dateless.heap "MasterKeyChanged".toList).head? = some 6 ∧ dateless.heap.text 6 = none ∧ 4 ≤ dateless.version.1 := by
  decide +kernel

end Verif.Props
