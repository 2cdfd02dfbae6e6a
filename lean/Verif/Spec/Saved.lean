import Verif.Spec.Reach
/-!
# What saving leaves alone
-/
namespace Verif.Spec
open Verif Api

/-- Every element a program can hold has the tag, attributes, text and children it had, the document element is the same, and
so is everything that is not an element. Elements that did not exist before may exist. -/
structure Untouched (s s' : Db) : Prop where
  same : ∀ j r, j ≠ 0 → s.heap j = some r → s'.heap j = some r
  document : docEl s'.heap = docEl s.heap
  state : s' = { s with world := s'.world, next := s'.next }

end Verif.Spec
