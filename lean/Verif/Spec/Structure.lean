import Verif.Spec.Reach
/-!
# The shape of a database
-/
namespace Verif.Spec
open Verif Api

/-- The elements form trees: children exist, no element is listed twice, no element has two parents, every element but
the virtual one is somewhere, and nothing is below itself. -/
structure Forest (h : Heap) : Prop where
  exist : ∀ p c, c ∈ h.kids p → h c ≠ none
  once : ∀ p, (h.kids p).Nodup
  parent : ∀ p q c, c ∈ h.kids p → c ∈ h.kids q → p = q
  placed : ∀ c, h c ≠ none → c ≠ 0 → ∃ p, c ∈ h.kids p
  acyclic : ∀ p c, c ∈ h.kids p → ¬ Reach h c p

/-- The document is `KeePassFile` with one `Meta` and one `Root`. -/
structure Skeleton (h : Heap) (d m r : Nat) : Prop where
  doc : docEl h = some d
  tag : h.tag d = "KeePassFile".toList
  info : h.all d "Meta".toList = [m]
  root : h.all d "Root".toList = [r]

/-- A group directly in `Root`. -/
def IsRoot (h : Heap) (x : Nat) : Prop :=
  ∃ d r, docEl h = some d ∧ h.tag d = "KeePassFile".toList ∧ r ∈ h.all d "Root".toList ∧ x ∈ h.all r "Group".toList

end Verif.Spec
