import Verif.Spec.Structure
import Verif.Spec.Fields
/-!
# Paths of groups and entries
-/
namespace Verif.Spec
open Verif Api

/-- From the group `r`, the names lead down to a group: each group on the way has a name, the text of its `Name`. -/
inductive Named (h : Heap) (r : Nat) : List Str → Nat → Prop
  | root : Named h r [] r
  | sub {ns : List Str} {p g : Nat} {n : Str} : Named h r ns p → g ∈ h.all p "Group".toList → sub h g "Name".toList = some n →
      Named h r (ns ++ [n]) g

/-- No group has two `Name` elements and no entry two titles. -/
structure OneName (h : Heap) : Prop where
  group : ∀ g, h.tag g = "Group".toList → (h.all g "Name".toList).length ≤ 1
  entry : ∀ e, h.tag e = "Entry".toList → (valueEls h e "Title".toList).length ≤ 1

/-- One root group, and below a group no two groups with the same name. -/
structure OwnNames (h : Heap) : Prop where
  root : ∀ a b, IsRoot h a → IsRoot h b → a = b
  group : ∀ p a b n, a ∈ h.all p "Group".toList → b ∈ h.all p "Group".toList →
    sub h a "Name".toList = some n → sub h b "Name".toList = some n → a = b

/-- No two entries of a group have the same title. -/
def OwnTitles (h : Heap) (p : Nat) : Prop :=
  ∀ a b t, a ∈ h.all p "Entry".toList → b ∈ h.all p "Entry".toList →
    field h a "Title".toList = some t → field h b "Title".toList = some t → a = b

end Verif.Spec
