import Verif.Spec.Reach
/-!
# Queries

Location paths as one writes them for `kp.xpath(...)`: steps to children, to descendants and to the parent, and conditions on texts and
attributes. What such a query finds, without reference to how it is read or evaluated.
-/
namespace Verif.Spec
open Verif Api

/-- A character a name may begin with. -/
def Letter (c : Char) : Prop := ('a' ≤ c ∧ c ≤ 'z') ∨ ('A' ≤ c ∧ c ≤ 'Z') ∨ c = '_'

/-- A character a name may go on with. -/
def NameChar (c : Char) : Prop := Letter c ∨ ('0' ≤ c ∧ c ≤ '9') ∨ c = '-' ∨ c = '.'

instance (c : Char) : Decidable (Letter c) := by unfold Letter; infer_instance
instance (c : Char) : Decidable (NameChar c) := by unfold NameChar; infer_instance

/-- The name of an element or attribute. Names with other letters than those of English are left out. -/
def NameText : Str → Prop
  | [] => False
  | c :: r => Letter c ∧ ∀ d ∈ r, NameChar d

instance : (n : Str) → Decidable (NameText n)
  | [] => isFalse id
  | c :: r => inferInstanceAs (Decidable (Letter c ∧ ∀ d ∈ r, NameChar d))

/-- A part of a query. -/
inductive Hop where
  | child (n : Str) | below (n : Str) | up
  | text (v : Str) | contains (v : Str) | attr (a v : Str)
  deriving DecidableEq, Repr

namespace Hop

/-- A step, not a condition. -/
def Moves : Hop → Prop
  | child _ => True
  | below _ => True
  | up => True
  | _ => False

/-- How the part is written. -/
def spell : Hop → Str
  | child n => "/".toList ++ n
  | below n => "//".toList ++ n
  | up => "/..".toList
  | text v => "[text()=\"".toList ++ (v ++ "\"]".toList)
  | contains v => "[contains(text(), \"".toList ++ (v ++ "\")]".toList)
  | attr a v => "[@".toList ++ (a ++ ("=\"".toList ++ (v ++ "\"]".toList)))

/-- Where the part leads to from `x`. -/
def Leads (h : Heap) (x : Nat) : Hop → Nat → Prop
  | child n, y => y ∈ h.kids x ∧ h.tag y = n
  | below n, y => (∃ z, Reach h x z ∧ y ∈ h.kids z) ∧ h.tag y = n
  | up, y => x ∈ h.kids y
  | text v, y => y = x ∧ h.text x = some v
  | contains v, y => y = x ∧ ∃ a b, (h.text x).getD [] = a ++ v ++ b
  | attr a v, y => y = x ∧ h.attr x a = some v

end Hop

/-- Where a query leads to from `x`. -/
def Route (h : Heap) : Nat → List Hop → Nat → Prop
  | x, [], y => y = x
  | x, p :: ps, y => ∃ z, p.Leads h x z ∧ Route h z ps y

/-- The document: `/` is its top, and the elements that were removed are not in it. -/
def docOf (h : Heap) : Heap := fun i => if i = 0 then some ⟨[], [], none, (h.kids 0).take 1⟩ else h i

end Verif.Spec
