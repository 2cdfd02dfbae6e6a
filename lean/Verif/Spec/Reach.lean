import Verif.Api.Db
/-!
# Which elements are below which, and which belong to the database
-/
namespace Verif.Spec
open Verif Api

/-- `b` is `a` or below it. -/
inductive Reach (h : Heap) (a : Nat) : Nat → Prop where
  | refl : Reach h a a
  | snoc {b c : Nat} : Reach h a b → c ∈ h.kids b → Reach h a c

/-- The document element `KeePassFile`. -/
def docEl (h : Heap) : Option Nat := (h.kids 0).head?

/-- The element belongs to the database: it is the document element or below it. What a program holds after deleting
is not below it. -/
def InDoc (h : Heap) (j : Nat) : Prop := ∃ d, docEl h = some d ∧ Reach h d j

/-- The element is below a `History` element. -/
def InHist (h : Heap) (j : Nat) : Prop := ∃ k, h.tag k = "History".toList ∧ k ≠ j ∧ Reach h k j

/-- Only `x` was moved, to the end of the children of `d`: every other element holds what it held, in the
same order. Deleting is moving out of the document, to the virtual element 0. -/
def Moved (h h' : Heap) (x d : Nat) : Prop :=
  ∀ j, h' j = (h j).map fun r => { r with kids := if j = d then r.kids.filter (· != x) ++ [x] else r.kids.filter (· != x) }

theorem Reach.trans {h : Heap} {a b c : Nat} (h1 : Reach h a b) (h2 : Reach h b c) : Reach h a c := by
  induction h2 with
  | refl => exact h1
  | snoc _ hk ih => exact .snoc ih hk

theorem Reach.kid {h : Heap} {a b : Nat} (hb : b ∈ h.kids a) : Reach h a b := .snoc .refl hb

end Verif.Spec
