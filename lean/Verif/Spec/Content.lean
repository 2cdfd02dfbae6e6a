import Verif.Spec.Fields
import Verif.Spec.Reach
/-!
# The content of an element as a tree

An element without identities, and the same readings as on the elements themselves.
-/
namespace Verif.Spec
open Verif Api

/-- The content of an element. -/
def content (s : Db) (e : Nat) : Option Xml := (s.world.get? e).map Node.xml

/-- Children with a tag. -/
def xall (x : Xml) (t : Str) : List Xml := x.kids.filter fun k => k.tag == t

/-- Elements reached by a path of tags. -/
def xdeep : List Str → Xml → List Xml
  | [], x => [x]
  | t :: p, x => (xall x t).flatMap (xdeep p)

def xhasKey (x : Xml) (key : Str) : Bool := (xall x "Key".toList).any fun c => c.text == some key

/-- The `Value` elements of the string field with a key. -/
def xvalues (x : Xml) (key : Str) : List Xml :=
  ((xall x "String".toList).filter fun s => xhasKey s key).flatMap fun s => xall s "Value".toList

/-- The value of a string field. -/
def xfield (x : Xml) (key : Str) : Option Str := (xvalues x key).head?.bind Xml.text

/-- The text of the first child with a tag. -/
def xsub (x : Xml) (tag : Str) : Option Str := (xall x tag).head?.bind Xml.text

/-- The content changed only by one more element `n` with content `x`, the last child of `p`. Its parts have the
ids from `n` up to `m`. -/
structure Added (h h' : Heap) (p n m : Nat) : Prop where
  here : ∃ r, h p = some r ∧ h' p = some { r with kids := r.kids ++ [n] }
  other : ∀ j, j ≠ p → j < n → h' j = h j
  fresh : ∀ j, n ≤ j → h j = none
  below : ∀ j, Reach h' n j ↔ n ≤ j ∧ j < m

end Verif.Spec
