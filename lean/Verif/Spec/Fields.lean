import Verif.Api.Entry
import Verif.Spec.Search
/-!
# What an entry says

The string fields of an entry, read off the element tree directly.
-/
namespace Verif.Spec
open Verif Api

/-- The `String` child `s` has a `Key` child with this text. -/
def hasKey (h : Heap) (s : Nat) (key : Str) : Bool := (h.all s "Key".toList).any fun c => h.text c == some key

/-- The `String` children of an entry with the given key. -/
def fieldEls (h : Heap) (e : Nat) (key : Str) : List Nat := (h.all e "String".toList).filter fun s => hasKey h s key

/-- Their `Value` elements. -/
def valueEls (h : Heap) (e : Nat) (key : Str) : List Nat :=
  (fieldEls h e key).flatMap fun s => h.all s "Value".toList

/-- The value of a field: the text of the first `Value`. -/
def field (h : Heap) (e : Nat) (key : Str) : Option Str := (valueEls h e key).head?.bind h.text

/-- The protection mark of a field. -/
def mark (h : Heap) (e : Nat) (key : Str) : Option Str :=
  (valueEls h e key).head?.bind fun v => h.attr v "Protected".toList

/-- The text of the first child with a tag. -/
def sub (h : Heap) (e : Nat) (tag : Str) : Option Str := (h.find e tag).bind h.text

end Verif.Spec

namespace Verif.Spec
open Verif Api

/-- The string fields of an entry are well formed: one `Key` with a text and one `Value` each, no key twice. -/
structure Fields (h : Heap) (e : Nat) : Prop where
  key : ∀ s ∈ h.all e "String".toList, ∃ c t, h.all s "Key".toList = [c] ∧ h.text c = some t
  value : ∀ s ∈ h.all e "String".toList, ∃ v, h.all s "Value".toList = [v]
  uniq : ∀ key, (fieldEls h e key).length ≤ 1

/-- Whether a field exists, and the text of its value. -/
def prop (h : Heap) (e : Nat) (key : Str) : Option (Option Str) := (valueEls h e key).head?.map h.text

/-- Between `h` and `h'` only the string field `key` of entry `e` was replaced, by the new element `n`: every
other element holds what it held, and `e` keeps its other children in their order. -/
structure FieldReplaced (h h' : Heap) (n e : Nat) (key : Str) : Prop where
  other : ∀ j, j ≠ 0 → j ≠ e → j < n → h' j = h j
  here : ∃ r, h e = some r ∧
    h' e = some { r with kids := r.kids.filter (fun k => !(fieldEls h e key).contains k) ++ [n] }
  document : (h'.kids 0).head? = (h.kids 0).head?

/-- The keys of the string fields, in document order. -/
def keysOf (h : Heap) (e : Nat) : List (Option Str) :=
  (h.all e "String".toList).map fun s => (h.find s "Key".toList).bind h.text

end Verif.Spec

namespace Verif.Spec
open Verif Api

/-- Assigning a string field of an entry: one of the six properties, or a custom property with a protection mark. -/
inductive SetOp where
  | std (f : Api.Field) (v : Str)
  | custom (k v : Str) (p : Bool)
  deriving DecidableEq

def SetOp.key : SetOp → Str
  | .std f _ => f.key
  | .custom k _ _ => k

def SetOp.value : SetOp → Str
  | .std _ v => v
  | .custom _ v _ => v

/-- The arguments are ones the method accepts: text without characters XML forbids; for a custom property a
name that is not reserved and contains no double quote. -/
def SetOp.Ok : SetOp → Prop
  | .std _ v => XmlText v
  | .custom k v _ => k ∉ reservedKeys ∧ XPath.Plain k ∧ XmlText k ∧ XmlText v

/-- The value last assigned to a key. -/
def lastSet (ops : List SetOp) (key : Str) : Option Str :=
  (ops.filter fun o => o.key == key).getLast?.map SetOp.value

/-- The protection mark after an assignment, from the value and mark before. -/
def SetOp.newMark (old : Option Str) (m : Option Str) : SetOp → Option Str
  | .custom _ _ p => some (if p then "True".toList else "False".toList)
  | .std .password _ | .std .otp _ => if old = none ∨ old = some [] then some "True".toList else m
  | .std _ _ => m

/-- The protection mark of a key after a sequence of assignments. -/
def markAfter (key : Str) : List SetOp → Option Str → Option Str → Option Str
  | [], _, m => m
  | o :: os, old, m =>
    if o.key = key then markAfter key os (some o.value) (o.newMark old m) else markAfter key os old m

/-- Children of `e` other than string fields. -/
def otherKids (h : Heap) (e : Nat) : List Nat := (h.kids e).filter fun k => h.tag k != "String".toList

end Verif.Spec
