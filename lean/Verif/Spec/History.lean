import Verif.Spec.Calls
import Verif.Spec.Content
import Verif.XPath.Find
/-!
# Snapshots of entries
-/
namespace Verif.Spec
open Verif Api

/-- The content of an entry without its history. -/
def bare (x : Xml) : Xml := .mk x.tag x.attrs x.text (x.kids.filter fun k => k.tag != "History".toList)

/-- Part of a snapshot in the history element `h`. -/
def InSnapshot (hp : Heap) (h j : Nat) : Prop := ∃ k ∈ hp.kids h, Reach hp k j

end Verif.Spec
