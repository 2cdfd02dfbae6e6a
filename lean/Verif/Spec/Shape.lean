import Verif.Spec.Structure
/-!
# Where the elements of a database may be
-/
namespace Verif.Spec
open Verif Api

/-- For the elements the structure of a database is made of: the tags of the elements they may be directly in. Of other elements nothing is
required. -/
def homes : List (Str × List Str) :=
  [("KeePassFile".toList, []),
   ("Meta".toList, ["KeePassFile".toList]),
   ("Root".toList, ["KeePassFile".toList]),
   ("Group".toList, ["Root".toList, "Group".toList]),
   ("Entry".toList, ["Group".toList, "History".toList]),
   ("History".toList, ["Entry".toList]),
   ("String".toList, ["Entry".toList]),
   ("Binary".toList, ["Entry".toList, "Binaries".toList])]

/-- An element with tag `t` may be directly in one with tag `p`. -/
def Home (p t : Str) : Prop := ∀ l, homes.lookup t = some l → p ∈ l

instance (p t : Str) : Decidable (Home p t) :=
  match h : homes.lookup t with
  | none => isTrue fun l hl => by rw [h] at hl; cases hl
  | some l => if hp : p ∈ l then isTrue fun l' hl => by rw [h] at hl; injection hl with hl; rw [← hl]; exact hp
    else isFalse fun hh => hp (hh l h)

/-- Every element is where it may be. Elements that were deleted are in no element. -/
def Shaped (h : Heap) : Prop := ∀ p c, p ≠ 0 → c ∈ h.kids p → Home (h.tag p) (h.tag c)

/-- The same for a tree by itself. -/
def ShapedXml (x : Xml) : Prop := Xml.All (fun t _ _ ks => ∀ k ∈ ks, Home t k.tag) x

/-- The name and the number of an attachment. -/
def fileParts : List Str := ["Key".toList, "Value".toList]

/-- An attachment has its name and number once, and in what it has there is nothing more; a list of data contains data only, in which there is nothing. -/
structure Filed (h : Heap) : Prop where
  once : ∀ e b, h.tag e = "Entry".toList → b ∈ h.all e "Binary".toList → ∀ t ∈ fileParts, (h.all b t).length ≤ 1
  leaf : ∀ e b, h.tag e = "Entry".toList → b ∈ h.all e "Binary".toList → ∀ k ∈ h.kids b, h.kids k = []
  shelf : ∀ l, h.tag l = "Binaries".toList → ∀ k ∈ h.kids l, h.tag k = "Binary".toList ∧ h.kids k = []

/-- The same for an element `x` in one with tag `p`. -/
def Suits (p : Str) (x : Xml) : Prop :=
  (p = "Entry".toList → x.tag = "Binary".toList → (∀ t ∈ fileParts, (x.kids.filter fun k => k.tag == t).length ≤ 1) ∧ ∀ k ∈ x.kids, k.kids = []) ∧
  (p = "Binaries".toList → x.tag = "Binary".toList ∧ x.kids = [])

/-- And for all elements of a tree. -/
def FiledXml (x : Xml) : Prop := Xml.All (fun t _ _ ks => ∀ k ∈ ks, Suits t k) x

/-- The group `c` is the group `r`, or a subgroup of a subgroup … of it. -/
inductive Under (h : Heap) (r : Nat) : Nat → Prop where
  | refl : Under h r r
  | sub {g c : Nat} : Under h r g → c ∈ h.all g "Group".toList → Under h r c

end Verif.Spec
