import Verif.Spec.Structure
import Verif.Spec.Calls
import Verif.Spec.Content
/-!
# The recycle bin
-/
namespace Verif.Spec
open Verif Api

/-- The element has a `UUID` child with this text. -/
def HasUuid (h : Heap) (x : Nat) (u : Str) : Prop := ∃ k ∈ h.all x "UUID".toList, h.text k = some u

/-- The document has `Meta`, `Root` and one root group `g`; the setting `RecycleBinUUID`, element `el`, holds the uuid `u`;
no two groups have this uuid. -/
structure Settled (h : Heap) (d m r g el : Nat) (u : Bytes) : Prop where
  skel : Skeleton h d m r
  root : h.all r "Group".toList = [g]
  setting : h.find m "RecycleBinUUID".toList = some el
  text : h.text el = some (b64encode u)
  len : u.length = 16
  one : ∀ a b, IsGroup h a → IsGroup h b → HasUuid h a (b64encode u) → HasUuid h b (b64encode u) → a = b

/-- The recycle bin: the group of the database that the setting names. -/
structure IsBin (h : Heap) (u : Bytes) (b : Nat) : Prop where
  tag : IsGroup h b
  doc : InDoc h b
  hist : ¬ InHist h b
  uuid : HasUuid h b (b64encode u)

/-- The content of a new recycle bin. -/
def binXml (u : Bytes) (now : Str) : Xml :=
  let leaf (t x : Str) : Xml := .mk t [] (some x) []
  .mk "Group".toList [] none [
    leaf "UUID".toList (b64encode u),
    .mk "Times".toList [] none [
      leaf "CreationTime".toList now, leaf "LastModificationTime".toList now, leaf "LastAccessTime".toList now,
      leaf "ExpiryTime".toList now, leaf "Expires".toList "False".toList, leaf "UsageCount".toList "0".toList,
      leaf "LocationChanged".toList now],
    leaf "Name".toList "Recycle Bin".toList]

/-- The next uuids of the source have 16 bytes, and no group has one of them. -/
structure FreshUuids (env : Env) (s : Db) : Prop where
  len : ∀ k, s.uuids ≤ k → (env.uuid1 k).length = 16
  new : ∀ k, s.uuids ≤ k → ∀ g, IsGroup s.heap g → ¬ HasUuid s.heap g (b64encode (env.uuid1 k))

/-- Making the bin changes nothing but the children of the root group `g`, which gets the new bin `n` as its last child,
and the text of the setting `el`. -/
structure NewBin (h h' : Heap) (g el n : Nat) (u : Bytes) : Prop where
  fresh : h n = none
  old : ∀ j r, h j = some r → h' j = some (if j = g then { r with kids := r.kids ++ [n] }
    else if j = el then { r with text := some (b64encode u) } else r)
  none : ∀ j, h j = none → IsElem h' j → j = n

/-- A history of calls of `trash_entry` and `trash_group` on entries and groups; the list has the elements for which the
call returned, the last one first. -/
inductive Trashing (env : Env) (s : Db) : List Nat → Db → Prop where
  | start : Trashing env s [] s
  | moved {L : List Nat} {t t' : Db} {x : Nat} : Trashing env s L t → IsElem t.heap x → trash env x t = (.ok (), t') →
      Trashing env s (x :: L) t'
  | refused {L : List Nat} {t t' : Db} {x : Nat} {e : PyErr} : Trashing env s L t → IsElem t.heap x →
      trash env x t = (.error e, t') → Trashing env s L t'

/-- The elements `L` went into the bin `b`, and nothing else happened but for making the bin, if it is new, and for
writing the setting `el`. -/
structure InBin (h h' : Heap) (L : List Nat) (el b : Nat) : Prop where
  kept : ∀ i r, h i = some r → ∃ r', h' i = some r' ∧ r'.tag = r.tag ∧ r'.attrs = r.attrs ∧ (i ≠ el → r'.text = r.text)
  doc : ∀ i, InDoc h i → InDoc h' i
  inside : ∀ x ∈ L, x ≠ b ∧ x ∈ h'.kids b
  stay : ∀ p c, c ∉ L → c ∈ h.kids p → c ∈ h'.kids p
  order : ∀ p r, h p = some r → p ≠ b → ∃ l, h'.kids p = r.kids.filter (fun c => !L.contains c) ++ l ∧ ∀ c ∈ l, c = b
  new : ∀ i, h i = none → IsElem h' i → i = b

end Verif.Spec
