import Verif.Api.Db
/-!
# Databases whose tree can be written and read back, whatever methods are called
-/
namespace Verif.Spec
open Verif Api

/-- The tags of the elements into which methods put children. -/
def boxTags : List Str := ["Entry".toList, "Group".toList, "Binary".toList, "History".toList, "Binaries".toList]

/-- The tags of the elements whose text methods set. -/
def leafTags : List Str := ["CreationTime".toList, "LastModificationTime".toList, "LastAccessTime".toList,
  "ExpiryTime".toList, "Expires".toList, "Enabled".toList, "DefaultSequence".toList, "Window".toList, "Key".toList,
  "DatabaseName".toList, "DatabaseDescription".toList, "DefaultUserName".toList, "MasterKeyChanged".toList,
  "MasterKeyChangeRec".toList, "MasterKeyChangeForce".toList, "RecycleBinUUID".toList]

/-- One element is as it should be: names are names, texts have only characters XML allows, elements that have or
may get children have no text of only blanks, and elements for text have no children. -/
structure Fine (t : Str) (a : List (Str × Str)) (x : Option Str) (leaf : Bool) : Prop where
  name : Xml.isName t = true
  attrs : ∀ p ∈ a, Xml.isName p.1 = true ∧ XmlText p.2
  once : (a.map Prod.fst).Nodup
  text : ∀ s, x = some s → XmlText s
  inner : leaf = false ∨ t ∈ boxTags → ∀ s, x = some s → s = [] ∨ Xml.blank s = false
  leaf : t ∈ leafTags → leaf = true

/-- All elements of a tree. -/
def TidyXml (x : Xml) : Prop := Xml.All (fun t a x ks => Fine t a x ks.isEmpty) x

/-- All elements of a database. -/
def TidyHeap (h : Heap) : Prop := ∀ j r, j ≠ 0 → h j = some r → Fine r.tag r.attrs r.text r.kids.isEmpty

end Verif.Spec
