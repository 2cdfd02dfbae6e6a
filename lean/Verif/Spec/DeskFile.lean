import Verif.Spec.Desk
import Verif.Spec.VaultFile
/-!
# An office and the one read back from its file
-/
namespace Verif.Spec
open Verif Api

/-- A stored text as it is read back. -/
def Stored.emptied (b : Stored) : Stored := { b with text := Spec.emptied b.text }

/-- The desk `e` is what is read back of `d`: the settings and the data, but for empty texts. The credentials are those given to open the file. -/
structure DeskBack (d e : Desk) : Prop where
  texts : ∀ n, e.texts n = (d.texts n).map emptied
  shelves : e.shelves = d.shelves.map fun l => l.map Stored.emptied

structure OfficeBack (R : Nat → Nat → Prop) (o u : Office) : Prop where
  vault : FromFile R o.vault u.vault
  desk : DeskBack o.desk u.desk
  version : u.vault.version = o.vault.version
  /-- The data of KDBX4. -/
  stock : versionGe4 o.vault.version = true → u.desk.stock = o.desk.stock

/-- No data has an empty text and claims to be compressed. -/
def Office.Packed (o : Office) : Prop := ∀ l ∈ o.desk.shelves, ∀ b ∈ l, b.text = some [] → b.compressed ≠ some "True".toList

end Verif.Spec
