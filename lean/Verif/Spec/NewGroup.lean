import Verif.Spec.NewEntry
/-!
# The content of a new group
-/
namespace Verif.Spec
open Verif Api

/-- What the arguments of `add_group` ask for: the elements `Group.__init__` writes, `/repo/pykeepass/group.py:11-26` and
`/repo/pykeepass/baseelement.py:14-38`. -/
def groupXml (u : Bytes) (now n : Str) (icon notes : Option Str) : Xml :=
  Xml.mk "Group".toList [] none (
    [leafX "UUID" (b64encode u)] ++ optLeaf "IconID" icon ++ [timesX now now false] ++ [leafX "Name" n] ++ optLeaf "Notes" notes)

/-- Arguments `Group(...)` accepts. -/
structure GroupArgsOk (env : Env) (s : Db) (name icon notes : Option Str) (now n : Str) : Prop where
  name : name = some n ∧ XmlText n
  icon : ∀ w, icon = some w → XmlText w
  notes : ∀ w, notes = some w → XmlText w
  stamp : encodeTime s.version (env.now s.ticks) = .ok now

end Verif.Spec
