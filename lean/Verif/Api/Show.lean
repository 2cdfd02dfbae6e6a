import Verif.Api.Entry
/-!
# How elements are printed: `__str__` and `__repr__`

`__repr__` of entries and groups is `__str__`, `/repo/pykeepass/baseelement.py:165-169`.
-/
namespace Verif.Api
open Verif XPath

/-- `'/'.join(names)`, `/repo/pykeepass/group.py:105`. -/
def joinSlash : List Str → Str
  | [] => []
  | [t] => t
  | t :: ts => t ++ '/' :: joinSlash ts

/-- `'/'.join('' if p is None else p for p in path)`, `/repo/pykeepass/group.py:105`, `/repo/pykeepass/entry.py:445`. -/
def pathStr (p : List (Option Str)) : Str := joinSlash (p.map fun x => x.getD [])

/-- A value as `str.format` prints it. -/
def orNone : Option Str → Str
  | none => "None".toList
  | some v => v

/-- `Group.__str__`, `/repo/pykeepass/group.py:103-106`. -/
def groupStr (g : Nat) : M Str := do
  let p ← groupPath g
  pure ("Group: \"".toList ++ pathStr p ++ "\"".toList)

/-- `for p in path` where the path may be `None`, `/repo/pykeepass/entry.py:445`. -/
def iterPath : Option (List (Option Str)) → M (List (Option Str))
  | none => fail .type
  | some p => pure p

/-- `Entry.__str__`, `/repo/pykeepass/entry.py:443-446`. -/
def entryStr (env : Env) (e : Nat) : M Str := do
  let p ← iterPath (← entryPath env e)
  let u ← getStd env e .username
  pure ("Entry: \"".toList ++ pathStr p ++ " (".toList ++ orNone u ++ ")\"".toList)

/-- `HistoryEntry.__str__`, `/repo/pykeepass/entry.py:451-453`. -/
def historyStr (env : Env) (e : Nat) : M Str := do
  let t ← entryStr env e
  pure ("HistoryEntry: ".toList ++ t)

/-- `Attachment.__repr__`, `/repo/pykeepass/attachment.py:19-20`. -/
def attStr (a : Nat) : M Str := do
  let n ← attName a
  let i ← attId a
  pure ("Attachment: '".toList ++ orNone n ++ "' -> ".toList ++ intStr i)

/-- `Attachment.entry`, `/repo/pykeepass/attachment.py:40-44`. For an element without parent `Entry(element=None)` makes a new
entry without title, which raises `TypeError`; simplification: the uuid this draws is not counted. -/
def attEntry (a : Nat) : M Nat := do
  match ← parentOf a with
  | none => fail .type
  | some p => pure p

end Verif.Api
