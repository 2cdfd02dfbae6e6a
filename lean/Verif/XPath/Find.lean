import Verif.XPath.Eval
import Verif.Base.Base64
/-!
# `_find`, `find_entries`, `find_groups`, `find_attachments`
-/
namespace Verif.XPath
open Verif

/-- `/repo/pykeepass/xpath.py:1-10`, `attachment_xp[regex]`, text copied. -/
def attachmentXp : Bool → List (Str × Str)
  | false => [
    ("id".toList, "/Value[@Ref=\"{}\"]/..".toList),
    ("filename".toList, "/Key[text()=\"{}\"]/..".toList)]
  | true => [
    ("id".toList, "/Value[re:test(@Ref, \"{}\", \"{flags}\")]/..".toList),
    ("filename".toList, "/Key[re:test(text(), \"{}\", \"{flags}\")]/..".toList)]

/-- `/repo/pykeepass/xpath.py:12-21`, `path_xp[regex]`, text copied. -/
def pathXp : Bool → List (Str × Str)
  | false => [
    ("group".toList, "/Group/Name[text()=\"{}\"]/..".toList),
    ("entry".toList, "/Entry/String/Key[text()=\"Title\"]/../Value[text()=\"{}\"]/../..".toList)]
  | true => [
    ("group".toList, "/Group/Name[re:test(text(), \"{}\", \"{flags}\")]/..".toList),
    ("entry".toList, "/Entry/String/Key[text()=\"Title\"]/../Value[re:test(text(), \"{}\", \"{flags}\")]/../..".toList)]

/-- `/repo/pykeepass/xpath.py:23-52`, `entry_xp[regex]`, text copied. -/
def entryXp : Bool → List (Str × Str)
  | false => [
    ("title".toList, "/String/Key[text()=\"Title\"]/../Value[text()=\"{}\"]/../..".toList),
    ("username".toList, "/String/Key[text()=\"UserName\"]/../Value[text()=\"{}\"]/../..".toList),
    ("password".toList, "/String/Key[text()=\"Password\"]/../Value[text()=\"{}\"]/../..".toList),
    ("url".toList, "/String/Key[text()=\"URL\"]/../Value[text()=\"{}\"]/../..".toList),
    ("notes".toList, "/String/Key[text()=\"Notes\"]/../Value[text()=\"{}\"]/../..".toList),
    ("uuid".toList, "/UUID[text()=\"{}\"]/..".toList),
    ("tags".toList, "/Tags[{}]/..".toList),
    ("string".toList, "/String/Key[text()=\"{}\"]/../Value[text()=\"{}\"]/../..".toList),
    ("autotype_sequence".toList, "/AutoType/DefaultSequence[text()=\"{}\"]/../..".toList),
    ("autotype_window".toList, "/AutoType/Association/Window[text()=\"{}\"]/../../..".toList),
    ("autotype_enabled".toList, "/AutoType/Enabled[text()=\"{}\"]/../..".toList),
    ("otp".toList, "/String/Key[text()=\"otp\"]/../Value[text()=\"{}\"]/../..".toList)]
  | true => [
    ("title".toList, "/String/Key[text()=\"Title\"]/../Value[re:test(text(), \"{}\", \"{flags}\")]/../..".toList),
    ("username".toList, "/String/Key[text()=\"UserName\"]/../Value[re:test(text(), \"{}\", \"{flags}\")]/../..".toList),
    ("password".toList, "/String/Key[text()=\"Password\"]/../Value[re:test(text(), \"{}\", \"{flags}\")]/../..".toList),
    ("url".toList, "/String/Key[text()=\"URL\"]/../Value[re:test(text(), \"{}\", \"{flags}\")]/../..".toList),
    ("notes".toList, "/String/Key[text()=\"Notes\"]/../Value[re:test(text(), \"{}\", \"{flags}\")]/../..".toList),
    ("uuid".toList, "/UUID[re:test(text(), \"{}\", \"{flags}\")]/..".toList),
    ("tags".toList, "/Tags[{}]/..".toList),
    ("string".toList, "/String/Key[text()=\"{}\"]/../Value[re:test(text(), \"{}\", \"{flags}\")]/../..".toList),
    ("autotype_sequence".toList, "/AutoType/DefaultSequence[re:test(text(), \"{}\", \"{flags}\")]/../..".toList),
    ("autotype_window".toList, "/AutoType/Association/Window[re:test(text(), \"{}\", \"{flags}\")]/../../..".toList),
    ("autotype_enabled".toList, "/AutoType/Enabled[re:test(text(), \"{}\", \"{flags}\")]/../..".toList),
    ("otp".toList, "/String/Key[text()=\"otp\"]/../Value[re:test(text(), \"{}\", \"{flags}\")]/../..".toList)]

/-- `/repo/pykeepass/xpath.py:54-65`, `group_xp[regex]`, text copied. -/
def groupXp : Bool → List (Str × Str)
  | false => [
    ("name".toList, "/Name[text()=\"{}\"]/..".toList),
    ("uuid".toList, "/UUID[text()=\"{}\"]/..".toList),
    ("notes".toList, "/Notes[text()=\"{}\"]/..".toList)]
  | true => [
    ("name".toList, "/Name[re:test(text(), \"{}\", \"{flags}\")]/..".toList),
    ("uuid".toList, "/UUID[re:test(text(), \"{}\", \"{flags}\")]/..".toList),
    ("notes".toList, "/Notes[re:test(text(), \"{}\", \"{flags}\")]/..".toList)]

/-- One keyword argument of a search. `attr` is any other keyword with its value as `str.format`
prints it (`None` is `none`). `uuid=None`, `tags=None` and `string=None`
are dealt with in `XPath/Given`. -/
inductive Kw where
  | attr (key : Str) (v : Option Str)
  | uuid (b : Bytes)
  | tags (ts : List Str)
  | string (d : List (Str × Str))
  deriving DecidableEq, Repr

/-- The arguments of `_find`, `/repo/pykeepass/pykeepass.py:377-378`. -/
structure FindArgs where
  path : Option (List Str) := none
  tree : Option Nat := none
  first : Bool := false
  history : Bool := false
  regex : Bool := false
  flags : Option Str := none
  kwargs : List Kw := []
  deriving DecidableEq, Repr

/-- `'{flags}'.format(flags=flags)`. -/
def flagsStr : Option Str → Str
  | none => "None".toList
  | some f => f

/-- Append the template of `key` filled with `vals`. -/
def addKey (xp : Bool → List (Str × Str)) (a : FindArgs) (missing : PyErr) (key : Str)
    (vals : List Str) (q : Str) : Except PyErr Str :=
  match (xp a.regex).lookup key with
  | none => .error missing
  | some t => .ok (q ++ fmt t vals (flagsStr a.flags))

/-- `' and '.join(f'contains(text(),"{t}")' for t in tags)`, `pykeepass.py:422`. -/
def tagsPred : List Str → Str
  | [] => []
  | [t] => "contains(text(),\"".toList ++ t ++ "\")".toList
  | t :: ts => "contains(text(),\"".toList ++ t ++ "\")".toList ++ " and ".toList ++ tagsPred ts

/-- The loop over custom strings, `pykeepass.py:410-411`. -/
def addStrings (xp : Bool → List (Str × Str)) (a : FindArgs) : List (Str × Str) → Str → Except PyErr Str
  | [], q => .ok q
  | (k, v) :: d, q => do
    let q ← addKey xp a .key "string".toList [k, v] q
    addStrings xp a d q

/-- `pykeepass.py:408-413`: the `string` argument comes first wherever it was given (there is at
most one, keyword arguments being distinct). -/
def addString (xp : Bool → List (Str × Str)) (a : FindArgs) : List Kw → Str → Except PyErr Str
  | [], q => .ok q
  | .string d :: ks, q => do
    let q ← addStrings xp a d q
    addString xp a ks q
  | _ :: ks, q => addString xp a ks q

/-- The loop over the other arguments, `pykeepass.py:415-429`. -/
def addKws (xp : Bool → List (Str × Str)) (a : FindArgs) : List Kw → Str → Except PyErr Str
  | [], q => .ok q
  | .string _ :: ks, q => addKws xp a ks q
  | .uuid b :: ks, q => do
    let q ← addKey xp a .type "uuid".toList [b64encode b] q
    addKws xp a ks q
  | .tags ts :: ks, q => do
    let q ← addKey xp a .type "tags".toList [tagsPred ts] q
    addKws xp a ks q
  | .attr k none :: ks, q =>
    if ((xp a.regex).lookup k).isNone then .error .type else addKws xp a ks q
  | .attr k (some v) :: ks, q => do
    let q ← addKey xp a .type k [v] q
    addKws xp a ks q

/-- The loop over the groups of a path, `pykeepass.py:395-396`. -/
def pathGroups (a : FindArgs) : List Str → Str → Except PyErr Str
  | [], q => .ok q
  | g :: gs, q => do
    let q ← addKey pathXp a .key "group".toList [g] q
    pathGroups a gs q

/-- The query text built by `_find`, `/repo/pykeepass/pykeepass.py:377-429`. -/
def buildQuery (pre : Str) (xp : Bool → List (Str × Str)) (a : FindArgs) : Except PyErr Str :=
  let pre := if a.history then pre else pre ++ "[not(ancestor::History)]".toList
  match a.path with
  | some p => do
    let element := p.getLastD []
    let q ← pathGroups a p.dropLast "/KeePassFile/Root/Group".toList
    if isInfix "Entry".toList pre then addKey pathXp a .key "entry".toList [element] q
    else if element ≠ [] ∧ isInfix "Group".toList pre then addKey pathXp a .key "group".toList [element] q
    else pure q
  | none => do
    let q := (if a.tree.isSome then ['.'] else []) ++ pre
    let q ← addString xp a a.kwargs q
    addKws xp a a.kwargs q

/-- The casts in `xpath`, `/repo/pykeepass/pykeepass.py:355-367`. -/
def castOk (l : Loc) : Except PyErr Unit :=
  if l.node.tag = "Entry".toList then .ok ()
  else if l.node.tag = "Group".toList then .ok ()
  else if l.node.tag = "Binary".toList then
    match l.anc with
    | [] => .error .attribute
    | p :: _ =>
      if p.id = 0 then .error .attribute
      else if p.tag = "Entry".toList then .ok () else .error .exception
  else .error .exception

def castAll : List Loc → Except PyErr Unit
  | [] => .ok ()
  | l :: ls => do castOk l; castAll ls

/-- A list of elements, or with `first=True` one element or `None`. Elements are given by id. -/
inductive Found where
  | list (l : List Nat)
  | one (o : Option Nat)
  deriving DecidableEq, Repr

/-- `_find`, `/repo/pykeepass/pykeepass.py:377-439`. -/
def find (re : Regex) (w : Node) (pre : Str) (xp : Bool → List (Str × Str)) (a : FindArgs) :
    Except PyErr Found := do
  let q ← buildQuery pre xp a
  let ls ← query re w a.tree q
  castAll ls
  let is := ls.map fun l => l.node.id
  pure (if a.first || a.path.isSome then .one is.head? else .list is)

/-- `find_groups`, `/repo/pykeepass/pykeepass.py:506-508`. -/
def findGroups (re : Regex) (w : Node) (recursive : Bool) (a : FindArgs) : Except PyErr Found :=
  find re w (if recursive then "//Group".toList else "/Group".toList) groupXp a

/-- `find_entries`, `/repo/pykeepass/pykeepass.py:644-647`. -/
def findEntries (re : Regex) (w : Node) (recursive : Bool) (a : FindArgs) : Except PyErr Found :=
  find re w (if recursive then "//Entry".toList else "/Entry".toList) entryXp a

/-- `find_attachments`, `/repo/pykeepass/pykeepass.py:760-763`. -/
def findAttachments (re : Regex) (w : Node) (recursive : Bool) (a : FindArgs) : Except PyErr Found :=
  find re w (if recursive then "//Binary".toList else "/Binary".toList) attachmentXp a

end Verif.XPath
