import Verif.Api.Db
/-!
# `BaseElement`, `Group`
-/
namespace Verif.Api
open Verif XPath

/-! ## `/repo/pykeepass/baseelement.py` -/

/-- `_get_subelement_text`, `baseelement.py:43-46`. -/
def getSub (e : Nat) (tag : Str) : M (Option Str) := do
  match ← findKid e tag with
  | none => pure none
  | some v => textOf v

/-- `_set_subelement_text`, `baseelement.py:48-52`. -/
def setSub (e : Nat) (tag : Str) (value : Option Str) : M Unit := do
  let v ← findKid e tag
  removeOld e v
  let x ← lift (textEl tag [] value)
  let _ ← make e x

/-- `uuid.UUID(bytes=base64.b64decode(text))`: the 16 bytes. -/
def uuidOfText : Option Str → Except PyErr Bytes
  | none => .error .type
  | some t =>
    match b64decode t with
    | .error e => .error e
    | .ok b => if b.length = 16 then .ok b else .error .value

/-- `uuid` getter, `baseelement.py:67-71`. -/
def getUuid (e : Nat) : M Bytes := do
  let t ← getSub e "UUID".toList
  lift (uuidOfText t)

/-- `uuid` setter, `baseelement.py:73-77`. -/
def setUuid (e : Nat) (b : Bytes) : M Unit := setSub e "UUID".toList (some (b64encode b))

/-- `icon`, `baseelement.py:79-85` and `entry.py:238-245`. -/
def getIcon (e : Nat) : M (Option Str) := getSub e "IconID".toList
def setIcon (e : Nat) (v : Option Str) : M Unit := setSub e "IconID".toList v

/-- The place of an element with its ancestors. -/
def placeOf (e : Nat) : M Loc := fun s =>
  match locOf s.world e with
  | none => (.error .unmodelled, s)
  | some l => (.ok l, s)

/-- `group`, `baseelement.py:54-60`: `(ancestor::Group)[last()]`, the nearest ancestor in document order.
This query has a form of its own and is not run through the XPath model. -/
def groupOf (e : Nat) : M (Option Nat) := do
  let l ← placeOf e
  pure ((l.anc.find? fun p => p.tag == "Group".toList).map Node.id)

/-- `_get_times_property`, `baseelement.py:91-96`. -/
def getTime (e : Nat) (prop : Str) : M (Option DateTime) := do
  match ← findKid e "Times".toList with
  | none => pure none
  | some t =>
    match ← findKid t prop with
    | none => pure none
    | some p =>
      match ← textOf p with
      | none => pure none
      | some x =>
        let ver ← reads Db.version
        let d ← lift (decodeTime ver (some x))
        pure (some d)

/-- `_set_times_property`, `baseelement.py:98-103`. -/
def setTime (e : Nat) (prop : Str) (v : DateTime) : M Unit := do
  match ← findKid e "Times".toList with
  | none => pure ()
  | some t =>
    match ← findKid t prop with
    | none => pure ()
    | some p =>
      let ver ← reads Db.version
      let x ← lift (encodeTime ver v)
      setText p (some x)

/-- `expires` getter, `baseelement.py:105-110`. -/
def getExpires (e : Nat) : M (Option Bool) := do
  let t ← orAttr (← findKid e "Times".toList)
  let x ← orAttr (← findKid t "Expires".toList)
  let d ← textOf x
  pure (d.map fun s => s == "True".toList)

/-- `expires` setter, `baseelement.py:112-115`. -/
def setExpires (e : Nat) (v : Bool) : M Unit := do
  let t ← orAttr (← findKid e "Times".toList)
  let x ← orAttr (← findKid t "Expires".toList)
  setText x (some (pyBool v))

/-- `expired`, `baseelement.py:117-125`. Comparing with `None` raises `TypeError`. -/
def expired (env : Env) (e : Nat) : M Bool := do
  let x ← getExpires e
  if x = some true then
    let now ← nowUtc env
    match ← getTime e "ExpiryTime".toList with
    | none => fail .type
    | some t => lift (now.gt t)
  else pure false

/-- `touch`, `baseelement.py:179-189`. -/
def touch (env : Env) (e : Nat) (modify : Bool) : M Unit := do
  let now ← nowUtc env
  setTime e "LastAccessTime".toList now
  if modify then setTime e "LastModificationTime".toList now

/-- `delete`, `baseelement.py:162-163`. -/
def delete (e : Nat) : M Unit := do
  let p ← orAttr (← parentOf e)
  removeKid p e

/-- `if v: self._element.append(E.Tag(v))`: `baseelement.py:20-21`, `group.py:25-26`. -/
def optText (tag : Str) (v : Option Str) : Except PyErr (List Xml) :=
  match v with
  | none => .ok []
  | some t => if t = [] then .ok [] else do
    let x ← textEl tag [] (some t)
    pure [x]

/-- `expiry_time` as written, `baseelement.py:22-26`: the current time if none is given. -/
def expiryStr (env : Env) (ver : Nat × Nat) (now : Str) : Option DateTime → Except PyErr Str
  | none => .ok now
  | some t => do
    let z ← t.astimezoneUtc env.localOff
    encodeTime ver z

/-- `BaseElement.__init__`, `baseelement.py:14-38`: the children put into a new element. -/
def baseKids (env : Env) (icon : Option Str) (expires : Bool) (expiry : Option DateTime) : M (List Xml) := do
  let u ← newUuid env
  let icons ← lift (optText "IconID".toList icon)
  let now ← nowUtc env
  let ver ← reads Db.version
  let nowStr ← lift (encodeTime ver now)
  let expStr ← lift (expiryStr env ver nowStr expiry)
  let leaf (t : String) (x : Str) : Xml := Xml.mk t.toList [] (some x) []
  pure (leaf "UUID" (b64encode u) :: icons ++ [Xml.mk "Times".toList [] none [
    leaf "CreationTime" nowStr, leaf "LastModificationTime" nowStr, leaf "LastAccessTime" nowStr,
    leaf "ExpiryTime" expStr, leaf "Expires" (pyBool expires), leaf "UsageCount" ['0'],
    leaf "LocationChanged" nowStr]])

/-! ## `/repo/pykeepass/group.py` -/

/-- `name`, `notes`: `group.py:43-59`. -/
def getName (g : Nat) : M (Option Str) := getSub g "Name".toList
def setName (g : Nat) (v : Option Str) : M Unit := setSub g "Name".toList v
def getGroupNotes (g : Nat) : M (Option Str) := getSub g "Notes".toList
def setGroupNotes (g : Nat) (v : Option Str) : M Unit := setSub g "Notes".toList v

/-- `entries`, `subgroups`: `group.py:61-69`. -/
def groupEntries (g : Nat) : M (List Nat) := findKids g "Entry".toList
def groupSubgroups (g : Nat) : M (List Nat) := findKids g "Group".toList

/-- The element whose child the last of these ancestors is: `getparent()` on the way up. -/
def parentIn : List Node → Option Node
  | [] => none
  | q :: _ => if q.id = 0 then none else some q

/-- `is_root_group`, `group.py:71-74`, of a group with the given ancestors. -/
def isRootIn (anc : List Node) : Except PyErr Bool :=
  match parentIn anc with
  | none => .error .attribute
  | some q => .ok (q.tag == "Root".toList)

/-- `group.name` of an element at hand. -/
def nameIn (g : Node) : Option Str := (g.kids.find? fun k => k.tag == "Name".toList).bind Node.text

/-- The loop of `path`, `group.py:83-88` and `entry.py:338-343`: from the ancestors, nearest first, the
names of the groups up to the root group, outermost first. -/
def pathLoop : List Node → List (Option Str) → Except PyErr (List (Option Str))
  | [], path => .ok path
  | p :: anc, path =>
    if p.tag = "Group".toList then
      match isRootIn anc with
      | .error e => .error e
      | .ok true => .ok path
      | .ok false => pathLoop anc (match nameIn p with | none => path | some n => some n :: path)
    else pathLoop anc path

/-- `path` of a group, `group.py:77-88`. -/
def groupPath (g : Nat) : M (List (Option Str)) := do
  let l ← placeOf g
  let root ← lift (isRootIn l.anc)
  if root then pure []
  else if (l.anc.find? fun p => p.tag == "Group".toList).isNone then pure []
  else lift (pathLoop l.anc [nameIn l.node])

/-- `append` of one entry or group, `group.py:90-101`. -/
def groupAppend (g e : Nat) : M Unit := appendEl g e

/-- `append` of a list, `group.py:97-99`. -/
def groupAppendAll (g : Nat) : List Nat → M Unit
  | [] => pure ()
  | e :: es => do appendEl g e; groupAppendAll g es

/-- The position of an element in a list: `children.index(x)`. -/
def indexOf (x : Nat) : List Nat → Option Nat
  | [] => none
  | y :: ys => if y = x then some 0 else (indexOf x ys).map (· + 1)

/-- `_first_entry`, `group.py:37-41`; `StopIteration` without entries. -/
def firstEntry (g : Nat) : M Nat := do
  let cs ← childrenOf g
  let h ← reads Db.heap
  match cs.find? fun c => h.tag c == "Entry".toList with
  | none => fail .exception
  | some c =>
    match indexOf c cs with
    | none => fail .value
    | some i => pure i

/-- The element made by `Group(name, icon=icon, notes=notes, kp=kp)`, `group.py:11-26`. -/
def newGroup (env : Env) (name icon notes : Option Str) : M Xml := do
  let base ← baseKids env icon false none
  let n ← lift (textEl "Name".toList [] name)
  let notes ← lift (optText "Notes".toList notes)
  pure (Xml.mk "Group".toList [] none (base ++ [n] ++ notes))

end Verif.Api
