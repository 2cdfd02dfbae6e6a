import Verif.Api.Element
/-!
# `Entry` and `Attachment`
-/
namespace Verif.Api
open Verif XPath

/-- `entry.py:12-23`. -/
def reservedKeys : List Str := ["Title".toList, "UserName".toList, "Password".toList, "URL".toList,
  "Tags".toList, "IconID".toList, "Times".toList, "History".toList, "Notes".toList, "otp".toList]

/-- `'String/Key[text()="{}"]/..'.format(key)`. -/
def fieldQuery (key : Str) : Str := fmt "String/Key[text()=\"{}\"]/..".toList [key] []
/-- `'String/Key[text()="{}"]/../Value'.format(key)`. -/
def valueQuery (key : Str) : Str := fmt "String/Key[text()=\"{}\"]/../Value".toList [key] []

/-- `_get_string_field`, `entry.py:81-93`. -/
def getField (env : Env) (e : Nat) (key : Str) : M (Option Str) := do
  match ← xpathFirst env (some e) (valueQuery key) with
  | none => pure none
  | some v => textOf v

/-- `E.String(E.Key(key), E.Value(value, Protected=p))`. -/
def stringEl (key : Str) (value : Option Str) (p : Option Str) : Except PyErr Xml := do
  let k ← textEl "Key".toList [] (some key)
  let v ← textEl "Value".toList (match p with | none => [] | some x => [("Protected".toList, x)]) value
  pure (Xml.mk "String".toList [] none [k, v])

/-- The `Protected` attribute of the new value, `entry.py:113-118`: as asked for, or that of the old value. -/
def markFor (env : Env) (e : Nat) (key : Str) : Option Bool → M (Option Str)
  | some b => pure (some (pyBool b))
  | none => do
    match ← xpathFirst env (some e) (valueQuery key) with
    | none => pure none
    | some v => attrOf v "Protected".toList

/-- `_set_string_field`, `entry.py:95-123`. -/
def setField (env : Env) (e : Nat) (key : Str) (value : Option Str) (prot : Option Bool := none) : M Unit := do
  let field ← xpathFirst env (some e) (fieldQuery key)
  let p ← markFor env e key prot
  removeOld e field
  let x ← lift (stringEl key value p)
  let _ ← make e x

/-- `x.find('Key').text` for each of the elements. -/
def keyTexts : List Nat → M (List (Option Str))
  | [] => pure []
  | x :: xs => do
    let k ← orAttr (← findKid x "Key".toList)
    let t ← textOf k
    let ts ← keyTexts xs
    pure (t :: ts)

/-- `_get_string_field_keys`, `entry.py:125-130`. -/
def fieldKeys (e : Nat) (excludeReserved : Bool) : M (List (Option Str)) := do
  let ks ← keyTexts (← findKids e "String".toList)
  pure (if excludeReserved then ks.filter fun k => !(reservedKeys.any fun r => k == some r) else ks)

/-- `index`, `entry.py:132-139`. -/
def entryIndex (e : Nat) : M Int := do
  let g ← orAttr (← groupOf e)
  let cs ← childrenOf g
  let first ← firstEntry g
  match indexOf e cs with
  | none => fail .value
  | some i => pure ((i : Int) - first)

/-- `reindex`, `entry.py:141-150`. -/
def reindex (e : Nat) (new : Int) : M Unit := do
  let g ← orAttr (← groupOf e)
  let first ← firstEntry g
  removeKid g e
  insertEl g (new + first) e

/-- The standard string fields: `title`, `username`, `url`, `notes`, `entry.py:190-236`. -/
inductive Field where
  | title | username | password | url | notes | otp
  deriving DecidableEq, Repr

def Field.key : Field → Str
  | .title => "Title".toList
  | .username => "UserName".toList
  | .password => "Password".toList
  | .url => "URL".toList
  | .notes => "Notes".toList
  | .otp => "otp".toList

/-- The getters, `entry.py:190-236,259-262`. -/
def getStd (env : Env) (e : Nat) (f : Field) : M (Option Str) := getField env e f.key

/-- The setters, `entry.py:195-236,264-269`: `password` and `otp` mark a new or empty field protected. -/
def setStd (env : Env) (e : Nat) (f : Field) (v : Option Str) : M Unit := do
  match f with
  | .password | .otp => do
    let old ← getField env e f.key
    if old.getD [] ≠ [] then setField env e f.key v else setField env e f.key v (some true)
  | _ => setField env e f.key v

/-- `s.split(sep)` for one character. -/
def splitOn (c : Char) : Str → List Str
  | [] => [[]]
  | x :: xs =>
    if x = c then [] :: splitOn c xs
    else match splitOn c xs with
      | [] => [[x]]
      | y :: ys => (x :: y) :: ys

/-- `';'.join(tags)`. -/
def joinTags : List Str → Str
  | [] => []
  | [t] => t
  | t :: ts => t ++ ';' :: joinTags ts

/-- `tags` getter, `entry.py:247-251`. -/
def getTags (e : Nat) : M (List Str) := do
  match ← getSub e "Tags".toList with
  | none => pure []
  | some v => pure (if v = [] then [] else splitOn ';' (v.map fun c => if c = ',' then ';' else c))

/-- `tags` setter with a list, `entry.py:253-257`; a single string is a list of one. -/
def setTags (e : Nat) (ts : List Str) : M Unit := setSub e "Tags".toList (some (joinTags ts))

/-- `history`, `entry.py:271-277`. -/
def history (e : Nat) : M (List Nat) := do
  match ← findKid e "History".toList with
  | none => pure []
  | some h => findKids h "Entry".toList

/-- `autotype_enabled`, `entry.py:283-296`. -/
def getAutoEnabled (e : Nat) : M (Option Bool) := do
  let x ← orAttr (← findDeep e ["AutoType".toList, "Enabled".toList])
  let t ← textOf x
  pure (t.map fun s => s == "True".toList)
def setAutoEnabled (e : Nat) (v : Option Bool) : M Unit := do
  let x ← findDeep e ["AutoType".toList, "Enabled".toList]
  let x ← orAttr x
  setText x (v.map pyBool)

/-- `autotype_sequence`, `autotype_window`: `entry.py:298-320`; `''` reads as `None`. -/
def autoPath (window : Bool) : List Str :=
  if window then ["AutoType".toList, "Association".toList, "Window".toList]
  else ["AutoType".toList, "DefaultSequence".toList]
def getAuto (e : Nat) (window : Bool) : M (Option Str) := do
  match ← findDeep e (autoPath window) with
  | none => pure none
  | some x =>
    let t ← textOf x
    pure (if t = some [] then none else t)
def setAuto (e : Nat) (window : Bool) (v : Option Str) : M Unit := do
  let x ← orAttr (← findDeep e (autoPath window))
  setText x v

/-- `is_a_history_entry`, `entry.py:322-328`. -/
def isHistoryEntry (e : Nat) : M Bool := do
  match ← parentOf e with
  | none => pure false
  | some p =>
    let t ← tagOf p
    pure (t == "History".toList)

/-- `path`, `entry.py:330-344`; `None` is `none`. -/
def entryPath (env : Env) (e : Nat) : M (Option (List (Option Str))) := do
  let l ← placeOf e
  if (l.anc.find? fun p => p.tag == "Group".toList).isNone then pure none
  else
    let t ← getStd env e .title
    let r ← lift (pathLoop l.anc [t])
    pure (some r)

/-- `set_custom_property`, `entry.py:346-348`. -/
def setCustom (env : Env) (e : Nat) (key : Str) (value : Option Str) (protect : Bool) : M Unit :=
  if key ∈ reservedKeys then fail .assertion else setField env e key value (some protect)

/-- `get_custom_property`, `entry.py:350-352`. -/
def getCustom (env : Env) (e : Nat) (key : Str) : M (Option Str) :=
  if key ∈ reservedKeys then fail .assertion else getField env e key

/-- `delete_custom_property`, `entry.py:354-360`. -/
def deleteCustom (env : Env) (e : Nat) (key : Str) : M Unit := do
  let ks ← fieldKeys e true
  if some key ∈ ks then
    match ← xpathFirst env (some e) (fieldQuery key) with
    | none => fail .attribute
    | some f => removeKid e f
  else fail .attribute

/-- `_is_property_protected`, `entry.py:378-383`. -/
def isProtected (env : Env) (e : Nat) (key : Str) : M Bool := do
  match ← xpathFirst env (some e) (valueQuery key) with
  | none => pure false
  | some v =>
    let a ← attrOf v "Protected".toList
    pure (a.getD "False".toList == "True".toList)

/-- `is_custom_property_protected`, `entry.py:362-376`. -/
def isCustomProtected (env : Env) (e : Nat) (key : Str) : M Bool :=
  if key ∈ reservedKeys then fail .assertion else isProtected env e key

/-- The loop of `custom_properties`: the value of every key; `None` is formatted as `None`. -/
def customLoop (env : Env) (e : Nat) : List (Option Str) → M (List (Option Str × Option Str))
  | [] => pure []
  | k :: ks => do
    let v ← getField env e (k.getD "None".toList)
    let r ← customLoop env e ks
    pure ((k, v) :: r)

/-- A dictionary built by assignments in order: keys keep their first place, values the last. -/
def dictOf : List (Option Str × Option Str) → List (Option Str × Option Str)
  | [] => []
  | p :: r =>
    let d := dictOf r
    (p.1, (d.lookup p.1).getD p.2) :: d.filter fun q => q.1 != p.1

/-- `custom_properties`, `entry.py:385-391`. -/
def customProps (env : Env) (e : Nat) : M (List (Option Str × Option Str)) := do
  let ks ← fieldKeys e true
  let r ← customLoop env e ks
  pure (dictOf r)

/-- The subtree of an element, without identities: what `deepcopy` copies. -/
def contentOf (e : Nat) : M Xml := fun s =>
  match s.world.get? e with
  | none => (.error .unmodelled, s)
  | some n => (.ok n.xml, s)

/-- Without the first child with the tag. -/
def dropFirst (t : Str) : List Xml → List Xml
  | [] => []
  | k :: ks => if k.tag = t then ks else k :: dropFirst t ks

/-- `save_history`, `entry.py:414-427`. -/
def saveHistory (e : Nat) : M Unit := do
  let archive ← contentOf e
  match ← findKid e "History".toList with
  | some h =>
    let _ ← make h (Xml.mk archive.tag archive.attrs archive.text (dropFirst "History".toList archive.kids))
  | none =>
    let _ ← make e (Xml.mk "History".toList [] none [archive])

/-- `delete_history`, `entry.py:429-441`. `None` as the element to remove raises `TypeError`. -/
def deleteHistory (e : Nat) (h : Option Nat) (all : Bool) : M Unit := do
  if all then
    match ← findKid e "History".toList with
    | none => fail .type
    | some x => removeKid e x
  else
    let x ← orAttr (← findKid e "History".toList)
    let y ← orAttr h
    removeKid x y

/-- `ref`, `entry.py:393-412`. Other attribute names raise `KeyError`. -/
def refLetter (name : Str) : Option Char :=
  [("title".toList, 'T'), ("username".toList, 'U'), ("password".toList, 'P'), ("url".toList, 'A'),
    ("notes".toList, 'N'), ("uuid".toList, 'I')].lookup name
def ref (e : Nat) (name : Str) : M Str := do
  match refLetter name with
  | none => fail .key
  | some c =>
    let u ← getUuid e
    pure ("{REF:".toList ++ [c] ++ "@I:".toList ++ hexEncodeU u ++ "}".toList)

/-! ## `/repo/pykeepass/attachment.py` -/

/-- `id` getter, `attachment.py:22-25`. -/
def attId (a : Nat) : M Int := do
  let v ← orAttr (← findKid a "Value".toList)
  match ← attrOf v "Ref".toList with
  | none => fail .key
  | some r => lift (pyInt r)

/-- `id` setter, `attachment.py:27-29`. -/
def setAttId (a : Nat) (i : Int) : M Unit := do
  let v ← orAttr (← findKid a "Value".toList)
  setAttr v "Ref".toList (intStr i)

/-- `filename`, `attachment.py:31-38`. -/
def attName (a : Nat) : M (Option Str) := do
  let k ← orAttr (← findKid a "Key".toList)
  textOf k
def setAttName (a : Nat) (v : Option Str) : M Unit := do
  let k ← orAttr (← findKid a "Key".toList)
  setText k v

/-- `add_attachment`, `entry.py:162-180`. -/
def addAttachment (e : Nat) (id : Int) (filename : Option Str) : M Nat := do
  let k ← lift (textEl "Key".toList [] filename)
  make e (Xml.mk "Binary".toList [] none [k, Xml.mk "Value".toList [("Ref".toList, intStr id)] none []])

/-- `entry.attachments`, `entry.py:152-160`. -/
def entryAttachments (env : Env) (e : Nat) : M (List Nat) := fun s =>
  (foundList (findAttachments env.re s.world false
    { tree := some e, regex := true, kwargs := [.attr "filename".toList (some ".*".toList)] }), s)

/-- The arguments of `Entry(...)`. -/
structure EntryArgs where
  title : Option Str
  username : Option Str
  password : Option Str
  url : Option Str := none
  notes : Option Str := none
  expiry : Option DateTime := none
  tags : Option (List Str) := none
  otp : Option Str := none
  icon : Option Str := none
  deriving DecidableEq, Repr

/-- An optional string field of a new entry: left out when `None` or empty. -/
def optString (key : Str) (v : Option Str) (p : Option Str) : Except PyErr (List Xml) :=
  match v with
  | none => .ok []
  | some t => if t = [] then .ok [] else do
    let x ← stringEl key (some t) p
    pure [x]

/-- `if tags: self._element.append(E.Tags(...))`, `entry.py:54-57`. -/
def optTags : Option (List Str) → Except PyErr (List Xml)
  | none => .ok []
  | some ts => if ts = [] then .ok [] else do
    let x ← textEl "Tags".toList [] (some (joinTags ts))
    pure [x]

/-- The element made by `Entry(...)` as called by `add_entry`, `entry.py:27-69`. The auto-type arguments are
never passed and have their default values. -/
def newEntry (env : Env) (a : EntryArgs) : M Xml := do
  let base ← baseKids env a.icon a.expiry.isSome a.expiry
  let t ← lift (stringEl "Title".toList a.title none)
  let u ← lift (stringEl "UserName".toList a.username none)
  let p ← lift (stringEl "Password".toList a.password (some "True".toList))
  let url ← lift (optString "URL".toList a.url none)
  let notes ← lift (optString "Notes".toList a.notes none)
  let otp ← lift (optString "otp".toList a.otp (some "True".toList))
  let tags ← lift (optTags a.tags)
  let leaf (t : String) (x : Str) : Xml := Xml.mk t.toList [] (some x) []
  let auto := Xml.mk "AutoType".toList [] none [leaf "Enabled" "True".toList, leaf "DataTransferObfuscation" ['0'],
    leaf "DefaultSequence" [], Xml.mk "Association".toList [] none [leaf "Window" [], leaf "KeystrokeSequence" []]]
  pure (Xml.mk "Entry".toList [] none (base ++ [t, u, p] ++ url ++ notes ++ otp ++ tags ++ [auto]))

end Verif.Api
