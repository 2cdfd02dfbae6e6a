import Verif.Api.Entry
/-!
# The methods of `PyKeePass` on the open database
-/
namespace Verif.Api
open Verif XPath

/-- `find_entries`, `find_groups`, `find_attachments` with one result, and with a list. -/
def findEntry (env : Env) (recursive : Bool) (a : FindArgs) : M (Option Nat) := fun s =>
  (foundOne (findEntries env.re s.world recursive a), s)
def findEntryList (env : Env) (recursive : Bool) (a : FindArgs) : M (List Nat) := fun s =>
  (foundList (findEntries env.re s.world recursive a), s)
def findGroup (env : Env) (recursive : Bool) (a : FindArgs) : M (Option Nat) := fun s =>
  (foundOne (findGroups env.re s.world recursive a), s)
def findGroupList (env : Env) (recursive : Bool) (a : FindArgs) : M (List Nat) := fun s =>
  (foundList (findGroups env.re s.world recursive a), s)
def findAttachmentList (env : Env) (recursive : Bool) (a : FindArgs) : M (List Nat) := fun s =>
  (foundList (findAttachments env.re s.world recursive a), s)

/-- `root_group`, `/repo/pykeepass/pykeepass.py:246-249`: `find_groups(path='', first=True)`. -/
def rootGroup (env : Env) : M (Option Nat) := findGroup env true { path := some [], first := true }

/-- `'/KeePassFile/Meta/' + name`. -/
def metaQuery (name : Str) : Str := "/KeePassFile/Meta/".toList ++ name

/-- The element of a setting in `Meta`. -/
def metaEl (env : Env) (name : Str) : M (Option Nat) := xpathFirst env none (metaQuery name)

/-- `recyclebin_group`, `pykeepass.py:251-256`. -/
def recycleBin (env : Env) : M (Option Nat) := do
  let el ← orAttr (← metaEl env "RecycleBinUUID".toList)
  let t ← textOf el
  let u ← lift (uuidOfText t)
  findGroup env true { first := true, kwargs := [.uuid u] }

/-- `database_name`, `database_description`, `default_username`: `pykeepass.py:270-301`, and the text
settings used below. -/
def getMeta (env : Env) (name : Str) : M (Option Str) := do
  let el ← orAttr (← metaEl env name)
  textOf el
def setMeta (env : Env) (name : Str) (v : Str) : M Unit := do
  let el ← orAttr (← metaEl env name)
  setText el (some v)

/-- `__eq__` of two elements that are not history entries: the same uuid. Simplification: the hash of the
uuid is taken to be injective. `baseelement.py:171-177`. -/
def sameUuid (a b : Nat) : M Bool := do
  let x ← getUuid a
  let y ← getUuid b
  pure (x == y)

/-- `x == y` where `y` may be `None`: then false. -/
def eqOpt (x : Nat) : Option Nat → M Bool
  | none => pure false
  | some r => sameUuid x r

/-- `_can_be_moved_to_recyclebin`, `pykeepass.py:441-449`. Comparing with `None` is false. -/
def canBeTrashed (env : Env) (x : Nat) : M Bool := do
  let r ← rootGroup env
  let same ← eqOpt x r
  if same then pure false
  else
    match ← recycleBin env with
    | none => pure true
    | some bin =>
      let u ← getUuid x
      let el ← xpathFirst env (some bin) (fmt "./UUID[text()=\"{}\"]/..".toList [b64encode u] [])
      pure el.isNone

/-- `add_group`, `pykeepass.py:510-530`. -/
def addGroup (env : Env) (dest : Nat) (name icon notes : Option Str) : M Nat := do
  let x ← newGroup env name icon notes
  make dest x

/-- `delete_group`, `delete_entry`, `move_group`, `move_entry`: `pykeepass.py:532-537,712-727`. -/
def deleteGroup (g : Nat) : M Unit := delete g
def deleteEntry (e : Nat) : M Unit := delete e
def moveGroup (g dest : Nat) : M Unit := groupAppend dest g
def moveEntry (e dest : Nat) : M Unit := groupAppend dest e

/-- `_create_or_get_recyclebin_group`, `pykeepass.py:539-547`. -/
def binGroup (env : Env) : M Nat := do
  match ← recycleBin env with
  | some g => pure g
  | none =>
    let root ← rootGroup env
    let x ← newGroup env (some "Recycle Bin".toList) none none
    let root ← orAttr root
    let g ← make root x
    let el ← orAttr (← metaEl env "RecycleBinUUID".toList)
    let u ← getUuid g
    setText el (some (b64encode u))
    pure g

/-- `trash_group`, `trash_entry`: `pykeepass.py:549-560,729-740`. -/
def trash (env : Env) (x : Nat) : M Unit := do
  let ok ← canBeTrashed env x
  if ok then
    let bin ← binGroup env
    groupAppend bin x
  else fail .unableToRecycle

/-- Delete the first element of a list that is read again after every deletion; `n` bounds the number of
rounds. -/
def emptyLoop (g : Nat) (tag : Str) : Nat → M Unit
  | 0 => do
    match ← findKids g tag with
    | [] => pure ()
    | _ :: _ => fail .recursion
  | n + 1 => do
    match ← findKids g tag with
    | [] => pure ()
    | x :: _ => delete x; emptyLoop g tag n

/-- `empty_group`, `pykeepass.py:562-573`. The loops are bounded by the number of children; that the bound
suffices is part of the property. -/
def emptyGroup (g : Nat) : M Unit := do
  let n ← reads fun s => (s.heap.kids g).length
  emptyLoop g "Group".toList n
  emptyLoop g "Entry".toList n

/-- The search of `add_entry` for an entry with the same title and username, `pykeepass.py:679-685`. -/
def dupArgs (dest : Nat) (a : EntryArgs) : FindArgs :=
  { tree := some dest, first := true
    kwargs := [.attr "title".toList a.title, .attr "username".toList a.username] }

/-- `add_entry`, `pykeepass.py:650-710`. The message of the exception names the destination group. -/
def addEntry (env : Env) (dest : Nat) (a : EntryArgs) (force : Bool) : M Nat := do
  let found ← findEntry env false (dupArgs dest a)
  if found.isSome && !force then do
    let _ ← groupPath dest
    fail .exception
  else do
    let x ← newEntry env a
    make dest x

/-! ## Binaries -/

/-- The data of a `Binary` element of a KDBX3 database, `pykeepass.py:779-789`. -/
def binaryData (env : Env) (h : Heap) (i : Nat) : Except PyErr Bytes :=
  match h.text i with
  | none => .ok []
  | some t =>
    if h.attr i "Compressed".toList = some "True".toList then
      match b64decode t with
      | .error e => .error e
      | .ok b => env.gunzip b
    else b64decode t

/-- `list.insert(i, x)`. -/
def listInsert {α} (l : List α) (i : Int) (x : α) : List α :=
  let k : Nat := if 0 ≤ i then i.toNat else (i + l.length).toNat
  l.take k ++ x :: l.drop k

/-- `int(elem.attrib['ID'])`, `pykeepass.py:790`. -/
def binaryId (h : Heap) (i : Nat) : Except PyErr Int :=
  match h.attr i "ID".toList with
  | none => .error .key
  | some t => pyInt t

/-- The loop of `binaries` for KDBX3, `pykeepass.py:778-790`. -/
def binariesLoop (env : Env) (h : Heap) : List Nat → List Bytes → Except PyErr (List Bytes)
  | [], acc => .ok acc
  | i :: is, acc => do
    let d ← binaryData env h i
    let n ← binaryId h i
    binariesLoop env h is (listInsert acc n d)

/-- `binaries`, `pykeepass.py:770-792`. -/
def binaries (env : Env) : M (List Bytes) := do
  let ver ← reads Db.version
  if versionGe4 ver then reads fun s => s.binaries.map (List.drop 1)
  else
    let els ← xpath env none "/KeePassFile/Meta/Binaries/Binary".toList
    let h ← reads Db.heap
    lift (binariesLoop env h els [])

/-- `add_binary`, `pykeepass.py:794-838`. -/
def addBinary (env : Env) (data : Bytes) (compressed prot : Bool) : M Int := do
  let ver ← reads Db.version
  if versionGe4 ver then
    change fun s => { s with binaries := s.binaries ++ [(if prot then 1 else 0) :: data] }
    let bs ← binaries env
    pure ((bs.length : Int) - 1)
  else
    let el ← xpathFirst env none (metaQuery "Binaries".toList)
    let text := b64encode (if compressed then env.gzip data else data)
    let bs ← binaries env
    let el ← orAttr el
    let _ ← make el (Xml.mk "Binary".toList [("ID".toList, natStr bs.length), ("Compressed".toList, pyBool compressed)]
      (some text) [])
    let bs ← binaries env
    pure ((bs.length : Int) - 1)

/-- The position `l[i]` denotes. -/
def pyIndex (len : Nat) (i : Int) : Option Nat :=
  if 0 ≤ i then (if i < len then some i.toNat else none)
  else if 0 ≤ i + len then some (i + len).toNat else none

/-- `reference.delete()` for each of the elements. -/
def deleteAll : List Nat → M Unit
  | [] => pure ()
  | a :: as => do delete a; deleteAll as

/-- `reference.id = reference.id - 1` for each of the elements. -/
def decrementAll : List Nat → M Unit
  | [] => pure ()
  | a :: as => do
    let i ← attId a
    setAttId a (i - 1)
    decrementAll as

/-- The casts of `xpath(..., cast=True)`. -/
def xpathCast (env : Env) (q : Str) : M (List Nat) := fun s =>
  ((do
    let ls ← query env.re s.world none q
    castAll ls
    pure (ls.map fun l => l.node.id)), s)

/-- The first part of `delete_binary`: remove the binary itself, `pykeepass.py:852-861`. -/
def popBinary (env : Env) (id : Int) : M Unit := do
  let ver ← reads Db.version
  if versionGe4 ver then
    let bs ← reads Db.binaries
    match pyIndex bs.length id with
    | none => fail .binary
    | some k => change fun s => { s with binaries := s.binaries.eraseIdx k }
  else
    let el ← orAttr (← xpathFirst env none (metaQuery "Binaries".toList))
    let cs ← childrenOf el
    match (pyIndex cs.length id).bind (cs[·]?) with
    | none => fail .binary
    | some c => removeKid el c

/-- `delete_binary`, `pykeepass.py:840-873`. -/
def deleteBinary (env : Env) (id : Int) : M Unit := do
  popBinary env id
  let refs ← findAttachmentList env true { kwargs := [.attr "id".toList (some (intStr id))] }
  deleteAll refs
  let gt ← xpathCast env (fmt "//Binary/Value[@Ref > \"{}\"]/..".toList [intStr id] [])
  decrementAll gt

/-- `binaries[id]`; an `IndexError` becomes a `BinaryError`, `attachment.py:49-52`. -/
def binaryAt (bs : List Bytes) (i : Int) : Except PyErr Bytes :=
  match pyIndex bs.length i with
  | none => .error .binary
  | some k =>
    match bs[k]? with
    | none => .error .binary
    | some b => .ok b

/-- `attachment.binary`, `attachment.py:46-52`. -/
def attBinary (env : Env) (a : Nat) : M Bytes := do
  let bs ← binaries env
  let i ← attId a
  lift (binaryAt bs i)

/-- `kp.attachments`, `pykeepass.py:765-768`. -/
def allAttachments (env : Env) : M (List Nat) :=
  findAttachmentList env true { regex := true, kwargs := [.attr "filename".toList (some ".*".toList)] }

/-! ## Credentials -/

/-- `credchange_date` getter and setter, `pykeepass.py:962-972`. -/
def credDate (env : Env) : M (Option DateTime) := do
  match ← metaEl env "MasterKeyChanged".toList with
  | none => pure none
  | some el =>
    let t ← textOf el
    let ver ← reads Db.version
    let d ← lift (decodeTime ver t)
    pure (some d)
def setCredDate (env : Env) (d : DateTime) : M Unit := do
  let el ← metaEl env "MasterKeyChanged".toList
  let ver ← reads Db.version
  let t ← lift (encodeTime ver d)
  let el ← orAttr el
  setText el (some t)

/-- `password`, `keyfile` setters, `pykeepass.py:916-934`. -/
def setPassword (env : Env) (p : Option Str) : M Unit := do
  change fun s => { s with password := p }
  let now ← nowUtc env
  setCredDate env now
def setKeyfile (env : Env) (p : Option Str) : M Unit := do
  change fun s => { s with keyfile := p }
  let now ← nowUtc env
  setCredDate env now

/-- `MasterKeyChangeForce` for required, `MasterKeyChangeRec` for recommended. -/
def daysKey (required : Bool) : Str :=
  if required then "MasterKeyChangeForce".toList else "MasterKeyChangeRec".toList

/-- `credchange_required_days`, `credchange_recommended_days`: `pykeepass.py:936-960`. -/
def credDays (env : Env) (required : Bool) : M (Option Int) := do
  match ← metaEl env (daysKey required) with
  | none => pure none
  | some el =>
    match ← textOf el with
    | none => fail .type
    | some t =>
      let n ← lift (pyInt t)
      pure (some n)
def setCredDays (env : Env) (required : Bool) (n : Int) : M Unit := setMeta env (daysKey required) (intStr n)

/-- `credchange_required`, `credchange_recommended`: `pykeepass.py:974-990`. Comparing with `None` raises
`TypeError`. -/
def credChange (env : Env) (required : Bool) : M Bool := do
  match ← credDate env with
  | none => pure false
  | some d =>
    let days ← credDays env required
    if days = some (-1) then pure false
    else
      let now ← nowUtc env
      let n ← lift (now.daysSince d)
      match ← credDays env required with
      | none => fail .type
      | some k => pure (decide (n > k))

end Verif.Api
