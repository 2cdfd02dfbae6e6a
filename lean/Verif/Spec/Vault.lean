import Verif.Spec.Calls
import Verif.Spec.Fields
import Verif.Spec.NewGroup
import Verif.Spec.Shape
import Verif.Spec.Attributes
import Verif.Api.TimeLemmas
/-!
# A database as a set of cards

A small machine to compare the library with. Every entry and every group is a card with texts, times, string fields, attachments and lists of
other cards. There are no elements, no documents and no searches.
-/
namespace Verif.Spec
open Verif Api XPath

/-- The properties kept as one text. -/
inductive TextProp where
  | uuid | icon | name | notes | tags
  deriving DecidableEq, Repr

def TextProp.tag : TextProp → Str
  | .uuid => "UUID".toList
  | .icon => "IconID".toList
  | .name => "Name".toList
  | .notes => "Notes".toList
  | .tags => "Tags".toList

/-- The times, and whether the element expires. -/
inductive TimeProp where
  | created | modified | accessed | expiry | expires
  deriving DecidableEq, Repr

def TimeProp.tag : TimeProp → Str
  | .created => "CreationTime".toList
  | .modified => "LastModificationTime".toList
  | .accessed => "LastAccessTime".toList
  | .expiry => "ExpiryTime".toList
  | .expires => "Expires".toList

/-- The settings of auto-type. -/
inductive AutoProp where
  | enabled | sequence | window
  deriving DecidableEq, Repr

def AutoProp.path : AutoProp → List Str
  | .enabled => ["AutoType".toList, "Enabled".toList]
  | .sequence => ["AutoType".toList, "DefaultSequence".toList]
  | .window => ["AutoType".toList, "Association".toList, "Window".toList]

/-- An attachment: its handle, its name, and the number of its data as it is written. The outer `none`: it has no place for them. -/
@[ext] structure File where
  handle : Nat
  name : Option (Option Str)
  number : Option (Option Str)
  deriving DecidableEq, Repr

/-- The same without the handle. -/
def File.content (f : File) : Option (Option Str) × Option (Option Str) := (f.name, f.number)

/-- One entry or group. Values are kept as they are stored. -/
@[ext] structure Card where
  kind : Str
  text : TextProp → Option Str
  /-- The outer `none`: it has no such time. -/
  time : TimeProp → Option (Option Str)
  /-- The keys of the string fields in order. -/
  keys : List (Option Str)
  field : Str → Option (Option Str)
  /-- The protection marks of the string fields. -/
  mark : Str → Option Str
  files : List File
  /-- All values of a setting; the first one counts. -/
  auto : AutoProp → List (Option Str)
  /-- The history, if there is one. -/
  past : Option (List Nat)
  entries : List Nat
  groups : List Nat

/-- All cards by their handles, those that were deleted too; the groups at the top; the version of the format, and how many times the clock
and the source of uuids were asked. -/
@[ext] structure Vault where
  card : Nat → Option Card
  roots : List Nat
  version : Nat × Nat
  ticks : Nat
  uuids : Nat

/-! ## The database as a vault -/

def fileOf (h : Heap) (a : Nat) : File := ⟨a, (h.find a "Key".toList).map h.text, (h.find a "Value".toList).map fun v => h.attr v "Ref".toList⟩

def cardOf (h : Heap) (x : Nat) : Card where
  kind := h.tag x
  text p := sub h x p.tag
  time p := (timeEl h x p.tag).map h.text
  keys := keysOf h x
  field := prop h x
  mark := mark h x
  files := (h.all x "Binary".toList).map (fileOf h)
  auto p := (elsAt h p.path x).map h.text
  past := (h.find x "History".toList).map fun k => h.all k "Entry".toList
  entries := h.all x "Entry".toList
  groups := h.all x "Group".toList

/-- The tag is not that of an entry or group. -/
def NoCard (t : Str) : Prop := t ≠ "Entry".toList ∧ t ≠ "Group".toList

instance (t : Str) : Decidable (NoCard t) := inferInstanceAs (Decidable (_ ∧ _))

def rootsOf (h : Heap) : List Nat :=
  ((docEl h).toList.flatMap fun d => h.all d "Root".toList).flatMap fun r => h.all r "Group".toList

def vaultOf (s : Db) : Vault where
  card x := if NoCard (s.heap.tag x) then none else some (cardOf s.heap x)
  roots := rootsOf s.heap
  version := s.version
  ticks := s.ticks
  uuids := s.uuids

/-- Children that can be there only once. -/
def singles : List Str := ["UUID".toList, "IconID".toList, "Name".toList, "Notes".toList, "Tags".toList, "History".toList]

/-- An entry or group as the library writes it: no property twice, string fields well formed. -/
structure Neat (h : Heap) (x : Nat) : Prop where
  once : ∀ t ∈ singles, (h.all x t).length ≤ 1
  fields : Fields h x

/-- A database the library can have made: a tree with the parts a database has, every element where it may be, entries and groups neat. -/
structure Sound (s : Db) : Prop where
  inv : Inv s
  skeleton : ∃ d m r, Skeleton s.heap d m r
  shaped : Shaped s.heap
  neat : ∀ x, ¬ NoCard (s.heap.tag x) → Neat s.heap x

/-! ## What can be done -/

/-- The methods of entries, groups and the database that change cards. -/
inductive Op where
  | setUuid (x : Nat) (u : Bytes)
  | setIcon (x : Nat) (v : Str)
  | setName (g : Nat) (v : Str)
  | setNotes (g : Nat) (v : Str)
  | setTags (e : Nat) (ts : List Str)
  | setTime (x : Nat) (p : TimeProp) (v : DateTime)
  | setExpires (x : Nat) (v : Bool)
  | touch (x : Nat) (modify : Bool)
  | setField (e : Nat) (f : Api.Field) (v : Str)
  | setCustom (e : Nat) (k v : Str) (protect : Bool)
  | deleteCustom (e : Nat) (k : Str)
  | setAutoEnabled (e : Nat) (v : Option Bool)
  | setAutoText (e : Nat) (window : Bool) (v : Option Str)
  | addFile (e : Nat) (id : Int) (name : Str)
  -- attachment `a` of `e`
  | setFileId (e a : Nat) (id : Int)
  | setFileName (e a : Nat) (v : Option Str)
  | deleteFile (e a : Nat)
  | saveHistory (e : Nat)
  | deleteHistory (e h : Nat)
  | clearHistory (e : Nat)
  | addGroup (g : Nat) (name : Str) (icon notes : Option Str)
  | addEntry (g : Nat) (a : EntryArgs) (force : Bool)
  | delete (x : Nat)
  | moveGroup (x g : Nat)
  | moveEntry (x g : Nat)
  | emptyGroup (g : Nat)

/-- The call of the library. -/
def Op.call : Op → Call
  | .setUuid x u => .setUuid x u
  | .setIcon x v => .setIcon x (some v)
  | .setName g v => .setName g (some v)
  | .setNotes g v => .setNotes g (some v)
  | .setTags e ts => .setTags e ts
  | .setTime x p v => .setTime x p.tag v
  | .setExpires x v => .setExpires x v
  | .touch x m => .touch x m
  | .setField e f v => .setField e f (some v)
  | .setCustom e k v p => .setCustom e k (some v) p
  | .deleteCustom e k => .deleteCustom e k
  | .setAutoEnabled e v => .setAutoEnabled e v
  | .setAutoText e w v => .setAuto e w v
  | .addFile e i n => .addAttachment e i (some n)
  | .setFileId _ a i => .setAttId a i
  | .setFileName _ a v => .setAttName a v
  | .deleteFile _ a => .deleteAttachment a
  | .saveHistory e => .saveHistory e
  | .deleteHistory e h => .deleteHistory e (some h) false
  | .clearHistory e => .deleteHistory e none true
  | .addGroup g n i t => .addGroup g (some n) i t
  | .addEntry g a f => .addEntry g a f
  | .delete x => .delete x
  | .moveGroup x g => .moveGroup x g
  | .moveEntry x g => .moveEntry x g
  | .emptyGroup g => .emptyGroup g

/-- The same, with the handle that an addition returns. -/
def Op.run (env : Env) : Op → M (Option Nat)
  | .addGroup g n i t => do let x ← Api.addGroup env g (some n) i t; pure (some x)
  | .addEntry g a f => do let x ← Api.addEntry env g a f; pure (some x)
  | .addFile e i n => do let x ← Api.addAttachment e i (some n); pure (some x)
  | o => do o.call.run env; pure none

namespace Card

def setText (p : TextProp) (v : Str) (c : Card) : Card := { c with text := fun q => if q = p then some v else c.text q }
def setTime (p : TimeProp) (v : Str) (c : Card) : Card := { c with time := fun q => if q = p then some (some v) else c.time q }

/-- The field is replaced by one at the end. -/
def setField (k v : Str) (m : Option Str) (c : Card) : Card := { c with
  keys := c.keys.filter (· != some k) ++ [some k]
  field := fun q => if q = k then some (some v) else c.field q
  mark := fun q => if q = k then m else c.mark q }

def dropField (k : Str) (c : Card) : Card := { c with
  keys := c.keys.filter (· != some k)
  field := fun q => if q = k then none else c.field q
  mark := fun q => if q = k then none else c.mark q }

/-- The first value of a setting is replaced. -/
def setAuto (p : AutoProp) (v : Option Str) (c : Card) : Card := { c with auto := fun q => if q = p then v :: (c.auto p).tail else c.auto q }

def changeFile (a : Nat) (f : File → File) (c : Card) : Card := { c with files := c.files.map fun x => if x.handle = a then f x else x }

def dropFile (a : Nat) (c : Card) : Card := { c with files := c.files.filter fun x => x.handle != a }

/-- `x` is taken out of every list. -/
def unlink (x : Nat) (c : Card) : Card := { c with
  past := c.past.map fun l => l.filter (· != x)
  entries := c.entries.filter (· != x)
  groups := c.groups.filter (· != x) }

end Card

namespace Vault

/-- Only the card of `x` changes. -/
def change (v : Vault) (x : Nat) (f : Card → Card) : Vault := { v with card := fun j => if j = x then (v.card x).map f else v.card j }

/-- One more card. -/
def put (v : Vault) (n : Nat) (c : Card) : Vault := { v with card := fun j => if j = n then some c else v.card j }

def unlink (v : Vault) (x : Nat) : Vault := { v with card := fun j => (v.card j).map (Card.unlink x), roots := v.roots.filter (· != x) }

def addEntry (v : Vault) (g n : Nat) : Vault := v.change g fun c => { c with entries := c.entries ++ [n] }
def addGroup (v : Vault) (g n : Nat) : Vault := v.change g fun c => { c with groups := c.groups ++ [n] }

/-- The card is in some list. -/
def Listed (v : Vault) (x : Nat) : Prop :=
  x ∈ v.roots ∨ ∃ j c, v.card j = some c ∧ (x ∈ c.entries ∨ x ∈ c.groups ∨ ∃ l, c.past = some l ∧ x ∈ l)

/-- `y` is `x`, or a group in it, or a group in such a group, and so on. -/
inductive Below (v : Vault) (x : Nat) : Nat → Prop where
  | refl : Below v x x
  | sub {g y : Nat} {c : Card} : Below v x g → v.card g = some c → y ∈ c.groups → Below v x y

/-- The group is in the database. -/
def Current (v : Vault) (g : Nat) : Prop := ∃ r ∈ v.roots, v.Below r g

def HasEntry (v : Vault) (g : Nat) (t u : Str) : Prop :=
  ∃ c, v.card g = some c ∧ ∃ e ∈ c.entries, ∃ d, v.card e = some d ∧ d.field "Title".toList = some (some t) ∧ d.field "UserName".toList = some (some u)

def IsEntry (v : Vault) (x : Nat) : Prop := ∃ c, v.card x = some c ∧ c.kind = "Entry".toList
def IsGroup (v : Vault) (x : Nat) : Prop := ∃ c, v.card x = some c ∧ c.kind = "Group".toList
def IsElem (v : Vault) (x : Nat) : Prop := ∃ c, v.card x = some c

/-- `f` is an attachment of `e`. -/
def HasFile (v : Vault) (e : Nat) (f : File) : Prop := ∃ c, v.card e = some c ∧ f ∈ c.files

/-- A handle that is not in use. -/
def Free (v : Vault) (n : Nat) : Prop := v.card n = none ∧ ∀ e f, v.HasFile e f → f.handle ≠ n

/-- A time is written if the card has it. -/
def setTime (v : Vault) (x : Nat) (p : TimeProp) (w : Str) : Vault :=
  v.change x fun c => if c.time p = none then c else c.setTime p w

end Vault

/-! ## New cards -/

def newTimes (now exp : Str) (expires : Bool) : TimeProp → Option (Option Str)
  | .expiry => some (some exp)
  | .expires => some (some (pyBool expires))
  | _ => some (some now)

def newGroupCard (u : Bytes) (now name : Str) (icon notes : Option Str) : Card where
  kind := "Group".toList
  text
    | .uuid => some (b64encode u)
    | .icon => nonEmpty icon
    | .name => some name
    | .notes => nonEmpty notes
    | .tags => none
  time := newTimes now now false
  keys := []
  field _ := none
  mark _ := none
  files := []
  auto _ := []
  past := none
  entries := []
  groups := []

/-- The string fields of a new entry: key, value, mark. Empty ones are left out. -/
def newFields (a : EntryArgs) (t n p : Str) : List (Str × Str × Option Str) :=
  [("Title".toList, t, none), ("UserName".toList, n, none), ("Password".toList, p, some "True".toList)] ++
  ((nonEmpty a.url).map fun v => ("URL".toList, v, none)).toList ++
  ((nonEmpty a.notes).map fun v => ("Notes".toList, v, none)).toList ++
  ((nonEmpty a.otp).map fun v => ("otp".toList, v, some "True".toList)).toList

def newEntryCard (u : Bytes) (now exp : Str) (a : EntryArgs) (t n p : Str) : Card where
  kind := "Entry".toList
  text
    | .uuid => some (b64encode u)
    | .icon => nonEmpty a.icon
    | .tags => tagsText a.tags
    | _ => none
  time := newTimes now exp a.expiry.isSome
  keys := (newFields a t n p).map fun f => some f.1
  field k := ((newFields a t n p).lookup k).map fun f => some f.1
  mark k := ((newFields a t n p).lookup k).bind fun f => f.2
  files := []
  auto
    | .enabled => [some "True".toList]
    | .sequence | .window => [some []]
  past := none
  entries := []
  groups := []

/-! ## The steps -/

/-- What may be asked: handles of the right kind, texts XML can hold, times that can be written. -/
def Op.Ask (env : Env) (v : Vault) : Op → Prop
  | .setUuid x _ => v.IsElem x
  | .setIcon x t => v.IsElem x ∧ XmlText t
  | .setName g t | .setNotes g t => v.IsGroup g ∧ XmlText t
  | .setTags e ts => v.IsEntry e ∧ XmlText (joinTags ts)
  | .setTime x p _ => v.IsElem x ∧ p ≠ .expires
  | .setExpires x _ => v.IsElem x
  | .touch x _ => v.IsElem x
  | .setField e _ t => v.IsEntry e ∧ XmlText t
  | .setCustom e k t _ => v.IsEntry e ∧ Plain k ∧ XmlText k ∧ XmlText t
  | .deleteCustom e k => v.IsEntry e ∧ Plain k
  | .setAutoEnabled e _ => v.IsEntry e
  | .setAutoText e _ t => v.IsEntry e ∧ ∀ w, t = some w → XmlText w
  | .addFile e _ n => v.IsEntry e ∧ XmlText n
  | .setFileId e a _ => v.IsEntry e ∧ ∃ f, v.HasFile e f ∧ f.handle = a
  | .setFileName e a t => v.IsEntry e ∧ (∃ f, v.HasFile e f ∧ f.handle = a) ∧ ∀ w, t = some w → XmlText w
  | .deleteFile e a => v.IsEntry e ∧ ∃ f, v.HasFile e f ∧ f.handle = a
  | .saveHistory e => v.IsEntry e
  | .deleteHistory e h => v.IsEntry e ∧ ∃ c l, v.card e = some c ∧ c.past = some l ∧ h ∈ l
  | .clearHistory e => v.IsEntry e
  | .addGroup g n i t => v.IsGroup g ∧ XmlText n ∧ (∀ w, i = some w → XmlText w) ∧ (∀ w, t = some w → XmlText w) ∧
      ∃ now, encodeTime v.version (env.now v.ticks) = .ok now
  | .addEntry g a force => v.IsGroup g ∧ (∃ t n p now exp, a.title = some t ∧ Plain t ∧ a.username = some n ∧ Plain n ∧
      a.password = some p ∧ XmlText p ∧ encodeTime v.version (env.now v.ticks) = .ok now ∧ expiryText env v.version a.expiry now = .ok exp ∧
      (force = false → v.HasEntry g t n → v.Current g)) ∧
      (∀ w, a.url = some w → XmlText w) ∧ (∀ w, a.notes = some w → XmlText w) ∧ (∀ w, a.otp = some w → XmlText w) ∧
      (∀ ts, a.tags = some ts → XmlText (joinTags ts)) ∧ ∀ w, a.icon = some w → XmlText w
  | .delete x => v.IsElem x ∧ v.Listed x
  | .moveGroup x g => v.IsGroup x ∧ v.IsGroup g
  | .moveEntry x g => v.IsEntry x ∧ v.IsGroup g
  | .emptyGroup g => v.IsGroup g

/-- The machine: what the operation gives (`new` is the handle of a new card) and the vault after it. -/
def Op.Step (env : Env) (v : Vault) (r : Except PyErr (Option Nat)) (v' : Vault) : Op → Prop
  | .setUuid x u => r = .ok none ∧ v' = v.change x (.setText .uuid (b64encode u))
  | .setIcon x t => r = .ok none ∧ v' = v.change x (.setText .icon t)
  | .setName g t => r = .ok none ∧ v' = v.change g (.setText .name t)
  | .setNotes g t => r = .ok none ∧ v' = v.change g (.setText .notes t)
  | .setTags e ts => r = .ok none ∧ v' = v.change e (.setText .tags (joinTags ts))
  | .setTime x p t => ∃ c, v.card x = some c ∧
      match c.time p, encodeTime v.version t with
      | none, _ => r = .ok none ∧ v' = v
      | some _, .error e => r = .error e ∧ v' = v
      | some _, .ok w => r = .ok none ∧ v' = v.setTime x p w
  | .setExpires x b => ∃ c, v.card x = some c ∧
      match c.time .expires with
      | none => r = .error .attribute ∧ v' = v
      | some _ => r = .ok none ∧ v' = v.setTime x .expires (pyBool b)
  | .touch x modify => ∃ c, v.card x = some c ∧ ∃ u, u = { v with ticks := v.ticks + 1 } ∧
      match encodeTime v.version (env.now v.ticks) with
      | .ok w => r = .ok none ∧ v' = if modify then (u.setTime x .accessed w).setTime x .modified w else u.setTime x .accessed w
      | .error e => v' = u ∧ r = if c.time .accessed = none ∧ (modify = false ∨ c.time .modified = none) then .ok none else .error e
  | .setField e f t => ∃ c, v.card e = some c ∧ r = .ok none ∧
      v' = v.change e (.setField f.key t ((SetOp.std f t).newMark ((c.field f.key).bind id) (c.mark f.key)))
  | .setCustom e k t p =>
      (k ∈ reservedKeys → r = .error .assertion ∧ v' = v) ∧
      (k ∉ reservedKeys → r = .ok none ∧ v' = v.change e (.setField k t (some (if p then "True".toList else "False".toList))))
  | .deleteCustom e k => ∃ c, v.card e = some c ∧
      ((k ∈ reservedKeys ∨ c.field k = none) → r = .error .attribute ∧ v' = v) ∧
      (¬ (k ∈ reservedKeys ∨ c.field k = none) → r = .ok none ∧ v' = v.change e (.dropField k))
  | .setAutoEnabled e b => ∃ c, v.card e = some c ∧
      match c.auto .enabled with
      | [] => r = .error .attribute ∧ v' = v
      | _ :: _ => r = .ok none ∧ v' = v.change e (.setAuto .enabled (b.map pyBool))
  | .setAutoText e w t => ∃ c p, v.card e = some c ∧ p = (if w then .window else .sequence) ∧
      match c.auto p with
      | [] => r = .error .attribute ∧ v' = v
      | _ :: _ => r = .ok none ∧ v' = v.change e (.setAuto p t)
  | .addFile e i n => ∃ a, v.Free a ∧ r = .ok (some a) ∧
      v' = v.change e fun c => { c with files := c.files ++ [⟨a, some (some n), some (some (intStr i))⟩] }
  | .setFileId e a i => ∃ f, v.HasFile e f ∧ f.handle = a ∧
      match f.number with
      | none => r = .error .attribute ∧ v' = v
      | some _ => r = .ok none ∧ v' = v.change e (.changeFile a fun f => { f with number := some (some (intStr i)) })
  | .setFileName e a t => ∃ f, v.HasFile e f ∧ f.handle = a ∧
      match f.name with
      | none => r = .error .attribute ∧ v' = v
      | some _ => r = .ok none ∧ v' = v.change e (.changeFile a fun f => { f with name := some t })
  | .deleteFile e a => r = .ok none ∧ v' = v.change e (.dropFile a)
  | .saveHistory e => ∃ c n fs, v.card e = some c ∧ v.Free n ∧ r = .ok none ∧
      -- the snapshot has copies of the attachments
      fs.map File.content = c.files.map File.content ∧ (fs.map File.handle).Nodup ∧ (∀ f ∈ fs, v.Free f.handle ∧ f.handle ≠ n) ∧
      v' = (v.change e fun c => { c with past := some (c.past.getD [] ++ [n]) }).put n { c with past := none, files := fs }
  | .deleteHistory _ h => r = .ok none ∧ v' = v.unlink h
  | .clearHistory e => ∃ c, v.card e = some c ∧
      match c.past with
      | none => r = .error .type ∧ v' = v
      | some _ => r = .ok none ∧ v' = v.change e fun c => { c with past := none }
  | .addGroup g n i t => ∃ now x, encodeTime v.version (env.now v.ticks) = .ok now ∧ v.Free x ∧ r = .ok (some x) ∧
      v' = { (v.addGroup g x).put x (newGroupCard (env.uuid1 v.uuids) now n i t) with ticks := v.ticks + 1, uuids := v.uuids + 1 }
  | .addEntry g a force => ∃ t n p, a.title = some t ∧ a.username = some n ∧ a.password = some p ∧
      (force = false ∧ v.HasEntry g t n → r = .error .exception ∧ v' = v) ∧
      (¬ (force = false ∧ v.HasEntry g t n) → ∃ now exp x, encodeTime v.version (env.now v.ticks) = .ok now ∧
        expiryText env v.version a.expiry now = .ok exp ∧ v.Free x ∧ r = .ok (some x) ∧
        v' = { (v.addEntry g x).put x (newEntryCard (env.uuid1 v.uuids) now exp a t n p) with ticks := v.ticks + 1, uuids := v.uuids + 1 })
  | .delete x => r = .ok none ∧ v' = v.unlink x
  | .moveGroup x g =>
      (v.Below x g → r = .error .value ∧ v' = v) ∧
      (¬ v.Below x g → r = .ok none ∧ v' = (v.unlink x).addGroup g x)
  | .moveEntry x g => r = .ok none ∧ v' = (v.unlink x).addEntry g x
  | .emptyGroup g => r = .ok none ∧ v' = v.change g fun c => { c with entries := [], groups := [] }

/-- The cards an operation is about: their own content may change. -/
def Op.about : Op → List Nat
  | .setUuid x _ | .setIcon x _ | .setName x _ | .setNotes x _ | .setTags x _ | .setTime x _ _ | .setExpires x _ | .touch x _
  | .setField x _ _ | .setCustom x _ _ _ | .deleteCustom x _ | .setAutoEnabled x _ | .setAutoText x _ _
  | .addFile x _ _ | .setFileId x _ _ | .setFileName x _ _ | .deleteFile x _ | .saveHistory x | .clearHistory x | .addGroup x _ _ _ | .addEntry x _ _
  | .moveGroup _ x | .moveEntry _ x | .emptyGroup x => [x]
  | .deleteHistory _ _ | .delete _ => []

/-- The cards it takes out of the list they are in. -/
def Op.taken : Op → List Nat
  | .deleteHistory _ x | .delete x | .moveGroup x _ | .moveEntry x _ => [x]
  | _ => []

/-- Operations on the database one after the other, each with what it gave; exceptions do not end the sequence. -/
inductive Ran (env : Env) : Db → List (Op × Except PyErr (Option Nat)) → Db → Prop where
  | nil (s : Db) : Ran env s [] s
  | cons {s t : Db} {o : Op} {l : List (Op × Except PyErr (Option Nat))} : o.Ask env (vaultOf s) → Ran env (o.run env s).2 l t →
      Ran env s ((o, (o.run env s).1) :: l) t

/-- The same on the machine. -/
inductive Moves (env : Env) : Vault → List (Op × Except PyErr (Option Nat)) → Vault → Prop where
  | nil (v : Vault) : Moves env v [] v
  | cons {v u w : Vault} {o : Op} {r : Except PyErr (Option Nat)} {l : List (Op × Except PyErr (Option Nat))} :
      o.Ask env v → o.Step env v r u → Moves env u l w → Moves env v ((o, r) :: l) w

end Verif.Spec
