import Verif.Api.KeePass
import Verif.Spec.Structure
/-!
# Sequences of method calls
-/
namespace Verif.Spec
open Verif Api

/-- A call of a method that may change the database. Handles are ids of elements. -/
inductive Call where
  -- Entry, Group
  | setUuid (x : Nat) (u : Bytes)
  | setIcon (x : Nat) (v : Option Str)
  | setTime (x : Nat) (prop : Str) (v : DateTime)
  | setExpires (x : Nat) (v : Bool)
  | expired (x : Nat)
  | touch (x : Nat) (modify : Bool)
  | delete (x : Nat)
  -- Group
  | setName (g : Nat) (v : Option Str)
  | setNotes (g : Nat) (v : Option Str)
  | append (g : Nat) (xs : List Nat)
  -- Entry
  | setField (e : Nat) (k : Field) (v : Option Str)
  | setCustom (e : Nat) (key : Str) (v : Option Str) (protect : Bool)
  | deleteCustom (e : Nat) (key : Str)
  | setTags (e : Nat) (ts : List Str)
  | setAutoEnabled (e : Nat) (v : Option Bool)
  | setAuto (e : Nat) (window : Bool) (v : Option Str)
  | saveHistory (e : Nat)
  | deleteHistory (e : Nat) (h : Option Nat) (all : Bool)
  | reindex (e : Nat) (i : Int)
  | addAttachment (e : Nat) (id : Int) (name : Option Str)
  -- Attachment; `deleteAttachment` is `attachment.py:56-58`, also as `Entry.delete_attachment`, `entry.py:182-184`
  | setAttId (a : Nat) (i : Int)
  | setAttName (a : Nat) (v : Option Str)
  | deleteAttachment (a : Nat)
  -- PyKeePass
  | addGroup (g : Nat) (name icon notes : Option Str)
  | addEntry (g : Nat) (a : EntryArgs) (force : Bool)
  | moveGroup (x g : Nat)
  | moveEntry (x g : Nat)
  | trash (x : Nat)
  | emptyGroup (g : Nat)
  | addBinary (data : Bytes) (compressed prot : Bool)
  | deleteBinary (i : Int)
  | setMeta (name v : Str)
  | setCredDate (d : DateTime)
  | setCredDays (required : Bool) (n : Int)
  | credChange (required : Bool)
  | setPassword (p : Option Str)
  | setKeyfile (p : Option Str)

/-- Only the effect of a call. -/
def void {α} (m : M α) : M Unit := do
  let _ ← m
  pure ()

/-- What the call does, as modelled in `Verif.Api`. -/
def Call.run (env : Env) : Call → M Unit
  | .setUuid x u => Api.setUuid x u
  | .setIcon x v => Api.setIcon x v
  | .setTime x p v => Api.setTime x p v
  | .setExpires x v => Api.setExpires x v
  | .expired x => void (Api.expired env x)
  | .touch x m => Api.touch env x m
  | .delete x => Api.delete x
  | .setName g v => Api.setName g v
  | .setNotes g v => Api.setGroupNotes g v
  | .append g xs => Api.groupAppendAll g xs
  | .setField e k v => Api.setStd env e k v
  | .setCustom e k v p => Api.setCustom env e k v p
  | .deleteCustom e k => Api.deleteCustom env e k
  | .setTags e ts => Api.setTags e ts
  | .setAutoEnabled e v => Api.setAutoEnabled e v
  | .setAuto e w v => Api.setAuto e w v
  | .saveHistory e => Api.saveHistory e
  | .deleteHistory e h all => Api.deleteHistory e h all
  | .reindex e i => Api.reindex e i
  | .addAttachment e i n => void (Api.addAttachment e i n)
  | .setAttId a i => Api.setAttId a i
  | .setAttName a v => Api.setAttName a v
  | .deleteAttachment a => Api.delete a
  | .addGroup g a b c => void (Api.addGroup env g a b c)
  | .addEntry g a force => void (Api.addEntry env g a force)
  | .moveGroup x g => Api.moveGroup x g
  | .moveEntry x g => Api.moveEntry x g
  | .trash x => Api.trash env x
  | .emptyGroup g => Api.emptyGroup g
  | .addBinary d c p => void (Api.addBinary env d c p)
  | .deleteBinary i => Api.deleteBinary env i
  | .setMeta n v => Api.setMeta env n v
  | .setCredDate d => Api.setCredDate env d
  | .setCredDays r n => Api.setCredDays env r n
  | .credChange r => void (Api.credChange env r)
  | .setPassword p => Api.setPassword env p
  | .setKeyfile p => Api.setKeyfile env p

/-- The elements that stand for entries, groups and attachments. -/
def IsEntry (h : Heap) (e : Nat) : Prop := h.tag e = "Entry".toList
def IsGroup (h : Heap) (g : Nat) : Prop := h.tag g = "Group".toList
def IsElem (h : Heap) (x : Nat) : Prop := IsEntry h x ∨ IsGroup h x
def IsAttach (h : Heap) (a : Nat) : Prop := h.tag a = "Binary".toList

/-- The call is made on objects of the class that has the method. -/
def Call.Typed (h : Heap) : Call → Prop
  | .setUuid x _ | .setIcon x _ | .setTime x _ _ | .setExpires x _ | .expired x | .touch x _ | .delete x => IsElem h x
  | .setName g _ | .setNotes g _ => IsGroup h g
  | .append g xs => IsGroup h g ∧ ∀ x ∈ xs, IsElem h x
  | .setField e _ _ | .setCustom e _ _ _ | .deleteCustom e _ | .setTags e _ | .setAutoEnabled e _ | .setAuto e _ _
  | .saveHistory e | .deleteHistory e _ _ | .reindex e _ | .addAttachment e _ _ => IsEntry h e
  | .setAttId a _ | .setAttName a _ | .deleteAttachment a => IsAttach h a
  | .addGroup g _ _ _ | .addEntry g _ _ | .emptyGroup g => IsGroup h g
  | .moveGroup x g => IsGroup h x ∧ IsGroup h g
  | .moveEntry x g => IsEntry h x ∧ IsGroup h g
  | .trash x => IsElem h x
  | .addBinary _ _ _ | .deleteBinary _ | .setMeta _ _ | .setCredDate _ | .setCredDays _ _ | .credChange _
  | .setPassword _ | .setKeyfile _ => True

/-- Times and settings are those that have a property of their own in the API, and keys of custom properties have no quote
(the model of `setTime` and `setMeta` takes any name, as the private methods do). -/
def Call.Public : Call → Prop
  | .setTime _ p _ => p ∈ ["CreationTime".toList, "LastModificationTime".toList, "LastAccessTime".toList, "ExpiryTime".toList]
  | .setMeta n _ => n ∈ ["DatabaseName".toList, "DatabaseDescription".toList, "DefaultUserName".toList]
  | .setCustom _ k _ _ | .deleteCustom _ k => '"' ∉ k
  | _ => True

/-- What the call is asked to delete or move, apart from `trash`. -/
def Call.moved : Call → List Nat
  | .delete x | .moveGroup x _ | .moveEntry x _ => [x]
  | .append _ xs => xs
  | _ => []

/-- A sequence of calls, each made on what the state then holds; an exception does not end it. -/
inductive Exec (env : Env) (L : Heap → Call → Prop) : Db → Db → Prop where
  | refl (s : Db) : Exec env L s s
  | step {s t : Db} (c : Call) : Exec env L s t → L t.heap c → Exec env L s (c.run env t).2

end Verif.Spec
