import Verif.Spec.Vault
/-!
# Calls that are refused, on cards

The methods of `Spec.Vault` with texts that cannot be written, and on elements that are not where the method looks for them.
-/
namespace Verif.Spec
open Verif Api XPath

/-- What becomes of a text that is to be written: `None` is not a text, and some characters cannot be in XML. -/
def textError : Option Str → Option PyErr
  | none => some .type
  | some t => if XmlText t then none else some .value

/-- The same where `None` is allowed. -/
def optError : Option Str → Option PyErr
  | none => none
  | some t => textError (some t)

def timeError (version : Nat × Nat) (t : DateTime) : Option PyErr :=
  match encodeTime version t with
  | .error e => some e
  | .ok _ => none

def expiryError (env : Env) (version : Nat × Nat) (t : Option DateTime) : Option PyErr :=
  match expiryText env version t [] with
  | .error e => some e
  | .ok _ => none

/-- The first thing that goes wrong. -/
def firstError : List (Option PyErr) → Option PyErr
  | [] => none
  | some e :: _ => some e
  | none :: l => firstError l

/-- The calls. -/
inductive Refusal where
  | setIcon (x : Nat) (v : Option Str)
  | setName (g : Nat) (v : Option Str)
  | setNotes (g : Nat) (v : Option Str)
  | setTags (e : Nat) (ts : List Str)
  | setField (e : Nat) (f : Api.Field) (v : Option Str)
  | setCustom (e : Nat) (k : Str) (v : Option Str) (protect : Bool)
  -- with a key that XML cannot hold
  | badKey (e : Nat) (k : Str) (v : Option Str) (protect : Bool)
  -- deleting a property that is not there
  | noKey (e : Nat) (k : Str)
  | setAutoText (e : Nat) (window : Bool) (v : Str)
  | addFile (e : Nat) (id : Int) (name : Option Str)
  -- attachment `a` of `e`
  | setFileName (e a : Nat) (v : Str)
  | addGroup (g : Nat) (name icon notes : Option Str)
  | addEntry (g : Nat) (a : EntryArgs) (force : Bool)
  -- of what is in no list
  | delete (x : Nat)
  -- of what is not in the history of `e`, or `None`
  | deleteHistory (e : Nat) (h : Option Nat)

def Refusal.call : Refusal → Call
  | .setIcon x v => .setIcon x v
  | .setName g v => .setName g v
  | .setNotes g v => .setNotes g v
  | .setTags e ts => .setTags e ts
  | .setField e f v => .setField e f v
  | .setCustom e k v p => .setCustom e k v p
  | .badKey e k v p => .setCustom e k v p
  | .noKey e k => .deleteCustom e k
  | .setAutoText e w v => .setAuto e w (some v)
  | .addFile e i n => .addAttachment e i n
  | .setFileName _ a v => .setAttName a (some v)
  | .addGroup g n i t => .addGroup g n i t
  | .addEntry g a f => .addEntry g a f
  | .delete x => .delete x
  | .deleteHistory e h => .deleteHistory e h false

/-- The card has no such text any more. -/
def Card.dropText (p : TextProp) (c : Card) : Card := { c with text := fun q => if q = p then none else c.text q }

/-- What can go wrong with a new group after the icon, in order. -/
def groupErrors (env : Env) (v : Vault) (name notes : Option Str) : List (Option PyErr) :=
  [timeError v.version (env.now v.ticks), textError name, optError notes]

/-- What can go wrong with a new entry after the icon, in order. -/
def entryErrors (env : Env) (v : Vault) (a : EntryArgs) : List (Option PyErr) :=
  [timeError v.version (env.now v.ticks), expiryError env v.version a.expiry, textError a.title, textError a.username, textError a.password,
    optError a.url, optError a.notes, optError a.otp, optError (a.tags.map joinTags)]

/-- An element is made in vain: a uuid is taken, and the clock is asked unless the icon is refused. -/
def Vault.InVain (v : Vault) (icon : Option Str) (errors : List (Option PyErr)) (r : Except PyErr Unit) (v' : Vault) : Prop :=
  (∃ e, optError icon = some e ∧ r = .error e ∧ v' = { v with uuids := v.uuids + 1 }) ∨
  (optError icon = none ∧ ∃ e, firstError errors = some e ∧ r = .error e ∧ v' = { v with ticks := v.ticks + 1, uuids := v.uuids + 1 })

/-- When the calls are of this kind. -/
def Refusal.Ask (env : Env) (v : Vault) : Refusal → Prop
  | .setIcon x t => v.IsElem x ∧ textError t ≠ none
  | .setName g t | .setNotes g t => v.IsGroup g ∧ textError t ≠ none
  | .setTags e ts => v.IsEntry e ∧ ¬ XmlText (joinTags ts)
  | .setField e _ t => v.IsEntry e ∧ textError t ≠ none
  | .setCustom e k t _ => v.IsEntry e ∧ Plain k ∧ textError t ≠ none
  | .badKey e k _ _ => v.IsEntry e ∧ '"' ∉ k ∧ ¬ XmlText k
  | .noKey e k => v.IsEntry e ∧ '"' ∉ k ∧ ∀ c, v.card e = some c → c.field k = none
  | .setAutoText e _ t => v.IsEntry e ∧ ¬ XmlText t
  | .addFile e _ n => v.IsEntry e ∧ textError n ≠ none
  | .setFileName e a t => v.IsEntry e ∧ (∃ f, v.HasFile e f ∧ f.handle = a) ∧ ¬ XmlText t
  | .addGroup g n i t => v.IsGroup g ∧ firstError (optError i :: groupErrors env v n t) ≠ none
  | .addEntry g a force => v.IsGroup g ∧ firstError (optError a.icon :: entryErrors env v a) ≠ none ∧
      ∃ t n, a.title = some t ∧ Plain t ∧ a.username = some n ∧ Plain n ∧ (force = false → v.HasEntry g t n → v.Current g)
  | .delete x => v.IsElem x ∧ ¬ v.Listed x
  | .deleteHistory e h => v.IsEntry e ∧ ∀ x, h = some x → v.IsEntry x ∧ ∀ c l, v.card e = some c → c.past = some l → x ∉ l

/-- What comes of them. A setter has removed the old value before the new one is refused. -/
def Refusal.Step (env : Env) (v : Vault) (r : Except PyErr Unit) (v' : Vault) : Refusal → Prop
  | .setIcon x t => ∃ e, textError t = some e ∧ r = .error e ∧ v' = v.change x (.dropText .icon)
  | .setName g t => ∃ e, textError t = some e ∧ r = .error e ∧ v' = v.change g (.dropText .name)
  | .setNotes g t => ∃ e, textError t = some e ∧ r = .error e ∧ v' = v.change g (.dropText .notes)
  | .setTags x _ => r = .error .value ∧ v' = v.change x (.dropText .tags)
  | .setField x f t => ∃ e, textError t = some e ∧ r = .error e ∧ v' = v.change x (.dropField f.key)
  | .setCustom x k t _ =>
      (k ∈ reservedKeys → r = .error .assertion ∧ v' = v) ∧
      (k ∉ reservedKeys → ∃ e, textError t = some e ∧ r = .error e ∧ v' = v.change x (.dropField k))
  | .badKey _ _ _ _ => r = .error .value ∧ v' = v
  | .noKey _ _ => r = .error .attribute ∧ v' = v
  | .setAutoText x w _ => ∃ c, v.card x = some c ∧ v' = v ∧
      r = .error (if c.auto (if w then .window else .sequence) = [] then .attribute else .value)
  | .addFile _ _ n => ∃ e, textError n = some e ∧ r = .error e ∧ v' = v
  | .setFileName x a _ => ∃ f, v.HasFile x f ∧ f.handle = a ∧ v' = v ∧ r = .error (if f.name = none then .attribute else .value)
  | .addGroup _ n i t => v.InVain i (groupErrors env v n t) r v'
  | .addEntry g a force => ∃ t n, a.title = some t ∧ a.username = some n ∧
      (force = false ∧ v.HasEntry g t n → r = .error .exception ∧ v' = v) ∧
      (¬ (force = false ∧ v.HasEntry g t n) → v.InVain a.icon (entryErrors env v a) r v')
  -- what was in a history that was deleted as a whole is still in it
  | .delete _ => (r = .error .attribute ∨ r = .ok ()) ∧ v' = v
  | .deleteHistory x h => ∃ c, v.card x = some c ∧ v' = v ∧ r = .error (if c.past = none ∨ h = none then .attribute else .value)

end Verif.Spec
