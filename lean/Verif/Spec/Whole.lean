import Verif.Spec.Desk
import Verif.Spec.VaultSearch
import Verif.Spec.Reach
import Verif.Spec.Refuse
/-!
# All methods that change a database, on offices

The operations of `Spec.Desk`, those that concern cards and desk at once or ask the clock only, and refused calls.
-/
namespace Verif.Spec
open Verif Api XPath

/-- The methods. `due` are `credchange_required` and `credchange_recommended`. -/
inductive Task where
  | deed (a : Deed)
  | expired (x : Nat)
  | due (required : Bool)
  | append (g : Nat) (xs : List Nat)
  | reindex (e : Nat) (i : Int)
  | trash (x : Nat)
  | deleteData (n : Nat)
  | refuse (o : Refusal)

/-- What they give. -/
inductive Reply where
  | deed (a : Answer)
  | truth (b : Bool)
  | done

def Task.run (env : Env) : Task → M Reply
  | .deed a => do let r ← a.run env; pure (.deed r)
  | .expired x => do let r ← Api.expired env x; pure (.truth r)
  | .due q => do let r ← Api.credChange env q; pure (.truth r)
  | .append g xs => do Api.groupAppendAll g xs; pure .done
  | .reindex e i => do Api.reindex e i; pure .done
  | .trash x => do Api.trash env x; pure .done
  | .deleteData n => do Api.deleteBinary env n; pure .done
  | .refuse o => do o.call.run env; pure .done

/-- The call of the library. -/
def Task.call : Task → Call
  | .deed (.cards o) => o.call
  | .deed (.desk o) => o.call
  | .expired x => .expired x
  | .due q => .credChange q
  | .append g xs => .append g xs
  | .reindex e i => .reindex e i
  | .trash x => .trash x
  | .deleteData n => .deleteBinary n
  | .refuse o => o.call

/-! ## The clock -/

/-- Whether a card has expired, by the time it is asked. -/
def Card.expired (c : Card) (version : Nat × Nat) (now : DateTime) : Except PyErr Bool :=
  match readTime version (c.time .expiry).join with
  | .error e => .error e
  | .ok none => .error .type
  | .ok (some t) => now.gt t

/-- The clock is asked only if the card can expire. -/
def Vault.expired (env : Env) (v : Vault) (c : Card) : Except PyErr Bool × Vault :=
  match c.time .expires with
  | none => (.error .attribute, v)
  | some t => if t = some "True".toList then (c.expired v.version (env.now v.ticks), { v with ticks := v.ticks + 1 }) else (.ok false, v)

/-- The days after which credentials are to be changed. -/
def Desk.days (k : Desk) (required : Bool) : Except PyErr (Option Int) :=
  match k.texts (changeDays required) with
  | [] => .ok none
  | none :: _ => .error .type
  | some t :: _ => (pyInt t).map some

/-- Whether more days have passed since the last change. -/
def Office.due (env : Env) (o : Office) (required : Bool) : Except PyErr Bool × Office :=
  match o.desk.texts changeDate with
  | [] => (.ok false, o)
  | t :: _ =>
    match decodeTime o.vault.version t, o.desk.days required with
    | .error e, _ => (.error e, o)
    | .ok _, .error e => (.error e, o)
    | .ok d, .ok n =>
      if n = some (-1) then (.ok false, o)
      else
        ((match (env.now o.vault.ticks).daysSince d, n with
          | .error e, _ => .error e
          | .ok _, none => .error .type
          | .ok m, some n => .ok (decide (m > n))), { o with vault := { o.vault with ticks := o.vault.ticks + 1 } })

/-! ## Places -/

/-- `x` is moved to the end of `g`, as `move_entry` or `move_group` does. -/
def Vault.MoveTo (env : Env) (v : Vault) (x g : Nat) (r : Except PyErr (Option Nat)) (v' : Vault) : Prop :=
  (v.IsEntry x ∧ (Op.moveEntry x g).Step env v r v') ∨ (v.IsGroup x ∧ (Op.moveGroup x g).Step env v r v')

/-- One after the other, up to the first that is refused. -/
inductive Vault.AppendTo (env : Env) (g : Nat) : Vault → List Nat → Except PyErr Reply → Vault → Prop where
  | nil (v : Vault) : AppendTo env g v [] (.ok .done) v
  | stop {v v' : Vault} {x : Nat} {xs : List Nat} {e : PyErr} : v.MoveTo env x g (.error e) v' → AppendTo env g v (x :: xs) (.error e) v'
  | next {v u v' : Vault} {x : Nat} {xs : List Nat} {r : Except PyErr Reply} :
      v.MoveTo env x g (.ok none) u → AppendTo env g u xs r v' → AppendTo env g v (x :: xs) r v'

/-- `e` is put in another place among the entries of its group. With `i` not negative there are at most `i` before it, and if no groups or
other things stand between the entries exactly `i` (C51); cards do not say what stands between. -/
def Vault.Reindexed (v : Vault) (e : Nat) (i : Int) (v' : Vault) : Prop :=
  ∃ g c a b, v.card g = some c ∧ e ∈ c.entries ∧ c.entries.filter (· != e) = a ++ b ∧ (0 ≤ i → (a.length : Int) ≤ i) ∧
    v' = v.change g fun c => { c with entries := a ++ e :: b }

/-! ## The recycle bin -/

def binSetting : Str := "RecycleBinUUID".toList

def Vault.uuid (v : Vault) (x : Nat) : Except PyErr Bytes :=
  match v.card x with
  | none => .error .attribute
  | some c => uuidOfText (c.text .uuid)

def Vault.sameUuid (v : Vault) (x y : Nat) : Except PyErr Bool :=
  match v.uuid x, v.uuid y with
  | .error e, _ => .error e
  | .ok _, .error e => .error e
  | .ok a, .ok b => .ok (a == b)

/-- The uuid of the bin. -/
def Desk.bin (k : Desk) : Except PyErr Bytes :=
  match k.texts binSetting with
  | [] => .error .attribute
  | t :: _ => uuidOfText t

/-- The group `b` of the database has the uuid `u`. -/
def Vault.Has (v : Vault) (u : Bytes) (b : Nat) : Prop := v.Current b ∧ ∃ c, v.card b = some c ∧ c.text .uuid = some (b64encode u)

/-- `x` has the uuid that `b` has as its text. -/
def Vault.Twin (v : Vault) (ux : Bytes) (b : Nat) : Prop := ∃ c, v.card b = some c ∧ c.text .uuid = some (b64encode ux)

/-- The setting names another bin. -/
def Desk.setBin (k : Desk) (u : Bytes) : Desk :=
  { k with texts := fun m => if m = binSetting then some (b64encode u) :: (k.texts m).tail else k.texts m }

/-- What `trash_entry` and `trash_group` do: nothing to the root group, nothing to the bin. If there is no bin, a group is made at the end of
the root group, and the setting names it. -/
def Office.Trashed (env : Env) (o : Office) (x : Nat) (r : Except PyErr Reply) (o' : Office) : Prop :=
  ∃ root, o.vault.roots.head? = some root ∧
  match o.vault.sameUuid x root, o.desk.bin with
  | .error e, _ => r = .error e ∧ o' = o
  | .ok true, _ => r = .error .unableToRecycle ∧ o' = o
  | .ok false, .error e => r = .error e ∧ o' = o
  | .ok false, .ok u =>
    (∃ b ux, o.vault.Has u b ∧ o.vault.uuid x = .ok ux ∧
      ((o.vault.Twin ux b ∧ r = .error .unableToRecycle ∧ o' = o) ∨
       (¬ o.vault.Twin ux b ∧ ∃ q, o.vault.MoveTo env x b q o'.vault ∧ r = q.map (fun _ => .done) ∧ o'.desk = o.desk))) ∨
    ((∀ b, ¬ o.vault.Has u b) ∧ ∃ n v q, (Op.addGroup root "Recycle Bin".toList none none).Step env o.vault (.ok (some n)) v ∧
      v.MoveTo env x n q o'.vault ∧ r = q.map (fun _ => .done) ∧
      o'.desk = o.desk.setBin (env.uuid1 o.vault.uuids))

/-! ## Data -/

/-- The attachment refers to data `n`. -/
def File.RefersTo (f : File) (n : Nat) : Prop := f.number = some (some (natStr n))

instance (f : File) (n : Nat) : Decidable (f.RefersTo n) := inferInstanceAs (Decidable (_ = _))

/-- The number of data that follow deleted ones. -/
def File.lower (n : Nat) (f : File) : File :=
  match f.index with
  | .ok k => if n < k then { f with number := some (some (intStr (k - 1))) } else f
  | .error _ => f

/-- The entry is in a group of the database. -/
def Vault.Listing (v : Vault) (e : Nat) : Prop := v.EntryOf false v.Current e

/-- The entry is in a group of the database or was one before. -/
def Vault.Kept (v : Vault) (e : Nat) : Prop := v.EntryOf true v.Current e

open Classical in
/-- Attachments of listed entries that refer to `n` go, those of the database that refer to more are lowered. Those of histories that refer
to `n` stay. -/
noncomputable def Vault.renumbered (v : Vault) (n e : Nat) (c : Card) : Card :=
  if v.Kept e then { c with files := (c.files.filter fun f => !decide (v.Listing e ∧ f.RefersTo n)).map (File.lower n) } else c

noncomputable def Vault.renumber (v : Vault) (n : Nat) : Vault := { v with card := fun e => (v.card e).map (v.renumbered n e) }

/-- The data themselves. -/
def Office.remove (o : Office) (n : Nat) : Except PyErr Desk :=
  if versionGe4 o.vault.version then
    if n < o.desk.stock.length then .ok { o.desk with stock := o.desk.stock.eraseIdx n } else .error .binary
  else
    match o.desk.shelves with
    | [] => .error .attribute
    | l :: ls => if n < l.length then .ok { o.desk with shelves := l.eraseIdx n :: ls } else .error .binary

/-! ## The steps -/

/-- What may be asked. -/
def Task.Ask (env : Env) (o : Office) : Task → Prop
  | .deed a => a.Ask env o
  | .expired x => o.vault.IsElem x
  | .due _ => True
  | .append g xs => o.vault.IsGroup g ∧ ∀ x ∈ xs, o.vault.IsElem x
  | .reindex e _ => ∃ g c, o.vault.card g = some c ∧ c.kind = "Group".toList ∧ e ∈ c.entries
  | .trash x => o.vault.IsElem x ∧ o.vault.roots ≠ [] ∧ (∃ now, encodeTime o.vault.version (env.now o.vault.ticks) = .ok now) ∧
      (env.uuid1 o.vault.uuids).length = 16
  -- every attachment has a number
  | .deleteData _ => ∀ e c, o.vault.Kept e → o.vault.card e = some c → ∀ f ∈ c.files, ∃ k, f.RefersTo k
  | .refuse o' => o'.Ask env o.vault

/-- The machine on offices. -/
def Task.Step (env : Env) (o : Office) (r : Except PyErr Reply) (o' : Office) : Task → Prop
  | .deed a => ∃ q, r = q.map .deed ∧ a.Step env o q o'
  | .expired x => ∃ c, o.vault.card x = some c ∧ r = (o.vault.expired env c).1.map .truth ∧ o' = ⟨(o.vault.expired env c).2, o.desk⟩
  | .due q => r = (o.due env q).1.map .truth ∧ o' = (o.due env q).2
  | .append g xs => o.vault.AppendTo env g xs r o'.vault ∧ o'.desk = o.desk
  | .reindex e i => r = .ok .done ∧ o.vault.Reindexed e i o'.vault ∧ o'.desk = o.desk
  | .trash x => o.Trashed env x r o'
  | .deleteData n =>
    match o.remove n with
    | .error e => r = .error e ∧ o' = o
    | .ok k => r = .ok .done ∧ o' = ⟨o.vault.renumber n, k⟩
  | .refuse a => ∃ q, r = q.map (fun _ => .done) ∧ a.Step env o.vault q o'.vault ∧ o'.desk = o.desk

/-- Calls of methods one after the other, each with what it gave; exceptions do not end the sequence. -/
inductive Served (env : Env) : Db → List (Task × Except PyErr Reply) → Db → Prop where
  | nil (s : Db) : Served env s [] s
  | cons {s t : Db} {a : Task} {l : List (Task × Except PyErr Reply)} : a.Ask env (officeOf s) → Served env (a.run env s).2 l t →
      Served env s ((a, (a.run env s).1) :: l) t

/-- The same on the machine. -/
inductive Proceeds (env : Env) : Office → List (Task × Except PyErr Reply) → Office → Prop where
  | nil (o : Office) : Proceeds env o [] o
  | cons {o u w : Office} {a : Task} {r : Except PyErr Reply} {l : List (Task × Except PyErr Reply)} :
      a.Ask env o → a.Step env o r u → Proceeds env u l w → Proceeds env o ((a, r) :: l) w

end Verif.Spec
