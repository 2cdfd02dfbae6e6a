import Verif.Api.Identity
import Verif.Spec.Calls
/-!
# What makes two entries or groups the same
-/
namespace Verif.Spec
open Verif Api

/-- The identity of an entry or group is its uuid; history entries also have their modification time. -/
structure Ident where
  uuid : Bytes
  mtime : Option (Option DateTime)
  deriving DecidableEq

/-- The object has this identity. -/
structure IdentIs (s : Db) (o : Obj) (k : Ident) : Prop where
  uuid : (getUuid o.el s).1 = .ok k.uuid
  mtime : if o.history then ∃ t, (getTime o.el "LastModificationTime".toList s).1 = .ok t ∧ k.mtime = some t else k.mtime = none

/-- The hash that Python gives to an identity. -/
def Ident.hash (H : Hashes) (k : Ident) : Int :=
  match k.mtime with
  | none => H.tuple [uuidHash k.uuid]
  | some t => H.tuple [uuidHash k.uuid, H.time t]

/-- A history of calls, in which `L` is the list of the entries and groups it created, the last one first. Nobody sets the
uuid of one of them. An exception does not end the history. -/
inductive Creating (env : Env) (s : Db) : List Nat → Db → Prop where
  | start : Creating env s [] s
  | entry {L t t' g a force i} : Creating env s L t → IsGroup t.heap g → addEntry env g a force t = (.ok i, t') →
      Creating env s (i :: L) t'
  | group {L t t' g a b c i} : Creating env s L t → IsGroup t.heap g → addGroup env g a b c t = (.ok i, t') →
      Creating env s (i :: L) t'
  /-- `trash_entry` or `trash_group` had to make the recycle bin. -/
  | bin {L t t1 t' x b} : Creating env s L t → IsElem t.heap x → trash env x t = (.ok (), t') →
      binGroup env t = (.ok b, t1) → t.heap b = none → Creating env s (b :: L) t'
  | call {L t} (c : Call) : Creating env s L t → c.Typed t.heap → c.Public → (∀ x u, c = .setUuid x u → x ∉ L) →
      Creating env s L (c.run env t).2

end Verif.Spec
