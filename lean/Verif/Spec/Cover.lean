import Verif.Spec.Whole
/-!
# Which calls the machine of `Spec.Whole` does not speak about
-/
namespace Verif.Spec
open Verif Api XPath

/-- Conditions on a call beyond that it is made on objects of the right class. They are about calls on objects that are no longer in the
database, a clock that cannot be written, and texts that are not literals of a search. -/
def Call.Met (env : Env) (o : Office) : Call → Prop
  -- the attachment is that of an entry
  | .setAttId a _ | .setAttName a _ | .deleteAttachment a => ∃ e f, o.vault.IsEntry e ∧ o.vault.HasFile e f ∧ f.handle = a
  | .deleteCustom e k => XmlText k ∨ ∀ c, o.vault.card e = some c → c.field k = none
  | .addEntry g a force => ∃ t n, a.title = some t ∧ Plain t ∧ a.username = some n ∧ Plain n ∧
      (force = false → o.vault.HasEntry g t n → o.vault.Current g)
  -- the entry is in a group
  | .reindex e _ => ∃ g c, o.vault.card g = some c ∧ c.kind = "Group".toList ∧ e ∈ c.entries
  -- there is a root group, and a bin can be made
  | .trash _ => o.vault.roots ≠ [] ∧ (∃ now, encodeTime o.vault.version (env.now o.vault.ticks) = .ok now) ∧
      (env.uuid1 o.vault.uuids).length = 16
  -- every attachment has a number
  | .deleteBinary i => 0 ≤ i ∧ ∀ e c, o.vault.Kept e → o.vault.card e = some c → ∀ f ∈ c.files, ∃ k, f.RefersTo k
  | .deleteHistory _ (some h) false => o.vault.IsEntry h
  | _ => True

/-- Any calls one after the other; exceptions do not end the sequence. -/
inductive Called (env : Env) : Db → List Call → Db → Prop where
  | nil (s : Db) : Called env s [] s
  | cons {s t : Db} {c : Call} {l : List Call} : c.Typed s.heap → c.Public → c.Met env (officeOf s) → Called env (c.run env s).2 l t →
      Called env s (c :: l) t

/-- The exception that was raised. -/
def raised {α} : Except PyErr α → Option PyErr
  | .error e => some e
  | .ok _ => none

end Verif.Spec
