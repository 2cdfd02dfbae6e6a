import Verif.Spec.Vault
/-!
# What a search returns, said with cards
-/
namespace Verif.Spec
open Verif Api XPath

namespace Vault

/-- `y` is `x`, or in the history of `x`, or in the history of such a one, and so on. -/
inductive Older (v : Vault) (x : Nat) : Nat → Prop where
  | refl : Older v x x
  | past {y z : Nat} {c : Card} {l : List Nat} : Older v x y → v.card y = some c → c.past = some l → z ∈ l → Older v x z

/-- `e` is an entry of one of these groups; with `history`, or what one of their entries was before. -/
def EntryOf (v : Vault) (history : Bool) (groups : Nat → Prop) (e : Nat) : Prop :=
  ∃ k c e0, groups k ∧ v.card k = some c ∧ e0 ∈ c.entries ∧ if history then v.Older e0 e else e = e0

/-- Which entries `find_entries` looks at. Without `group` and with `recursive=False` that is none. -/
def EntryScope (v : Vault) (recursive history : Bool) (group : Option Nat) (e : Nat) : Prop :=
  match group, recursive with
  | none, true => v.EntryOf history v.Current e
  | none, false => False
  | some g, true => v.EntryOf history (v.Below g) e
  | some g, false => ∃ c, v.card g = some c ∧ e ∈ c.entries

/-- Which groups `find_groups` looks at. -/
def GroupScope (v : Vault) (recursive : Bool) (group : Option Nat) (x : Nat) : Prop :=
  match group, recursive with
  | none, true => v.Current x
  | none, false => False
  | some g, true => v.Below g x ∧ x ≠ g
  | some g, false => ∃ c, v.card g = some c ∧ x ∈ c.groups

end Vault

namespace Card

/-- The values a search argument looks at. -/
def values (c : Card) (K : Kind) (k : Str) : Option (List (Option Str)) :=
  match K with
  | .entry =>
    if k = "title".toList then some (c.field "Title".toList).toList
    else if k = "username".toList then some (c.field "UserName".toList).toList
    else if k = "password".toList then some (c.field "Password".toList).toList
    else if k = "url".toList then some (c.field "URL".toList).toList
    else if k = "notes".toList then some (c.field "Notes".toList).toList
    else if k = "otp".toList then some (c.field "otp".toList).toList
    else if k = "autotype_sequence".toList then some (c.auto .sequence)
    else if k = "autotype_window".toList then some (c.auto .window)
    else if k = "autotype_enabled".toList then some (c.auto .enabled)
    else none
  | .group =>
    if k = "name".toList then some ((c.text .name).map some).toList
    else if k = "notes".toList then some ((c.text .notes).map some).toList
    else none
  | .attachment => none

/-- The card satisfies a search argument; `T` compares a value searched for with one that is there. -/
def Holds (c : Card) (T : Test) (K : Kind) : Kw → Prop
  | .attr _ none => True
  | .attr k (some w) => ∃ l, c.values K k = some l ∧ ∃ t ∈ l, T w t
  | .uuid b => ∃ t, c.text .uuid = some t ∧ T (b64encode b) (some t)
  | .tags ts => ∃ t, c.text .tags = some t ∧ ∀ w ∈ ts, w <:+: t
  | .string d => ∀ p ∈ d, ∃ t, c.field p.1 = some t ∧ T p.2 t

end Card

/-- The argument cannot be satisfied by a text that is not there. In an exact search that is so, for tags if one of them is not empty. -/
def Sharp (T : Test) (K : Kind) : Kw → Prop
  | .attr _ none => True
  | .attr _ (some w) => K = .group → ¬ T w none
  | .uuid b => ¬ T (b64encode b) none
  | .tags ts => ∃ t ∈ ts, t ≠ []
  | .string _ => True

namespace Vault

/-- Following group names downwards. -/
def Follow (v : Vault) (T : Test) : List Str → Nat → Nat → Prop
  | [], g, x => x = g
  | n :: ns, g, x => ∃ c, v.card g = some c ∧ ∃ k ∈ c.groups, (∃ d t, v.card k = some d ∧ d.text .name = some t ∧ T n (some t)) ∧
      v.Follow T ns k x

/-- The entries whose attachments `find_attachments` looks at; `element` is a group or an entry. -/
def FileScope (v : Vault) (recursive history : Bool) (element : Option Nat) (e : Nat) : Prop :=
  match element, recursive with
  | none, true => v.EntryOf history v.Current e
  | none, false => False
  | some x, true => (v.IsGroup x ∧ v.EntryOf history (v.Below x) e) ∨ (v.IsEntry x ∧ if history then v.Older x e else e = x)
  | some x, false => e = x

end Vault

/-- The attachment satisfies a search argument. -/
def File.Holds (f : File) (T : Test) : Kw → Prop
  | .attr _ none => True
  | .attr k (some w) =>
    if k = "id".toList then ∃ t, f.number = some t ∧ T w t
    else if k = "filename".toList then ∃ t, f.name = some t ∧ T w t
    else False
  | _ => False

end Verif.Spec
