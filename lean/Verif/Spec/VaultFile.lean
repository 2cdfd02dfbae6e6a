import Verif.Spec.Vault
/-!
# A vault and the one read back from its file
-/
namespace Verif.Spec
open Verif Api

/-- A text as it is read back: an empty text is no text. -/
def emptied : Option Str → Option Str
  | some [] => none
  | t => t

/-- Two lists are related item by item. -/
inductive Pairs {α β} (R : α → β → Prop) : List α → List β → Prop where
  | nil : Pairs R [] []
  | cons {a b l m} : R a b → Pairs R l m → Pairs R (a :: l) (b :: m)

/-- The same for lists that may be missing. -/
inductive PairsOpt {α β} (R : α → β → Prop) : Option (List α) → Option (List β) → Prop where
  | none : PairsOpt R none none
  | some {l m} : Pairs R l m → PairsOpt R (some l) (some m)

/-- The card `d` is what is read back of `c`: all values are the same but for empty texts, and its history, entries and groups are those read
back of the history, entries and groups of `c`, in the same order. -/
structure ReadBack (R : Nat → Nat → Prop) (c d : Card) : Prop where
  kind : d.kind = c.kind
  text : ∀ p, d.text p = emptied (c.text p)
  time : ∀ p, d.time p = (c.time p).map emptied
  keys : d.keys = c.keys.map emptied
  field : ∀ k, k ≠ [] → d.field k = (c.field k).map emptied
  mark : ∀ k, k ≠ [] → d.mark k = c.mark k
  files : d.files.map File.content = c.files.map fun f => (f.name.map emptied, f.number)
  auto : ∀ p, d.auto p = (c.auto p).map emptied
  past : PairsOpt R c.past d.past
  entries : Pairs R c.entries d.entries
  groups : Pairs R c.groups d.groups

/-- The vault `w` is what is read back of `v`: to each entry and group in the database corresponds one in `w`. What was deleted is gone. -/
structure FromFile (R : Nat → Nat → Prop) (v w : Vault) : Prop where
  left : ∀ x y y', R x y → R x y' → y = y'
  right : ∀ x x' y, R x y → R x' y → x = x'
  card : ∀ x y, R x y → ∃ c d, v.card x = some c ∧ w.card y = some d ∧ ReadBack R c d
  roots : Pairs R v.roots w.roots
  all : ∀ y d, w.card y = some d → ∃ x, R x y

end Verif.Spec
