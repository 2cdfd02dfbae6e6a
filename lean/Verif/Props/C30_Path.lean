import Verif.XPath.PathLemmas
import Verif.XPath.Sample
/-!
# C30: searching by path follows group names from the root
-/
namespace Verif.Props
open Verif XPath Spec

/-- The first element in document order with a property, if there is one. -/
def FirstSuch (w : Node) (P : Node → Prop) (r : Found) : Prop :=
  ∃ is : List Nat, r = .one is.head? ∧ is.Sublist w.ids ∧ ∀ i, i ∈ is ↔ ∃ x ∈ w.nodes, x.id = i ∧ P x

/-- `find_groups(path=p)`, whatever the other arguments are. -/
theorem C30_groups {re : Regex} {w : Node} (hw : World w) {a : FindArgs} {p : List Str} (recursive : Bool)
    (hpath : a.path = some p) (hx : a.regex = false) (hp : ∀ x ∈ p, Plain x) :
    ∃ r, findGroups re w recursive a = .ok r ∧ FirstSuch w (GroupAt exact w p) r := by
  have hf : a.regex = true → Plain (flagsStr a.flags) := fun h => by rw [hx] at h; cases h
  have hc : ∀ v, (v = p.getLastD [] ∨ v ∈ p) → Compiles re a.regex (flagsStr a.flags) v := by
    intro v _ h; rw [hx] at h; cases h
  obtain ⟨r, hr⟩ := find_path_ok (K := .group) (recursive := recursive) hw hpath hf hp hc
  have := find_path hw hpath hf hp hr
  rw [hx] at this
  exact ⟨r, by rw [findGroups_eq]; exact hr, this⟩

/-- `find_entries(path=p)`, whatever the other arguments are. -/
theorem C30_entries {re : Regex} {w : Node} (hw : World w) {a : FindArgs} {p : List Str} (recursive : Bool)
    (hpath : a.path = some p) (hx : a.regex = false) (hp : ∀ x ∈ p, Plain x) :
    ∃ r, findEntries re w recursive a = .ok r ∧ FirstSuch w (EntryAt exact w p) r := by
  have hf : a.regex = true → Plain (flagsStr a.flags) := fun h => by rw [hx] at h; cases h
  have hc : ∀ v, (v = p.getLastD [] ∨ v ∈ p) → Compiles re a.regex (flagsStr a.flags) v := by
    intro v _ h; rw [hx] at h; cases h
  obtain ⟨r, hr⟩ := find_path_ok (K := .entry) (recursive := recursive) hw hpath hf hp hc
  have := find_path hw hpath hf hp hr
  rw [hx] at this
  exact ⟨r, by rw [findEntries_eq]; exact hr, this⟩

/-- With regular expressions, each name is a pattern. -/
theorem C30_regex {re : Regex} {w : Node} (hw : World w) {a : FindArgs} {p : List Str} (recursive : Bool)
    (hpath : a.path = some p) (hx : a.regex = true) (hf : Plain (flagsStr a.flags)) (hp : ∀ x ∈ p, Plain x) :
    (∀ {r}, findGroups re w recursive a = .ok r →
      FirstSuch w (GroupAt (regexTest re ((flagsStr a.flags).any (· == 'i'))) w p) r) ∧
    (∀ {r}, findEntries re w recursive a = .ok r →
      FirstSuch w (EntryAt (regexTest re ((flagsStr a.flags).any (· == 'i'))) w p) r) := by
  constructor
  · intro r hr
    rw [findGroups_eq] at hr
    have := find_path hw hpath (fun _ => hf) hp hr
    rw [hx] at this; exact this
  · intro r hr
    rw [findEntries_eq] at hr
    have := find_path hw hpath (fun _ => hf) hp hr
    rw [hx] at this; exact this

/-- The other filters are ignored. -/
theorem C30_filters_ignored {re : Regex} {w : Node} (hw : World w) {a b : FindArgs} {p : List Str} (r r' : Bool)
    (ha : a.path = some p) (hb : b.path = some p) (hxa : a.regex = false) (hxb : b.regex = false)
    (hp : ∀ x ∈ p, Plain x) :
    findGroups re w r a = findGroups re w r' b ∧ findEntries re w r a = findEntries re w r' b := by
  constructor
  · obtain ⟨x, hx, is, rfl, h1, h2⟩ := C30_groups (re := re) hw r ha hxa hp
    obtain ⟨y, hy, js, rfl, h3, h4⟩ := C30_groups (re := re) hw r' hb hxb hp
    rw [hx, hy, found_unique hw h1 h3 h2 h4]
  · obtain ⟨x, hx, is, rfl, h1, h2⟩ := C30_entries (re := re) hw r ha hxa hp
    obtain ⟨y, hy, js, rfl, h3, h4⟩ := C30_entries (re := re) hw r' hb hxb hp
    rw [hx, hy, found_unique hw h1 h3 h2 h4]

/-- `root_group`, `/repo/pykeepass/pykeepass.py:247-249`: `find_groups(path='', first=True)`; the
empty text has no last element, so this is the first group below `Root`. -/
theorem C30_root_group {re : Regex} {w : Node} (hw : World w) :
    ∃ r, findGroups re w true { path := some [], first := true } = .ok r ∧ FirstSuch w (TopGroup w) r := by
  obtain ⟨r, hr, is, e, h1, h2⟩ := C30_groups (re := re) hw (a := { path := some [], first := true }) true rfl rfl
    (fun x hx => by cases hx)
  refine ⟨r, hr, is, e, h1, fun i => ?_⟩
  rw [h2]
  constructor
  · rintro ⟨x, hx, hi, g, hg, hf⟩
    have e : x = g := hf
    subst e
    exact ⟨x, hx, hi, hg⟩
  · rintro ⟨x, hx, hi, hg⟩
    exact ⟨x, hx, hi, x, hg, rfl⟩

/-- Finding: `find_attachments(path=…)` does not return an attachment but the group the names before
the last one lead to. -/
theorem C30_attachments_return_group {re : Regex} {w : Node} (hw : World w) {a : FindArgs} {p : List Str} {recursive : Bool}
    (hpath : a.path = some p) (hx : a.regex = false) (hp : ∀ x ∈ p, Plain x) {r : Found}
    (hr : findAttachments re w recursive a = .ok r) :
    FirstSuch w (fun x => ∃ g, TopGroup w g ∧ Follow exact p.dropLast g x) r := by
  rw [findAttachments_eq] at hr
  have := find_path hw hpath (fun h => by rw [hx] at h; cases h) hp hr
  rw [hx] at this
  exact this

example : World Sample.world ∧
    findGroups Sample.engine Sample.world true { path := some ["Work".toList] } = .ok (.one (some 36)) ∧
    findGroups Sample.engine Sample.world true { path := some [[]] } = .ok (.one (some 6)) ∧
    findGroups Sample.engine Sample.world true { path := some ["Play".toList] } = .ok (.one none) ∧
    findEntries Sample.engine Sample.world true { path := some ["Work".toList, "mail".toList] } = .ok (.one (some 58)) ∧
    findEntries Sample.engine Sample.world true { path := some ["mail".toList], kwargs := [.attr "username".toList (some "bob".toList)] } =
      .ok (.one (some 9)) ∧
    findAttachments Sample.engine Sample.world true { path := some ["Work".toList, "a.txt".toList] } = .ok (.one (some 36)) :=
  ⟨Sample.world_ok, by decide +kernel, by decide +kernel, by decide +kernel, by decide +kernel, by decide +kernel, by decide +kernel⟩

end Verif.Props
