import Verif.XPath.Uses
import Verif.XPath.Sample
/-!
# C29: `find_groups` returns exactly the matching groups
-/
namespace Verif.Props
open Verif XPath Spec

/-- For every database and every combination of filters without double quote. -/
theorem C29_find_groups {re : Regex} {w : Node} (hw : World w) {a : FindArgs} (recursive : Bool)
    (hp : a.path = none) (h0 : a.tree ≠ some 0) (hx : a.regex = false)
    (hk : ∀ k ∈ a.kwargs, KwOk .group k) :
    ∃ is, findGroups re w recursive a = .ok (if a.first then .one is.head? else .list is) ∧
      is.Sublist w.ids ∧ is.Nodup ∧
      ∀ i, i ∈ is ↔ ∃ x ∈ w.nodes, x.id = i ∧ Matches "Group".toList groupPlace re w recursive a x := by
  have hf : a.regex = true → Plain (flagsStr a.flags) := fun h => by rw [hx] at h; cases h
  obtain ⟨r, hr⟩ := find_ok (K := .group) (re := re) (recursive := recursive) hw hp h0 hf hk
    (fun k _ => by rw [hx]; exact kw_compiles_exact k) cast_group
  obtain ⟨is, rfl, hs, hm⟩ := find_partial hw hp h0 hf hk hr
  exact ⟨is, by rw [findGroups_eq]; exact hr, hs, hs.nodup hw.uniq, hm⟩

example :
    let a : FindArgs := { kwargs := [.attr "name".toList (some "Work".toList), .uuid [17]] }
    World Sample.world ∧ (∀ k ∈ a.kwargs, KwOk .group k) ∧
      findGroups Sample.engine Sample.world true a = .ok (.list [36]) :=
  ⟨Sample.world_ok, by decide, by decide +kernel⟩

/-- `groups`, `/repo/pykeepass/pykeepass.py:258-261`: all groups of the document. -/
example : findGroups Sample.engine Sample.world true {} = .ok (.list [6, 36]) := by decide +kernel

end Verif.Props
