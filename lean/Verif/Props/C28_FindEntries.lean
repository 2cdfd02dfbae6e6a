import Verif.XPath.Uses
import Verif.XPath.Sample
/-!
# C28: `find_entries` returns exactly the matching entries
-/
namespace Verif.Props
open Verif XPath Spec

/-- For every database, every part of it and every combination of filters without double quote, the
search returns, and the result lists in document order (`is.Sublist w.ids`) and without duplicates
exactly the elements the specification describes. -/
theorem C28_find_entries {re : Regex} {w : Node} (hw : World w) {a : FindArgs} (recursive : Bool)
    (hp : a.path = none) (h0 : a.tree ≠ some 0) (hx : a.regex = false)
    (hk : ∀ k ∈ a.kwargs, KwOk .entry k) :
    ∃ is, findEntries re w recursive a = .ok (if a.first then .one is.head? else .list is) ∧
      is.Sublist w.ids ∧ is.Nodup ∧
      ∀ i, i ∈ is ↔ ∃ x ∈ w.nodes, x.id = i ∧ Matches "Entry".toList entryPlace re w recursive a x := by
  have hf : a.regex = true → Plain (flagsStr a.flags) := fun h => by rw [hx] at h; cases h
  obtain ⟨r, hr⟩ := find_ok (K := .entry) (re := re) (recursive := recursive) hw hp h0 hf hk
    (fun k _ => by rw [hx]; exact kw_compiles_exact k) cast_entry
  obtain ⟨is, rfl, hs, hm⟩ := find_partial hw hp h0 hf hk hr
  exact ⟨is, by rw [findEntries_eq]; exact hr, hs, hs.nodup hw.uniq, hm⟩

/-- Unknown keyword arguments are refused with `TypeError`, wherever they stand. -/
theorem C28_unknown_argument {re : Regex} {w : Node} {a : FindArgs} {recursive : Bool} {k : Str} {v : Option Str}
    (hp : a.path = none) (hk : .attr k v ∈ a.kwargs) (hn : (entryXp a.regex).lookup k = none) :
    findEntries re w recursive a = .error .type := by
  rw [findEntries_eq]
  have hs : ∃ q, addString Kind.entry.xp a a.kwargs
      ((if a.tree.isSome then ['.'] else []) ++ (if a.history then preText .entry recursive
        else preText .entry recursive ++ "[not(ancestor::History)]".toList)) = .ok q := addString_entry _ _ _
  obtain ⟨q, hq⟩ := hs
  have hb : buildQuery (preText .entry recursive) Kind.entry.xp a = .error .type := by
    unfold buildQuery
    rw [hp]
    show (addString Kind.entry.xp a a.kwargs _).bind _ = _
    rw [hq]
    exact addKws_unknown hk hn q
  unfold find
  rw [hb]; rfl

/-- The hypotheses hold for a search with four filters that finds one of four entries. -/
example :
    let a : FindArgs := { kwargs := [.attr "title".toList (some "mail".toList), .attr "username".toList (some "ann".toList),
      .tags ["home".toList], .uuid [1]] }
    World Sample.world ∧ a.path = none ∧ a.tree ≠ some 0 ∧ (∀ k ∈ a.kwargs, KwOk .entry k) ∧
      findEntries Sample.engine Sample.world true a = .ok (.list [9]) :=
  ⟨Sample.world_ok, rfl, by decide, by decide, by decide +kernel⟩

/-- One with a custom string and an auto-type filter. -/
example :
    let a : FindArgs := { kwargs := [.attr "autotype_window".toList (some "w".toList),
      .string [("pin".toList, "12".toList), ("UserName".toList, "ann".toList)]] }
    (∀ k ∈ a.kwargs, KwOk .entry k) ∧ findEntries Sample.engine Sample.world true a = .ok (.list [39]) :=
  ⟨by decide, by decide +kernel⟩

end Verif.Props
