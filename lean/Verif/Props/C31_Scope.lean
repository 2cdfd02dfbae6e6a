import Verif.XPath.Uses
import Verif.XPath.Sample
/-!
# C31: `group=` and `recursive=` delimit the search
-/
namespace Verif.Props
open Verif XPath Spec

/-- What an element must satisfy besides being in scope. -/
def Fits (tag : Str) (place : Str → Option Place) (re : Regex) (w : Node) (a : FindArgs) (x : Node) : Prop :=
  x.tag = tag ∧ (a.history = false → ¬ InHistory w x) ∧
  ∀ k ∈ a.kwargs, KwHolds place (if a.regex then regexTest re ((flagsStr a.flags).any (· == 'i')) else exact) x k

/-- `find_entries(group=g)`: exactly the fitting elements strictly below `g`. -/
theorem C31_below {re : Regex} {w : Node} (hw : World w) {a : FindArgs} {g : Node} (hg : g ∈ w.nodes)
    (ha : a.tree = some g.id) (hg0 : g.id ≠ 0) (hp : a.path = none) (hf : a.regex = true → Plain (flagsStr a.flags))
    (hk : ∀ k ∈ a.kwargs, KwOk .entry k) {r : Found} (hr : findEntries re w true a = .ok r) :
    ∃ is, r = (if a.first then .one is.head? else .list is) ∧ is.Sublist w.ids ∧
      ∀ i, i ∈ is ↔ ∃ x ∈ w.nodes, x.id = i ∧ Below g x ∧ Fits "Entry".toList entryPlace re w a x := by
  rw [findEntries_eq] at hr
  obtain ⟨is, e, hs, hm⟩ := find_partial hw hp (by rw [ha]; simpa using hg0) hf hk hr
  refine ⟨is, e, hs, fun i => ?_⟩
  rw [hm]
  constructor
  · rintro ⟨x, hx, rfl, h⟩
    refine ⟨x, hx, rfl, ?_, h.tag, h.history, h.filters⟩
    have hsc := h.scope
    rw [ha] at hsc
    obtain ⟨n, hn, e, hb⟩ := hsc
    rw [← Node.uniq_mem hw.uniq hn hg e]; exact hb
  · rintro ⟨x, hx, rfl, hb, h1, h2, h3⟩
    exact ⟨x, hx, rfl, by rw [ha]; exact ⟨g, hg, rfl, hb⟩, h1, h2, h3⟩

/-- `find_entries(group=g, recursive=False)`: exactly the fitting children of `g`. -/
theorem C31_children {re : Regex} {w : Node} (hw : World w) {a : FindArgs} {g : Node} (hg : g ∈ w.nodes)
    (ha : a.tree = some g.id) (hg0 : g.id ≠ 0) (hp : a.path = none) (hf : a.regex = true → Plain (flagsStr a.flags))
    (hk : ∀ k ∈ a.kwargs, KwOk .entry k) {r : Found} (hr : findEntries re w false a = .ok r) :
    ∃ is, r = (if a.first then .one is.head? else .list is) ∧ is.Sublist w.ids ∧
      ∀ i, i ∈ is ↔ ∃ x ∈ g.kids, x.id = i ∧ Fits "Entry".toList entryPlace re w a x := by
  rw [findEntries_eq] at hr
  obtain ⟨is, e, hs, hm⟩ := find_partial hw hp (by rw [ha]; simpa using hg0) hf hk hr
  refine ⟨is, e, hs, fun i => ?_⟩
  rw [hm]
  constructor
  · rintro ⟨x, hx, rfl, h⟩
    have hsc := h.scope
    rw [ha] at hsc
    obtain ⟨n, hn, e, hb⟩ := hsc
    rw [Node.uniq_mem hw.uniq hn hg e] at hb
    exact ⟨x, hb, rfl, h.tag, h.history, h.filters⟩
  · rintro ⟨x, hx, rfl, h1, h2, h3⟩
    exact ⟨x, Node.nodes_trans hg (Node.kid_mem_nodes hx), rfl, by rw [ha]; exact ⟨g, hg, rfl, hx⟩, h1, h2, h3⟩

/-- The same for groups. -/
theorem C31_groups_below {re : Regex} {w : Node} (hw : World w) {a : FindArgs} {g : Node} (hg : g ∈ w.nodes)
    (ha : a.tree = some g.id) (hg0 : g.id ≠ 0) (hp : a.path = none) (hf : a.regex = true → Plain (flagsStr a.flags))
    (hk : ∀ k ∈ a.kwargs, KwOk .group k) {r : Found} (hr : findGroups re w true a = .ok r) :
    ∃ is, r = (if a.first then .one is.head? else .list is) ∧ is.Sublist w.ids ∧
      ∀ i, i ∈ is ↔ ∃ x ∈ w.nodes, x.id = i ∧ Below g x ∧ Fits "Group".toList groupPlace re w a x := by
  rw [findGroups_eq] at hr
  obtain ⟨is, e, hs, hm⟩ := find_partial hw hp (by rw [ha]; simpa using hg0) hf hk hr
  refine ⟨is, e, hs, fun i => ?_⟩
  rw [hm]
  constructor
  · rintro ⟨x, hx, rfl, h⟩
    refine ⟨x, hx, rfl, ?_, h.tag, h.history, h.filters⟩
    have hsc := h.scope
    rw [ha] at hsc
    obtain ⟨n, hn, e, hb⟩ := hsc
    rw [← Node.uniq_mem hw.uniq hn hg e]; exact hb
  · rintro ⟨x, hx, rfl, hb, h1, h2, h3⟩
    exact ⟨x, hx, rfl, by rw [ha]; exact ⟨g, hg, rfl, hb⟩, h1, h2, h3⟩

theorem C31_groups_children {re : Regex} {w : Node} (hw : World w) {a : FindArgs} {g : Node} (hg : g ∈ w.nodes)
    (ha : a.tree = some g.id) (hg0 : g.id ≠ 0) (hp : a.path = none) (hf : a.regex = true → Plain (flagsStr a.flags))
    (hk : ∀ k ∈ a.kwargs, KwOk .group k) {r : Found} (hr : findGroups re w false a = .ok r) :
    ∃ is, r = (if a.first then .one is.head? else .list is) ∧ is.Sublist w.ids ∧
      ∀ i, i ∈ is ↔ ∃ x ∈ g.kids, x.id = i ∧ Fits "Group".toList groupPlace re w a x := by
  rw [findGroups_eq] at hr
  obtain ⟨is, e, hs, hm⟩ := find_partial hw hp (by rw [ha]; simpa using hg0) hf hk hr
  refine ⟨is, e, hs, fun i => ?_⟩
  rw [hm]
  constructor
  · rintro ⟨x, hx, rfl, h⟩
    have hsc := h.scope
    rw [ha] at hsc
    obtain ⟨n, hn, e, hb⟩ := hsc
    rw [Node.uniq_mem hw.uniq hn hg e] at hb
    exact ⟨x, hb, rfl, h.tag, h.history, h.filters⟩
  · rintro ⟨x, hx, rfl, h1, h2, h3⟩
    exact ⟨x, Node.nodes_trans hg (Node.kid_mem_nodes hx), rfl, by rw [ha]; exact ⟨g, hg, rfl, hx⟩, h1, h2, h3⟩

/-- Without `group`, a non-recursive search finds nothing (the root element is neither an entry nor a
group). -/
theorem C31_nothing {re : Regex} {w : Node} (hw : World w) {a : FindArgs}
    (ha : a.tree = none) (hp : a.path = none) (hf : a.regex = true → Plain (flagsStr a.flags))
    (hroot : ∀ d ∈ w.kids.head?, d.tag = "KeePassFile".toList) :
    (∀ {r}, (∀ k ∈ a.kwargs, KwOk .entry k) → findEntries re w false a = .ok r →
      r = if a.first then .one none else .list []) ∧
    (∀ {r}, (∀ k ∈ a.kwargs, KwOk .group k) → findGroups re w false a = .ok r →
      r = if a.first then .one none else .list []) := by
  have key : ∀ (T : Str) (pl : Str → Option Place), T ≠ "KeePassFile".toList → ∀ is : List Nat,
      (∀ i, i ∈ is ↔ ∃ x ∈ w.nodes, x.id = i ∧ Matches T pl re w false a x) → is = [] := by
    intro T pl hT is hm
    apply List.eq_nil_iff_forall_not_mem.mpr
    intro i hi
    obtain ⟨x, _, _, h⟩ := (hm i).mp hi
    have hsc := h.scope
    rw [ha] at hsc
    exact hT (by rw [← h.tag]; exact hroot x (Option.mem_def.mpr hsc.symm))
  constructor
  · intro r hk hr
    rw [findEntries_eq] at hr
    obtain ⟨is, rfl, _, hm⟩ := find_partial hw hp (by rw [ha]; simp) hf hk hr
    rw [key _ _ (by decide) is hm]; rfl
  · intro r hk hr
    rw [findGroups_eq] at hr
    obtain ⟨is, rfl, _, hm⟩ := find_partial hw hp (by rw [ha]; simp) hf hk hr
    rw [key _ _ (by decide) is hm]; rfl

/-- Two entries below the group, one of them a child of its subgroup. -/
example : World Sample.world ∧
    findEntries Sample.engine Sample.world true { tree := some 6, kwargs := [.attr "title".toList (some "mail".toList)] } = .ok (.list [9, 58]) ∧
    findEntries Sample.engine Sample.world false { tree := some 6, kwargs := [.attr "title".toList (some "mail".toList)] } = .ok (.list [9]) ∧
    findEntries Sample.engine Sample.world false { kwargs := [.attr "title".toList (some "mail".toList)] } = .ok (.list []) ∧
    findGroups Sample.engine Sample.world false { tree := some 6 } = .ok (.list [36]) ∧
    findGroups Sample.engine Sample.world false {} = .ok (.list []) :=
  ⟨Sample.world_ok, by decide +kernel, by decide +kernel, by decide +kernel, by decide +kernel, by decide +kernel⟩

end Verif.Props
