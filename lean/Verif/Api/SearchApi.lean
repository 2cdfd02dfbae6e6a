import Verif.Api.SubLemmas
import Verif.Api.KeePass
import Verif.XPath.Uses
/-!
# The searches, stated about the elements the API works with
-/
namespace Verif.Api
open Verif XPath Spec

/-- What `find_entries` finds in the whole database with history hidden: the entries that satisfy the
filters. -/
theorem findEntryList_run (env : Env) {s : Db} (hs : Inv s) {ks : List Kw} (hk : ∀ k ∈ ks, KwOk .entry k) :
    ∃ l, findEntryList env true { kwargs := ks } s = (.ok l, s) ∧ l.Nodup ∧
      ∀ i, i ∈ l ↔ ∃ n, s.world.get? i = some n ∧ InDoc s.heap i ∧ s.heap.tag i = "Entry".toList ∧ ¬ InHist s.heap i ∧
        ∀ k ∈ ks, KwHolds entryPlace exact n k := by
  obtain ⟨r, hr⟩ := find_ok (K := .entry) (re := env.re) (recursive := true) hs.world (a := { kwargs := ks }) rfl (by simp) (by simp) hk
    (fun k _ => kw_compiles_exact k) cast_entry
  obtain ⟨is, rfl, hsub, hm⟩ := find_partial hs.world rfl (by simp) (by simp) hk hr
  refine ⟨is, ?_, hsub.nodup hs.world.uniq, ?_⟩
  · unfold findEntryList
    rw [findEntries_eq, hr]
    rfl
  · intro i
    rw [hm i]
    constructor
    · rintro ⟨x, hx, rfl, h⟩
      have hg := Node.get?_mem hs.world.uniq hx
      exact ⟨x, hg, (inDoc_scope hs hx).mp h.scope, by rw [node_tag hg]; exact h.tag,
        fun hh => h.history rfl ((hist_iff hs hx).mpr hh), h.filters⟩
    · rintro ⟨x, hg, h1, h2, h3, h4⟩
      obtain ⟨hx, hid⟩ := Node.get?_some hg
      subst hid
      refine ⟨x, hx, rfl, ⟨(inDoc_scope hs hx).mpr h1, by rw [← node_tag hg]; exact h2, fun _ hh => h3 ((hist_iff hs hx).mp hh), h4⟩⟩

/-- A field filter, read on the elements. -/
theorem hasValue_field {s : Db} (hs : Inv s) {i : Nat} {n : Node} (hn : s.world.get? i = some n) (key v : Str) :
    HasValue exact n (.field key) v ↔ ∃ k ∈ valueEls s.heap i key, s.heap.text k = some v := by
  obtain ⟨hm, hid⟩ := Node.get?_some hn
  subst hid
  rw [node_valueEls hs hm]
  unfold HasValue exact valuesAt
  constructor
  · rintro ⟨t, ht, rfl⟩
    obtain ⟨x, hx, e⟩ := List.mem_map.mp ht
    refine ⟨x.id, List.mem_map.mpr ⟨x, hx, rfl⟩, ?_⟩
    have hxw : x ∈ s.world.nodes := by
      unfold fieldNodes at hx
      obtain ⟨g, h1, h2⟩ := List.mem_flatMap.mp hx
      exact Node.nodes_trans hm (Node.nodes_trans (Node.kid_mem_nodes (List.mem_filter.mp h1).1)
        (Node.kid_mem_nodes (List.mem_filter.mp h2).1))
    rw [node_text (Node.get?_mem hs.world.uniq hxw), e]
  · rintro ⟨k, hk, ht⟩
    obtain ⟨x, hx, rfl⟩ := List.mem_map.mp hk
    have hxw : x ∈ s.world.nodes := by
      unfold fieldNodes at hx
      obtain ⟨g, h1, h2⟩ := List.mem_flatMap.mp hx
      exact Node.nodes_trans hm (Node.nodes_trans (Node.kid_mem_nodes (List.mem_filter.mp h1).1)
        (Node.kid_mem_nodes (List.mem_filter.mp h2).1))
    rw [node_text (Node.get?_mem hs.world.uniq hxw)] at ht
    exact ⟨some v, List.mem_map.mpr ⟨x, hx, ht⟩, rfl⟩

/-- A filter on a text child, read on the elements. -/
theorem hasValue_sub {s : Db} (hs : Inv s) {i : Nat} {n : Node} (hn : s.world.get? i = some n) (tag v : Str) :
    HasValue exact n (.sub [tag]) v ↔ ∃ k ∈ s.heap.all i tag, s.heap.text k = some v := by
  obtain ⟨hm, hid⟩ := Node.get?_some hn
  subst hid
  rw [node_all hs hm]
  have hd : ∀ x, x ∈ descend [tag] n ↔ x ∈ n.kids.filter fun k => k.tag == tag := by
    intro x
    unfold descend
    rw [List.mem_flatMap]
    constructor
    · rintro ⟨y, hy, hx⟩
      unfold descend at hx
      rw [List.mem_singleton.mp hx]; exact hy
    · intro hx
      exact ⟨x, hx, by unfold descend; exact List.mem_singleton.mpr rfl⟩
  have ht : ∀ x, x ∈ n.kids.filter (fun k => k.tag == tag) → s.heap.text x.id = x.text := by
    intro x hx
    exact node_text (kid_get hs.world.uniq hm (List.mem_filter.mp hx).1)
  unfold HasValue exact valuesAt
  constructor
  · rintro ⟨t, h1, rfl⟩
    obtain ⟨x, hx, e⟩ := List.mem_map.mp h1
    have hx := (hd x).mp hx
    exact ⟨x.id, List.mem_map.mpr ⟨x, hx, rfl⟩, by rw [ht x hx, e]⟩
  · rintro ⟨k, hk, h2⟩
    obtain ⟨x, hx, rfl⟩ := List.mem_map.mp hk
    rw [ht x hx] at h2
    exact ⟨some v, List.mem_map.mpr ⟨x, (hd x).mpr hx, h2⟩, rfl⟩

end Verif.Api
