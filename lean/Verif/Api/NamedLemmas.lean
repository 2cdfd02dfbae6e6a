import Verif.Api.RootLemmas
import Verif.Api.SearchApi
import Verif.Spec.Path
import Verif.XPath.PathLemmas
/-!
# Names on the way down
-/
namespace Verif.Api
open Verif XPath Spec

variable {s : Db}

theorem nameIn_eq (hs : Inv s) {n : Node} (hn : n ∈ s.world.nodes) : nameIn n = sub s.heap n.id "Name".toList := by
  unfold nameIn sub Heap.find
  rw [node_all hs hn, List.head?_map, List.head?_filter]
  cases hf : n.kids.find? fun k => k.tag == "Name".toList with
  | none => rfl
  | some k =>
    show k.text = s.heap.text k.id
    rw [node_text (kid_get hs.world.uniq hn (List.mem_of_find?_eq_some hf))]

theorem all_kid {h : Heap} {p g : Nat} {t : Str} (hg : g ∈ h.all p t) : g ∈ h.kids p ∧ h.tag g = t :=
  ⟨(List.mem_filter.mp hg).1, beq_iff_eq.mp (List.mem_filter.mp hg).2⟩

theorem named_tag {h : Heap} {r g : Nat} {ns : List Str} (hr : IsRoot h r) (hn : Named h r ns g) : h.tag g = "Group".toList := by
  cases hn with
  | root => exact root_tag hr
  | sub _ hg _ => exact (all_kid hg).2

/-- Upwards from a named group, `path` collects the names. -/
theorem named_loop (hs : Inv s) {r g : Nat} {ns : List Str} (hr : IsRoot s.heap r) (hn : Named s.heap r ns g) :
    ∃ l ∈ allLocs s.world, l.node.id = g ∧ ∀ acc, pathLoop (l.node :: l.anc) acc = .ok (ns.map some ++ acc) := by
  have place : ∀ {i : Nat}, s.heap.tag i = "Group".toList → i ∈ s.world.ids := fun ht =>
    tag_mem (by rw [ht]; decide)
  induction hn with
  | root =>
    obtain ⟨l, _, h2, rfl⟩ := place_run hs (place (root_tag hr))
    have ht := root_tag hr
    have h0 : l.node.id ≠ 0 := tag_ne_zero hs (by rw [ht]; decide)
    rw [node_tag (place_get hs h2 h0)] at ht
    refine ⟨l, h2, rfl, fun acc => ?_⟩
    obtain ⟨d, q, _, _, hq, hx⟩ := hr
    have hq0 : q ≠ 0 := tag_ne_zero hs (by rw [(all_kid hq).2]; decide)
    obtain ⟨m, _, h4, rfl⟩ := place_run hs (kid_mem hs (all_kid hx).1).2
    obtain ⟨h5, _⟩ := place_kid hs h4 hq0 h2 (all_kid hx).1
    have hqt := (all_kid hq).2
    rw [node_tag (place_get hs h4 hq0)] at hqt
    have hi : isRootIn l.anc = .ok true := by
      rw [h5]
      unfold isRootIn parentIn
      simp only [if_neg hq0]
      rw [hqt]
      rfl
    unfold pathLoop
    rw [if_pos ht, hi]
    rfl
  | @sub ns p g n hp hg hname ih =>
    obtain ⟨m, h1, rfl, h3⟩ := ih
    have hpt := named_tag hr hp
    have hp0 : m.node.id ≠ 0 := tag_ne_zero hs (by rw [hpt]; decide)
    rw [node_tag (place_get hs h1 hp0)] at hpt
    obtain ⟨l, _, h4, rfl⟩ := place_run hs (kid_mem hs (all_kid hg).1).1
    have hl0 : l.node.id ≠ 0 := tag_ne_zero hs (by rw [(all_kid hg).2]; decide)
    obtain ⟨h5, _⟩ := place_kid hs h1 hp0 h4 (all_kid hg).1
    refine ⟨l, h4, rfl, fun acc => ?_⟩
    have ht := (all_kid hg).2
    have hget := place_get hs h4 hl0
    rw [node_tag hget] at ht
    have hi : isRootIn l.anc = .ok false := by
      rw [h5]
      unfold isRootIn parentIn
      simp only [if_neg hp0]
      rw [hpt]
      rfl
    unfold pathLoop
    rw [if_pos ht, hi, nameIn_eq hs (Node.get?_some hget).1, hname, h5]
    show pathLoop (m.node :: m.anc) (some n :: acc) = _
    rw [h3]
    simp

/-! ## The search along a path -/

theorem isRoot_node (hs : Inv s) {r : Node} (hm : r ∈ s.world.nodes) : IsRoot s.heap r.id ↔ TopGroup s.world r := by
  have hw := world_get hs
  have hd : docEl s.heap = s.world.kids.head?.map Node.id := by
    unfold docEl
    rw [node_kids hw, List.head?_map]
  constructor
  · rintro ⟨d, q, h1, h2, h3, h4⟩
    rw [hd] at h1
    cases hh : s.world.kids.head? with
    | none => rw [hh] at h1; cases h1
    | some k =>
      rw [hh] at h1
      injection h1 with h1
      subst h1
      have hk : k ∈ s.world.kids := List.mem_of_mem_head? hh
      have hkm : k ∈ s.world.nodes := Node.kid_mem_nodes hk
      rw [node_tag (Node.get?_mem hs.world.uniq hkm)] at h2
      refine ⟨k, hh.symm, h2, ?_⟩
      rw [node_all hs hkm] at h3
      obtain ⟨q', hq, rfl⟩ := List.mem_map.mp h3
      obtain ⟨hq1, hq2⟩ := List.mem_filter.mp hq
      have hqm := Node.nodes_trans hkm (Node.kid_mem_nodes hq1)
      rw [node_all hs hqm] at h4
      obtain ⟨x, hx, hxi⟩ := List.mem_map.mp h4
      obtain ⟨hx1, hx2⟩ := List.mem_filter.mp hx
      have hxm := Node.nodes_trans hqm (Node.kid_mem_nodes hx1)
      have e1 := Node.get?_mem hs.world.uniq hxm
      rw [hxi, Node.get?_mem hs.world.uniq hm] at e1
      injection e1 with e1
      subst e1
      exact mem_descend_cons.mpr ⟨q', hq1, beq_iff_eq.mp hq2, mem_descend_cons.mpr ⟨r, hx1, beq_iff_eq.mp hx2, List.mem_singleton.mpr rfl⟩⟩
  · rintro ⟨k, h1, h2, h3⟩
    obtain ⟨q, hq, hqt, h4⟩ := mem_descend_cons.mp h3
    obtain ⟨x, hx, hxt, h5⟩ := mem_descend_cons.mp h4
    rw [List.mem_singleton.mp h5]
    have hk : k ∈ s.world.kids := List.mem_of_mem_head? h1.symm
    have hkm : k ∈ s.world.nodes := Node.kid_mem_nodes hk
    have hqm := Node.nodes_trans hkm (Node.kid_mem_nodes hq)
    refine ⟨k.id, q.id, by rw [hd, ← h1]; rfl, by rw [node_tag (Node.get?_mem hs.world.uniq hkm)]; exact h2, ?_, ?_⟩
    · rw [node_all hs hkm]
      exact List.mem_map_of_mem (List.mem_filter.mpr ⟨hq, beq_iff_eq.mpr hqt⟩)
    · rw [node_all hs hqm]
      exact List.mem_map_of_mem (List.mem_filter.mpr ⟨hx, beq_iff_eq.mpr hxt⟩)

/-- With one `Name`, having the name is what the search tests. -/
theorem name_tested (hs : Inv s) {n : Node} (hn : n ∈ s.world.nodes) (ho : (s.heap.all n.id "Name".toList).length ≤ 1) (v : Str) :
    HasValue exact n (.sub ["Name".toList]) v ↔ sub s.heap n.id "Name".toList = some v := by
  rw [hasValue_sub hs (Node.get?_mem hs.world.uniq hn)]
  unfold sub Heap.find
  cases hl : s.heap.all n.id "Name".toList with
  | nil => simp
  | cons a l =>
    rw [hl] at ho
    cases l with
    | nil => simp
    | cons b l => simp at ho

theorem title_tested (hs : Inv s) {n : Node} (hn : n ∈ s.world.nodes) (ho : (valueEls s.heap n.id "Title".toList).length ≤ 1) (v : Str) :
    HasValue exact n (.field "Title".toList) v ↔ field s.heap n.id "Title".toList = some v := by
  rw [hasValue_field hs (Node.get?_mem hs.world.uniq hn)]
  unfold field
  cases hl : valueEls s.heap n.id "Title".toList with
  | nil => simp
  | cons a l =>
    rw [hl] at ho
    cases l with
    | nil => simp
    | cons b l => simp at ho

theorem follow_append {T : Test} {ns ms : List Str} {a b c : Node} (h : Follow T ns a b) (h' : Follow T ms b c) :
    Follow T (ns ++ ms) a c := by
  induction ns generalizing a with
  | nil => rw [← show b = a from h]; exact h'
  | cons n ns ih =>
    obtain ⟨k, hk, ht, hv, hf⟩ := h
    exact ⟨k, hk, ht, hv, ih hf⟩

theorem kid_node (hs : Inv s) {n : Node} (hn : n ∈ s.world.nodes) {t : Str} {c : Nat} (hc : c ∈ s.heap.all n.id t) :
    ∃ k ∈ n.kids, k.id = c ∧ k.tag = t ∧ k ∈ s.world.nodes := by
  rw [node_all hs hn] at hc
  obtain ⟨k, hk, hi⟩ := List.mem_map.mp hc
  obtain ⟨h1, h2⟩ := List.mem_filter.mp hk
  exact ⟨k, h1, hi, beq_iff_eq.mp h2, Node.nodes_trans hn (Node.kid_mem_nodes h1)⟩

/-- The names lead the search to the group. -/
theorem named_follow (hs : Inv s) (ho : OneName s.heap) {r : Node} (hm : r ∈ s.world.nodes) {ns : List Str} {g : Nat}
    (h : Named s.heap r.id ns g) : ∃ x ∈ s.world.nodes, x.id = g ∧ Follow exact ns r x := by
  induction h with
  | root => exact ⟨r, hm, rfl, rfl⟩
  | @sub ns p g n hp hg hname ih =>
    obtain ⟨x, hx, rfl, hf⟩ := ih
    obtain ⟨k, h1, rfl, h3, h4⟩ := kid_node hs hx hg
    refine ⟨k, h4, rfl, follow_append hf ⟨k, h1, h3, ?_, rfl⟩⟩
    exact (name_tested hs h4 (ho.group _ (all_kid hg).2) n).mpr hname

/-- And nowhere else. -/
theorem follow_named (hs : Inv s) (ho : OneName s.heap) {r : Nat} {ns : List Str} : ∀ {ms : List Str} {a x : Node},
    a ∈ s.world.nodes → Named s.heap r ms a.id → Follow exact ns a x → Named s.heap r (ms ++ ns) x.id := by
  induction ns with
  | nil =>
    intro ms a x _ hn hf
    rw [show x = a from hf, List.append_nil]
    exact hn
  | cons n ns ih =>
    intro ms a x ha hn hf
    obtain ⟨k, hk, ht, hv, hf⟩ := hf
    have hkm := Node.nodes_trans ha (Node.kid_mem_nodes hk)
    have hkg : k.id ∈ s.heap.all a.id "Group".toList := by
      rw [node_all hs ha]
      exact List.mem_map_of_mem (List.mem_filter.mpr ⟨hk, beq_iff_eq.mpr ht⟩)
    have := ih hkm (.sub hn hkg ((name_tested hs hkm (ho.group _ (all_kid hkg).2) n).mp hv)) hf
    rwa [List.append_assoc] at this

/-- Where sibling names differ, the names lead to one group. -/
theorem named_unique {h : Heap} (hu : OwnNames h) {r : Nat} {ns : List Str} {g : Nat} (hg : Named h r ns g) :
    ∀ {g'}, Named h r ns g' → g = g' := by
  induction hg with
  | root =>
    intro g' hg'
    generalize hns : ([] : List Str) = ns at hg'
    cases hg' with
    | root => rfl
    | sub _ _ _ => simp at hns
  | @sub ns p g n hp hgp hname ih =>
    intro g' hg'
    generalize hns : ns ++ [n] = ms at hg'
    cases hg' with
    | root => simp at hns
    | @sub ns' p' _ n' hp' hgp' hname' =>
      obtain ⟨e1, e2⟩ := List.append_inj' hns rfl
      injection e2 with e2
      subst e1; subst e2
      have := ih hp'
      subst this
      exact hu.group _ _ _ _ hgp hgp' hname hname'

end Verif.Api
