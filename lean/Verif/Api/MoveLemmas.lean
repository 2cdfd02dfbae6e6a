import Verif.Api.ReachLemmas
import Verif.Api.KeePass
/-!
# Deleting and moving elements
-/
namespace Verif.Api
open Verif XPath Spec

theorem world_get {s : Db} (hs : Inv s) : s.world.get? 0 = some s.world := by
  rw [← hs.world.id]; exact Node.get?_mem hs.world.uniq (Node.self_mem_nodes _)

theorem kid_mem {s : Db} (hs : Inv s) {p c : Nat} (hk : c ∈ s.heap.kids p) : c ∈ s.world.ids ∧ p ∈ s.world.ids := by
  obtain ⟨pn, cn, h1, _, _, h4⟩ := heap_kid hs hk
  obtain ⟨h5, h6⟩ := Node.get?_some h4
  obtain ⟨h7, h8⟩ := Node.get?_some h1
  exact ⟨by rw [← h6]; exact Node.mem_nodes_ids h5, by rw [← h8]; exact Node.mem_nodes_ids h7⟩

/-- `getparent()` of a child of a real element. -/
theorem parentOf_some {s : Db} (hs : Inv s) {p e : Nat} (hp : p ≠ 0) (hk : e ∈ s.heap.kids p) :
    parentOf e s = (.ok (some p), s) := by
  obtain ⟨hem, _⟩ := kid_mem hs hk
  have hne : e ≠ s.world.id := by rw [hs.world.id]; exact kid_ne_zero hs hk
  obtain ⟨q, hq⟩ := Node.parent?_exists hem hne
  obtain ⟨h1, k, h2, h3⟩ := Node.parent?_some hq
  have hqe : e ∈ s.heap.kids q.id := by
    rw [node_kids (Node.get?_mem hs.world.uniq h1)]
    exact List.mem_map.mpr ⟨k, h2, h3⟩
  have hqp : q.id = p := parent_eq hs hqe hk
  show (Except.ok (match s.world.parent? e with | none => none | some p => if p.id = 0 then none else some p.id), s) = _
  rw [hq]
  show (Except.ok (if q.id = 0 then none else some q.id), s) = _
  rw [hqp, if_neg hp]

/-- A detached element and the document element have no parent. -/
theorem parentOf_top {s : Db} (hs : Inv s) {e : Nat} (hk : e ∈ s.heap.kids 0) : parentOf e s = (.ok none, s) := by
  obtain ⟨hem, _⟩ := kid_mem hs hk
  have hne : e ≠ s.world.id := by rw [hs.world.id]; exact kid_ne_zero hs hk
  obtain ⟨q, hq⟩ := Node.parent?_exists hem hne
  obtain ⟨h1, k, h2, h3⟩ := Node.parent?_some hq
  have hqe : e ∈ s.heap.kids q.id := by
    rw [node_kids (Node.get?_mem hs.world.uniq h1)]
    exact List.mem_map.mpr ⟨k, h2, h3⟩
  have hqp : q.id = 0 := parent_eq hs hqe hk
  show (Except.ok (match s.world.parent? e with | none => none | some p => if p.id = 0 then none else some p.id), s) = _
  rw [hq]
  show (Except.ok (if q.id = 0 then none else some q.id), s) = _
  rw [if_pos hqp]

theorem moved_of {s s' : Db} {x d : Nat}
    (h : ∀ j, s'.heap j = (s.heap j).map fun r => { r with kids := movedKids x d j r.kids }) : Moved s.heap s'.heap x d := h

theorem delete_ok {s : Db} (hs : Inv s) {p e : Nat} (hp : p ≠ 0) (hk : e ∈ s.heap.kids p) :
    ∃ s', delete e s = (.ok (), s') ∧ Inv s' ∧ s' = { s with world := s'.world } ∧ Moved s.heap s'.heap e 0 := by
  obtain ⟨s', h1, h2, h3, h4⟩ := removeKid_ok hs hp hk
  refine ⟨s', ?_, h2, h3, h4⟩
  unfold delete
  rw [bind_of (parentOf_some hs hp hk), bind_of (orAttr_some p s)]
  exact h1

theorem delete_top {s : Db} (hs : Inv s) {e : Nat} (hk : e ∈ s.heap.kids 0) : delete e s = (.error .attribute, s) := by
  unfold delete
  rw [bind_of (parentOf_top hs hk)]
  exact bind_err (orAttr_none s)

/-- Nothing is a proper part of itself. -/
theorem no_cycle {s : Db} (hs : Inv s) {x j : Nat} (hk : x ∈ s.heap.kids j) : ¬ Reach s.heap x j := by
  intro h
  obtain ⟨pn, cn, h1, h2, h3, h4⟩ := heap_kid hs hk
  have := (reach_iff hs h4 j).mp h
  obtain ⟨h5, h6⟩ := Node.get?_some h1
  have hb := below_of_kid hs.world.uniq h5 h2
  rw [h6] at hb
  exact hb this

/-- An element that is neither the old nor the new parent holds what it held. -/
theorem moved_same {h h' : Heap} {x d : Nat} (hm : Moved h h' x d) {j : Nat} (hj : j ≠ d) (hk : x ∉ h.kids j) : h' j = h j := by
  rw [hm j]
  unfold Heap.kids at hk
  cases hh : h j with
  | none => rfl
  | some r =>
    rw [hh] at hk
    show some _ = some _
    congr 1
    simp only [if_neg hj]
    have hk' : x ∉ r.kids := hk
    rw [Node.filter_ne_self hk']

theorem moved_tag {h h' : Heap} {x d : Nat} (hm : Moved h h' x d) (j : Nat) : h'.tag j = h.tag j := by
  unfold Heap.tag
  rw [hm j]
  cases h j <;> rfl

theorem moved_text {h h' : Heap} {x d : Nat} (hm : Moved h h' x d) (j : Nat) : h'.text j = h.text j := by
  unfold Heap.text
  rw [hm j]
  cases h j <;> rfl

theorem moved_attr {h h' : Heap} {x d : Nat} (hm : Moved h h' x d) (j : Nat) (k : Str) : h'.attr j k = h.attr j k := by
  unfold Heap.attr
  rw [hm j]
  cases h j <;> rfl

/-- What is below the moved element holds what it held. -/
theorem moved_content {s : Db} (hs : Inv s) {h' : Heap} {x d : Nat} (hm : Moved s.heap h' x d) (hcyc : ¬ Reach s.heap x d)
    {j : Nat} (hj : Reach s.heap x j) : h' j = s.heap j := by
  refine moved_same hm ?_ ?_
  · rintro rfl; exact hcyc hj
  · intro hk; exact no_cycle hs hk hj

theorem zero_not_reach {s : Db} (hs : Inv s) {x : Nat} (hx : x ≠ 0) : ¬ Reach s.heap x 0 := fun h => hx (reach_zero hs h)

/-- `append` of an element that is not the document element. -/
theorem append_ok {s : Db} (hs : Inv s) {x d : Nat} (hx : x ∈ s.world.ids) (h0 : x ≠ 0) (hd : d ∈ s.world.ids)
    (hcyc : ¬ Reach s.heap x d) (hdoc : docEl s.heap ≠ some x) :
    ∃ s', appendEl d x s = (.ok (), s') ∧ Inv s' ∧ s' = { s with world := s'.world } ∧ Moved s.heap s'.heap x d := by
  obtain ⟨n, hn⟩ := get_of_mem hx
  obtain ⟨s', h1, h2, h3, h4⟩ := appendEl_ok hs hn h0 hd (fun h => hcyc ((reach_iff hs hn d).mpr h)) hdoc
  exact ⟨s', h1, h2, h3, h4⟩

theorem append_refused {s : Db} (hs : Inv s) {x d : Nat} (hx : x ∈ s.world.ids) (hcyc : Reach s.heap x d) :
    appendEl d x s = (.error .value, s) := by
  obtain ⟨n, hn⟩ := get_of_mem hx
  exact appendEl_cycle hn ((reach_iff hs hn d).mp hcyc)

/-- Membership is kept by a move. -/
theorem moved_mem {s s' : Db} {x d : Nat} (hm : Moved s.heap s'.heap x d) (j : Nat) : j ∈ s'.world.ids ↔ j ∈ s.world.ids := by
  rw [← heap_some, ← heap_some, hm j]
  cases s.heap j with
  | none => simp
  | some r => simp

end Verif.Api
