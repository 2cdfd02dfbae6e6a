import Verif.Api.AttachLemmas
/-!
# Places and ancestors
-/
namespace Verif.Api
open Verif XPath Spec

variable {s : Db}

theorem place_run (hs : Inv s) {e : Nat} (he : e ∈ s.world.ids) : ∃ l, placeOf e s = (.ok l, s) ∧ l ∈ allLocs s.world ∧ l.node.id = e := by
  rw [← allLocs_ids hs.world.id] at he
  obtain ⟨l, hl, rfl⟩ := List.mem_map.mp he
  refine ⟨l, ?_, hl, rfl⟩
  unfold placeOf
  rw [locOf_mem hs.world hl]

theorem place_mem {e : Nat} {l : Loc} (h : placeOf e s = (.ok l, s)) : l ∈ allLocs s.world ∧ l.node.id = e := by
  unfold placeOf at h
  cases hl : locOf s.world e with
  | none => rw [hl] at h; cases h
  | some m =>
    rw [hl] at h
    injection h with h _
    injection h with h
    rw [← h]
    exact locOf_some hl

/-- The node at a place is what the world holds under its id. -/
theorem place_get (hs : Inv s) {l : Loc} (hl : l ∈ allLocs s.world) (h0 : l.node.id ≠ 0) : s.world.get? l.node.id = some l.node :=
  Node.get?_mem hs.world.uniq ((allLocs_node hl).resolve_left h0)

/-- The place of a child. -/
theorem place_kid (hs : Inv s) {m l : Loc} (hm : m ∈ allLocs s.world) (h0 : m.node.id ≠ 0) (hl : l ∈ allLocs s.world)
    (hk : l.node.id ∈ s.heap.kids m.node.id) : l.anc = m.node :: m.anc ∧ l.node ∈ m.node.kids := by
  rw [node_kids (place_get hs hm h0)] at hk
  obtain ⟨k, hk1, hk2⟩ := List.mem_map.mp hk
  have := allLocs_inj hs.world (allLocs_kid hm hk1) hl hk2
  rw [← this]
  exact ⟨rfl, hk1⟩

/-- An ancestor with a tag is an element of the world, and the place is below it. -/
theorem place_anc (hs : Inv s) : ∀ {anc : List Node} {l : Loc}, l ∈ allLocs s.world → l.anc = anc → ∀ q ∈ anc, q.tag ≠ [] →
    q.id ≠ 0 ∧ s.world.get? q.id = some q ∧ Reach s.heap q.id l.node.id ∧ q.id ≠ l.node.id := by
  intro anc
  induction anc with
  | nil => intro l _ _ q hq; cases hq
  | cons p r ih =>
    intro l hl e q hq ht
    obtain ⟨h1, h2⟩ := allLocs_parent hl e
    rcases List.mem_cons.mp hq with h | h
    · subst h
      have hq0 : q.id ≠ 0 := by
        intro e0
        have : (⟨q, r⟩ : Loc) = ⟨docNode s.world, []⟩ := allLocs_inj hs.world h1 (docNode_mem _) (by rw [e0]; rfl)
        have hq' : q = docNode s.world := congrArg Loc.node this
        rw [hq'] at ht
        exact ht rfl
      have hg := place_get hs h1 hq0
      have hk : l.node.id ∈ s.heap.kids q.id := by rw [node_kids hg]; exact List.mem_map_of_mem h2
      exact ⟨hq0, hg, .kid hk, fun e => no_cycle hs hk (by rw [e]; exact .refl)⟩
    · obtain ⟨a1, a2, a3, a4⟩ := ih h1 rfl q h ht
      have hp0 : p.id ≠ 0 := by
        intro e0
        exact a1 (reach_zero hs (e0 ▸ a3))
      have hk : l.node.id ∈ s.heap.kids p.id := by
        rw [node_kids (place_get hs h1 hp0)]; exact List.mem_map_of_mem h2
      refine ⟨a1, a2, .snoc a3 hk, fun e => ?_⟩
      exact no_cycle hs hk (by rw [← e]; exact a3)

/-- `group` finds a group above the element. -/
theorem groupOf_some (hs : Inv s) {e g : Nat} (h : groupOf e s = (.ok (some g), s)) :
    g ≠ 0 ∧ g ∈ s.world.ids ∧ s.heap.tag g = "Group".toList ∧ Reach s.heap g e ∧ g ≠ e := by
  unfold groupOf at h
  cases hl : locOf s.world e with
  | none =>
    rw [bind_err (show placeOf e s = (.error .unmodelled, s) by unfold placeOf; rw [hl])] at h
    cases h
  | some l =>
    obtain ⟨h1, h2⟩ := locOf_some hl
    rw [bind_of (show placeOf e s = (.ok l, s) by unfold placeOf; rw [hl])] at h
    have h : ((l.anc.find? fun p => p.tag == "Group".toList).map Node.id) = some g := by
      injection h with h _
      injection h
    cases hf : l.anc.find? fun p => p.tag == "Group".toList with
    | none => rw [hf] at h; cases h
    | some q =>
      rw [hf] at h
      injection h with h
      subst h
      have hq := List.mem_of_find?_eq_some hf
      have ht : q.tag = "Group".toList := by simpa using List.find?_some hf
      obtain ⟨a1, a2, a3, a4⟩ := place_anc hs h1 rfl q hq (by rw [ht]; decide)
      rw [h2] at a3 a4
      exact ⟨a1, heap_some.mp ⟨_, by unfold Db.heap Node.view; rw [a2]; rfl⟩, by rw [node_tag a2]; exact ht, a3, a4⟩

/-- `group` of a child of a group. -/
theorem groupOf_kid (hs : Inv s) {e g : Nat} (ht : s.heap.tag g = "Group".toList) (hk : e ∈ s.heap.kids g) :
    groupOf e s = (.ok (some g), s) := by
  have hg0 : g ≠ 0 := tag_ne_zero hs (by rw [ht]; decide)
  obtain ⟨l, h1, h2, h3⟩ := place_run hs (kid_mem hs hk).1
  obtain ⟨m, h4, h5, h6⟩ := place_run hs (kid_mem hs hk).2
  subst h3; subst h6
  obtain ⟨h7, _⟩ := place_kid hs h5 hg0 h2 hk
  unfold groupOf
  rw [bind_of h1, h7]
  rw [node_tag (place_get hs h5 hg0)] at ht
  rw [List.find?_cons_of_pos (by rw [ht]; decide)]
  rfl

end Verif.Api
