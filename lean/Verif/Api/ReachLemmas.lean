import Verif.Api.Replace
import Verif.Spec.Reach
/-!
# Reachability
-/
namespace Verif.Api
open Verif XPath Spec

theorem parent_eq {s : Db} (hs : Inv s) {a b c : Nat} (ha : c ∈ s.heap.kids a) (hb : c ∈ s.heap.kids b) : a = b := by
  apply Decidable.byContradiction
  intro hne
  have : ∃ r, s.heap b = some r ∧ c ∈ r.kids := by
    unfold Heap.kids at hb
    cases hh : s.heap b with
    | none => rw [hh] at hb; cases hb
    | some r => rw [hh] at hb; exact ⟨r, rfl, hb⟩
  obtain ⟨r, h1, h2⟩ := this
  exact not_kid_elsewhere hs ha h1 (fun e => hne e.symm) h2

/-- Below an element is what its subtree contains. -/
theorem reach_iff {s : Db} (hs : Inv s) {a : Nat} {n : Node} (hn : s.world.get? a = some n) (b : Nat) :
    Reach s.heap a b ↔ b ∈ n.ids := by
  obtain ⟨hm, hid⟩ := Node.get?_some hn
  constructor
  · intro h
    induction h with
    | refl => rw [← hid]; exact Node.id_mem_ids _
    | @snoc b c _ hk ih =>
      obtain ⟨y, hy, e⟩ := List.mem_map.mp ih
      have hyw := Node.nodes_trans hm hy
      have hg : s.world.get? b = some y := by rw [← e]; exact Node.get?_mem hs.world.uniq hyw
      rw [node_kids hg] at hk
      obtain ⟨k, hk1, hk2⟩ := List.mem_map.mp hk
      rw [← hk2]
      exact Node.mem_nodes_ids (Node.nodes_trans hy (Node.kid_mem_nodes hk1))
  · have key : ∀ m : Node, m ∈ s.world.nodes → ∀ b ∈ m.ids, Reach s.heap m.id b := by
      intro m
      induction m using Node.ind with
      | h i t at' x ks ih =>
        intro hmw b hb
        rw [Node.ids_eq] at hb
        rcases List.mem_cons.mp hb with e | hb
        · rw [e]; exact .refl
        · obtain ⟨k, hk, hbk⟩ := List.mem_flatMap.mp hb
          have hkw : k ∈ s.world.nodes := Node.nodes_trans hmw (Node.kid_mem_nodes hk)
          have h1 : k.id ∈ s.heap.kids i := by
            rw [node_kids (show s.world.get? i = some (Node.mk i t at' x ks) from Node.get?_mem hs.world.uniq hmw)]
            exact List.mem_map.mpr ⟨k, hk, rfl⟩
          exact (Reach.kid h1).trans (ih k hk hkw b hbk)
    intro hb
    rw [← hid]
    exact key n hm b hb

theorem reach_mem {s : Db} (hs : Inv s) {a b : Nat} (h : Reach s.heap a b) (ha : a ∈ s.world.ids) : b ∈ s.world.ids := by
  cases h with
  | refl => exact ha
  | snoc _ hk =>
    obtain ⟨pn, cn, _, _, _, h4⟩ := heap_kid hs hk
    obtain ⟨h5, h6⟩ := Node.get?_some h4
    rw [← h6]; exact Node.mem_nodes_ids h5

theorem doc_some {s : Db} (hs : Inv s) : ∃ d, docEl s.heap = some d ∧ d ∈ s.heap.kids 0 := by
  obtain ⟨r, h1, _, h3⟩ := hs.root
  unfold docEl Heap.kids
  rw [h1]
  cases hk : r.kids with
  | nil => exact absurd hk h3
  | cons a l => exact ⟨a, by simp [hk], by simp [hk]⟩

theorem inDoc_mem {s : Db} (hs : Inv s) {j : Nat} (h : InDoc s.heap j) : j ∈ s.world.ids ∧ j ≠ 0 := by
  obtain ⟨d, hd, hr⟩ := h
  obtain ⟨d', hd', hk⟩ := doc_some hs
  rw [hd] at hd'
  injection hd' with hd'
  subst hd'
  obtain ⟨_, cn, _, _, h3, h4⟩ := heap_kid hs hk
  have hdm : d ∈ s.world.ids := by
    obtain ⟨h5, h6⟩ := Node.get?_some h4
    rw [← h6]; exact Node.mem_nodes_ids h5
  refine ⟨reach_mem hs hr hdm, ?_⟩
  cases hr with
  | refl => exact kid_ne_zero hs hk
  | snoc _ hk' => exact kid_ne_zero hs hk'

/-- Going up from two elements above the same one. -/
theorem reach_kid_up {s : Db} (hs : Inv s) {x k j : Nat} (h : Reach s.heap x j) (hk : j ∈ s.heap.kids k) :
    x = j ∨ Reach s.heap x k := by
  cases h with
  | refl => exact .inl rfl
  | @snoc b _ hb hk' => rw [parent_eq hs hk hk']; exact .inr hb

theorem reach_zero {s : Db} (hs : Inv s) {x : Nat} (h : Reach s.heap x 0) : x = 0 := by
  cases h with
  | refl => rfl
  | snoc _ hk => exact absurd rfl (kid_ne_zero hs hk)

theorem moved_kids {h h' : Heap} {x d : Nat} (hm : Moved h h' x d) (j : Nat) (hj : ∃ r, h j = some r) :
    h'.kids j = if j = d then (h.kids j).filter (· != x) ++ [x] else (h.kids j).filter (· != x) := by
  obtain ⟨r, hr⟩ := hj
  unfold Heap.kids
  rw [hm j, hr]
  rfl

theorem moved_kids_mem {h h' : Heap} {x d : Nat} (hm : Moved h h' x d) (hd : ∃ r, h d = some r) (k c : Nat) :
    c ∈ h'.kids k ↔ (c ≠ x ∧ c ∈ h.kids k) ∨ (c = x ∧ k = d) := by
  by_cases hk : ∃ r, h k = some r
  · rw [moved_kids hm k hk]
    split
    · next e => simp [e]; constructor <;> (intro h; rcases h with h | h <;> simp_all)
    · next e => simp [e]; exact And.comm
  · have h1 : h k = none := by
      cases hh : h k with
      | none => rfl
      | some r => exact absurd ⟨r, hh⟩ hk
    have h2 : h' k = none := by rw [hm k, h1]; rfl
    have h3 : k ≠ d := by rintro rfl; exact hk hd
    unfold Heap.kids
    rw [h1, h2]
    simp [h3]

theorem moved_doc {s : Db} (hs : Inv s) {h' : Heap} {x d : Nat} (hm : Moved s.heap h' x d)
    (hdoc : docEl s.heap ≠ some x) : docEl h' = docEl s.heap := by
  obtain ⟨r, h1, _, h3⟩ := hs.root
  unfold docEl at *
  rw [moved_kids hm 0 ⟨r, h1⟩]
  have : s.heap.kids 0 = r.kids := by unfold Heap.kids; rw [h1]; rfl
  rw [this] at hdoc ⊢
  cases hk : r.kids with
  | nil => exact absurd hk h3
  | cons a l =>
    rw [hk] at hdoc
    have : a ≠ x := fun e => hdoc (by rw [e]; rfl)
    have hf : (a :: l).filter (· != x) = a :: l.filter (· != x) := by
      rw [List.filter_cons, if_pos (by simpa using this)]
    rw [hf]
    split <;> rfl

/-- What is below `x` stays below it, nothing else gets below it. -/
theorem moved_below {s : Db} (hs : Inv s) {h' : Heap} {x d : Nat} (hm : Moved s.heap h' x d) (hd : d ∈ s.world.ids)
    (hcyc : ¬ Reach s.heap x d) (j : Nat) : Reach h' x j ↔ Reach s.heap x j := by
  have hd' := heap_some.mpr hd
  constructor
  · intro h
    induction h with
    | refl => exact .refl
    | @snoc b c _ hk ih =>
      rcases (moved_kids_mem hm hd' b c).mp hk with ⟨_, h2⟩ | ⟨h1, h2⟩
      · exact .snoc ih h2
      · rw [h1]; exact .refl
  · intro h
    induction h with
    | refl => exact .refl
    | @snoc b c hb hk ih =>
      refine .snoc ih ((moved_kids_mem hm hd' b c).mpr (.inl ⟨?_, hk⟩))
      rintro rfl
      obtain ⟨n, hn⟩ := get_of_mem (reach_mem hs hb (by
        obtain ⟨_, _, _, _, _, h4⟩ := heap_kid hs hk
        obtain ⟨h5, h6⟩ := Node.get?_some h4
        rw [← h6]; exact Node.mem_nodes_ids h5))
      obtain ⟨pn, cn, g1, g2, g3, g4⟩ := heap_kid hs hk
      have h1 := (reach_iff hs g4 b).mp hb
      obtain ⟨h2, h3⟩ := Node.get?_some g1
      have := below_of_kid hs.world.uniq h2 g2
      rw [h3] at this
      exact this h1

/-- What belongs to the database after a move. -/
theorem moved_inDoc {s : Db} (hs : Inv s) {h' : Heap} {x d : Nat} (hm : Moved s.heap h' x d) (hd : d ∈ s.world.ids)
    (hcyc : ¬ Reach s.heap x d) (hdoc : docEl s.heap ≠ some x) (j : Nat) :
    InDoc h' j ↔ (InDoc s.heap j ∧ ¬ Reach s.heap x j) ∨ (InDoc s.heap d ∧ Reach s.heap x j) := by
  have hd' := heap_some.mpr hd
  have hdoc' := moved_doc hs hm hdoc
  obtain ⟨e, he, hek⟩ := doc_some hs
  have hxe : ¬ Reach s.heap x e := by
    intro h
    rcases reach_kid_up hs h hek with h | h
    · rw [h] at hdoc; exact hdoc he
    · exact hcyc (by
        have := reach_zero hs h
        subst this
        -- everything is below the virtual root
        have : s.world.get? 0 = some s.world := by
          rw [← hs.world.id]; exact Node.get?_mem hs.world.uniq (Node.self_mem_nodes _)
        exact (reach_iff hs this d).mpr hd)
  -- elements not below `x` keep their path
  have keep : ∀ j, InDoc s.heap j → ¬ Reach s.heap x j → InDoc h' j := by
    rintro j ⟨d0, hd0, hr⟩ hx
    refine ⟨d0, by rw [hdoc']; exact hd0, ?_⟩
    induction hr with
    | refl => exact .refl
    | @snoc b c _ hk ih =>
      have hb : ¬ Reach s.heap x b := fun h => hx (.snoc h hk)
      refine .snoc (ih hb) ((moved_kids_mem hm hd' b c).mpr (.inl ⟨?_, hk⟩))
      rintro rfl
      exact hx .refl
  constructor
  · rintro ⟨d0, hd0, hr⟩
    rw [hdoc'] at hd0
    have hd0e : d0 = e := by rw [he] at hd0; injection hd0 with h; exact h.symm
    induction hr with
    | refl =>
      left
      exact ⟨⟨d0, hd0, .refl⟩, by rw [hd0e]; exact hxe⟩
    | @snoc b c _ hk ih =>
      rcases (moved_kids_mem hm hd' b c).mp hk with ⟨h1, h2⟩ | ⟨rfl, rfl⟩
      · rcases ih with ⟨⟨d1, q1, q2⟩, h4⟩ | ⟨h3, h4⟩
        · left
          refine ⟨⟨d1, q1, .snoc q2 h2⟩, ?_⟩
          intro h
          rcases reach_kid_up hs h h2 with h | h
          · exact h1 h.symm
          · exact h4 h
        · right
          exact ⟨h3, .snoc h4 h2⟩
      · right
        rcases ih with ⟨h3, _⟩ | ⟨h3, _⟩
        · exact ⟨h3, .refl⟩
        · exact ⟨h3, .refl⟩
  · rintro (⟨h1, h2⟩ | ⟨h1, h2⟩)
    · exact keep j h1 h2
    · obtain ⟨d0, q1, q2⟩ := keep d h1 hcyc
      refine ⟨d0, q1, q2.trans ?_⟩
      have hx : x ∈ h'.kids d := (moved_kids_mem hm hd' d x).mpr (.inr ⟨rfl, rfl⟩)
      exact (Reach.kid hx).trans ((moved_below hs hm hd hcyc j).mpr h2)

/-- Nothing outside the document is a parent within it. -/
theorem inDoc_kid {s : Db} {p j : Nat} (h : InDoc s.heap p) (hk : j ∈ s.heap.kids p) : InDoc s.heap j := by
  obtain ⟨d, h1, h2⟩ := h
  exact ⟨d, h1, .snoc h2 hk⟩

theorem not_inDoc_zero {s : Db} (hs : Inv s) : ¬ InDoc s.heap 0 := fun h => (inDoc_mem hs h).2 rfl

/-! ## The document as the searches see it -/

theorem inDoc_scope {s : Db} (hs : Inv s) {x : Node} (hx : x ∈ s.world.nodes) :
    InScope s.world true none x ↔ InDoc s.heap x.id := by
  have h0 : s.world.get? 0 = some s.world := by
    rw [← hs.world.id]; exact Node.get?_mem hs.world.uniq (Node.self_mem_nodes _)
  have hk : docEl s.heap = s.world.kids.head?.map Node.id := by
    unfold docEl
    rw [node_kids h0]
    cases s.world.kids <;> rfl
  show (∃ d ∈ s.world.kids.head?, x ∈ d.nodes) ↔ _
  constructor
  · rintro ⟨d, hd, hxd⟩
    have hdw : d ∈ s.world.nodes := Node.kid_mem_nodes (List.mem_of_mem_head? hd)
    refine ⟨d.id, by rw [hk, Option.mem_def.mp hd]; rfl, ?_⟩
    exact (reach_iff hs (Node.get?_mem hs.world.uniq hdw) _).mpr (Node.mem_nodes_ids hxd)
  · rintro ⟨i, hi, hr⟩
    rw [hk] at hi
    cases hd : s.world.kids.head? with
    | none => rw [hd] at hi; cases hi
    | some d =>
      rw [hd] at hi
      injection hi with hi
      have hdw : d ∈ s.world.nodes := Node.kid_mem_nodes (List.mem_of_mem_head? hd)
      rw [← hi] at hr
      have := (reach_iff hs (Node.get?_mem hs.world.uniq hdw) _).mp hr
      obtain ⟨y, hy, e⟩ := List.mem_map.mp this
      have : y = x := Node.uniq_mem hs.world.uniq (Node.nodes_trans hdw hy) hx e
      subst this
      exact ⟨d, rfl, hy⟩

theorem below_iff {s : Db} (hs : Inv s) {g x : Node} (hg : g ∈ s.world.nodes) (hx : x ∈ s.world.nodes) :
    Below g x ↔ x.id ≠ g.id ∧ Reach s.heap g.id x.id := by
  have hgg := Node.get?_mem hs.world.uniq hg
  rw [reach_iff hs hgg]
  unfold Below
  constructor
  · intro h
    refine ⟨Node.below_ne (Node.uniq_sub hs.world.uniq hg) h, ?_⟩
    apply Node.mem_nodes_ids
    rw [Node.nodes_eq]
    exact List.mem_cons_of_mem _ h
  · rintro ⟨h1, h2⟩
    obtain ⟨y, hy, e⟩ := List.mem_map.mp h2
    have : y = x := Node.uniq_mem hs.world.uniq (Node.nodes_trans hg hy) hx e
    subst this
    rw [Node.nodes_eq] at hy
    rcases List.mem_cons.mp hy with h | h
    · exact absurd (by rw [h]) h1
    · exact h

theorem hist_iff {s : Db} (hs : Inv s) {x : Node} (hx : x ∈ s.world.nodes) : InHistory s.world x ↔ InHist s.heap x.id := by
  constructor
  · rintro ⟨h, hh, ht, hb⟩
    obtain ⟨h1, h2⟩ := (below_iff hs hh hx).mp hb
    exact ⟨h.id, by rw [node_tag (Node.get?_mem hs.world.uniq hh)]; exact ht, fun e => h1 e.symm, h2⟩
  · rintro ⟨k, ht, hne, hr⟩
    have hk : k ∈ s.world.ids := tag_mem (by rw [ht]; decide)
    obtain ⟨n, hn⟩ := get_of_mem hk
    obtain ⟨h1, h2⟩ := Node.get?_some hn
    refine ⟨n, h1, by rw [← node_tag hn]; exact ht, (below_iff hs h1 hx).mpr ⟨by rw [h2]; exact fun e => hne e.symm, by rw [h2]; exact hr⟩⟩

end Verif.Api
