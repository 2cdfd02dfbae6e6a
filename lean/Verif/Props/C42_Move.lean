import Verif.Api.MoveLemmas
import Verif.Api.Sample
/-!
# C42: moving relocates without loss
-/
namespace Verif.Props
open Verif XPath Spec Api

/-- `move_entry`, `move_group`, `Group.append`: for an element `x` of the database with a parent and a destination of
the database that is not below `x`. `Moved h h' x d` says that nothing but the place of `x` changed. -/
theorem C42_move {s : Db} (hs : Inv s) {p x d : Nat} (hp : p ≠ 0) (hk : x ∈ s.heap.kids p) (hx : InDoc s.heap x)
    (hd : InDoc s.heap d) (hcyc : ¬ Reach s.heap x d) :
    ∃ s', moveEntry x d s = (.ok (), s') ∧ moveGroup x d s = (.ok (), s') ∧ Inv s' ∧ s' = { s with world := s'.world } ∧
      Moved s.heap s'.heap x d ∧
      s'.heap.kids d = (s.heap.kids d).filter (· != x) ++ [x] ∧
      (∀ q, x ∈ s'.heap.kids q → q = d) ∧
      (∀ j, Reach s.heap x j → s'.heap j = s.heap j) ∧
      (∀ j, j ≠ p → j ≠ d → s'.heap j = s.heap j) ∧
      (∀ j, InDoc s'.heap j ↔ InDoc s.heap j) ∧
      (∀ j, s'.heap.tag j = s.heap.tag j) := by
  have hdm := (inDoc_mem hs hd).1
  obtain ⟨hxm, hx0⟩ := inDoc_mem hs hx
  obtain ⟨s', h1, h2, h3, h4⟩ := append_ok hs hxm hx0 hdm hcyc (kid_not_doc hs hp hk)
  have hd' := heap_some.mpr hdm
  have hkids : s'.heap.kids d = (s.heap.kids d).filter (· != x) ++ [x] := by rw [moved_kids h4 d hd', if_pos rfl]
  refine ⟨s', h1, h1, h2, h3, h4, hkids, ?_, ?_, ?_, ?_, moved_tag h4⟩
  · intro q hq
    rcases (moved_kids_mem h4 hd' q x).mp hq with ⟨h, _⟩ | ⟨_, h⟩
    · exact absurd rfl h
    · exact h
  · exact fun j hj => moved_content hs h4 hcyc hj
  · intro j hjp hjd
    exact moved_same h4 hjd fun hkj => hjp (parent_eq hs hkj hk)
  · intro j
    rw [moved_inDoc hs h4 hdm hcyc (kid_not_doc hs hp hk)]
    constructor
    · rintro (⟨h, _⟩ | ⟨_, h⟩)
      · exact h
      · obtain ⟨d0, q1, q2⟩ := hx
        exact ⟨d0, q1, q2.trans h⟩
    · intro h
      by_cases hr : Reach s.heap x j
      · exact .inr ⟨hd, hr⟩
      · exact .inl ⟨h, hr⟩

/-- Moving an element into itself or below itself is refused, without any change. -/
theorem C42_refused {s : Db} (hs : Inv s) {x d : Nat} (hx : x ∈ s.world.ids) (hcyc : Reach s.heap x d) :
    moveEntry x d s = (.error .value, s) ∧ moveGroup x d s = (.error .value, s) :=
  ⟨append_refused hs hx hcyc, append_refused hs hx hcyc⟩

/-- Any number of moves, refused or not, keeps the elements of the database. -/
theorem C42_sequence {ms : List (Nat × Nat)} : ∀ {s : Db}, Inv s →
    (∀ m ∈ ms, InDoc s.heap m.1 ∧ InDoc s.heap m.2 ∧ docEl s.heap ≠ some m.1) →
    ∃ s', (ms.foldl (fun s m => (moveGroup m.1 m.2 s).2) s) = s' ∧ Inv s' ∧
      (∀ j, InDoc s'.heap j ↔ InDoc s.heap j) ∧
      (∀ j, s'.heap.tag j = s.heap.tag j ∧ s'.heap.text j = s.heap.text j ∧ ∀ k, s'.heap.attr j k = s.heap.attr j k) := by
  induction ms with
  | nil => intro s hs _; exact ⟨s, rfl, hs, fun _ => Iff.rfl, fun _ => ⟨rfl, rfl, fun _ => rfl⟩⟩
  | cons m ms ih =>
    intro s hs hm
    obtain ⟨h1, h2, h3⟩ := hm m (List.mem_cons_self ..)
    have hxm := inDoc_mem hs h1
    by_cases hc : Reach s.heap m.1 m.2
    · have : (moveGroup m.1 m.2 s).2 = s := by rw [(C42_refused hs hxm.1 hc).2]
      rw [List.foldl_cons, this]
      exact ih hs fun m' hm' => hm m' (List.mem_cons_of_mem _ hm')
    · obtain ⟨s1, g1, g2, g3, g4⟩ := append_ok hs hxm.1 hxm.2 (inDoc_mem hs h2).1 hc h3
      have hin : ∀ j, InDoc s1.heap j ↔ InDoc s.heap j := by
        intro j
        rw [moved_inDoc hs g4 (inDoc_mem hs h2).1 hc h3]
        constructor
        · rintro (⟨h, _⟩ | ⟨_, h⟩)
          · exact h
          · obtain ⟨d0, q1, q2⟩ := h1
            exact ⟨d0, q1, q2.trans h⟩
        · intro h
          by_cases hr : Reach s.heap m.1 j
          · exact .inr ⟨h2, hr⟩
          · exact .inl ⟨h, hr⟩
      have hst : (moveGroup m.1 m.2 s).2 = s1 := by
        show (appendEl m.2 m.1 s).2 = s1
        rw [g1]
      obtain ⟨s', e1, e2, e3, e4⟩ := ih g2 fun m' hm' => by
        obtain ⟨a, b, c⟩ := hm m' (List.mem_cons_of_mem _ hm')
        exact ⟨(hin _).mpr a, (hin _).mpr b, by rw [moved_doc hs g4 h3]; exact c⟩
      refine ⟨s', by rw [List.foldl_cons, hst]; exact e1, e2, fun j => (e3 j).trans (hin j), fun j => ?_⟩
      obtain ⟨t1, t2, t3⟩ := e4 j
      exact ⟨t1.trans (moved_tag g4 j), t2.trans (moved_text g4 j), fun k => (t3 k).trans (moved_attr g4 j k)⟩

/-- Entry 23 of the sample database can be moved to group 93; group 93 not into group 122 below it. -/
example : Inv Sample.db ∧ 23 ∈ Sample.db.heap.kids 14 ∧ 93 ∈ Sample.db.heap.kids 14 ∧ Reach Sample.db.heap 93 122 :=
  ⟨Sample.db_inv, by decide +kernel, by decide +kernel, .kid (by decide +kernel)⟩

end Verif.Props
