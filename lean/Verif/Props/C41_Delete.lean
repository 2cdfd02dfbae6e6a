import Verif.Api.MoveLemmas
import Verif.Api.Sample
/-!
# C41: deleting removes exactly the subtree

`InDoc h j`: element `j` belongs to the database. `Reach h e j`: `j` is `e` or below it. `Moved h h' e 0`: every
element holds the tag, attributes, text and children it held, in the same order, except that `e` is no child of its
parent any more.
-/
namespace Verif.Props
open Verif XPath Spec Api

/-- `delete_entry`, `delete_group`, `Attachment.delete` on an element that has a parent. -/
theorem C41_delete {s : Db} (hs : Inv s) {p e : Nat} (hp : p ≠ 0) (hk : e ∈ s.heap.kids p) :
    ∃ s', deleteEntry e s = (.ok (), s') ∧ deleteGroup e s = (.ok (), s') ∧ Inv s' ∧ s' = { s with world := s'.world } ∧
      Moved s.heap s'.heap e 0 ∧
      (∀ j, InDoc s'.heap j ↔ InDoc s.heap j ∧ ¬ Reach s.heap e j) ∧
      (∀ j, Reach s'.heap e j ↔ Reach s.heap e j) ∧
      (∀ j, Reach s.heap e j → s'.heap j = s.heap j) ∧
      (∀ j, j ≠ 0 → j ≠ p → s'.heap j = s.heap j) ∧
      s'.heap.kids p = (s.heap.kids p).filter (· != e) := by
  obtain ⟨s', h1, h2, h3, h4⟩ := delete_ok hs hp hk
  have h0 := kid_ne_zero hs hk
  have hz := zero_not_reach hs h0
  refine ⟨s', h1, h1, h2, h3, h4, ?_, ?_, ?_, ?_, ?_⟩
  · intro j
    rw [moved_inDoc hs h4 hs.zero_mem hz (kid_not_doc hs hp hk)]
    constructor
    · rintro (h | ⟨h, _⟩)
      · exact h
      · exact absurd h (not_inDoc_zero hs)
    · exact .inl
  · exact moved_below hs h4 hs.zero_mem hz
  · exact fun j hj => moved_content hs h4 hz hj
  · intro j hj0 hjp
    exact moved_same h4 hj0 fun hkj => hjp (parent_eq hs hkj hk)
  · rw [moved_kids h4 p (heap_some.mpr (kid_mem hs hk).2), if_neg hp]

/-- The order of the rest is kept: the children of every element are those it had, without `e`. -/
theorem C41_order {s : Db} (hs : Inv s) {p e : Nat} (hp : p ≠ 0) (hk : e ∈ s.heap.kids p) :
    ∃ s', deleteEntry e s = (.ok (), s') ∧ ∀ j, j ≠ 0 → s'.heap.kids j = (s.heap.kids j).filter (· != e) := by
  obtain ⟨s', h1, _, _, _, h4, _⟩ := C41_delete hs hp hk
  refine ⟨s', h1, fun j hj => ?_⟩
  cases hh : s.heap j with
  | none => unfold Heap.kids; rw [h4 j, hh]; rfl
  | some r => rw [moved_kids h4 j ⟨r, hh⟩, if_neg hj]

/-- The holder can put the element back, into any element that is not below it: it is in the database again, with
the same content, as the last child. -/
theorem C41_reattach {s : Db} (hs : Inv s) {p e d : Nat} (hp : p ≠ 0) (hk : e ∈ s.heap.kids p) (hd : InDoc s.heap d)
    (hcyc : ¬ Reach s.heap e d) :
    ∃ s' s'', deleteEntry e s = (.ok (), s') ∧ moveEntry e d s' = (.ok (), s'') ∧ Inv s'' ∧
      (∀ j, Reach s.heap e j → s''.heap j = s.heap j ∧ InDoc s''.heap j) ∧ (s''.heap.kids d).getLast? = some e := by
  obtain ⟨s', h1, _, h3, h4, h5, h6, h7, h8, _, _⟩ := C41_delete hs hp hk
  have hdm := (inDoc_mem hs hd).1
  have hem := (kid_mem hs hk).1
  have h0 := kid_ne_zero hs hk
  have hcyc' : ¬ Reach s'.heap e d := fun h => hcyc ((h7 d).mp h)
  have hdoc : docEl s'.heap ≠ some e := by
    rw [moved_doc hs h5 (kid_not_doc hs hp hk)]
    exact kid_not_doc hs hp hk
  obtain ⟨s'', g1, g2, g3, g4⟩ := append_ok h3 ((moved_mem h5 e).mpr hem) h0 ((moved_mem h5 d).mpr hdm) hcyc' hdoc
  refine ⟨s', s'', h1, g1, g2, ?_, ?_⟩
  · intro j hj
    have hj' := (h7 j).mpr hj
    refine ⟨by rw [moved_content h3 g4 hcyc' hj', h8 j hj], ?_⟩
    rw [moved_inDoc h3 g4 ((moved_mem h5 d).mpr hdm) hcyc' hdoc]
    exact .inr ⟨(h6 d).mpr ⟨hd, hcyc⟩, hj'⟩
  · rw [moved_kids g4 d (heap_some.mpr ((moved_mem h5 d).mpr hdm)), if_pos rfl, List.getLast?_append]
    rfl

/-- Deleting a second time raises and changes nothing. -/
theorem C41_twice {s : Db} (hs : Inv s) {p e : Nat} (hp : p ≠ 0) (hk : e ∈ s.heap.kids p) :
    ∃ s', deleteEntry e s = (.ok (), s') ∧ deleteEntry e s' = (.error .attribute, s') := by
  obtain ⟨s', h1, _, h3, _, h5, _⟩ := C41_delete hs hp hk
  refine ⟨s', h1, delete_top h3 ?_⟩
  rw [moved_kids h5 0 (heap_some.mpr hs.zero_mem), if_pos rfl]
  simp

/-- An entry and a group of the sample database. -/
example : Inv Sample.db ∧ 14 ≠ 0 ∧ 23 ∈ Sample.db.heap.kids 14 ∧ 93 ∈ Sample.db.heap.kids 14 :=
  ⟨Sample.db_inv, by decide, by decide +kernel, by decide +kernel⟩
/-- A destination for re-attaching that is not below the deleted entry. -/
example : InDoc Sample.db.heap 93 ∧ ¬ Reach Sample.db.heap 23 93 := by
  refine ⟨⟨1, by decide +kernel, .snoc (.snoc (.snoc .refl (show 13 ∈ _ by decide +kernel)) (show 14 ∈ _ by decide +kernel))
    (by decide +kernel)⟩, ?_⟩
  intro h
  rcases reach_kid_up Sample.db_inv h (show 93 ∈ Sample.db.heap.kids 14 by decide +kernel) with h | h
  · exact absurd h (by decide)
  · rcases reach_kid_up Sample.db_inv h (show 14 ∈ Sample.db.heap.kids 13 by decide +kernel) with h | h
    · exact absurd h (by decide)
    · exact no_cycle Sample.db_inv (show 23 ∈ Sample.db.heap.kids 14 by decide +kernel)
        (.snoc h (by decide +kernel))

end Verif.Props
