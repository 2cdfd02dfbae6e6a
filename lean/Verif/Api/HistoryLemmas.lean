import Verif.Api.KeepDb
import Verif.Spec.History
/-!
# The history of an entry
-/
namespace Verif.Api
open Verif XPath Spec

variable {s : Db}

theorem history_run (e : Nat) (s : Db) : history e s =
    (.ok (match s.heap.find e "History".toList with | none => [] | some h => s.heap.all h "Entry".toList), s) := by
  unfold history
  rw [bind_of (findKid_run e _ s)]
  cases s.heap.find e "History".toList with
  | none => rfl
  | some h => rfl

theorem contentOf_run {e : Nat} {x : Xml} (h : content s e = some x) : contentOf e s = (.ok x, s) := by
  obtain ⟨n, h1, rfl⟩ := content_node h
  unfold contentOf
  rw [h1]

theorem content_some {e : Nat} (he : e ∈ s.world.ids) : ∃ x, content s e = some x := by
  obtain ⟨n, hn⟩ := get_of_mem he
  exact ⟨n.xml, by unfold content; rw [hn]; rfl⟩

theorem dropFirst_one {t : Str} {l : List Xml} (h : (l.filter fun k => k.tag == t).length ≤ 1) :
    dropFirst t l = l.filter fun k => k.tag != t := by
  induction l with
  | nil => rfl
  | cons k l ih =>
    unfold dropFirst
    by_cases e : k.tag = t
    · rw [if_pos e]
      rw [List.filter_cons_of_pos (by rw [beq_iff_eq]; exact e), List.length_cons] at h
      rw [List.filter_cons_of_neg (by simp [bne, e])]
      have h0 : l.filter (fun k => k.tag == t) = [] := List.eq_nil_of_length_eq_zero (by omega)
      exact (List.filter_eq_self.mpr fun a ha => by
        have := List.filter_eq_nil_iff.mp h0 a ha
        rw [beq_iff_eq] at this
        simp [bne, this]).symm
    · rw [if_neg e, List.filter_cons_of_pos (by simp [bne, e]), ih]
      rwa [List.filter_cons_of_neg (by simp [e])] at h

/-- Where the new snapshot goes: into the history element, or with a new one into the entry. -/
theorem saveHistory_ok (hs : Inv s) {e : Nat} (he : e ∈ s.world.ids) {x : Xml} (hx : content s e = some x) :
    ∃ s', saveHistory e s = (.ok (), s') ∧ Inv s' ∧ s' = { s with world := s'.world, next := s'.next } ∧
      match s.heap.find e "History".toList with
      | some h => Added s.heap s'.heap h s.next s'.next ∧
          content s' s.next = some (.mk x.tag x.attrs x.text (dropFirst "History".toList x.kids))
      | none => Added s.heap s'.heap e s.next s'.next ∧ content s' s.next = some (.mk "History".toList [] none [x]) := by
  unfold saveHistory
  rw [bind_of (contentOf_run hx), bind_of (findKid_run e _ s)]
  cases hf : s.heap.find e "History".toList with
  | none =>
    obtain ⟨s', h1, h2, h3, h4, h5⟩ := add_ok hs he (.mk "History".toList [] none [x])
    refine ⟨s', ?_, h2, h3, h4, h5⟩
    show (make e _ >>= _) s = _
    rw [bind_of h1]; rfl
  | some h =>
    obtain ⟨s', h1, h2, h3, h4, h5⟩ := add_ok hs (kid_mem hs (find_kid hf).1).1
      (.mk x.tag x.attrs x.text (dropFirst "History".toList x.kids))
    refine ⟨s', ?_, h2, h3, h4, h5⟩
    show (make h _ >>= _) s = _
    rw [bind_of h1]; rfl

/-- What lies outside the parent of a new element keeps its content. -/
theorem added_content {s' : Db} {p n m : Nat} (hs : Inv s) (hs' : Inv s') (h : Added s.heap s'.heap p n m) {k : Nat} (hk : k ∈ s.world.ids)
    (hp : ¬ Reach s.heap k p) : content s' k = content s k := by
  refine content_congr hs hs' (fun j hj => ?_) hk
  refine h.other j (fun e => hp (e ▸ hj)) ?_
  obtain ⟨r, hr⟩ := heap_some.mpr (reach_mem hs hj hk)
  exact added_lt hs h hr

/-- The children that do not have a tag. -/
theorem content_others (hs : Inv s) {e : Nat} {x : Xml} (h : content s e = some x) (t : Str) :
    ((s.heap.kids e).filter fun k => s.heap.tag k != t).map (content s) = (x.kids.filter fun k => k.tag != t).map some := by
  obtain ⟨n, h1, rfl⟩ := content_node h
  obtain ⟨hm, rfl⟩ := Node.get?_some h1
  rw [node_kids h1, xml_kids]
  have hk : ∀ k ∈ n.kids, s.world.get? k.id = some k := fun k hk => kid_get hs.world.uniq hm hk
  generalize n.kids = l at hk
  induction l with
  | nil => rfl
  | cons k l ih =>
    have h2 := hk k (List.mem_cons_self ..)
    have ih := ih fun a ha => hk a (List.mem_cons_of_mem _ ha)
    simp only [List.map_cons, List.filter_cons, node_tag h2, xml_tag]
    split
    · rw [List.map_cons, List.map_cons, ih]
      unfold content
      rw [h2]; rfl
    · exact ih

theorem map_some_inj {α} {l r : List α} (h : l.map some = r.map some) : l = r := by
  induction l generalizing r with
  | nil => cases r with
    | nil => rfl
    | cons => cases h
  | cons a l ih =>
    cases r with
    | nil => cases h
    | cons b r =>
      rw [List.map_cons, List.map_cons] at h
      injection h with h1 h2
      injection h1 with h1
      rw [h1, ih h2]

theorem content_attrs {e : Nat} {x : Xml} (h : content s e = some x) : (s.heap e).map Node.Rec.attrs = some x.attrs := by
  obtain ⟨n, h1, rfl⟩ := content_node h
  unfold Db.heap Node.view
  rw [h1, xml_attrs]
  rfl

/-- The content without the history is the same if everything but the history is. -/
theorem bare_same {s' : Db} (hs : Inv s) (hs' : Inv s') {e : Nat} {x : Xml} (hx : content s e = some x)
    (hr : ∃ r ks, s.heap e = some r ∧ s'.heap e = some { r with kids := ks })
    (hk : ((s'.heap.kids e).filter fun k => s'.heap.tag k != "History".toList) =
      (s.heap.kids e).filter fun k => s.heap.tag k != "History".toList)
    (hc : ∀ k ∈ s.heap.kids e, s.heap.tag k ≠ "History".toList → content s' k = content s k) :
    ∃ y, content s' e = some y ∧ bare y = bare x := by
  obtain ⟨r, ks, r1, r2⟩ := hr
  obtain ⟨y, hy⟩ := content_some (s := s') (e := e) (mem_of_heap r2)
  refine ⟨y, hy, ?_⟩
  have hc : ((s'.heap.kids e).filter fun k => s'.heap.tag k != "History".toList).map (content s') =
      ((s.heap.kids e).filter fun k => s.heap.tag k != "History".toList).map (content s) := by
    rw [hk]
    apply List.map_congr_left
    intro k hk
    obtain ⟨hk, hkt⟩ := List.mem_filter.mp hk
    refine hc k hk fun e => ?_
    rw [e] at hkt
    exact absurd hkt (by decide)
  rw [content_others hs hx, content_others hs' hy] at hc
  have hc := map_some_inj hc
  unfold bare
  rw [hc, ← content_text hx, ← content_text hy, ← content_tag hx, ← content_tag hy]
  have hat : some y.attrs = some x.attrs := by
    rw [← content_attrs hx, ← content_attrs hy, r1, r2]; rfl
  injection hat with hat
  have ht : s'.heap.tag e = s.heap.tag e := by unfold Heap.tag; rw [r1, r2]; rfl
  have hx : s'.heap.text e = s.heap.text e := by unfold Heap.text; rw [r1, r2]; rfl
  rw [hat, ht, hx]

end Verif.Api
