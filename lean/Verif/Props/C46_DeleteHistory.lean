import Verif.Api.HistoryLemmas
import Verif.Api.Sample
/-!
# C46: deleting from the history
-/
namespace Verif.Props
open Verif XPath Spec Api

theorem moved_content_out {s s' : Db} (hs : Inv s) (hs' : Inv s') {p x j : Nat} (hm : Moved s.heap s'.heap x 0) (hk : x ∈ s.heap.kids p)
    (hj : j ∈ s.world.ids) (h0 : j ≠ 0) (hr : ¬ Reach s.heap j p) : content s' j = content s j := by
  refine content_congr hs hs' (fun i hi => moved_same hm ?_ fun hx => ?_) hj
  · rintro rfl; exact zero_not_reach hs h0 hi
  · rw [parent_eq hs hx hk] at hi; exact hr hi

theorem moved_all {s : Db} {h' : Heap} {p x : Nat} (hm : Moved s.heap h' x 0) (h0 : p ≠ 0) (hp : p ∈ s.world.ids) (t : Str) :
    h'.all p t = (s.heap.all p t).filter (· != x) := by
  unfold Heap.all
  rw [moved_kids hm p (heap_some.mpr hp), if_neg h0, filter_filter_swap]
  congr 1
  apply List.filter_congr
  intro k _
  rw [moved_tag hm]

/-- `delete_history(h)` with a snapshot of the entry removes exactly that one: the others stay in order with their
content, and so does the entry itself. Only the history element loses a child. -/
theorem C46_one {s : Db} (hs : Inv s) {e : Nat} (he : IsEntry s.heap e) {x : Xml} (hx : content s e = some x) {old : List Nat}
    (ho : history e s = (.ok old, s)) {k : Nat} (hk : k ∈ old) :
    ∃ s' h, s.heap.find e "History".toList = some h ∧ deleteHistory e (some k) false s = (.ok (), s') ∧ Inv s' ∧
      s' = { s with world := s'.world } ∧ history e s' = (.ok (old.filter (· != k)), s') ∧
      old.Nodup ∧ (∀ j ∈ old, content s' j = content s j) ∧ (∃ y, content s' e = some y ∧ bare y = bare x) ∧
      (∀ j, j ≠ 0 → j ≠ h → s'.heap j = s.heap j) ∧ s'.heap.kids h = (s.heap.kids h).filter (· != k) := by
  rw [history_run] at ho
  cases hf : s.heap.find e "History".toList with
  | none =>
    rw [hf] at ho
    injection ho with ho _
    injection ho with ho
    rw [← ho] at hk; cases hk
  | some h =>
    rw [hf] at ho
    injection ho with ho _
    injection ho with ho
    replace ho : s.heap.all h "Entry".toList = old := ho
    have hh := find_kid hf
    have h0 := kid_ne_zero hs hh.1
    have hhm := (kid_mem hs hh.1).1
    have hem := (kid_mem hs hh.1).2
    have he0 : e ≠ 0 := tag_ne_zero hs (by rw [show s.heap.tag e = _ from he]; decide)
    have hkk : k ∈ s.heap.kids h := by rw [← ho] at hk; exact (List.mem_filter.mp hk).1
    obtain ⟨s', a1, a2, a3, a4⟩ := removeKid_ok hs h0 hkk
    have hm : Moved s.heap s'.heap k 0 := a4
    have hke : k ∉ s.heap.kids e := fun hc => by
      have := parent_eq hs hc hkk
      rw [this] at hh
      exact no_cycle hs hh.1 .refl
    have hsame := moved_same hm he0 hke
    have hkids : s'.heap.kids e = s.heap.kids e := by unfold Heap.kids; rw [hsame]
    have hold : ∀ j ∈ old, j ∈ s.heap.kids h := fun j hj => by rw [← ho] at hj; exact (List.mem_filter.mp hj).1
    refine ⟨s', h, rfl, ?_, a2, a3, ?_, ?_, ?_, ?_, ?_, ?_⟩
    · show (findKid e _ >>= _) s = _
      rw [bind_of (findKid_run e _ s), hf, bind_of (orAttr_some h s), bind_of (orAttr_some k s)]
      exact a1
    · rw [history_run]
      have : s'.heap.find e "History".toList = some h := by
        unfold Heap.find Heap.all at hf ⊢
        rw [hkids, show (fun j => s'.heap.tag j == "History".toList) = fun j => s.heap.tag j == "History".toList from
          funext fun j => by rw [moved_tag hm]]
        exact hf
      rw [this]
      show (Except.ok (s'.heap.all h "Entry".toList), s') = _
      rw [moved_all hm h0 hhm, ho]
    · rw [← ho]
      obtain ⟨r, hr⟩ := heap_some.mpr hhm
      refine (kids_nodup hs hr).sublist ?_
      unfold Heap.all Heap.kids
      rw [hr]; exact List.filter_sublist
    · intro j hj
      exact moved_content_out hs a2 hm hkk (kid_mem hs (hold j hj)).1 (kid_ne_zero hs (hold j hj)) fun hr => no_cycle hs (hold j hj) hr
    · refine bare_same hs a2 hx ?_ ?_ fun j hj hjt => ?_
      · obtain ⟨r, hr⟩ := heap_some.mpr hem
        exact ⟨r, r.kids, hr, by rw [hsame]; exact hr⟩
      · rw [hkids]
        apply List.filter_congr
        intro j _
        rw [moved_tag hm]
      · refine moved_content_out hs a2 hm hkk (kid_mem hs hj).1 (kid_ne_zero hs hj) fun hr => ?_
        rcases reach_kid_up hs hr hh.1 with h1 | h1
        · rw [h1] at hjt; exact hjt hh.2
        · exact no_cycle hs hj h1
    · intro j hj hjh
      refine moved_same hm hj fun hc => hjh (parent_eq hs hc hkk)
    · rw [moved_kids hm h (heap_some.mpr hhm), if_neg h0]

/-- `delete_history(all=True)` removes the whole history and leaves the entry apart from it. -/
theorem C46_all {s : Db} (hs : Inv s) {e : Nat} (he : IsEntry s.heap e) {x : Xml} (hx : content s e = some x)
    (h1 : (s.heap.all e "History".toList).length = 1) (k : Option Nat) :
    ∃ s', deleteHistory e k true s = (.ok (), s') ∧ Inv s' ∧ s' = { s with world := s'.world } ∧
      history e s' = (.ok [], s') ∧ s'.heap.all e "History".toList = [] ∧ content s' e = some (bare x) ∧
      (∀ j, j ≠ 0 → j ≠ e → s'.heap j = s.heap j) := by
  obtain ⟨h, hh⟩ : ∃ h, s.heap.all e "History".toList = [h] := by
    match hl : s.heap.all e "History".toList with
    | [] => rw [hl] at h1; cases h1
    | [h] => exact ⟨h, rfl⟩
    | a :: b :: l => rw [hl] at h1; simp at h1
  have hf : s.heap.find e "History".toList = some h := by unfold Heap.find; rw [hh]; rfl
  have hk := find_kid hf
  have h0 := kid_ne_zero hs hk.1
  have hem := (kid_mem hs hk.1).2
  have he0 : e ≠ 0 := tag_ne_zero hs (by rw [show s.heap.tag e = _ from he]; decide)
  obtain ⟨s', a1, a2, a3, a4⟩ := removeKid_ok hs he0 hk.1
  have hm : Moved s.heap s'.heap h 0 := a4
  have hall : s'.heap.all e "History".toList = [] := by
    rw [moved_all hm he0 hem, hh]
    simp [bne]
  have hb : ∃ y, content s' e = some y ∧ bare y = bare x := by
    refine bare_same hs a2 hx ?_ ?_ fun j hj hjt => ?_
    · obtain ⟨r, hr⟩ := heap_some.mpr hem
      exact ⟨r, _, hr, by rw [a4 e, hr]; rfl⟩
    · rw [moved_kids hm e (heap_some.mpr hem), if_neg he0, List.filter_filter]
      apply List.filter_congr
      intro j _
      rw [moved_tag hm]
      by_cases ej : j = h
      · rw [ej, hk.2]; simp [bne]
      · simp [bne, ej]
    · refine moved_content_out hs a2 hm hk.1 (kid_mem hs hj).1 (kid_ne_zero hs hj) fun hr => no_cycle hs hj hr
  refine ⟨s', ?_, a2, a3, ?_, hall, ?_, ?_⟩
  · show (findKid e _ >>= _) s = _
    rw [bind_of (findKid_run e _ s), hf]
    exact a1
  · rw [history_run]
    unfold Heap.find
    rw [hall]; rfl
  · obtain ⟨y, hy, hb⟩ := hb
    rw [hy, ← hb]
    have hy0 : xall y "History".toList = [] := by
      have := (content_all a2 hy "History".toList).2
      rw [hall] at this
      cases hl : xall y "History".toList with
      | nil => rfl
      | cons => rw [hl] at this; cases this
    unfold bare
    rw [List.filter_eq_self.mpr ?_]
    · cases y; rfl
    · intro k hk
      have := List.filter_eq_nil_iff.mp hy0 k hk
      simp only [bne, Bool.not_eq_true] at this ⊢
      rw [this]; rfl
  · intro j hj hje
    exact moved_same hm hj fun hc => hje (parent_eq hs hc hk.1)

/-- In every other case there is an exception and nothing changes: an element that is not in the history of this entry
(a snapshot of another entry, or one deleted before), no element, and an entry without a history. -/
theorem C46_refused {s : Db} {e : Nat} :
    (∀ h k, s.heap.find e "History".toList = some h → k ∉ s.heap.kids h → deleteHistory e (some k) false s = (.error .value, s)) ∧
    deleteHistory e none false s = (.error .attribute, s) ∧
    (s.heap.find e "History".toList = none → ∀ k, deleteHistory e k false s = (.error .attribute, s) ∧
      deleteHistory e k true s = (.error .type, s)) := by
  refine ⟨fun h k hf hk => ?_, ?_, fun hf k => ⟨?_, ?_⟩⟩
  · show (findKid e _ >>= _) s = _
    rw [bind_of (findKid_run e _ s), hf, bind_of (orAttr_some h s), bind_of (orAttr_some k s)]
    unfold removeKid
    rw [if_neg hk]
  · show (findKid e _ >>= _) s = _
    rw [bind_of (findKid_run e _ s)]
    cases s.heap.find e "History".toList with
    | none => rfl
    | some h => rfl
  · show (findKid e _ >>= _) s = _
    rw [bind_of (findKid_run e _ s), hf]
    rfl
  · show (findKid e _ >>= _) s = _
    rw [bind_of (findKid_run e _ s), hf]
    rfl

/-! Entry 23 of the sample database has one snapshot, 56. -/
example : IsEntry Sample.db.heap 23 ∧ (content Sample.db 23).isSome ∧ (Sample.db.heap.all 23 "History".toList).length = 1 ∧
    (history 23 Sample.db).1.toOption = some [56] ∧ Sample.db.heap.find 76 "History".toList = none :=
  ⟨show _ = _ by decide +kernel, by decide +kernel, by decide +kernel, by decide +kernel, by decide +kernel⟩

end Verif.Props
