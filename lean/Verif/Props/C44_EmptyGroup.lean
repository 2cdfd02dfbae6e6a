import Verif.Api.MoveLemmas
import Verif.Api.Sample
/-!
# C44: `empty_group` terminates and empties exactly the group
-/
namespace Verif.Props
open Verif XPath Spec Api

/-- The children of `g` that are not dropped stay in their order; every other element is as before; what was dropped
is detached, in order, with all it contains. -/
structure Dropped (s s' : Db) (g : Nat) (gone : Nat → Bool) : Prop where
  inv : Inv s'
  state : s' = { s with world := s'.world }
  here : ∃ r, s.heap g = some r ∧ s'.heap g = some { r with kids := r.kids.filter fun k => !gone k }
  root : ∃ r, s.heap 0 = some r ∧ s'.heap 0 = some { r with kids := r.kids ++ (s.heap.kids g).filter gone }
  other : ∀ j, j ≠ 0 → j ≠ g → s'.heap j = s.heap j

theorem emptyLoop_ok {g : Nat} (hg : g ≠ 0) (tag : Str) (n : Nat) : ∀ {s : Db}, Inv s → g ∈ s.world.ids →
    (s.heap.all g tag).length ≤ n →
    ∃ s', emptyLoop g tag n s = (.ok (), s') ∧ Dropped s s' g fun k => s.heap.tag k == tag := by
  have done : ∀ {s : Db}, Inv s → g ∈ s.world.ids → s.heap.all g tag = [] → Dropped s s g fun k => s.heap.tag k == tag := by
    intro s hs hm h
    obtain ⟨r, hr⟩ := heap_some.mpr hm
    obtain ⟨r0, hr0⟩ := heap_some.mpr hs.zero_mem
    have hk : s.heap.kids g = r.kids := by unfold Heap.kids; rw [hr]; rfl
    have h' : (s.heap.kids g).filter (fun k => s.heap.tag k == tag) = [] := h
    refine ⟨hs, rfl, ⟨r, hr, ?_⟩, ⟨r0, hr0, ?_⟩, fun _ _ _ => rfl⟩
    · rw [hr]
      congr 1
      rw [hk] at h'
      have : r.kids.filter (fun k => !(s.heap.tag k == tag)) = r.kids := by
        rw [List.filter_eq_self]
        intro k hk
        have := (List.filter_eq_nil_iff.mp h') k hk
        simpa using this
      rw [this]
    · rw [h', List.append_nil, hr0]
  induction n with
  | zero =>
    intro s hs hm hl
    have h : s.heap.all g tag = [] := List.length_eq_zero_iff.mp (by omega)
    refine ⟨s, ?_, done hs hm h⟩
    unfold emptyLoop
    rw [bind_of (findKids_run g tag s), h]
    rfl
  | succ n ih =>
    intro s hs hm hl
    cases h : s.heap.all g tag with
    | nil =>
      refine ⟨s, ?_, done hs hm h⟩
      unfold emptyLoop
      rw [bind_of (findKids_run g tag s), h]
      rfl
    | cons x xs =>
      have hx : x ∈ s.heap.all g tag := by rw [h]; exact List.mem_cons_self ..
      obtain ⟨hxk, hxt⟩ := all_sub hx
      obtain ⟨s1, a1, a2, a3, a4⟩ := delete_ok hs hg hxk
      have hm1 : g ∈ s1.world.ids := (moved_mem a4 g).mpr hm
      have hkids : s1.heap.kids g = (s.heap.kids g).filter (· != x) := by
        rw [moved_kids a4 g (heap_some.mpr hm), if_neg hg]
      have hall : s1.heap.all g tag = xs := by
        have hnd : (x :: xs).Nodup := by
          rw [← h]
          obtain ⟨r, hr⟩ := heap_some.mpr hm
          unfold Heap.all
          refine List.Nodup.sublist List.filter_sublist ?_
          unfold Heap.kids
          rw [hr]
          exact kids_nodup hs hr
        unfold Heap.all at h ⊢
        rw [hkids]
        have : (((s.heap.kids g).filter (· != x)).filter fun k => s1.heap.tag k == tag) =
            ((s.heap.kids g).filter fun k => s.heap.tag k == tag).filter (· != x) := by
          rw [List.filter_filter, List.filter_filter]
          apply List.filter_congr
          intro k _
          rw [moved_tag a4, Bool.and_comm]
        rw [this, h, List.filter_cons]
        simp only [bne_self_eq_false, Bool.false_eq_true, if_false]
        exact Node.filter_ne_self (List.nodup_cons.mp hnd).1
      obtain ⟨s', b1, b2⟩ := ih a2 hm1 (by
        rw [hall]
        rw [h] at hl
        simp only [List.length_cons] at hl
        omega)
      refine ⟨s', ?_, b2.inv, ?_, ?_, ?_, ?_⟩
      · unfold emptyLoop
        rw [bind_of (findKids_run g tag s), h]
        show (delete x >>= fun _ => emptyLoop g tag n) s = _
        rw [bind_of a1]
        exact b1
      · rw [b2.state, a3]
      · obtain ⟨r, hr⟩ := heap_some.mpr hm
        obtain ⟨r1, c1, c2⟩ := b2.here
        refine ⟨r, hr, ?_⟩
        have : r1 = { r with kids := r.kids.filter (· != x) } := by
          have h4 := a4 g
          rw [hr, c1] at h4
          simp only [Option.map_some, if_neg hg] at h4
          injection h4
        rw [c2, this]
        congr 2
        rw [List.filter_filter]
        apply List.filter_congr
        intro k _
        rw [moved_tag a4]
        by_cases hkx : k = x
        · subst hkx; simp [hxt]
        · simp [hkx]
      · obtain ⟨r0, d1, d2⟩ := b2.root
        obtain ⟨r, hr⟩ := heap_some.mpr hs.zero_mem
        refine ⟨r, hr, ?_⟩
        have hx0 : x ∉ r.kids := by
          intro hc
          have : x ∈ s.heap.kids 0 := by unfold Heap.kids; rw [hr]; exact hc
          exact hg (parent_eq hs hxk this)
        have : r0 = { r with kids := r.kids ++ [x] } := by
          have h4 := a4 0
          rw [hr, d1] at h4
          simp only [Option.map_some, if_true] at h4
          injection h4 with h4
          rw [h4, Node.filter_ne_self hx0]
        rw [d2, this]
        congr 2
        show (r.kids ++ [x]) ++ _ = r.kids ++ _
        rw [List.append_assoc]
        congr 1
        have e1 : (s1.heap.kids g).filter (fun k => s1.heap.tag k == tag) = xs := hall
        have e2 : (s.heap.kids g).filter (fun k => s.heap.tag k == tag) = x :: xs := h
        rw [e1, e2]
        rfl
      · intro j hj0 hjg
        rw [b2.other j hj0 hjg]
        exact moved_same a4 hj0 fun hkj => hjg (parent_eq hs hkj hxk)

/-- For every group of any size. -/
theorem C44_empty_group {s : Db} (hs : Inv s) {g : Nat} (hg : g ≠ 0) (hm : g ∈ s.world.ids) :
    ∃ s', emptyGroup g s = (.ok (), s') ∧ Inv s' ∧ s' = { s with world := s'.world } ∧
      s'.heap.all g "Entry".toList = [] ∧ s'.heap.all g "Group".toList = [] ∧
      (∃ r, s.heap g = some r ∧
        s'.heap g = some { r with kids := r.kids.filter fun k => s.heap.tag k != "Entry".toList && s.heap.tag k != "Group".toList }) ∧
      (∀ j, j ≠ 0 → j ≠ g → s'.heap j = s.heap j) ∧ docEl s'.heap = docEl s.heap ∧
      (∀ t, t ≠ "Entry".toList → t ≠ "Group".toList → s'.heap.all g t = s.heap.all g t) ∧
      (∀ t, t ≠ "Entry".toList → t ≠ "Group".toList → sub s'.heap g t = sub s.heap g t) := by
  have hlen : ∀ t, (s.heap.all g t).length ≤ (s.heap.kids g).length := fun t => List.length_filter_le _ _
  obtain ⟨s1, a1, a2⟩ := emptyLoop_ok hg "Group".toList (s.heap.kids g).length hs hm (hlen _)
  obtain ⟨r, hr, hr1⟩ := a2.here
  have hm1 : g ∈ s1.world.ids := heap_some.mp ⟨_, hr1⟩
  have hk : s.heap.kids g = r.kids := by unfold Heap.kids; rw [hr]; rfl
  have hk1 : s1.heap.kids g = r.kids.filter fun k => !(s.heap.tag k == "Group".toList) := by
    unfold Heap.kids; rw [hr1]; rfl
  have tag1 : ∀ k ∈ r.kids, s1.heap.tag k = s.heap.tag k := by
    intro k hkk
    obtain ⟨h0, hne, _⟩ := kid_facts hs (show k ∈ s.heap.kids g by rw [hk]; exact hkk)
    exact tag_congr (a2.other k h0 hne)
  obtain ⟨s', b1, b2⟩ := emptyLoop_ok hg "Entry".toList (s.heap.kids g).length a2.inv hm1 (by
    refine Nat.le_trans (List.length_filter_le _ _) ?_
    rw [hk1, hk]
    exact List.length_filter_le _ _)
  obtain ⟨r1, c1, c2⟩ := b2.here
  rw [hr1] at c1
  injection c1 with c1
  have hr' : s'.heap g =
      some { r with kids := r.kids.filter fun k => s.heap.tag k != "Entry".toList && s.heap.tag k != "Group".toList } := by
    rw [c2, ← c1]
    congr 2
    rw [List.filter_filter]
    apply List.filter_congr
    intro k hkk
    rw [tag1 k hkk]
    rfl
  have hk' : s'.heap.kids g = r.kids.filter fun k => s.heap.tag k != "Entry".toList && s.heap.tag k != "Group".toList := by
    unfold Heap.kids; rw [hr']; rfl
  have other : ∀ j, j ≠ 0 → j ≠ g → s'.heap j = s.heap j := fun j h0 hjg => by rw [b2.other j h0 hjg, a2.other j h0 hjg]
  have tag' : ∀ k ∈ r.kids, s'.heap.tag k = s.heap.tag k := by
    intro k hkk
    obtain ⟨h0, hne, _⟩ := kid_facts hs (show k ∈ s.heap.kids g by rw [hk]; exact hkk)
    exact tag_congr (other k h0 hne)
  have hall : ∀ t, s'.heap.all g t = r.kids.filter fun k =>
      s.heap.tag k == t && (s.heap.tag k != "Entry".toList && s.heap.tag k != "Group".toList) := by
    intro t
    unfold Heap.all
    rw [hk', List.filter_filter]
    apply List.filter_congr
    intro k hkk
    rw [tag' k hkk]
  have hkeep : ∀ t, t ≠ "Entry".toList → t ≠ "Group".toList → s'.heap.all g t = s.heap.all g t := by
    intro t h1 h2
    rw [hall]
    unfold Heap.all
    rw [hk]
    apply List.filter_congr
    intro k _
    rw [Bool.and_eq_left_iff_imp]
    intro ht
    rw [beq_iff_eq] at ht
    rw [ht, Bool.and_eq_true, bne_iff_ne, bne_iff_ne]
    exact ⟨h1, h2⟩
  refine ⟨s', ?_, b2.inv, ?_, ?_, ?_, ⟨r, hr, hr'⟩, other, ?_, hkeep, ?_⟩
  · unfold emptyGroup
    show ((reads fun s => (s.heap.kids g).length) >>= _) s = _
    rw [bind_of (reads_run _ s), bind_of a1]
    exact b1
  · rw [b2.state, a2.state]
  · rw [hall, List.filter_eq_nil_iff]
    intro k _ hc
    rw [Bool.and_eq_true, Bool.and_eq_true, bne_iff_ne, beq_iff_eq] at hc
    exact hc.2.1 hc.1
  · rw [hall, List.filter_eq_nil_iff]
    intro k _ hc
    rw [Bool.and_eq_true, Bool.and_eq_true, bne_iff_ne, bne_iff_ne, beq_iff_eq] at hc
    exact hc.2.2 hc.1
  · have dd : ∀ {s s' : Db} {p : Nat → Bool}, Inv s → Dropped s s' g p → docEl s'.heap = docEl s.heap := by
      intro s s' p hs h
      obtain ⟨q, h1, h2⟩ := h.root
      obtain ⟨q', g1, _, g3⟩ := hs.root
      rw [h1] at g1
      injection g1 with g1
      subst g1
      unfold docEl Heap.kids
      rw [h1, h2]
      cases hq : q.kids with
      | nil => exact absurd hq g3
      | cons a l => simp [hq]
    rw [dd a2.inv b2, dd hs a2]
  · intro t h1 h2
    unfold sub Heap.find
    rw [hkeep t h1 h2]
    cases hh : (s.heap.all g t).head? with
    | none => rfl
    | some k =>
      obtain ⟨h0, hne, _⟩ := kid_facts hs (all_sub (List.mem_of_mem_head? hh)).1
      exact text_congr (other k h0 hne)

/-- A group with entries and subgroups. -/
example : Inv Sample.db ∧ 14 ∈ Sample.db.world.ids ∧ Sample.db.heap.all 14 "Entry".toList = [23, 76] ∧
    Sample.db.heap.all 14 "Group".toList = [93] :=
  ⟨Sample.db_inv, by decide +kernel, by decide +kernel, by decide +kernel⟩

end Verif.Props
