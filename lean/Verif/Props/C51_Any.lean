import Verif.Props.C51_Reindex
/-!
# C51, for every group and every number

What `reindex` does when the entries of the group are not contiguous, and for numbers that are no position of an entry.
-/
namespace Verif.Props
open Verif XPath Spec Api

/-- The place among the other children that a number leads to: counted from the place `f` of the first entry; behind the
last child at most; before the beginning, `f + i` counts from the end; past the end again, it is the end. -/
def landing (f len : Nat) (i : Int) : Nat :=
  if 0 ≤ i + f then min (i + f).toNat len else if 0 ≤ i + f + len then (i + f + len).toNat else len

/-- `reindex` never fails in a group. The entry ends up at the place that `landing` says. Whatever the number, no child of
the group is lost, the others keep their order, and no other element changes. -/
theorem C51_any {s : Db} (hs : Inv s) {g e c : Nat} {A R : List Nat} (hg : s.heap.tag g = "Group".toList) (hm : e ∈ s.heap.kids g)
    (hk : s.heap.kids g = A ++ c :: R) (hc : s.heap.tag c = "Entry".toList) (hA : ∀ a ∈ A, s.heap.tag a ≠ "Entry".toList) (i : Int) :
    ∃ s', reindex e i s = (.ok (), s') ∧ Inv s' ∧ s' = { s with world := s'.world } ∧
      s'.heap.kids g = putAt (landing A.length ((s.heap.kids g).length - 1) i) e ((s.heap.kids g).filter (· != e)) ∧
      (s'.heap.kids g).filter (· != e) = (s.heap.kids g).filter (· != e) ∧
      (s'.heap.kids g).Perm (s.heap.kids g) ∧
      (∀ j, j ≠ g → s'.heap j = s.heap j) ∧ s'.heap.tag g = s.heap.tag g ∧ s'.heap.text g = s.heap.text g ∧
      (∀ a, s'.heap.attr g a = s.heap.attr g a) := by
  have hg0 : g ≠ 0 := tag_ne_zero hs (by rw [hg]; decide)
  have he0 := kid_ne_zero hs hm
  obtain ⟨hem, hgm⟩ := kid_mem hs hm
  have hf : firstEntry g s = (.ok A.length, s) := firstEntry_run hk hc hA
  obtain ⟨t, a1, a2, a3, a4⟩ := removeKid_ok hs hg0 hm
  have hmv : Moved s.heap t.heap e 0 := a4
  have hmt : ∀ j, j ∈ t.world.ids ↔ j ∈ s.world.ids := by
    intro j
    rw [← heap_some, ← heap_some, hmv j]
    cases s.heap j <;> simp
  obtain ⟨n, hn'⟩ := get_of_mem ((hmt e).mpr hem)
  have hdn : g ∉ n.ids := by
    rw [← reach_iff a2 hn']
    intro hr
    exact no_cycle hs hm ((moved_below hs hmv hs.zero_mem (zero_not_reach hs he0) (j := g)).mp hr)
  have hdoc : docEl t.heap ≠ some e := by
    rw [moved_doc hs hmv (kid_not_doc hs hg0 hm)]
    exact kid_not_doc hs hg0 hm
  obtain ⟨u, b1, b2, b3, b4, b5⟩ := insertEl_ok a2 hn' he0 hg0 ((hmt g).mpr hgm) hdn hdoc (i + (A.length : Int))
  have hheap : ∀ j, j ≠ g → u.heap j = s.heap j := by
    intro j hj
    rw [b5 j, hmv j, Option.map_map]
    cases hr : s.heap j with
    | none => rfl
    | some r =>
      have hnot : e ∉ r.kids := by
        intro hc
        have : e ∈ s.heap.kids j := by unfold Heap.kids; rw [hr]; exact hc
        exact hj (parent_eq hs this hm)
      simp only [Option.map_some, Function.comp_apply]
      congr 1
      unfold insertedKids
      rw [if_neg hj]
      cases r with
      | mk rt ra rx rk =>
        simp only at hnot ⊢
        congr 1
        by_cases j0 : j = 0
        · rw [if_pos j0, List.filter_append, Node.filter_ne_self hnot, Node.filter_ne_self hnot]
          simp [bne]
        · rw [if_neg j0, Node.filter_ne_self hnot, Node.filter_ne_self hnot]
  obtain ⟨r, hr⟩ := heap_some.mpr hgm
  have hrk : s.heap.kids g = r.kids := by unfold Heap.kids; rw [hr]; rfl
  have hnd : r.kids.Nodup := kids_nodup hs hr
  have hmr : e ∈ r.kids := by rw [← hrk]; exact hm
  have hnot : e ∉ r.kids.filter (· != e) := by simp [bne]
  have htk : t.heap.kids g = r.kids.filter (· != e) := by
    unfold Heap.kids
    rw [hmv g, hr]
    simp [hg0]
  have hlen : (r.kids.filter (· != e)).length = r.kids.length - 1 := by
    obtain ⟨L, Q, hLQ⟩ := List.append_of_mem hmr
    have := (filter_parts (A := []) (B := []) (E := r.kids) (by simpa using hnd) hmr).2
    omega
  have hgu : u.heap g = some { r with kids := putAt (landing A.length (r.kids.length - 1) i) e (r.kids.filter (· != e)) } := by
    rw [b5 g, hmv g, hr]
    simp only [Option.map_some]
    congr 2
    rw [if_neg hg0]
    unfold insertedKids
    rw [if_pos rfl, Node.filter_ne_self hnot, htk, hlen]
    unfold insertPos landing putAt
    split
    · have : ∀ k m (l : List Nat), l.length = m → l.take k = l.take (min k m) ∧ l.drop k = l.drop (min k m) := by
        intro k m l hl
        rcases Nat.le_total k m with h | h
        · rw [Nat.min_eq_left h]; exact ⟨rfl, rfl⟩
        · rw [Nat.min_eq_right h]
          exact ⟨by rw [List.take_of_length_le (by omega), List.take_of_length_le (by omega)],
            by rw [List.drop_of_length_le (by omega), List.drop_of_length_le (by omega)]⟩
      obtain ⟨x, y⟩ := this (i + (A.length : Int)).toNat _ _ hlen
      rw [x, y]
    · rfl
  have huk : u.heap.kids g = putAt (landing A.length (r.kids.length - 1) i) e (r.kids.filter (· != e)) := by
    unfold Heap.kids; rw [hgu]; rfl
  have hput : ∀ k (l : List Nat), e ∉ l → (putAt k e l).filter (· != e) = l := by
    intro k l hl
    unfold putAt
    rw [List.filter_append, List.filter_cons_of_neg (by simp [bne]), ← List.filter_append, List.take_append_drop, Node.filter_ne_self hl]
  have hperm : ∀ k (l : List Nat), (putAt k e l).Perm (e :: l) := by
    intro k l
    unfold putAt
    have := List.perm_middle (a := e) (l₁ := l.take k) (l₂ := l.drop k)
    rwa [List.take_append_drop] at this
  refine ⟨u, ?_, b2, ?_, ?_, ?_, ?_, hheap, ?_, ?_, ?_⟩
  · unfold reindex
    rw [bind_of (groupOf_kid hs hg hm), bind_of (orAttr_some g s), bind_of hf, bind_of a1]
    exact b1
  · rw [b3, a3]
  · rw [hrk, huk]
  · rw [huk, hrk, hput _ _ hnot]
  · rw [huk, hrk]
    refine (hperm _ _).trans ?_
    obtain ⟨L, Q, hLQ⟩ := List.append_of_mem hmr
    have hL : e ∉ L ∧ e ∉ Q := by
      rw [hLQ] at hnd
      have h1 := List.nodup_append.mp hnd
      exact ⟨fun h => h1.2.2 e h e (List.mem_cons_self ..) rfl, (List.nodup_cons.mp h1.2.1).1⟩
    rw [hLQ, List.filter_append, List.filter_cons_of_neg (by simp [bne]), Node.filter_ne_self hL.1, Node.filter_ne_self hL.2]
    exact List.perm_middle.symm
  · unfold Heap.tag; rw [hgu, hr]; rfl
  · unfold Heap.text; rw [hgu, hr]; rfl
  · intro a; unfold Heap.attr; rw [hgu, hr]; rfl

/-- Finding: a negative number does not count from the last entry. In the root group of the sample database, `reindex(-1)`
puts the second entry before the first, among the other elements of the group; its index is then 0. -/
theorem C51_negative :
    Sample.db.heap.all 14 "Entry".toList = [23, 76] ∧
      (let t := (reindex 76 (-1) Sample.db).2
       t.heap.all 14 "Entry".toList = [76, 23] ∧ (entryIndex 76 t).1 = .ok 0 ∧ (entryIndex 23 t).1 = .ok 2) := by
  refine ⟨by decide +kernel, by decide +kernel, by decide +kernel, by decide +kernel⟩

/-- Finding: a number beyond the entries puts the entry behind the subgroups, and its index is no longer its position among
the entries. -/
theorem C51_beyond :
    let t := (reindex 23 9 Sample.db).2
    t.heap.all 14 "Entry".toList = [76, 23] ∧ (entryIndex 23 t).1 = .ok 2 := by
  refine ⟨by decide +kernel, by decide +kernel⟩

example : ∃ A R, Sample.db.heap.kids 14 = A ++ 23 :: R ∧ (∀ a ∈ A, Sample.db.heap.tag a ≠ "Entry".toList) ∧ 76 ∈ Sample.db.heap.kids 14 :=
  ⟨(Sample.db.heap.kids 14).takeWhile (· != 23), ((Sample.db.heap.kids 14).dropWhile (· != 23)).drop 1, by decide +kernel,
    by decide +kernel, by decide +kernel⟩

end Verif.Props
