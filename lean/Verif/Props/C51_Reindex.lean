import Verif.Api.Keep
import Verif.Api.PlaceLemmas
import Verif.Api.Sample
/-!
# C51: `reindex`
-/
namespace Verif.Props
open Verif XPath Spec Api

/-- The children of a group are `A`, then its entries `E`, then `B`. -/
structure Contiguous (h : Heap) (g : Nat) (A E B : List Nat) : Prop where
  kids : h.kids g = A ++ E ++ B
  entries : ∀ c ∈ E, h.tag c = "Entry".toList
  before : ∀ c ∈ A, h.tag c ≠ "Entry".toList
  after : ∀ c ∈ B, h.tag c ≠ "Entry".toList

/-- `x` put at position `i`. -/
def putAt (i x : Nat) (l : List Nat) : List Nat := l.take i ++ x :: l.drop i

theorem indexOf_at {x : Nat} {A B : List Nat} (h : x ∉ A) : indexOf x (A ++ x :: B) = some A.length := by
  induction A with
  | nil => show (if x = x then _ else _) = _; rw [if_pos rfl]; rfl
  | cons a A ih =>
    rw [List.mem_cons, not_or] at h
    show (if a = x then some 0 else (indexOf x (A ++ x :: B)).map (· + 1)) = _
    rw [if_neg (Ne.symm h.1), ih h.2]; rfl

theorem firstEntry_run {s : Db} {g c : Nat} {A R : List Nat} (hk : s.heap.kids g = A ++ c :: R) (hc : s.heap.tag c = "Entry".toList)
    (hA : ∀ a ∈ A, s.heap.tag a ≠ "Entry".toList) : firstEntry g s = (.ok A.length, s) := by
  unfold firstEntry
  rw [bind_of (childrenOf_run g s), bind_of (reads_run _ s), hk]
  have hf : (A ++ c :: R).find? (fun c => s.heap.tag c == "Entry".toList) = some c := by
    rw [List.find?_append, List.find?_eq_none.mpr fun a ha => by rw [beq_iff_eq]; exact hA a ha]
    rw [List.find?_cons_of_pos (by rw [beq_iff_eq]; exact hc)]; rfl
  rw [hf]
  show (match indexOf c (A ++ c :: R) with | none => fail .value | some i => pure i : M Nat) s = _
  rw [indexOf_at fun h => hA c h hc]
  rfl

theorem contiguous_nodup {s : Db} (hs : Inv s) {g : Nat} {A E B : List Nat} (h : Contiguous s.heap g A E B) : (A ++ E ++ B).Nodup := by
  rw [← h.kids]
  cases hp : s.heap g with
  | none => unfold Heap.kids; rw [hp]; exact List.nodup_nil
  | some r => unfold Heap.kids; rw [hp]; exact kids_nodup hs hp

/-- `index` is the position among the entries. -/
theorem C51_index {s : Db} (hs : Inv s) {g e i : Nat} {A E B : List Nat} (hg : s.heap.tag g = "Group".toList) (h : Contiguous s.heap g A E B)
    (he : E[i]? = some e) : entryIndex e s = (.ok (i : Int), s) := by
  obtain ⟨hi, rfl⟩ := List.getElem?_eq_some_iff.mp he
  have hn := contiguous_nodup hs h
  have hE : E = E.take i ++ E[i] :: E.drop (i + 1) := by rw [List.getElem_cons_drop, List.take_append_drop]
  have hk : s.heap.kids g = (A ++ E.take i) ++ E[i] :: (E.drop (i + 1) ++ B) := by
    rw [h.kids]
    have e1 : A ++ E ++ B = A ++ (E.take i ++ E[i] :: E.drop (i + 1)) ++ B := by rw [← hE]
    rw [e1]
    simp only [List.append_assoc, List.cons_append]
  have hm : E[i] ∈ s.heap.kids g := by rw [hk]; simp
  have hnot : E[i] ∉ A ++ E.take i := by
    rw [← h.kids, hk] at hn
    intro hc
    exact (List.nodup_append.mp hn).2.2 _ hc _ (List.mem_cons_self ..) rfl
  unfold entryIndex
  rw [bind_of (groupOf_kid hs hg hm), bind_of (orAttr_some g s), bind_of (childrenOf_run g s)]
  have hf : firstEntry g s = (.ok A.length, s) := by
    cases hE : E with
    | nil => rw [hE] at hi; cases hi
    | cons c E' =>
      refine firstEntry_run (c := c) (R := E' ++ B) ?_ (h.entries c (by rw [hE]; exact List.mem_cons_self ..)) h.before
      rw [h.kids, hE]; simp
  rw [bind_of hf, hk, indexOf_at hnot]
  show (Except.ok (((A ++ E.take i).length : Int) - (A.length : Int)), s) = _
  rw [List.length_append, List.length_take, Nat.min_eq_left (Nat.le_of_lt hi)]
  congr 2
  omega

theorem filter_parts {A E B : List Nat} {e : Nat} (hn : (A ++ E ++ B).Nodup) (he : e ∈ E) :
    (A ++ E ++ B).filter (· != e) = A ++ E.filter (· != e) ++ B ∧ (E.filter (· != e)).length + 1 = E.length := by
  obtain ⟨L, R, rfl⟩ := List.append_of_mem he
  have h1 := List.nodup_append.mp hn
  have h2 := List.nodup_append.mp h1.1
  have h3 := List.nodup_append.mp h2.2.1
  have hA : e ∉ A := fun h => h2.2.2 e h e he rfl
  have hB : e ∉ B := fun h => h1.2.2 e (List.mem_append_right _ he) e h rfl
  have hL : e ∉ L := fun h => h3.2.2 e h e (List.mem_cons_self ..) rfl
  have hR : e ∉ R := (List.nodup_cons.mp h3.2.1).1
  constructor
  · simp only [List.filter_append, List.filter_cons]
    rw [Node.filter_ne_self hA, Node.filter_ne_self hB]
  · simp only [List.filter_append, List.filter_cons]
    rw [Node.filter_ne_self hL, Node.filter_ne_self hR]
    simp [bne]
    omega

theorem putAt_parts {A F B : List Nat} {e i : Nat} (hi : i ≤ F.length) :
    putAt (i + A.length) e (A ++ F ++ B) = A ++ putAt i e F ++ B := by
  unfold putAt
  rw [Nat.add_comm, List.append_assoc, List.take_length_add_append, List.drop_length_add_append, List.take_append_of_le_length hi,
    List.drop_append_of_le_length hi]
  simp

/-- In a group whose entries are contiguous, `e.reindex(i)` moves `e` to position `i` of the entries. The other children
of the group stay as they are, in the same order, and no other element changes. -/
theorem C51_reindex {s : Db} (hs : Inv s) {g e i : Nat} {A E B : List Nat} (hg : s.heap.tag g = "Group".toList)
    (h : Contiguous s.heap g A E B) (he : e ∈ E) (hi : i < E.length) :
    ∃ s', reindex e (i : Int) s = (.ok (), s') ∧ Inv s' ∧ s' = { s with world := s'.world } ∧
      Contiguous s'.heap g A (putAt i e (E.filter (· != e))) B ∧ entryIndex e s' = (.ok (i : Int), s') ∧
      (∀ j, j ≠ g → s'.heap j = s.heap j) ∧ s'.heap.tag g = s.heap.tag g ∧ s'.heap.text g = s.heap.text g ∧
      (∀ a, s'.heap.attr g a = s.heap.attr g a) := by
  have hn := contiguous_nodup hs h
  have hm : e ∈ s.heap.kids g := by rw [h.kids]; simp [he]
  have hg0 : g ≠ 0 := tag_ne_zero hs (by rw [hg]; decide)
  have he0 := kid_ne_zero hs hm
  obtain ⟨hem, hgm⟩ := kid_mem hs hm
  obtain ⟨f1, f2⟩ := filter_parts hn he
  have hf : firstEntry g s = (.ok A.length, s) := by
    cases hE : E with
    | nil => rw [hE] at he; cases he
    | cons c E' =>
      refine firstEntry_run (c := c) (R := E' ++ B) ?_ (h.entries c (by rw [hE]; exact List.mem_cons_self ..)) h.before
      rw [h.kids, hE]; simp
  obtain ⟨t, a1, a2, a3, a4⟩ := removeKid_ok hs hg0 hm
  have hmv : Moved s.heap t.heap e 0 := a4
  have hmt : ∀ j, j ∈ t.world.ids ↔ j ∈ s.world.ids := by
    intro j
    rw [← heap_some, ← heap_some, hmv j]
    cases s.heap j <;> simp
  obtain ⟨n, hn'⟩ := get_of_mem ((hmt e).mpr hem)
  have hdn : g ∉ n.ids := by
    rw [← reach_iff a2 hn']
    intro hr
    have : Reach s.heap e g := by
      have := (moved_below hs hmv hs.zero_mem (zero_not_reach hs he0) (j := g)).mp hr
      exact this
    exact no_cycle hs hm this
  have hdoc : docEl t.heap ≠ some e := by
    rw [moved_doc hs hmv (kid_not_doc hs hg0 hm)]
    exact kid_not_doc hs hg0 hm
  obtain ⟨u, b1, b2, b3, b4, b5⟩ := insertEl_ok a2 hn' he0 hg0 ((hmt g).mpr hgm) hdn hdoc ((i : Int) + (A.length : Int))
  have hpos : insertPos (t.heap.kids g).length ((i : Int) + (A.length : Int)) = i + A.length := by
    unfold insertPos
    rw [if_pos (by omega)]
    omega
  rw [hpos] at b5
  have hheap : ∀ j, j ≠ g → u.heap j = s.heap j := by
    intro j hj
    rw [b5 j, hmv j, Option.map_map]
    cases hr : s.heap j with
    | none => rfl
    | some r =>
      have hnot : e ∉ r.kids := by
        intro hc
        have : e ∈ s.heap.kids j := by unfold Heap.kids; rw [hr]; exact hc
        exact hj (parent_eq hs this hm)
      simp only [Option.map_some, Function.comp_apply]
      congr 1
      unfold insertedKids
      rw [if_neg hj]
      cases r with
      | mk rt ra rx rk =>
        simp only at hnot ⊢
        congr 1
        by_cases j0 : j = 0
        · rw [if_pos j0, List.filter_append, Node.filter_ne_self hnot, Node.filter_ne_self hnot]
          simp [bne]
        · rw [if_neg j0, Node.filter_ne_self hnot, Node.filter_ne_self hnot]
  obtain ⟨r, hr⟩ := heap_some.mpr hgm
  have hrk : r.kids = A ++ E ++ B := by rw [← h.kids]; unfold Heap.kids; rw [hr]; rfl
  have hgu : u.heap g = some { r with kids := A ++ putAt i e (E.filter (· != e)) ++ B } := by
    rw [b5 g, hmv g, hr]
    simp only [Option.map_some]
    congr 2
    rw [if_neg hg0]
    unfold insertedKids
    rw [if_pos rfl, hrk, f1]
    have hnot : e ∉ A ++ E.filter (· != e) ++ B := by rw [← f1]; simp [bne]
    rw [Node.filter_ne_self hnot]
    exact putAt_parts (by omega)
  have htag : ∀ j, u.heap.tag j = s.heap.tag j := by
    intro j
    by_cases hj : j = g
    · rw [hj]; unfold Heap.tag; rw [hgu, hr]; rfl
    · unfold Heap.tag; rw [hheap j hj]
  have hcont : Contiguous u.heap g A (putAt i e (E.filter (· != e))) B := by
    refine ⟨by unfold Heap.kids; rw [hgu]; rfl, fun c hc => ?_, fun c hc => by rw [htag]; exact h.before c hc,
      fun c hc => by rw [htag]; exact h.after c hc⟩
    rw [htag]
    unfold putAt at hc
    rcases List.mem_append.mp hc with hc | hc
    · exact h.entries c (List.mem_filter.mp (List.mem_of_mem_take hc)).1
    · rcases List.mem_cons.mp hc with hc | hc
      · rw [hc]; exact h.entries e he
      · exact h.entries c (List.mem_filter.mp (List.mem_of_mem_drop hc)).1
  refine ⟨u, ?_, b2, ?_, hcont, ?_, hheap, htag g, ?_, ?_⟩
  · unfold reindex
    rw [bind_of (groupOf_kid hs hg hm), bind_of (orAttr_some g s), bind_of hf, bind_of a1]
    exact b1
  · rw [b3, a3]
  · refine C51_index b2 (by rw [htag]; exact hg) hcont ?_
    unfold putAt
    rw [List.getElem?_append_right (by rw [List.length_take]; omega), List.length_take, Nat.min_eq_left (by omega)]
    simp
  · unfold Heap.text; rw [hgu, hr]; rfl
  · intro a; unfold Heap.attr; rw [hgu, hr]; rfl

/-- When subgroups stand between the entries, `index` counts them too and `reindex` does not place the entry where it
was asked to be: here among the entries 23, 76, 102 with the group 93 before 102, `reindex(2)` makes 23 the second. -/
theorem C51_interleaved :
    let s := (moveEntry 102 14 Sample.db).2
    let t := (reindex 23 2 s).2
    s.heap.all 14 "Entry".toList = [23, 76, 102] ∧ (entryIndex 102 s).1.toOption = some 3 ∧
      (reindex 23 2 s).1.isOk = true ∧ t.heap.all 14 "Entry".toList = [76, 23, 102] := by
  refine ⟨?_, ?_, ?_, ?_⟩ <;> decide +kernel

/-! The entries of the root group of the sample database are contiguous. -/
theorem sample_contiguous : ∃ A B, Contiguous Sample.db.heap 14 A [23, 76] B ∧ A ≠ [] ∧ B ≠ [] := by
  refine ⟨(Sample.db.heap.kids 14).takeWhile (· != 23), ((Sample.db.heap.kids 14).dropWhile (· != 76)).drop 1, ⟨?_, ?_, ?_, ?_⟩, ?_, ?_⟩ <;>
    decide +kernel

example : Inv Sample.db ∧ Sample.db.heap.tag 14 = "Group".toList ∧ (23 ∈ [23, 76]) ∧ 1 < [23, 76].length :=
  ⟨Sample.db_inv, by decide +kernel, by decide, by decide⟩

example : (reindex 23 1 Sample.db).2.heap.all 14 "Entry".toList = [76, 23] := by decide +kernel

end Verif.Props
