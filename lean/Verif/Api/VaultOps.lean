import Verif.Api.VaultLemmas
import Verif.Api.SubLemmas
/-!
# Changes of one card
-/
namespace Verif.Api
open Verif XPath Spec

/-- Only the card of `x` changes, at one of its elements; `new` is the only new card. -/
structure Local (s s' : Db) (x : Nat) (new : Option Nat) : Prop where
  inv : Inv s'
  elem : ¬ NoCard (s.heap.tag x)
  at_ : ∃ q, Part s.heap x q ∧ s'.heap.tag q = s.heap.tag q ∧ ∀ j ∈ s.world.ids, j ≠ 0 → j ≠ q → s'.heap j = s.heap j
  fresh : ∀ j, j ∉ s.world.ids → some j ≠ new → NoCard (s'.heap.tag j)
  doc : docEl s'.heap = docEl s.heap
  version : s'.version = s.version

section
variable {s s' : Db} {x : Nat} {new : Option Nat}

theorem Local.tag (hs : Inv s) (l : Local s s' x new) {j : Nat} (hj : j ∈ s.world.ids) : s'.heap.tag j = s.heap.tag j := by
  obtain ⟨q, _, h2, h3⟩ := l.at_
  by_cases h0 : j = 0
  · subst h0; rw [hs.zero_tag, l.inv.zero_tag]
  · by_cases hq : j = q
    · rw [hq, h2]
    · exact tag_congr (h3 j hj h0 hq)

theorem Local.same (hs : Inv s) (l : Local s s' x new) {y : Nat} (hy : ¬ NoCard (s.heap.tag y)) (hne : y ≠ x) (t : Str) :
    SameAt s.heap s'.heap y t := by
  obtain ⟨q, h1, _, h3⟩ := l.at_
  refine same_at hs (fun j hj => ?_) (fun j hj => l.tag hs hj) t
  obtain ⟨j1, j2⟩ := part_pos hs hy hj
  refine h3 j j2 j1 ?_
  rintro rfl
  exact hne (part_unique hs hy l.elem hj h1)

theorem not_mem_tag {s : Db} {y : Nat} (h : y ∉ s.world.ids) : s.heap.tag y = [] := by
  unfold Heap.tag
  cases hr : s.heap y with
  | none => rfl
  | some r => exact absurd (mem_of_heap hr) h

theorem bodyNil : NoCard [] := by decide

theorem Local.card (hs : Inv s) (l : Local s s' x new) {y : Nat} (hne : y ≠ x) (hnew : some y ≠ new) :
    (vaultOf s').card y = (vaultOf s).card y := by
  show (if NoCard (s'.heap.tag y) then none else some (cardOf s'.heap y)) = if NoCard (s.heap.tag y) then none else some (cardOf s.heap y)
  by_cases hm : y ∈ s.world.ids
  · rw [l.tag hs hm]
    by_cases hb : NoCard (s.heap.tag y)
    · rw [if_pos hb, if_pos hb]
    · rw [if_neg hb, if_neg hb, card_same (l.tag hs hm) fun t => l.same hs hb hne t]
  · rw [if_pos (l.fresh y hm hnew), not_mem_tag hm, if_pos bodyNil]

theorem Local.neat (hs : Inv s) (l : Local s s' x new) (hn : ∀ y, ¬ NoCard (s.heap.tag y) → Neat s.heap y) {y : Nat} (hy : ¬ NoCard (s'.heap.tag y))
    (hne : y ≠ x) (hnew : some y ≠ new) : Neat s'.heap y := by
  by_cases hm : y ∈ s.world.ids
  · rw [l.tag hs hm] at hy
    exact neat_same (fun t => l.same hs hy hne t) (hn y hy)
  · exact absurd (l.fresh y hm hnew) hy

/-- The document element and `Root` belong to no card. -/
theorem skeleton_part (hs : Inv s) {d m r : Nat} (hk : Skeleton s.heap d m r) {y : Nat} (hy : ¬ NoCard (s.heap.tag y)) :
    ¬ Part s.heap y d ∧ ¬ Part s.heap y r := by
  have hd0 : d ∈ s.heap.kids 0 := List.mem_of_mem_head? hk.doc
  have hr : r ∈ s.heap.kids d ∧ s.heap.tag r = "Root".toList := all_sub (by rw [hk.root]; exact List.mem_singleton.mpr rfl)
  have bd : NoCard (s.heap.tag d) := by rw [hk.tag]; decide
  have br : NoCard (s.heap.tag r) := by rw [hr.2]; decide
  have nd : ¬ Part s.heap y d := by
    intro h
    cases h with
    | self => exact hy bd
    | kid hp hk _ =>
      rw [parent_eq hs hk hd0] at hp
      exact zero_not_reach hs (card_pos hs hy) (part_reach hp)
  refine ⟨nd, fun h => ?_⟩
  cases h with
  | self => exact hy br
  | kid hp hk _ =>
    rw [parent_eq hs hk hr.1] at hp
    exact nd hp

theorem roots_eq {h : Heap} {d r : Nat} (hd : docEl h = some d) (hr : h.all d "Root".toList = [r]) : rootsOf h = h.all r "Group".toList := by
  unfold rootsOf
  rw [hd]
  show (h.all d "Root".toList ++ []).flatMap _ = _
  rw [List.append_nil, hr]
  exact List.append_nil _

theorem roots_of {h : Heap} {d m r : Nat} (hk : Skeleton h d m r) : rootsOf h = h.all r "Group".toList := roots_eq hk.doc hk.root

theorem roots_same {h : Heap} (hs : Inv s) {d m r : Nat} (hk : Skeleton s.heap d m r) (hd : docEl h = docEl s.heap)
    (h1 : h d = s.heap d) (h2 : h r = s.heap r) (ht : ∀ j ∈ s.world.ids, h.tag j = s.heap.tag j) : rootsOf h = rootsOf s.heap := by
  have hr : r ∈ s.heap.kids d := (all_sub (by rw [hk.root]; exact List.mem_singleton.mpr rfl)).1
  have hall : ∀ i ∈ s.world.ids, h i = s.heap i → ∀ t, h.all i t = s.heap.all i t := by
    intro i hi e t
    unfold Heap.all
    rw [kids_congr e]
    apply List.filter_congr
    intro k hk
    rw [ht k (kid_mem hs hk).1]
  rw [roots_of hk, roots_eq (hd.trans hk.doc) (by rw [hall d (kid_mem hs hr).2 h1, hk.root]), hall r (kid_mem hs hr).1 h2]

theorem Local.roots (hs : Inv s) (l : Local s s' x new) {d m r : Nat} (hk : Skeleton s.heap d m r) : rootsOf s'.heap = rootsOf s.heap := by
  obtain ⟨q, h1, _, h3⟩ := l.at_
  obtain ⟨n1, n2⟩ := skeleton_part hs hk l.elem
  have hr : r ∈ s.heap.kids d := (all_sub (by rw [hk.root]; exact List.mem_singleton.mpr rfl)).1
  have hd : d ∈ s.heap.kids 0 := List.mem_of_mem_head? hk.doc
  refine roots_same hs hk l.doc (h3 d (kid_mem hs hd).1 (kid_ne_zero hs hd) ?_) (h3 r (kid_mem hs hr).1 (kid_ne_zero hs hr) ?_) fun j hj => l.tag hs hj
  · rintro rfl; exact n1 h1
  · rintro rfl; exact n2 h1

theorem card_some {s : Db} {x : Nat} (h : ¬ NoCard (s.heap.tag x)) : (vaultOf s).card x = some (cardOf s.heap x) := if_neg h

theorem card_inv {s : Db} {x : Nat} {c : Card} (h : (vaultOf s).card x = some c) : ¬ NoCard (s.heap.tag x) ∧ c = cardOf s.heap x := by
  have h : (if NoCard (s.heap.tag x) then none else some (cardOf s.heap x)) = some c := h
  by_cases hb : NoCard (s.heap.tag x)
  · rw [if_pos hb] at h; cases h
  · rw [if_neg hb] at h; injection h with h; exact ⟨hb, h.symm⟩

theorem card_none {s : Db} (hs : Inv s) {x : Nat} (h : s.next ≤ x) : (vaultOf s).card x = none := by
  have : s.heap.tag x = [] := not_mem_tag fun hm => Nat.lt_irrefl _ (Nat.lt_of_lt_of_le (hs.bound x hm) h)
  show (if NoCard (s.heap.tag x) then none else _) = none
  rw [this]
  exact if_pos bodyNil

theorem free_new {s : Db} (hs : Inv s) {x : Nat} (h : s.next ≤ x) : (vaultOf s).Free x := by
  refine ⟨card_none hs h, ?_⟩
  rintro e f ⟨c, h1, h2⟩ rfl
  obtain ⟨_, rfl⟩ := card_inv h1
  obtain ⟨b, b1, rfl⟩ := List.mem_map.mp h2
  exact Nat.lt_irrefl _ (Nat.lt_of_lt_of_le (hs.bound b (kid_mem hs (all_sub b1).1).1) h)

/-- The vault after a change of one card. -/
theorem Local.vault (hs : Sound s) (l : Local s s' x none) {f : Card → Card} (hf : cardOf s'.heap x = f (cardOf s.heap x)) :
    vaultOf s' = { (vaultOf s).change x f with ticks := s'.ticks, uuids := s'.uuids } := by
  obtain ⟨d, m, r, hk⟩ := hs.skeleton
  refine Vault.ext ?_ (l.roots hs.inv hk) l.version rfl rfl
  funext j
  show _ = if j = x then ((vaultOf s).card x).map f else (vaultOf s).card j
  by_cases hj : j = x
  · subst hj
    have hb : ¬ NoCard (s'.heap.tag j) := by rw [l.tag hs.inv (card_mem l.elem)]; exact l.elem
    rw [if_pos rfl, card_some hb, card_some l.elem, hf]
    rfl
  · rw [if_neg hj]
    exact l.card hs.inv hj (by simp)

/-- The vault after a change of one card that brings another. -/
theorem Local.vault_new (hs : Sound s) {n : Nat} (l : Local s s' x (some n)) {f : Card → Card} (hf : cardOf s'.heap x = f (cardOf s.heap x))
    (hne : n ≠ x) (hn : ¬ NoCard (s'.heap.tag n)) :
    vaultOf s' = { ((vaultOf s).change x f).put n (cardOf s'.heap n) with ticks := s'.ticks, uuids := s'.uuids } := by
  obtain ⟨d, m, r, hk⟩ := hs.skeleton
  refine Vault.ext ?_ (l.roots hs.inv hk) l.version rfl rfl
  funext j
  show _ = if j = n then some _ else if j = x then ((vaultOf s).card x).map f else (vaultOf s).card j
  by_cases hjn : j = n
  · rw [if_pos hjn, hjn, card_some hn]
  · rw [if_neg hjn]
    by_cases hj : j = x
    · subst hj
      have hb : ¬ NoCard (s'.heap.tag j) := by rw [l.tag hs.inv (card_mem l.elem)]; exact l.elem
      rw [if_pos rfl, card_some hb, card_some l.elem, hf]
      rfl
    · rw [if_neg hj]
      exact l.card hs.inv hj fun e => hjn (by injection e)

theorem Local.all_neat (hs : Sound s) (l : Local s s' x none) (hx : Neat s'.heap x) : ∀ y, ¬ NoCard (s'.heap.tag y) → Neat s'.heap y := by
  intro y hy
  by_cases e : y = x
  · rw [e]; exact hx
  · exact l.neat hs.inv hs.neat hy e (by simp)

theorem Local.all_neat_new (hs : Sound s) {n : Nat} (l : Local s s' x (some n)) (hx : Neat s'.heap x) (hn : Neat s'.heap n) :
    ∀ y, ¬ NoCard (s'.heap.tag y) → Neat s'.heap y := by
  intro y hy
  by_cases e : y = x
  · rw [e]; exact hx
  · by_cases e' : y = n
    · rw [e']; exact hn
    · exact l.neat hs.inv hs.neat hy e fun h => e' (by injection h)

/-! ## The changed card itself -/

/-- What is below two children is below one. -/
theorem one_branch {s : Db} (hs : Inv s) {x k l j : Nat} (hk : k ∈ s.heap.kids x) (hl : l ∈ s.heap.kids x) (h1 : Reach s.heap k j)
    (h2 : Reach s.heap l j) : k = l := by
  induction h1 with
  | refl =>
    rcases reach_kid_up hs h2 hk with e | e
    · exact e.symm
    · exact absurd e (no_cycle hs hl)
  | snoc hb hc ih =>
    rcases reach_kid_up hs h2 hc with e | e
    · subst e
      rw [parent_eq hs hc hl] at hb
      exact absurd hb (no_cycle hs hk)
    · exact ih e

/-- The children with another tag than that of what changed. -/
theorem Local.other (hs : Inv s) {T : Str} {q : Nat} (hq : ∀ j ∈ s.world.ids, j ≠ 0 → j ≠ q → s'.heap j = s.heap j)
    (htag : ∀ j ∈ s.world.ids, s'.heap.tag j = s.heap.tag j)
    (hw : q = x ∨ ∃ k ∈ s.heap.kids x, s.heap.tag k = T ∧ Reach s.heap k q)
    {t : Str} (ht : t ≠ T) (hall : s'.heap.all x t = s.heap.all x t) : SameAt s.heap s'.heap x t := by
  refine ⟨hall, fun _ k hk j hj => ⟨?_, fun c hc => htag c (kid_mem hs hc).1⟩⟩
  obtain ⟨k1, k2⟩ := all_sub hk
  have hr := part_reach hj
  have hm := reach_mem hs hr (kid_mem hs k1).1
  refine hq j hm (fun e => zero_not_reach hs (kid_ne_zero hs k1) (e ▸ hr)) ?_
  rintro rfl
  rcases hw with rfl | ⟨l, l1, l2, l3⟩
  · exact no_cycle hs k1 hr
  · rw [one_branch hs k1 l1 hr l3] at k2
    exact ht (k2.symm.trans l2)

theorem textTag_ne {p q : TextProp} (h : q ≠ p) : q.tag ≠ p.tag := by
  revert h; cases p <;> cases q <;> decide

theorem timeTag_ne {p q : TimeProp} (h : q ≠ p) : q.tag ≠ p.tag := by
  revert h; cases p <;> cases q <;> decide

theorem single_text (p : TextProp) : p.tag ∈ singles := by cases p <;> decide

theorem card_text {h h' : Heap} {p : TextProp} {v : Str} (ht : h'.tag x = h.tag x) (a : ∀ t, t ≠ p.tag → SameAt h h' x t)
    (hv : sub h' x p.tag = some v) : cardOf h' x = (cardOf h x).setText p v := by
  have ne : ∀ t, t ∉ singles → t ≠ p.tag := fun t ht e => ht (e ▸ single_text p)
  have hh : p.tag ≠ "History".toList := by cases p <;> decide
  refine Card.ext ht ?_ ?_ (a _ (ne _ (by decide))).keysOf (a _ (ne _ (by decide))).prop (a _ (ne _ (by decide))).mark
    (a _ (ne _ (by decide))).files (funext fun q => (a _ (ne _ (by decide))).auto q) (a _ hh.symm).past (a _ (ne _ (by decide))).all (a _ (ne _ (by decide))).all
  · funext q
    show sub h' x q.tag = if q = p then some v else sub h x q.tag
    by_cases hq : q = p
    · rw [if_pos hq, hq, hv]
    · rw [if_neg hq]; exact (a _ (textTag_ne hq)).sub (bodyText q)
  · funext q; exact (a _ (ne _ (by decide))).time (bodyTime q)

theorem card_time {h h' : Heap} {p : TimeProp} {v : Str} (ht : h'.tag x = h.tag x) (a : ∀ t, t ≠ "Times".toList → SameAt h h' x t)
    (hv : (timeEl h' x p.tag).map h'.text = some (some v))
    (ho : ∀ q, q ≠ p → (timeEl h' x q.tag).map h'.text = (timeEl h x q.tag).map h.text) : cardOf h' x = (cardOf h x).setTime p v := by
  refine Card.ext ht ?_ ?_ (a _ (by decide)).keysOf (a _ (by decide)).prop (a _ (by decide)).mark
    (a _ (by decide)).files (funext fun q => (a _ (by decide)).auto q) (a _ (by decide)).past (a _ (by decide)).all (a _ (by decide)).all
  · funext q; exact (a _ (by cases q <;> decide)).sub (bodyText q)
  · funext q
    show (timeEl h' x q.tag).map h'.text = if q = p then some (some v) else (timeEl h x q.tag).map h.text
    by_cases hq : q = p
    · rw [if_pos hq, hq, hv]
    · rw [if_neg hq, ho q hq]

theorem card_fields {h h' : Heap} {c : Card} (ht : h'.tag x = h.tag x) (a : ∀ t, t ≠ "String".toList → SameAt h h' x t)
    (hk : keysOf h' x = c.keys) (hp : prop h' x = c.field) (hm : mark h' x = c.mark)
    (hc : c = { cardOf h x with keys := c.keys, field := c.field, mark := c.mark }) : cardOf h' x = c := by
  rw [hc]
  refine Card.ext ht ?_ ?_ hk hp hm (a _ (by decide)).files (funext fun q => (a _ (by decide)).auto q) (a _ (by decide)).past (a _ (by decide)).all (a _ (by decide)).all
  · funext q; exact (a _ (by cases q <;> decide)).sub (bodyText q)
  · funext q; exact (a _ (by decide)).time (bodyTime q)

theorem card_past {h h' : Heap} {l : Option (List Nat)} (ht : h'.tag x = h.tag x) (a : ∀ t, t ≠ "History".toList → SameAt h h' x t)
    (hl : (h'.find x "History".toList).map (fun k => h'.all k "Entry".toList) = l) : cardOf h' x = { cardOf h x with past := l } := by
  refine Card.ext ht ?_ ?_ (a _ (by decide)).keysOf (a _ (by decide)).prop (a _ (by decide)).mark (a _ (by decide)).files
    (funext fun q => (a _ (by decide)).auto q) hl
    (a _ (by decide)).all (a _ (by decide)).all
  · funext q; exact (a _ (by cases q <;> decide)).sub (bodyText q)
  · funext q; exact (a _ (by decide)).time (bodyTime q)

theorem card_lists {h h' : Heap} (ht : h'.tag x = h.tag x) (a : ∀ t, NoCard t → SameAt h h' x t) :
    cardOf h' x = { cardOf h x with entries := h'.all x "Entry".toList, groups := h'.all x "Group".toList } := by
  refine Card.ext ht ?_ ?_ (a _ (by decide)).keysOf (a _ (by decide)).prop (a _ (by decide)).mark (a _ (by decide)).files
    (funext fun q => (a _ (by decide)).auto q) (a _ (by decide)).past rfl rfl
  · funext q; exact (a _ (bodyText q)).sub (bodyText q)
  · funext q; exact (a _ (by decide)).time (bodyTime q)

end

end Verif.Api
