import Verif.Api.Lists
import Verif.Api.KeepDb
import Verif.Api.SearchApi
import Verif.Api.MoveLemmas
import Verif.Api.PlaceLemmas
import Verif.Api.NamedLemmas
/-!
# Lemmas about the lists of groups and entries
-/
namespace Verif.Api
open Verif XPath Spec

variable {s : Db}

/-- What `find_groups()` finds. -/
theorem allGroups_run (env : Env) (hs : Inv s) : ∃ l, allGroups env s = (.ok l, s) ∧ l.Nodup ∧
    ∀ i, i ∈ l ↔ InDoc s.heap i ∧ s.heap.tag i = "Group".toList ∧ ¬ InHist s.heap i := by
  obtain ⟨r, hr⟩ := find_ok (K := .group) (re := env.re) (recursive := true) hs.world (a := {}) rfl (by simp) (by simp) (fun _ h => by cases h)
    (fun k _ => kw_compiles_exact k) cast_group
  obtain ⟨is, rfl, hsub, hm⟩ := find_partial hs.world rfl (by simp) (by simp) (fun _ h => by cases h) hr
  refine ⟨is, ?_, hsub.nodup hs.world.uniq, ?_⟩
  · unfold allGroups findGroupList
    rw [findGroups_eq, hr]
    rfl
  · intro i
    rw [hm i]
    constructor
    · rintro ⟨x, hx, rfl, h⟩
      have hg := Node.get?_mem hs.world.uniq hx
      exact ⟨(inDoc_scope hs hx).mp h.scope, by rw [node_tag hg]; exact h.tag, fun hh => h.history rfl ((hist_iff hs hx).mpr hh)⟩
    · rintro ⟨h1, h2, h3⟩
      obtain ⟨x, hg⟩ := get_of_mem (inDoc_mem hs h1).1
      obtain ⟨hx, hid⟩ := Node.get?_some hg
      subst hid
      exact ⟨x, hx, rfl, ⟨(inDoc_scope hs hx).mpr h1, by rw [← node_tag hg]; exact h2, fun _ hh => h3 ((hist_iff hs hx).mp hh), fun _ h => nomatch h⟩⟩

/-- What `find_entries()` finds. -/
theorem allEntries_run (env : Env) (hs : Inv s) : ∃ l, allEntries env s = (.ok l, s) ∧ l.Nodup ∧
    ∀ i, i ∈ l ↔ InDoc s.heap i ∧ s.heap.tag i = "Entry".toList ∧ ¬ InHist s.heap i := by
  obtain ⟨l, h1, h2, h3⟩ := findEntryList_run env hs (ks := []) (fun _ h => nomatch h)
  refine ⟨l, h1, h2, fun i => ?_⟩
  rw [h3 i]
  constructor
  · rintro ⟨_, _, a, b, c, _⟩
    exact ⟨a, b, c⟩
  · rintro ⟨a, b, c⟩
    obtain ⟨n, hn⟩ := get_of_mem (inDoc_mem hs a).1
    exact ⟨n, hn, a, b, c, fun _ h => nomatch h⟩

/-- The tags of the elements that groups are in. -/
def spine : List Str := ["KeePassFile".toList, "Root".toList, "Group".toList]

theorem home_group {p : Str} (h : Home p "Group".toList) : p = "Root".toList ∨ p = "Group".toList := by
  have := h _ (by decide : homes.lookup "Group".toList = some ["Root".toList, "Group".toList])
  simpa using this
theorem home_root {p : Str} (h : Home p "Root".toList) : p = "KeePassFile".toList := by
  have := h _ (by decide : homes.lookup "Root".toList = some ["KeePassFile".toList])
  simpa using this
theorem home_doc {p : Str} : ¬ Home p "KeePassFile".toList := by
  intro h
  have := h _ (by decide : homes.lookup "KeePassFile".toList = some [])
  cases this
theorem home_entry {p : Str} (h : Home p "Entry".toList) : p = "Group".toList ∨ p = "History".toList := by
  have := h _ (by decide : homes.lookup "Entry".toList = some ["Group".toList, "History".toList])
  simpa using this

theorem home_spine {p c : Str} (h : Home p c) (hc : c ∈ spine) : p ∈ spine := by
  simp only [spine, List.mem_cons, List.not_mem_nil, or_false] at hc
  rcases hc with rfl | rfl | rfl
  · exact absurd h home_doc
  · rw [home_root h]; decide
  · rcases home_group h with e | e <;> rw [e] <;> decide

/-- Above a group are only groups, `Root` and `KeePassFile`. -/
theorem spine_up (hs : Inv s) (h : Shaped s.heap) {a b : Nat} (h0 : a ≠ 0) (hr : Reach s.heap a b) (hb : s.heap.tag b ∈ spine) :
    s.heap.tag a ∈ spine := by
  induction hr with
  | refl => exact hb
  | @snoc b c hab hk ih =>
    have hb0 : b ≠ 0 := fun e => zero_not_reach hs h0 (e ▸ hab)
    exact ih (home_spine (h b c hb0 hk) hb)

/-- Groups are in no history. -/
theorem spine_hist (hs : Inv s) (h : Shaped s.heap) {x : Nat} (hx : s.heap.tag x ∈ spine) : ¬ InHist s.heap x := by
  rintro ⟨k, h1, _, h2⟩
  have := spine_up hs h (tag_ne_zero hs (by rw [h1]; decide)) h2 hx
  rw [h1] at this
  exact absurd this (by decide)

theorem entry_hist (hs : Inv s) (h : Shaped s.heap) {g e : Nat} (hg : s.heap.tag g = "Group".toList) (he : e ∈ s.heap.all g "Entry".toList) :
    ¬ InHist s.heap e := by
  rintro ⟨k, h1, h2, h3⟩
  rcases reach_kid_up hs h3 (all_kid he).1 with e1 | e1
  · exact h2 e1
  · refine spine_hist hs h (x := g) (by rw [hg]; decide) ⟨k, h1, ?_, e1⟩
    rintro rfl
    rw [hg] at h1
    exact absurd h1 (by decide)

/-- An entry of the document that is not in a history is in a group of the document. -/
theorem entry_group (hs : Inv s) (h : Shaped s.heap) {d : Nat} (hd : docEl s.heap = some d) (hdt : s.heap.tag d = "KeePassFile".toList)
    {e : Nat} (hi : InDoc s.heap e) (ht : s.heap.tag e = "Entry".toList) (hh : ¬ InHist s.heap e) :
    ∃ g, InDoc s.heap g ∧ s.heap.tag g = "Group".toList ∧ e ∈ s.heap.all g "Entry".toList := by
  obtain ⟨d', h1, h2⟩ := hi
  rw [hd] at h1
  injection h1 with h1
  subst h1
  cases h2 with
  | refl => rw [ht] at hdt; exact absurd hdt (by decide)
  | @snoc g _ hg hk =>
    have hg0 : g ≠ 0 := fun e0 => not_inDoc_zero hs (e0 ▸ ⟨d, hd, hg⟩)
    have := h g e hg0 hk
    rw [ht] at this
    rcases home_entry this with e1 | e1
    · exact ⟨g, ⟨d, hd, hg⟩, e1, List.mem_filter.mpr ⟨hk, by rw [ht]; rfl⟩⟩
    · refine absurd ⟨g, e1, ?_, .kid hk⟩ hh
      rintro rfl
      rw [ht] at e1
      exact absurd e1 (by decide)

/-- The groups of the document are those below the root groups. -/
theorem groups_under (hs : Inv s) (h : Shaped s.heap) {d : Nat} (hd : docEl s.heap = some d) (hdt : s.heap.tag d = "KeePassFile".toList) {x : Nat} :
    (InDoc s.heap x ∧ s.heap.tag x = "Group".toList) ↔ ∃ r, IsRoot s.heap r ∧ Under s.heap r x := by
  constructor
  · rintro ⟨⟨d', h1, h2⟩, ht⟩
    rw [hd] at h1
    injection h1 with h1
    subst h1
    have key : ∀ {y}, Reach s.heap d y → (s.heap.tag y = "KeePassFile".toList → y = d) ∧
        (s.heap.tag y = "Root".toList → y ∈ s.heap.all d "Root".toList) ∧
        (s.heap.tag y = "Group".toList → ∃ r, IsRoot s.heap r ∧ Under s.heap r y) := by
      intro y hy
      induction hy with
      | refl =>
        refine ⟨fun _ => rfl, fun e => ?_, fun e => ?_⟩
        · rw [e] at hdt; exact absurd hdt (by decide)
        · rw [e] at hdt; exact absurd hdt (by decide)
      | @snoc b c hb hk ih =>
        have hb0 : b ≠ 0 := fun e0 => not_inDoc_zero hs (e0 ▸ ⟨d, hd, hb⟩)
        have hh := h b c hb0 hk
        refine ⟨fun e => ?_, fun e => ?_, fun e => ?_⟩
        · rw [e] at hh; exact absurd hh home_doc
        · rw [e] at hh
          rw [← ih.1 (home_root hh)]
          exact List.mem_filter.mpr ⟨hk, by rw [e]; rfl⟩
        · rw [e] at hh
          have hm : c ∈ s.heap.all b "Group".toList := List.mem_filter.mpr ⟨hk, by rw [e]; rfl⟩
          rcases home_group hh with e1 | e1
          · exact ⟨c, ⟨d, b, hd, hdt, ih.2.1 e1, hm⟩, .refl⟩
          · obtain ⟨r, h1, h2⟩ := ih.2.2 e1
            exact ⟨r, h1, .sub h2 hm⟩
    exact (key h2).2.2 ht
  · rintro ⟨r, ⟨d', q, h1, h2, h3, h4⟩, hu⟩
    rw [hd] at h1
    injection h1 with h1
    subst h1
    induction hu with
    | refl => exact ⟨⟨d, hd, .snoc (.kid (all_kid h3).1) (all_kid h4).1⟩, (all_kid h4).2⟩
    | sub _ hc ih =>
      obtain ⟨⟨d', e1, e2⟩, _⟩ := ih
      exact ⟨⟨d', e1, .snoc e2 (all_kid hc).1⟩, (all_kid hc).2⟩

theorem isRootGroup_kid (hs : Inv s) {p g : Nat} (h0 : p ≠ 0) (hk : g ∈ s.heap.kids p) :
    isRootGroup g s = (.ok (s.heap.tag p == "Root".toList), s) := by
  obtain ⟨l, h1, h2, h3⟩ := place_run hs (kid_mem hs hk).1
  obtain ⟨m, _, h4, h5⟩ := place_run hs (kid_mem hs hk).2
  subst h3; subst h5
  obtain ⟨h6, _⟩ := place_kid hs h4 h0 h2 hk
  unfold isRootGroup
  rw [bind_of h1, h6, node_tag (place_get hs h4 h0)]
  unfold isRootIn parentIn
  simp only [if_neg h0]
  rfl

/-- The nearest group above a child of something that is no group. -/
theorem groupOf_skip (hs : Inv s) {p c : Nat} (h0 : p ≠ 0) (ht : s.heap.tag p ≠ "Group".toList) (hk : c ∈ s.heap.kids p) :
    (groupOf c s).1 = (groupOf p s).1 := by
  obtain ⟨l, h1, h2, h3⟩ := place_run hs (kid_mem hs hk).1
  obtain ⟨m, g1, h4, h5⟩ := place_run hs (kid_mem hs hk).2
  subst h3; subst h5
  obtain ⟨h6, _⟩ := place_kid hs h4 h0 h2 hk
  unfold groupOf
  rw [bind_of h1, bind_of g1, h6]
  rw [node_tag (place_get hs h4 h0)] at ht
  rw [List.find?_cons_of_neg (by simpa using ht)]

theorem groupOf_top (hs : Inv s) {d : Nat} (hd : d ∈ s.heap.kids 0) : groupOf d s = (.ok none, s) := by
  obtain ⟨l, h1, _, _⟩ := place_run hs (kid_mem hs hd).1
  have h : groupOf d s = (.ok ((l.anc.find? fun p => p.tag == "Group".toList).map Node.id), s) := by
    unfold groupOf
    rw [bind_of h1]
    rfl
  cases ho : (l.anc.find? fun p => p.tag == "Group".toList).map Node.id with
  | none => rw [h, ho]
  | some g =>
    rw [ho] at h
    obtain ⟨a1, _, _, a4, a5⟩ := groupOf_some hs h
    rcases reach_kid_up hs a4 hd with e | e
    · exact absurd e a5
    · exact absurd e (zero_not_reach hs a1)

theorem isHistoryEntry_kid (hs : Inv s) {p c : Nat} (h0 : p ≠ 0) (hk : c ∈ s.heap.kids p) :
    isHistoryEntry c s = (.ok (s.heap.tag p == "History".toList), s) := by
  unfold isHistoryEntry
  rw [bind_of (parentOf_some hs h0 hk)]
  rfl

end Verif.Api
