import Verif.Api.Queries
/-!
# Replacing a child

`_set_subelement_text` and `_set_string_field` remove the old child and append a new one.
-/
namespace Verif.Api
open Verif XPath Spec

/-- Child `old` of `e` (if any) was detached and a new element with the content `x` appended to `e`. -/
structure Replaced (s s' : Db) (e : Nat) (old : Option Nat) (x : Xml) : Prop where
  inv : Inv s'
  state : s' = { s with world := s'.world, next := (Node.ofXml s.next x).2 }
  here : ∃ r, s.heap e = some r ∧ s'.heap e = some { r with kids := r.kids.filter (fun k => some k != old) ++ [s.next] }
  root : ∃ r, s.heap 0 = some r ∧ s'.heap 0 = some { r with kids := r.kids ++ old.toList }
  other : ∀ j, j ≠ 0 → j ≠ e → j < s.next → s'.heap j = s.heap j
  fresh : ∀ j, s.next ≤ j → s'.heap j = (Node.ofXml s.next x).1.view j

theorem not_kid_elsewhere {s : Db} (h : Inv s) {e f j : Nat} (hf : f ∈ s.heap.kids e) {r : Node.Rec}
    (hj : s.heap j = some r) (hne : j ≠ e) : f ∉ r.kids := by
  intro hm
  unfold Heap.kids at hf
  cases he : s.heap e with
  | none => rw [he] at hf; cases hf
  | some r' =>
    rw [he] at hf
    exact hne (Node.view_parent_unique h.world.uniq hj he hm hf)

theorem kids_nodup {s : Db} (h : Inv s) {e : Nat} {r : Node.Rec} (he : s.heap e = some r) : r.kids.Nodup := by
  have hm : e ∈ s.world.ids := heap_some.mp ⟨r, he⟩
  obtain ⟨n, hn⟩ := Node.get?_exists hm
  rw [node_rec hn] at he
  injection he with he
  rw [← he]
  exact Node.kids_ids_nodup (Node.uniq_sub h.world.uniq (Node.get?_some hn).1)

theorem filter_some (l : List Nat) (f : Nat) : (l.filter fun k => some k != some f) = l.filter (· != f) := by
  apply List.filter_congr
  intro k _
  rw [Bool.eq_iff_iff, bne_iff_ne, bne_iff_ne]
  simp

theorem filter_none (l : List Nat) : (l.filter fun k => some k != none) = l := by
  apply List.filter_eq_self.mpr
  intro k _
  simp

theorem replace_ok {s : Db} (h : Inv s) {e : Nat} (he : e ≠ 0) (hm : e ∈ s.world.ids) (old : Option Nat)
    (hold : ∀ f, old = some f → f ∈ s.heap.kids e) (x : Xml) :
    ∃ s', (removeOld e old >>= fun _ => make e x) s = (.ok s.next, s') ∧ Replaced s s' e old x := by
  obtain ⟨r, hr⟩ := heap_some.mpr hm
  obtain ⟨r0, hr0, _, _⟩ := h.root
  have hlt : e < s.next := h.bound e hm
  have h0lt : 0 < s.next := h.bound 0 h.zero_mem
  cases old with
  | none =>
    obtain ⟨s', h1, h2, h3, h4⟩ := make_ok h hm x
    refine ⟨s', ?_, h2, h3, ⟨r, hr, ?_⟩, ⟨r0, hr0, ?_⟩, ?_, ?_⟩
    · exact h1
    · rw [h4 e, if_neg (by omega), hr, filter_none]; simp
    · rw [h4 0, if_neg (by omega), hr0]
      simp [Ne.symm he]
    · intro j _ hje hj
      rw [h4 j, if_neg (by omega)]
      simp [hje]
    · intro j hj
      rw [h4 j, if_pos hj]
  | some f =>
    have hf := hold f rfl
    obtain ⟨s1, a1, a2, a3, a4⟩ := removeKid_ok h he hf
    have hn1 : s1.next = s.next := by rw [a3]
    have hm1 : e ∈ s1.world.ids := by
      apply heap_some.mp
      rw [a4 e, hr]
      exact ⟨_, rfl⟩
    obtain ⟨s', b1, b2, b3, b4⟩ := make_ok a2 hm1 x
    rw [hn1] at b1 b3 b4
    have hsame : ∀ j, j ≠ 0 → j ≠ e → s1.heap j = s.heap j := by
      intro j h0 hje
      rw [a4 j]
      cases hj : s.heap j with
      | none => rfl
      | some rj =>
        have := not_kid_elsewhere h hf hj hje
        show some _ = some _
        congr 1
        simp only [movedKids, if_neg h0, Node.filter_ne_self this]
    refine ⟨s', ?_, b2, ?_, ⟨r, hr, ?_⟩, ⟨r0, hr0, ?_⟩, ?_, ?_⟩
    · show (removeKid e f >>= fun _ => make e x) s = _
      rw [bind_of a1]; exact b1
    · rw [b3, a3]
    · rw [b4 e, if_neg (by omega), a4 e, hr, filter_some]
      simp only [Option.map_some, if_true]
      unfold movedKids
      rw [if_neg he]
    · rw [b4 0, if_neg (by omega), a4 0, hr0]
      simp only [Option.map_some, if_neg (Ne.symm he)]
      unfold movedKids
      rw [if_pos rfl, Node.filter_ne_self (not_kid_elsewhere h hf hr0 (Ne.symm he))]
      rfl
    · intro j h0 hje hj
      rw [b4 j, if_neg (by omega), hsame j h0 hje]
      simp [hje]
    · intro j hj
      rw [b4 j, if_pos hj]

/-! ## What is below an element stays the same -/

/-- `k` is a child of `e`, `c` a child of `k`: none of them is `e` or the virtual root. -/
theorem kid_facts {s : Db} (h : Inv s) {e k : Nat} (hk : k ∈ s.heap.kids e) : k ≠ 0 ∧ k ≠ e ∧ k < s.next := by
  refine ⟨kid_ne_zero h hk, ?_, ?_⟩
  · rintro rfl
    obtain ⟨pn, cn, h1, h2, h3, h4⟩ := heap_kid h hk
    refine below_of_kid h.world.uniq (Node.get?_some h1).1 h2 ?_
    rw [h1] at h4
    injection h4 with h4
    rw [← h4]
    exact Node.id_mem_ids _
  · obtain ⟨pn, cn, h1, h2, h3, h4⟩ := heap_kid h hk
    rw [← h3]
    exact h.bound _ (Node.mem_nodes_ids (Node.get?_some h4).1)

theorem grandkid_facts {s : Db} (h : Inv s) {e k c : Nat} (hk : k ∈ s.heap.kids e) (hc : c ∈ s.heap.kids k) :
    c ≠ 0 ∧ c ≠ e ∧ c < s.next := by
  refine ⟨kid_ne_zero h hc, ?_, (kid_facts h hc).2.2⟩
  rintro rfl
  obtain ⟨en, kn, h1, h2, h3, h4⟩ := heap_kid h hk
  obtain ⟨kn', cn, g1, g2, g3, g4⟩ := heap_kid h hc
  rw [h4] at g1
  injection g1 with g1
  subst g1
  refine below_of_kid h.world.uniq (Node.get?_some h1).1 h2 ?_
  rw [h1] at g4
  injection g4 with g4
  subst g4
  exact Node.mem_nodes_ids (Node.kid_mem_nodes g2)

theorem all_sub {h : Heap} {i c : Nat} {t : Str} (hc : c ∈ h.all i t) : c ∈ h.kids i ∧ h.tag c = t := by
  unfold Heap.all at hc
  rw [List.mem_filter] at hc
  exact ⟨hc.1, by simpa using hc.2⟩

theorem kids_congr {h h' : Heap} {i : Nat} (e : h' i = h i) : h'.kids i = h.kids i := by unfold Heap.kids; rw [e]
theorem tag_congr {h h' : Heap} {i : Nat} (e : h' i = h i) : h'.tag i = h.tag i := by unfold Heap.tag; rw [e]
theorem text_congr {h h' : Heap} {i : Nat} (e : h' i = h i) : h'.text i = h.text i := by unfold Heap.text; rw [e]
theorem attr_congr {h h' : Heap} {i : Nat} (e : h' i = h i) (k : Str) : h'.attr i k = h.attr i k := by
  unfold Heap.attr; rw [e]

theorem all_congr {h h' : Heap} {i : Nat} (e : h' i = h i) (hc : ∀ c ∈ h.kids i, h' c = h c) (t : Str) :
    h'.all i t = h.all i t := by
  unfold Heap.all
  rw [kids_congr e]
  apply List.filter_congr
  intro c hc'
  rw [tag_congr (hc c hc')]

theorem hasKey_congr {h h' : Heap} {i : Nat} (e : h' i = h i) (hc : ∀ c ∈ h.kids i, h' c = h c) (key : Str) :
    hasKey h' i key = hasKey h i key := by
  unfold hasKey
  rw [all_congr e hc, Bool.eq_iff_iff, List.any_eq_true, List.any_eq_true]
  constructor
  · rintro ⟨c, h1, h2⟩
    exact ⟨c, h1, by rw [text_congr (hc c (all_sub h1).1)] at h2; exact h2⟩
  · rintro ⟨c, h1, h2⟩
    exact ⟨c, h1, by rw [text_congr (hc c (all_sub h1).1)]; exact h2⟩

namespace Replaced

variable {s s' : Db} {e : Nat} {old : Option Nat} {x : Xml}

theorem kid (h : Replaced s s' e old x) (hs : Inv s) {k : Nat} (hk : k ∈ s.heap.kids e) : s'.heap k = s.heap k :=
  let f := kid_facts hs hk
  h.other k f.1 f.2.1 f.2.2

theorem grandkid (h : Replaced s s' e old x) (hs : Inv s) {k c : Nat} (hk : k ∈ s.heap.kids e)
    (hc : c ∈ s.heap.kids k) : s'.heap c = s.heap c :=
  let f := grandkid_facts hs hk hc
  h.other c f.1 f.2.1 f.2.2

theorem kids_eq (h : Replaced s s' e old x) :
    s'.heap.kids e = (s.heap.kids e).filter (fun k => some k != old) ++ [s.next] := by
  obtain ⟨r, h1, h2⟩ := h.here
  unfold Heap.kids
  rw [h1, h2]
  rfl

theorem tag_eq (h : Replaced s s' e old x) : s'.heap.tag e = s.heap.tag e := by
  obtain ⟨r, h1, h2⟩ := h.here
  unfold Heap.tag
  rw [h1, h2]
  rfl

theorem new (h : Replaced s s' e old x) : s'.heap s.next = some ⟨x.tag, x.attrs, x.text, s'.heap.kids s.next⟩ := by
  have := h.fresh s.next (Nat.le_refl _)
  have hg : (Node.ofXml s.next x).1.get? s.next = some (Node.ofXml s.next x).1 := by
    have := Node.get?_mem (Node.ofXml_uniq x s.next) (Node.self_mem_nodes _)
    rwa [Node.ofXml_id] at this
  unfold Node.view at this
  rw [hg] at this
  unfold Heap.kids
  rw [this]
  cases x
  rw [Node.ofXml_mk]
  rfl

theorem all_eq (h : Replaced s s' e old x) (hs : Inv s) (t : Str) : s'.heap.all e t =
    (s.heap.all e t).filter (fun k => some k != old) ++ if x.tag = t then [s.next] else [] := by
  unfold Heap.all
  rw [h.kids_eq, List.filter_append, List.filter_filter, List.filter_filter]
  have ht : s'.heap.tag s.next = x.tag := by unfold Heap.tag; rw [h.new]; rfl
  congr 1
  · apply List.filter_congr
    intro k hk
    rw [tag_congr (h.kid hs hk), Bool.and_comm]
  · rw [List.filter_cons, ht]
    by_cases hx : x.tag = t
    · simp [hx]
    · simp [hx]

theorem other_ne (h : Replaced s s' e old x) : ∀ j, j ≠ 0 → j ≠ e → j < s.next → s'.heap j = s.heap j := h.other

theorem fieldEls_eq (h : Replaced s s' e old x) (hs : Inv s) (key : Str) : fieldEls s'.heap e key =
    (fieldEls s.heap e key).filter (fun k => some k != old) ++
      if x.tag = "String".toList ∧ hasKey s'.heap s.next key = true then [s.next] else [] := by
  unfold fieldEls
  rw [h.all_eq hs, List.filter_append, List.filter_filter, List.filter_filter]
  congr 1
  · apply List.filter_congr
    intro k hk
    have hk := (all_sub hk).1
    rw [hasKey_congr (h.kid hs hk) fun c hc => h.grandkid hs hk hc, Bool.and_comm]
  · by_cases hx : x.tag = "String".toList
    · by_cases hk : hasKey s'.heap s.next key = true
      · simp only [hx, hk, if_true, and_self, List.filter_cons, List.filter_nil]
      · simp only [hx, hk, if_true, List.filter_cons, List.filter_nil]; rfl
    · simp only [hx, if_false, false_and, List.filter_nil]

theorem valueEls_eq (h : Replaced s s' e old x) (hs : Inv s) (key : Str) : valueEls s'.heap e key =
    ((fieldEls s.heap e key).filter (fun k => some k != old)).flatMap (fun k => s.heap.all k "Value".toList) ++
      if x.tag = "String".toList ∧ hasKey s'.heap s.next key = true then s'.heap.all s.next "Value".toList else [] := by
  unfold valueEls
  rw [h.fieldEls_eq hs, List.flatMap_append]
  congr 1
  · have : ∀ l : List Nat, (∀ k ∈ l, k ∈ s.heap.kids e) → l.flatMap (fun k => s'.heap.all k "Value".toList) =
        l.flatMap fun k => s.heap.all k "Value".toList := by
      intro l hl
      induction l with
      | nil => rfl
      | cons k l ih =>
        have hk := hl k (List.mem_cons_self ..)
        rw [List.flatMap_cons, List.flatMap_cons, ih fun j hj => hl j (List.mem_cons_of_mem _ hj),
          all_congr (h.kid hs hk) fun c hc => h.grandkid hs hk hc]
    apply this
    intro k hk
    exact (all_sub (List.mem_filter.mp (List.mem_filter.mp hk).1).1).1
  · split
    · rw [List.flatMap_cons, List.flatMap_nil, List.append_nil]
    · rfl

end Replaced

/-! ## A new string field -/

/-- The attributes of a value. -/
def protAttr : Option Str → List (Str × Str)
  | none => []
  | some x => [("Protected".toList, x)]

/-- The content of a string field. -/
def stringXml (key value : Str) (p : Option Str) : Xml :=
  Xml.mk "String".toList [] none [Xml.mk "Key".toList [] (some key) [],
    Xml.mk "Value".toList (protAttr p) (some value) []]

theorem stringEl_ok {key value : Str} (hk : XmlText key) (hv : XmlText value) (p : Option Str) :
    stringEl key (some value) p = .ok (stringXml key value p) := by
  unfold stringEl textEl argText
  simp only [if_pos hk, if_pos hv]
  cases p <;> rfl

theorem stringXml_heap {s s' : Db} {e : Nat} {old : Option Nat} {key value : Str} {p : Option Str}
    (h : Replaced s s' e old (stringXml key value p)) :
    s'.heap.kids s.next = [s.next + 1, s.next + 2] ∧
    s'.heap (s.next + 1) = some ⟨"Key".toList, [], some key, []⟩ ∧
    s'.heap (s.next + 2) = some ⟨"Value".toList, protAttr p,
      some value, []⟩ ∧ s'.next = s.next + 3 := by
  have hx : Node.ofXml s.next (stringXml key value p) =
    (.mk s.next "String".toList [] none [.mk (s.next + 1) "Key".toList [] (some key) [],
      .mk (s.next + 2) "Value".toList (protAttr p) (some value) []],
      s.next + 3) := rfl
  refine ⟨?_, ?_, ?_, ?_⟩
  · unfold Heap.kids
    rw [h.fresh _ (by omega), hx]
    simp [Node.view, Node.get?, Node.nodes, Node.nodesL, Node.id, Node.rec', Node.kids]
  · rw [h.fresh _ (by omega), hx]
    simp [Node.view, Node.get?, Node.nodes, Node.nodesL, Node.id, Node.rec', Node.kids, Node.tag, Node.attrs, Node.text]
  · rw [h.fresh _ (by omega), hx]
    simp [Node.view, Node.get?, Node.nodes, Node.nodesL, Node.id, Node.rec', Node.kids, Node.tag, Node.attrs, Node.text]
  · rw [h.state, hx]

/-- The new field has this key and one value. -/
theorem stringXml_key {s s' : Db} {e : Nat} {old : Option Nat} {key value : Str} {p : Option Str}
    (h : Replaced s s' e old (stringXml key value p)) :
    s'.heap.all s.next "Key".toList = [s.next + 1] ∧ s'.heap.all s.next "Value".toList = [s.next + 2] ∧
    (∀ k, hasKey s'.heap s.next k = (k == key)) ∧ s'.heap.text (s.next + 1) = some key ∧
    s'.heap.text (s.next + 2) = some value ∧ s'.heap.attr (s.next + 2) "Protected".toList = p := by
  obtain ⟨h1, h2, h3, _⟩ := stringXml_heap h
  have t1 : s'.heap.tag (s.next + 1) = "Key".toList := by unfold Heap.tag; rw [h2]; rfl
  have t2 : s'.heap.tag (s.next + 2) = "Value".toList := by unfold Heap.tag; rw [h3]; rfl
  have x1 : s'.heap.text (s.next + 1) = some key := by unfold Heap.text; rw [h2]; rfl
  have e1 : s'.heap.all s.next "Key".toList = [s.next + 1] := by
    unfold Heap.all
    rw [h1, List.filter_cons, List.filter_cons, t1, t2]
    rfl
  refine ⟨e1, ?_, ?_, x1, ?_, ?_⟩
  · unfold Heap.all
    rw [h1, List.filter_cons, List.filter_cons, t1, t2]
    rfl
  · intro k
    unfold hasKey
    rw [e1]
    simp only [List.any_cons, List.any_nil, Bool.or_false, x1]
    rw [Bool.eq_iff_iff, beq_iff_eq, beq_iff_eq]
    constructor
    · intro h; injection h with h; exact h.symm
    · rintro rfl; rfl
  · unfold Heap.text; rw [h3]; rfl
  · unfold Heap.attr; rw [h3]
    cases p <;> rfl

end Verif.Api
