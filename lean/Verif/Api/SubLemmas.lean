import Verif.Api.SetLemmas
import Verif.Api.ReachLemmas
/-!
# Text children: `_get_subelement_text` and `_set_subelement_text`
-/
namespace Verif.Api
open Verif XPath Spec

def leafXml (tag v : Str) : Xml := Xml.mk tag [] (some v) []

/-- What setting a text child does: the old child (if any) is detached, a new one is appended. -/
structure SubSet (s s' : Db) (e : Nat) (tag v : Str) : Prop where
  inv : Inv s'
  state : s' = { s with world := s'.world, next := s.next + 1 }
  other : ∀ j, j ≠ 0 → j ≠ e → j < s.next → s'.heap j = s.heap j
  here : ∃ r, s.heap e = some r ∧ s'.heap e = some { r with kids := r.kids.filter (fun k => some k != s.heap.find e tag) ++ [s.next] }
  new : s'.heap s.next = some ⟨tag, [], some v, []⟩
  document : docEl s'.heap = docEl s.heap

theorem getSub_run (e : Nat) (tag : Str) (s : Db) : getSub e tag s = (.ok (sub s.heap e tag), s) := by
  unfold getSub sub
  rw [bind_of (findKid_run e tag s)]
  cases s.heap.find e tag <;> rfl

theorem find_kid {h : Heap} {e k : Nat} {tag : Str} (hk : h.find e tag = some k) : k ∈ h.kids e ∧ h.tag k = tag :=
  all_sub (List.mem_of_mem_head? hk)

theorem setSub_replaced {s : Db} (hs : Inv s) {e : Nat} (he : e ≠ 0) (hm : e ∈ s.world.ids) (tag : Str) {v : Str}
    (hv : XmlText v) : ∃ s', setSub e tag (some v) s = (.ok (), s') ∧ Replaced s s' e (s.heap.find e tag) (leafXml tag v) := by
  obtain ⟨s', h1, h2⟩ := replace_ok hs he hm (s.heap.find e tag) (fun f hf => (find_kid hf).1) (leafXml tag v)
  refine ⟨s', ?_, h2⟩
  unfold setSub
  rw [bind_of (findKid_run e tag s)]
  obtain ⟨u, s1, a1, a2⟩ := bind_inv h1
  rw [bind_of a1]
  have : textEl tag [] (some v) = .ok (leafXml tag v) := by
    unfold textEl argText
    simp only [if_pos hv]
    rfl
  rw [this]
  show (make e _ >>= fun _ => pure ()) s1 = _
  rw [bind_of a2]
  rfl

theorem leaf_set {s s' : Db} (hs : Inv s) {e : Nat} {tag v : Str}
    (h : Replaced s s' e (s.heap.find e tag) (leafXml tag v)) : SubSet s s' e tag v := by
  refine ⟨h.inv, h.state, h.other, h.here, ?_, ?_⟩
  · rw [h.fresh s.next (Nat.le_refl _)]
    simp [leafXml, Node.ofXml, Node.ofXmlL, Node.view, Node.get?, Node.nodes, Node.nodesL, Node.id, Node.rec', Node.kids, Node.tag, Node.attrs, Node.text]
  · obtain ⟨r, h1, h2⟩ := h.root
    obtain ⟨r', g1, _, g3⟩ := hs.root
    rw [h1] at g1
    injection g1 with g1
    subst g1
    unfold docEl Heap.kids
    rw [h1, h2]
    cases hr : r.kids with
    | nil => exact absurd hr g3
    | cons a l => simp [hr]

theorem setSub_ok {s : Db} (hs : Inv s) {e : Nat} (he : e ≠ 0) (hm : e ∈ s.world.ids) (tag : Str) {v : Str}
    (hv : XmlText v) : ∃ s', setSub e tag (some v) s = (.ok (), s') ∧ SubSet s s' e tag v := by
  obtain ⟨s', h1, h2⟩ := setSub_replaced hs he hm tag hv
  exact ⟨s', h1, leaf_set hs h2⟩

namespace SubSet

variable {s s' : Db} {e : Nat} {tag v : Str}

theorem kid (h : SubSet s s' e tag v) (hs : Inv s) {k : Nat} (hk : k ∈ s.heap.kids e) : s'.heap k = s.heap k :=
  let f := kid_facts hs hk
  h.other k f.1 f.2.1 f.2.2

theorem grandkid (h : SubSet s s' e tag v) (hs : Inv s) {k c : Nat} (hk : k ∈ s.heap.kids e)
    (hc : c ∈ s.heap.kids k) : s'.heap c = s.heap c :=
  let f := grandkid_facts hs hk hc
  h.other c f.1 f.2.1 f.2.2

theorem kids_eq (h : SubSet s s' e tag v) :
    s'.heap.kids e = (s.heap.kids e).filter (fun k => some k != s.heap.find e tag) ++ [s.next] := by
  obtain ⟨r, h1, h2⟩ := h.here
  unfold Heap.kids
  rw [h1, h2]
  rfl

theorem mem (h : SubSet s s' e tag v) : e ∈ s'.world.ids := by
  obtain ⟨r, _, h2⟩ := h.here
  exact mem_of_heap h2

theorem all_other (h : SubSet s s' e tag v) (hs : Inv s) {t : Str} (ht : t ≠ tag) : s'.heap.all e t = s.heap.all e t := by
  unfold Heap.all
  rw [h.kids_eq, List.filter_append, List.filter_filter]
  have hn : s'.heap.tag s.next = tag := by unfold Heap.tag; rw [h.new]; rfl
  rw [List.filter_cons, hn, if_neg (by simpa using fun e => ht e.symm), List.filter_nil, List.append_nil]
  apply List.filter_congr
  intro k hk
  rw [tag_congr (h.kid hs hk), Bool.and_eq_left_iff_imp]
  intro hkt
  rw [bne_iff_ne]
  intro hc
  have := (find_kid hc.symm).2
  rw [beq_iff_eq] at hkt
  exact ht (hkt.symm.trans this)

theorem all_new (h : SubSet s s' e tag v) (hs : Inv s) (hu : (s.heap.all e tag).length ≤ 1) : s'.heap.all e tag = [s.next] := by
  have hn : s'.heap.tag s.next = tag := by unfold Heap.tag; rw [h.new]; rfl
  unfold Heap.all
  rw [h.kids_eq, List.filter_append, List.filter_filter, List.filter_cons, hn, if_pos (by simp), List.filter_nil]
  have : ((s.heap.kids e).filter fun a => (s'.heap.tag a == tag) && some a != s.heap.find e tag) = [] := by
    rw [List.filter_eq_nil_iff]
    intro k hk hc
    rw [Bool.and_eq_true, bne_iff_ne, tag_congr (h.kid hs hk), beq_iff_eq] at hc
    have hkm : k ∈ s.heap.all e tag := List.mem_filter.mpr ⟨hk, by simpa using hc.1⟩
    apply hc.2
    unfold Heap.find
    match hl : s.heap.all e tag, hkm, hu with
    | [a], hkm, _ => rw [List.mem_singleton.mp hkm]; rfl
    | _ :: _ :: _, _, hu => simp at hu
  rw [this]
  rfl

theorem sub_new (h : SubSet s s' e tag v) (hs : Inv s) (hu : (s.heap.all e tag).length ≤ 1) : sub s'.heap e tag = some v := by
  unfold sub Heap.find
  rw [h.all_new hs hu]
  show s'.heap.text s.next = some v
  unfold Heap.text
  rw [h.new]
  rfl

theorem sub_other (h : SubSet s s' e tag v) (hs : Inv s) {t : Str} (ht : t ≠ tag) : sub s'.heap e t = sub s.heap e t := by
  unfold sub Heap.find
  rw [h.all_other hs ht]
  cases hh : (s.heap.all e t).head? with
  | none => rfl
  | some k => exact text_congr (h.kid hs (all_sub (List.mem_of_mem_head? hh)).1)

theorem fieldEls_eq (h : SubSet s s' e tag v) (hs : Inv s) (ht : tag ≠ "String".toList) (key : Str) :
    fieldEls s'.heap e key = fieldEls s.heap e key := by
  unfold fieldEls
  rw [h.all_other hs (Ne.symm ht)]
  apply List.filter_congr
  intro k hk
  have hk := (all_sub hk).1
  rw [hasKey_congr (h.kid hs hk) fun c hc => h.grandkid hs hk hc]

theorem valueEls_eq (h : SubSet s s' e tag v) (hs : Inv s) (ht : tag ≠ "String".toList) (key : Str) :
    valueEls s'.heap e key = valueEls s.heap e key := by
  unfold valueEls
  rw [h.fieldEls_eq hs ht]
  have : ∀ l : List Nat, (∀ k ∈ l, k ∈ s.heap.kids e) → l.flatMap (fun k => s'.heap.all k "Value".toList) =
      l.flatMap fun k => s.heap.all k "Value".toList := by
    intro l hl
    induction l with
    | nil => rfl
    | cons k l ih =>
      have hk := hl k (List.mem_cons_self ..)
      rw [List.flatMap_cons, List.flatMap_cons, ih fun j hj => hl j (List.mem_cons_of_mem _ hj),
        all_congr (h.kid hs hk) fun c hc => h.grandkid hs hk hc]
  exact this _ fun k hk => (all_sub (List.mem_filter.mp hk).1).1

theorem prop_eq (h : SubSet s s' e tag v) (hs : Inv s) (ht : tag ≠ "String".toList) (key : Str) :
    prop s'.heap e key = prop s.heap e key := by
  unfold prop
  rw [h.valueEls_eq hs ht]
  cases hh : (valueEls s.heap e key).head? with
  | none => rfl
  | some w =>
    obtain ⟨g, hg1, hg2⟩ := List.mem_flatMap.mp (List.mem_of_mem_head? hh)
    simp only [Option.map_some]
    rw [text_congr (h.grandkid hs (all_sub (List.mem_filter.mp hg1).1).1 (all_sub hg2).1)]

theorem field_eq (h : SubSet s s' e tag v) (hs : Inv s) (ht : tag ≠ "String".toList) (key : Str) :
    field s'.heap e key = field s.heap e key := by
  rw [Api.field_eq, Api.field_eq, h.prop_eq hs ht]

end SubSet

end Verif.Api
