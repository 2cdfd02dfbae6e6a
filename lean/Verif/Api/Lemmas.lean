import Verif.Api.KeePass
import Verif.Spec.Fields
import Verif.XPath.Uses
/-!
# Lemmas about the primitive operations
-/
namespace Verif

namespace Node

/-! ## New elements -/

theorem ofXml_mk (n : Nat) (t a x ks) :
    ofXml n (.mk t a x ks) = (mk n t a x (ofXmlL (n + 1) ks).1, (ofXmlL (n + 1) ks).2) := by rw [ofXml]

theorem ofXmlL_cons (n : Nat) (k ks) : ofXmlL n (k :: ks) =
    ((ofXml n k).1 :: (ofXmlL (ofXml n k).2 ks).1, (ofXmlL (ofXml n k).2 ks).2) := by rw [ofXmlL]

/-- New elements are numbered consecutively. -/
theorem ofXml_ids (x : Xml) : ∀ n, (ofXml n x).1.ids = List.range' n ((ofXml n x).2 - n) ∧ n < (ofXml n x).2 := by
  refine Xml.rec (motive_1 := fun x => ∀ n, (ofXml n x).1.ids = List.range' n ((ofXml n x).2 - n) ∧ n < (ofXml n x).2)
    (motive_2 := fun ks => ∀ n, (ofXmlL n ks).1.flatMap ids = List.range' n ((ofXmlL n ks).2 - n) ∧ n ≤ (ofXmlL n ks).2)
    ?_ ?_ ?_ x
  · intro t a x ks ih n
    obtain ⟨h1, h2⟩ := ih (n + 1)
    rw [ofXml_mk, ids_eq]
    show n :: (ofXmlL (n + 1) ks).1.flatMap ids = _ ∧ _
    refine ⟨?_, by simp only; omega⟩
    rw [h1]
    simp only
    rw [show (ofXmlL (n + 1) ks).2 - n = ((ofXmlL (n + 1) ks).2 - (n + 1)) + 1 by omega, List.range'_succ]
  · intro n; simp [ofXmlL]
  · intro k ks ihk ihks n
    obtain ⟨h1, h2⟩ := ihk n
    obtain ⟨h3, h4⟩ := ihks (ofXml n k).2
    rw [ofXmlL_cons, List.flatMap_cons, h1, h3]
    simp only
    refine ⟨?_, by omega⟩
    rw [show List.range' (ofXml n k).2 ((ofXmlL (ofXml n k).2 ks).2 - (ofXml n k).2) =
      List.range' (n + 1 * ((ofXml n k).2 - n)) ((ofXmlL (ofXml n k).2 ks).2 - (ofXml n k).2) by
        congr 1; omega]
    rw [List.range'_append]
    congr 1; omega

theorem ofXml_mem {x : Xml} {n j : Nat} : j ∈ (ofXml n x).1.ids ↔ n ≤ j ∧ j < (ofXml n x).2 := by
  rw [(ofXml_ids x n).1, List.mem_range'_1]
  have := (ofXml_ids x n).2
  omega

theorem ofXml_uniq (x : Xml) (n : Nat) : (ofXml n x).1.Uniq := by
  unfold Uniq; rw [(ofXml_ids x n).1]; exact List.nodup_range'

theorem ofXml_id (x : Xml) (n : Nat) : (ofXml n x).1.id = n := by cases x; rw [ofXml_mk]; rfl

theorem ofXml_xml (x : Xml) : ∀ n, (ofXml n x).1.xml = x := by
  refine Xml.rec (motive_1 := fun x => ∀ n, (ofXml n x).1.xml = x)
    (motive_2 := fun ks => ∀ n, (ofXmlL n ks).1.map xml = ks) ?_ ?_ ?_ x
  · intro t a x ks ih n
    rw [ofXml_mk]
    show xml (mk n t a x (ofXmlL (n + 1) ks).1) = _
    rw [xml_mk, ih]
  · intro n; rfl
  · intro k ks ihk ihks n
    rw [ofXmlL_cons, List.map_cons, ihk, ihks]

end Node

namespace Api
open Verif XPath

/-! ## Running method calls -/

theorem bind_run {α β} (m : M α) (f : α → M β) (s : Db) : (m >>= f) s =
    match m s with
    | (.ok a, s') => f a s'
    | (.error e, s') => (.error e, s') := rfl

theorem bind_of {α β} {m : M α} {f : α → M β} {s s' : Db} {a : α} (h : m s = (.ok a, s')) : (m >>= f) s = f a s' := by
  rw [bind_run, h]

theorem bind_err {α β} {m : M α} {f : α → M β} {s s' : Db} {e : PyErr} (h : m s = (.error e, s')) :
    (m >>= f) s = (.error e, s') := by
  rw [bind_run, h]

/-- A call that succeeds went through its first part. -/
theorem bind_inv {α β} {m : M α} {f : α → M β} {s s' : Db} {b : β} (h : (m >>= f) s = (.ok b, s')) :
    ∃ a s1, m s = (.ok a, s1) ∧ f a s1 = (.ok b, s') := by
  rw [bind_run] at h
  cases hm : m s with
  | mk r s1 =>
    rw [hm] at h
    cases r with
    | error e => simp at h
    | ok a => exact ⟨a, s1, rfl, h⟩

@[simp] theorem pure_run {α} (a : α) (s : Db) : (pure a : M α) s = (.ok a, s) := rfl
@[simp] theorem reads_run {α} (f : Db → α) (s : Db) : reads f s = (.ok (f s), s) := rfl
@[simp] theorem lift_run {α} (x : Except PyErr α) (s : Db) : lift x s = (x, s) := rfl
@[simp] theorem fail_run {α} (e : PyErr) (s : Db) : (fail e : M α) s = (.error e, s) := rfl
@[simp] theorem change_run (f : Db → Db) (s : Db) : change f s = (.ok (), f s) := rfl
@[simp] theorem findKid_run (i : Nat) (t : Str) (s : Db) : findKid i t s = (.ok (s.heap.find i t), s) := rfl
@[simp] theorem findKids_run (i : Nat) (t : Str) (s : Db) : findKids i t s = (.ok (s.heap.all i t), s) := rfl
@[simp] theorem textOf_run (i : Nat) (s : Db) : textOf i s = (.ok (s.heap.text i), s) := rfl
@[simp] theorem tagOf_run (i : Nat) (s : Db) : tagOf i s = (.ok (s.heap.tag i), s) := rfl
@[simp] theorem attrOf_run (i : Nat) (k : Str) (s : Db) : attrOf i k s = (.ok (s.heap.attr i k), s) := rfl
@[simp] theorem childrenOf_run (i : Nat) (s : Db) : childrenOf i s = (.ok (s.heap.kids i), s) := rfl
@[simp] theorem orAttr_some {α} (a : α) (s : Db) : orAttr (some a) s = (.ok a, s) := rfl
@[simp] theorem orAttr_none {α} (s : Db) : orAttr (none : Option α) s = (.error .attribute, s) := rfl

/-! ## Well-formed states -/

/-- The element tree is a world, and unused ids are unused. -/
structure Inv (s : Db) : Prop where
  world : World s.world
  bound : ∀ i ∈ s.world.ids, i < s.next

theorem Inv.lt {s : Db} (h : Inv s) {i : Nat} {r : Node.Rec} (hr : s.heap i = some r) : i < s.next := by
  refine h.bound i ?_
  cases hm : decide (i ∈ s.world.ids) with
  | true => exact of_decide_eq_true hm
  | false =>
    have := Node.view_none.mpr (of_decide_eq_false hm)
    unfold Db.heap at hr
    rw [this] at hr; cases hr

theorem heap_none {s : Db} {i : Nat} : s.heap i = none ↔ i ∉ s.world.ids := Node.view_none

theorem heap_some {s : Db} {i : Nat} : (∃ r, s.heap i = some r) ↔ i ∈ s.world.ids := by
  constructor
  · rintro ⟨r, hr⟩
    cases hm : decide (i ∈ s.world.ids) with
    | true => exact of_decide_eq_true hm
    | false => rw [heap_none.mpr (of_decide_eq_false hm)] at hr; cases hr
  · intro h
    obtain ⟨n, hn⟩ := Node.get?_exists h
    exact ⟨n.rec', by unfold Db.heap Node.view; rw [hn]; rfl⟩

theorem tag_mem {s : Db} {i : Nat} (h : s.heap.tag i ≠ []) : i ∈ s.world.ids := by
  refine heap_some.mp ?_
  unfold Heap.tag at h
  cases hi : s.heap i with
  | none => rw [hi] at h; exact absurd rfl h
  | some r => exact ⟨r, rfl⟩

theorem Inv.zero_mem {s : Db} (h : Inv s) : 0 ∈ s.world.ids := by
  rw [← h.world.id]; exact Node.id_mem_ids _

theorem Inv.zero_tag {s : Db} (h : Inv s) : s.heap.tag 0 = [] := by
  have : s.world.get? 0 = some s.world := by
    rw [← h.world.id]; exact Node.get?_mem h.world.uniq (Node.self_mem_nodes _)
  unfold Heap.tag Db.heap Node.view
  rw [this]
  exact h.world.tag

theorem tag_ne_zero {s : Db} (h : Inv s) {i : Nat} (ht : s.heap.tag i ≠ []) : i ≠ 0 := by
  rintro rfl; exact ht h.zero_tag

/-- Elements that have something are not new. -/
theorem Inv.fresh {s : Db} (h : Inv s) {i : Nat} (hi : s.next ≤ i) : s.heap i = none := by
  rw [heap_none]; intro hm; have := h.bound i hm; omega

theorem heap_kid {s : Db} (h : Inv s) {p c : Nat} (hc : c ∈ s.heap.kids p) :
    ∃ pn cn, s.world.get? p = some pn ∧ cn ∈ pn.kids ∧ cn.id = c ∧ s.world.get? c = some cn := by
  unfold Heap.kids at hc
  cases hp : s.heap p with
  | none => rw [hp] at hc; cases hc
  | some r =>
    rw [hp] at hc
    exact Node.view_kid h.world.uniq hp hc

/-! ## What the primitives do -/

/-- Changing the world within the bounds keeps the state well-formed. -/
theorem inv_of {s : Db} (h : Inv s) {w : Node} (hu : w.Uniq) (hid : w.id = s.world.id)
    (htag : w.tag = []) (hdoc : w.kids ≠ []) (hb : ∀ i ∈ w.ids, i < s.next) : Inv { s with world := w } :=
  ⟨⟨hid.trans h.world.id, htag, hu, hdoc⟩, hb⟩

/-- The virtual root, read from the heap. -/
theorem world_of_view {w : Node} (hu : w.Uniq) {r : Node.Rec} (h : w.view w.id = some r) :
    w.tag = r.tag ∧ w.kids.map Node.id = r.kids := by
  have : w.get? w.id = some w := Node.get?_mem hu (Node.self_mem_nodes w)
  unfold Node.view at h
  rw [this] at h
  injection h with h
  rw [← h]
  exact ⟨rfl, rfl⟩

theorem Inv.root {s : Db} (h : Inv s) : ∃ r, s.heap 0 = some r ∧ r.tag = [] ∧ r.kids ≠ [] := by
  have : s.world.get? 0 = some s.world := by
    rw [← h.world.id]; exact Node.get?_mem h.world.uniq (Node.self_mem_nodes _)
  refine ⟨s.world.rec', by unfold Db.heap Node.view; rw [this]; rfl, h.world.tag, ?_⟩
  intro e
  have e : s.world.kids.map Node.id = [] := e
  rw [List.map_eq_nil_iff] at e
  exact h.world.doc e

/-- A new world whose root reads as a root. -/
theorem inv_view {s : Db} (h : Inv s) {w : Node} (hu : w.Uniq) (hid : w.id = s.world.id) {r : Node.Rec}
    (hr : w.view 0 = some r) (ht : r.tag = []) (hk : r.kids ≠ []) (hb : ∀ i ∈ w.ids, i < s.next) :
    Inv { s with world := w } := by
  have h0 : w.id = 0 := hid.trans h.world.id
  obtain ⟨h1, h2⟩ := world_of_view hu (by rw [h0]; exact hr)
  refine inv_of h hu hid (h1.trans ht) ?_ hb
  intro e
  rw [e] at h2
  exact hk h2.symm

/-- `elem.text = value`. -/
theorem setText_ok {s : Db} (h : Inv s) (i : Nat) (v : Option Str) (hv : ∀ t, v = some t → XmlText t) :
    ∃ s', setText i v s = (.ok (), s') ∧ Inv s' ∧
      s' = { s with world := s'.world } ∧
      ∀ j, s'.heap j = (s.heap j).map fun r => if j = i then { r with text := v } else r := by
  obtain ⟨h1, h2, h3⟩ := Node.view_setText h.world.uniq i v
  refine ⟨{ s with world := s.world.update i (Node.setText v) }, ?_, ?_, rfl, h3⟩
  · unfold setText
    cases v with
    | none => rfl
    | some t => simp only; rw [if_pos (hv t rfl)]
  · obtain ⟨r, hr, ht, hk⟩ := h.root
    have hid : (s.world.update i (Node.setText v)).id = s.world.id :=
      Node.update_id i _ (fun m hm => by simpa using hm) _
    refine inv_view h h2 hid (r := if 0 = i then { r with text := v } else r) ?_ ?_ ?_ ?_
    · rw [h3 0]
      show (s.heap 0).map _ = _
      rw [hr]; rfl
    · split <;> exact ht
    · split <;> exact hk
    · rw [h1]; exact h.bound

/-- `elem.attrib[k] = v`. -/
theorem setAttr_ok {s : Db} (h : Inv s) (i : Nat) (k v : Str) (hv : XmlText v) :
    ∃ s', setAttr i k v s = (.ok (), s') ∧ Inv s' ∧
      s' = { s with world := s'.world } ∧
      ∀ j, s'.heap j = (s.heap j).map fun r => if j = i then { r with attrs := Node.putAttr k v r.attrs } else r := by
  obtain ⟨h1, h2, h3⟩ := Node.view_setAttr h.world.uniq i k v
  refine ⟨{ s with world := s.world.update i (Node.setAttr k v) }, ?_, ?_, rfl, h3⟩
  · unfold setAttr; rw [if_pos hv]
  · obtain ⟨r, hr, ht, hk⟩ := h.root
    have hid : (s.world.update i (Node.setAttr k v)).id = s.world.id :=
      Node.update_id i _ (fun m hm => by simpa using hm) _
    refine inv_view h h2 hid (r := if 0 = i then { r with attrs := Node.putAttr k v r.attrs } else r) ?_ ?_ ?_ ?_
    · rw [h3 0]
      show (s.heap 0).map _ = _
      rw [hr]; rfl
    · split <;> exact ht
    · split <;> exact hk
    · rw [h1]; exact h.bound

/-- The children after moving `x` to the end of `d`. -/
def movedKids (x d j : Nat) (ks : List Nat) : List Nat :=
  if j = d then ks.filter (· != x) ++ [x] else ks.filter (· != x)

theorem get_of_mem {s : Db} {x : Nat} (h : x ∈ s.world.ids) : ∃ n, s.world.get? x = some n := Node.get?_exists h

/-- The document element is not moved by moving something else. -/
theorem move_ok {s : Db} (h : Inv s) {x d : Nat} {n : Node} (hx : s.world.get? x = some n) (h0 : x ≠ 0)
    (hd : d ∈ s.world.ids) (hdn : d ∉ n.ids) (hdoc : (s.heap.kids 0).head? ≠ some x) :
    Inv { s with world := s.world.move x d } ∧
      ∀ j, ({ s with world := s.world.move x d } : Db).heap j =
        (s.heap j).map fun r => { r with kids := movedKids x d j r.kids } := by
  obtain ⟨h1, h2, h3, h4⟩ := Node.view_move h.world.uniq hx (by rw [h.world.id]; exact h0) hd hdn
  have hheap : ∀ j, (s.world.move x d).view j =
      (s.world.view j).map fun r => { r with kids := movedKids x d j r.kids } := h4
  refine ⟨?_, hheap⟩
  obtain ⟨r, hr, ht, hk⟩ := h.root
  refine inv_view h h1 h3 (r := { r with kids := movedKids x d 0 r.kids }) ?_ ht ?_ ?_
  · rw [hheap 0]
    show (s.heap 0).map _ = _
    rw [hr]; rfl
  · show movedKids x d 0 r.kids ≠ []
    have hh : r.kids.head? ≠ some x := by
      unfold Heap.kids at hdoc
      rw [hr] at hdoc
      exact hdoc
    unfold movedKids
    split
    · simp
    · cases hkk : r.kids with
      | nil => exact absurd hkk hk
      | cons a l =>
        rw [hkk] at hh
        have : a ≠ x := fun e => hh (by rw [e]; rfl)
        rw [List.filter_cons, if_pos (by simpa using this)]
        simp
  · intro i hi
    exact h.bound i ((h2 i).mp hi)

theorem below_of_kid {w pn cn : Node} (hu : w.Uniq) (hp : pn ∈ w.nodes) (hc : cn ∈ pn.kids) : pn.id ∉ cn.ids := by
  intro hm
  obtain ⟨y, hy, e⟩ := List.mem_map.mp hm
  exact Node.below_ne (Node.uniq_sub hu hp) (List.mem_flatMap.mpr ⟨cn, hc, hy⟩) e

/-- The virtual root is below nothing. -/
theorem zero_not_below {w n : Node} (hw : World w) {x : Nat} (hx : w.get? x = some n) (h0 : x ≠ 0) : 0 ∉ n.ids := by
  intro hm
  obtain ⟨hn, hid⟩ := Node.get?_some hx
  obtain ⟨y, hy, e⟩ := List.mem_map.mp hm
  rcases world_nodes hn with rfl | hb
  · exact h0 (by rw [← hid, hw.id])
  · obtain ⟨k, hk, hnk⟩ := List.mem_flatMap.mp hb
    refine Node.below_ne hw.uniq (x := y) (List.mem_flatMap.mpr ⟨k, hk, Node.nodes_trans hnk hy⟩) ?_
    rw [e, hw.id]

/-- A child of a real element is not the document element. -/
theorem kid_not_doc {s : Db} (h : Inv s) {p c : Nat} (hp : p ≠ 0) (hc : c ∈ s.heap.kids p) :
    (s.heap.kids 0).head? ≠ some c := by
  intro hh
  obtain ⟨r0, hr0, _, _⟩ := h.root
  have hc0 : c ∈ r0.kids := by
    unfold Heap.kids at hh
    rw [hr0] at hh
    exact List.mem_of_mem_head? hh
  unfold Heap.kids at hc
  cases hpr : s.heap p with
  | none => rw [hpr] at hc; cases hc
  | some r =>
    rw [hpr] at hc
    exact hp (Node.view_parent_unique h.world.uniq hpr hr0 hc hc0)

theorem kid_ne_zero {s : Db} (h : Inv s) {p c : Nat} (hc : c ∈ s.heap.kids p) : c ≠ 0 := by
  rintro rfl
  obtain ⟨pn, cn, h1, h2, h3, h4⟩ := heap_kid h hc
  have hpn := (Node.get?_some h1).1
  have hu := h.world.uniq
  refine below_of_kid hu hpn h2 ?_
  have h5 : s.world.get? 0 = some s.world := by
    rw [← h.world.id]; exact Node.get?_mem hu (Node.self_mem_nodes _)
  rw [h5] at h4
  injection h4 with h4
  rw [← h4]
  exact Node.mem_nodes_ids hpn

/-- `parent.remove(child)`. -/
theorem removeKid_ok {s : Db} (h : Inv s) {p c : Nat} (hp : p ≠ 0) (hc : c ∈ s.heap.kids p) :
    ∃ s', removeKid p c s = (.ok (), s') ∧ Inv s' ∧ s' = { s with world := s'.world } ∧
      ∀ j, s'.heap j = (s.heap j).map fun r => { r with kids := movedKids c 0 j r.kids } := by
  obtain ⟨pn, cn, h1, h2, h3, h4⟩ := heap_kid h hc
  have hc0 := kid_ne_zero h hc
  obtain ⟨a, b⟩ := move_ok h h4 hc0 h.zero_mem (zero_not_below h.world h4 hc0) (kid_not_doc h hp hc)
  refine ⟨{ s with world := s.world.move c 0 }, ?_, a, rfl, b⟩
  unfold removeKid
  rw [if_pos hc]

/-- `parent.append(child)` where the child is not the document element. -/
theorem appendEl_ok {s : Db} (h : Inv s) {d x : Nat} {n : Node} (hx : s.world.get? x = some n) (h0 : x ≠ 0)
    (hd : d ∈ s.world.ids) (hdn : d ∉ n.ids) (hdoc : (s.heap.kids 0).head? ≠ some x) :
    ∃ s', appendEl d x s = (.ok (), s') ∧ Inv s' ∧ s' = { s with world := s'.world } ∧
      ∀ j, s'.heap j = (s.heap j).map fun r => { r with kids := movedKids x d j r.kids } := by
  obtain ⟨a, b⟩ := move_ok h hx h0 hd hdn hdoc
  refine ⟨{ s with world := s.world.move x d }, ?_, a, rfl, b⟩
  unfold appendEl
  rw [hx]
  simp only
  rw [if_neg hdn]

/-- `parent.append(child)` is refused when the parent is the child or below it. -/
theorem appendEl_cycle {s : Db} {d x : Nat} {n : Node} (hx : s.world.get? x = some n) (hdn : d ∈ n.ids) :
    appendEl d x s = (.error .value, s) := by
  unfold appendEl
  rw [hx]
  simp only
  rw [if_pos hdn]

/-- Appending a new element. -/
theorem make_ok {s : Db} (h : Inv s) {p : Nat} (hp : p ∈ s.world.ids) (x : Xml) :
    ∃ s', make p x s = (.ok s.next, s') ∧ Inv s' ∧
      s' = { s with world := s'.world, next := (Node.ofXml s.next x).2 } ∧
      ∀ j, s'.heap j = if s.next ≤ j then (Node.ofXml s.next x).1.view j else
        (s.heap j).map fun r => if j = p then { r with kids := r.kids ++ [s.next] } else r := by
  have hfresh : ∀ j ∈ (Node.ofXml s.next x).1.ids, j ∉ s.world.ids := by
    intro j hj hm
    have := (Node.ofXml_mem.mp hj).1
    have := h.bound j hm
    omega
  obtain ⟨h1, h2, h3, h4⟩ := Node.view_append h.world.uniq hp (Node.ofXml_uniq x s.next) hfresh
  have hnlt := (Node.ofXml_ids x s.next).2
  have hheap : ∀ j, (s.world.update p (Node.appendKid (Node.ofXml s.next x).1)).view j =
      if s.next ≤ j then (Node.ofXml s.next x).1.view j else
        (s.heap j).map fun r => if j = p then { r with kids := r.kids ++ [s.next] } else r := by
    intro j
    rw [h4 j, Node.ofXml_id]
    by_cases hj : s.next ≤ j
    · rw [if_pos hj]
      by_cases hj2 : j < (Node.ofXml s.next x).2
      · rw [if_pos (Node.ofXml_mem.mpr ⟨hj, hj2⟩)]
      · have hn : j ∉ (Node.ofXml s.next x).1.ids := fun hm => hj2 (Node.ofXml_mem.mp hm).2
        rw [if_neg hn]
        have : s.world.view j = none := h.fresh hj
        rw [this, Node.view_none.mpr hn]
        rfl
    · rw [if_neg hj, if_neg fun hm => hj (Node.ofXml_mem.mp hm).1]
      rfl
  refine ⟨{ s with world := s.world.update p (Node.appendKid (Node.ofXml s.next x).1), next := (Node.ofXml s.next x).2 },
    rfl, ?_, rfl, hheap⟩
  obtain ⟨r, hr, ht, hk⟩ := h.root
  have hb : ∀ i ∈ (s.world.update p (Node.appendKid (Node.ofXml s.next x).1)).ids, i < (Node.ofXml s.next x).2 := by
    intro i hi
    rcases (h2 i).mp hi with hi | hi
    · have := h.bound i hi; omega
    · exact (Node.ofXml_mem.mp hi).2
  have h0 : ¬ s.next ≤ 0 := by have := h.bound 0 h.zero_mem; omega
  have hv : (s.world.update p (Node.appendKid (Node.ofXml s.next x).1)).view 0 =
      some (if 0 = p then { r with kids := r.kids ++ [s.next] } else r) := by
    rw [hheap 0, if_neg h0, hr]; rfl
  have hid0 : (s.world.update p (Node.appendKid (Node.ofXml s.next x).1)).id = 0 := h3.trans h.world.id
  obtain ⟨g1, g2⟩ := world_of_view h1 (by rw [hid0]; exact hv)
  refine ⟨⟨hid0, ?_, h1, ?_⟩, hb⟩
  · rw [g1]; split <;> exact ht
  · intro e
    rw [e] at g2
    revert g2
    split
    · intro g2; simp at g2
    · intro g2; exact hk g2.symm

end Api
end Verif
