import Verif.Api.SaveLemmas
import Verif.Spec.Saved
import Verif.Api.Sample
/-!
# C03: saving does not change the open database
-/
namespace Verif.Props
open Verif XPath Spec Api

theorem untouched_refl (s : Db) : Untouched s s := ⟨fun _ _ _ h => h, rfl, rfl⟩

/-- Making the copy. -/
theorem copy_ok {s : Db} (hs : Inv s) (x : Xml) : ∃ s', make 0 x s = (.ok s.next, s') ∧ Inv s' ∧ Untouched s s' ∧
    content s' s.next = some x ∧ (∀ j, Reach s'.heap s.next j → s.next ≤ j) := by
  obtain ⟨s', h1, h2, h3, h4, h5⟩ := add_ok hs hs.zero_mem x
  refine ⟨s', h1, h2, ⟨fun j r hj hr => ?_, ?_, h3⟩, h5, fun j hj => ((h4.below j).mp hj).1⟩
  · rw [h4.other j hj (added_lt hs h4 hr)]; exact hr
  · obtain ⟨d, hd, hk⟩ := doc_some hs
    unfold docEl at hd ⊢
    rw [added_kids hs h4 (added_p hs h4), if_pos rfl]
    cases hl : s.heap.kids 0 with
    | nil => rw [hl] at hd; cases hd
    | cons a l => rfl

/-- `_encode` returns a copy with the protected values encrypted, whatever the stream cipher, and touches no
element of the database. -/
theorem C03_encode {s : Db} (hs : Inv s) (ks : Nat → UInt8) {d : Nat} {x : Xml} (hx : content s d = some x) :
    ∃ c s', encodeTree (.ok ks) d s = (.ok c, s') ∧ Inv s' ∧ content s' c = some (protect ks x) ∧ s.heap c = none ∧ Untouched s s' := by
  obtain ⟨s1, e1, i1, u1, c1, b1⟩ := copy_ok hs x
  obtain ⟨n, hn, hnx⟩ := content_node c1
  obtain ⟨hm, hid⟩ := Node.get?_some hn
  have hu : n.Uniq := Node.uniq_sub i1.world.uniq hm
  have hv : ∀ j ∈ n.ids, s1.heap j = n.view j := by
    intro j hj
    obtain ⟨y, hy, rfl⟩ := List.mem_map.mp hj
    unfold Db.heap Node.view
    rw [Node.get?_mem i1.world.uniq (Node.nodes_trans hm hy), Node.get?_mem hu hy]
  obtain ⟨s2, σ, o', e2, i2, w2, q2, f2, a2⟩ := protectLoop_ok ks n.nodes 0 i1 hu (fun m hmn => by
    unfold Heap.text
    rw [hv m.id (Node.mem_nodes_ids hmn)]
    unfold Node.view
    rw [Node.get?_mem hu hmn]
    rfl)
  refine ⟨s.next, s2, ?_, i2, ?_, ?_, ?_⟩
  · unfold encodeTree
    rw [bind_of (contentOf_run hx), bind_of e1, bind_of (lift_run _ _)]
    have e : protectedBelow s.next s1 = (.ok ((n.nodes.filter fun m => Verif.isProtected m.tag m.attrs).map Node.id), s1) := by
      unfold protectedBelow; rw [hn]
    rw [bind_of e, bind_of e2]
    rfl
  · have hg : s2.world.get? (n.mapText σ).id = some (n.mapText σ) := by
      refine get_of_view i2.world.uniq (Node.mapText_uniq σ hu) fun j hj => ?_
      rw [Node.mapText_ids] at hj
      rw [Node.mapText_view σ hu]
      show s2.heap j = _
      rw [q2 j, hv j hj]
    rw [Node.mapText_id, hid] at hg
    unfold content
    rw [hg, Option.map_some]
    unfold protect
    rw [← hnx, agrees_xml n a2]
  · cases h : s.heap s.next with
    | none => rfl
    | some r => exact absurd (hs.bound _ (heap_some.mp ⟨r, h⟩)) (Nat.lt_irrefl _)
  · have hold : ∀ j, j < s.next → ∀ y, σ j y = y := by
      intro j hj
      refine f2 j fun hm2 => ?_
      exact absurd (b1 j ((reach_iff i1 hn j).mpr hm2)) (Nat.not_le.mpr hj)
    have hlt : ∀ j r, s.heap j = some r → j < s.next := fun j r hr => hs.bound j (heap_some.mp ⟨r, hr⟩)
    refine ⟨fun j r hj hr => ?_, ?_, ?_⟩
    · rw [q2 j, u1.same j r hj hr, Option.map_some, hold j (hlt j r hr)]
    · rw [← u1.document]
      unfold docEl Heap.kids
      rw [q2 0]
      cases s1.heap 0 <;> rfl
    · rw [w2, u1.state]

/-- The bytes `save` writes for the tree are those of the tree with its protected values encrypted, and no element is touched —
also when there is no such stream cipher, or no key, and `save` raises. -/
theorem C03_dump {s : Db} (hs : Inv s) (P : Prims) (sid : StreamId) (key : Except PyErr Bytes) {d : Nat} {x : Xml}
    (hd : docEl s.heap = some d) (hx : content s d = some x) :
    ∃ s', dumpTree P sid key s = (writeXml P sid key x, s') ∧ Inv s' ∧ Untouched s s' := by
  unfold dumpTree writeXml
  rw [bind_of (reads_run _ _), hd, bind_of (orAttr_some _ _)]
  cases hk : innerStream P sid key with
  | error e =>
    obtain ⟨s1, e1, i1, u1, _⟩ := copy_ok hs x
    have e2 : encodeTree (.error e) d s = (.error e, s1) := by
      unfold encodeTree
      rw [bind_of (contentOf_run hx), bind_of e1]
      exact bind_err (lift_run _ _)
    exact ⟨s1, bind_err e2, i1, u1⟩
  | ok o =>
    cases o with
    | none =>
      refine ⟨s, ?_, hs, untouched_refl s⟩
      show (contentOf d >>= fun x => pure (P.xmlSer x)) s = _
      rw [bind_of (contentOf_run hx)]
      rfl
    | some ks =>
      obtain ⟨c, s', e1, i1, c1, _, u1⟩ := C03_encode hs ks hx
      refine ⟨s', ?_, i1, u1⟩
      show (encodeTree (.ok ks) d >>= fun c => contentOf c >>= fun x => pure (P.xmlSer x)) s = _
      rw [bind_of e1, bind_of (contentOf_run c1)]
      rfl

/-- What that means for a program: the same elements are in the database, every element has the same content, values in
clear included. -/
theorem C03_same {s s' : Db} (hs : Inv s) (hs' : Inv s') (h : Untouched s s') :
    (∀ j, InDoc s'.heap j ↔ InDoc s.heap j) ∧ (∀ e ∈ s.world.ids, e ≠ 0 → content s' e = content s e) := by
  have hk : ∀ j ∈ s.world.ids, j ≠ 0 → s'.heap.kids j = s.heap.kids j := by
    intro j hj h0
    obtain ⟨r, hr⟩ := heap_some.mpr hj
    unfold Heap.kids
    rw [h.same j r h0 hr, hr]
  have hstep : ∀ a ∈ s.world.ids, a ≠ 0 → ∀ j, Reach s.heap a j → j ∈ s.world.ids ∧ j ≠ 0 ∧ Reach s'.heap a j := by
    intro a ha h0 j hr
    induction hr with
    | refl => exact ⟨ha, h0, .refl⟩
    | snoc _ hc ih =>
      refine ⟨(kid_mem hs hc).1, kid_ne_zero hs hc, .snoc ih.2.2 ?_⟩
      rw [hk _ ih.1 ih.2.1]
      exact hc
  have hback : ∀ a ∈ s.world.ids, a ≠ 0 → ∀ j, Reach s'.heap a j → j ∈ s.world.ids ∧ j ≠ 0 ∧ Reach s.heap a j := by
    intro a ha h0 j hr
    induction hr with
    | refl => exact ⟨ha, h0, .refl⟩
    | snoc _ hc ih =>
      rw [hk _ ih.1 ih.2.1] at hc
      exact ⟨(kid_mem hs hc).1, kid_ne_zero hs hc, .snoc ih.2.2 hc⟩
  constructor
  · intro j
    unfold InDoc
    rw [h.document]
    obtain ⟨d, hd, hm⟩ := doc_some hs
    have h1 := (kid_mem hs hm).1
    have h2 := kid_ne_zero hs hm
    constructor
    · rintro ⟨d', hd', hr⟩
      rw [hd] at hd'
      injection hd' with hd'
      subst hd'
      exact ⟨d, hd, (hback d h1 h2 j hr).2.2⟩
    · rintro ⟨d', hd', hr⟩
      rw [hd] at hd'
      injection hd' with hd'
      subst hd'
      exact ⟨d, hd, (hstep d h1 h2 j hr).2.2⟩
  · intro e he h0
    refine content_congr hs hs' (fun j hr => ?_) he
    obtain ⟨h1, h2, _⟩ := hstep e he h0 j hr
    obtain ⟨r, hr⟩ := heap_some.mpr h1
    rw [h.same j r h2 hr, hr]

/-! ## The sample -/

/-- The password of the sample's first entry, in clear, before. -/
example : Sample.db.heap.text 39 = some "s3".toList ∧ Sample.db.heap.attr 39 "Protected".toList = some "True".toList := by decide +kernel

/-- The sample after `_encode` with some key stream. -/
def encoded : Except PyErr Nat × Db := encodeTree (.ok fun i => UInt8.ofNat (i + 7)) 1 Sample.db

/-- A copy was made and encrypted; the original is in clear. -/
example : encoded.1.toOption = some 148 ∧ encoded.2.heap.text (147 + 39) = some "dDs=".toList ∧
    encoded.2.heap.attr (147 + 39) "Protected".toList = some "True".toList ∧ encoded.2.heap.text 39 = some "s3".toList := by
  decide +kernel

end Verif.Props
