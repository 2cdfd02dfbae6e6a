import Verif.Api.BinLemmas
import Verif.Api.KeepDb
import Verif.Api.AddLemmas
/-!
# What `trash_entry` and `trash_group` do
-/
namespace Verif.Api
open Verif XPath Spec

variable {s : Db}

/-! ## Moving an entry or a group -/

theorem moved_all {h h' : Heap} {x d : Nat} (hm : Moved h h' x d) {j : Nat} {t : Str} (hx : x ∉ h.all j t)
    (hj : j ≠ d ∨ h.tag x ≠ t) : h'.all j t = h.all j t := by
  by_cases hr : ∃ r, h j = some r
  · have hf : ((h.kids j).filter (· != x)).filter (fun k => h'.tag k == t) = (h.kids j).filter (fun k => h.tag k == t) := by
      rw [List.filter_filter]
      apply List.filter_congr
      intro k hk
      rw [moved_tag hm]
      by_cases e : k = x
      · subst e
        have : (h.tag k == t) = false := by
          cases ht : h.tag k == t with
          | false => rfl
          | true => exact absurd (List.mem_filter.mpr ⟨hk, ht⟩) hx
        rw [this]
        rfl
      · rw [bne_iff_ne.mpr e, Bool.and_true]
    show (h'.kids j).filter _ = (h.kids j).filter _
    rw [moved_kids hm j hr]
    split
    · next e =>
      have hne : h.tag x ≠ t := by
        rcases hj with hj | hj
        · exact absurd e hj
        · exact hj
      rw [List.filter_append, hf, List.filter_cons_of_neg (by rw [moved_tag hm, beq_iff_eq]; exact hne), List.filter_nil,
        List.append_nil]
    · exact hf
  · have h1 : h j = none := by
      cases e : h j with
      | none => rfl
      | some r => exact absurd ⟨r, e⟩ hr
    have e1 : h.kids j = [] := by unfold Heap.kids; rw [h1]; rfl
    have e2 : h'.kids j = [] := by unfold Heap.kids; rw [hm j, h1]; rfl
    show (h'.kids j).filter _ = (h.kids j).filter _
    rw [e1, e2]
    rfl

theorem moved_all_tag {h h' : Heap} {x d : Nat} (hm : Moved h h' x d) (j : Nat) {t : Str} (hx : h.tag x ≠ t) :
    h'.all j t = h.all j t :=
  moved_all hm (fun h1 => hx (all_sub h1).2) (.inr hx)

theorem elem_tag {h : Heap} {x : Nat} (hx : IsElem h x) {t : Str} (h1 : "Entry".toList ≠ t) (h2 : "Group".toList ≠ t) :
    h.tag x ≠ t := by
  rcases hx with hx | hx
  · rw [show h.tag x = _ from hx]; exact h1
  · rw [show h.tag x = _ from hx]; exact h2

theorem elem_mem {x : Nat} (hx : IsElem s.heap x) : x ∈ s.world.ids := tag_mem (elem_tag hx (by decide) (by decide))
theorem elem_zero (hs : Inv s) {x : Nat} (hx : IsElem s.heap x) : x ≠ 0 := tag_ne_zero hs (elem_tag hx (by decide) (by decide))

theorem elem_not_doc {d m r x : Nat} (hk : Skeleton s.heap d m r) (hx : IsElem s.heap x) : docEl s.heap ≠ some x := by
  intro h
  rw [hk.doc] at h
  injection h with h
  subst h
  exact elem_tag hx (by decide) (by decide) hk.tag

theorem moved_uuid {h h' : Heap} {x d : Nat} (hm : Moved h h' x d) (hx : IsElem h x) (j : Nat) (u : Str) :
    HasUuid h' j u ↔ HasUuid h j u := by
  unfold HasUuid
  rw [moved_all_tag hm j (elem_tag hx (by decide) (by decide))]
  simp only [moved_text hm]

theorem moved_skel (hs : Inv s) {h' : Heap} {x b d m r : Nat} (hm : Moved s.heap h' x b) (hx : IsElem s.heap x)
    (hk : Skeleton s.heap d m r) : Skeleton h' d m r := by
  refine ⟨?_, ?_, ?_, ?_⟩
  · rw [moved_doc hs hm (elem_not_doc hk hx)]; exact hk.doc
  · rw [moved_tag hm]; exact hk.tag
  · rw [moved_all_tag hm _ (elem_tag hx (by decide) (by decide))]; exact hk.info
  · rw [moved_all_tag hm _ (elem_tag hx (by decide) (by decide))]; exact hk.root

theorem moved_settled (hs : Inv s) {h' : Heap} {x b d m r g el : Nat} {u : Bytes} (hm : Moved s.heap h' x b) (hx : IsElem s.heap x)
    (hxg : x ≠ g) (hb : IsGroup s.heap b) (hk : Settled s.heap d m r g el u) : Settled h' d m r g el u := by
  have hr : r ∈ s.heap.all d "Root".toList := by rw [hk.skel.root]; simp
  have hrb : r ≠ b := by
    rintro rfl
    have h1 := (all_sub hr).2
    rw [show s.heap.tag r = _ from hb] at h1
    exact absurd h1 (by decide)
  refine ⟨moved_skel hs hm hx hk.skel, ?_, ?_, ?_, hk.len, ?_⟩
  · rw [moved_all hm (by rw [hk.root]; simpa using hxg) (.inl hrb)]; exact hk.root
  · show (h'.all m _).head? = _
    rw [moved_all_tag hm _ (elem_tag hx (by decide) (by decide))]
    exact hk.setting
  · rw [moved_text hm]; exact hk.text
  · intro a c h1 h2 h3 h4
    rw [moved_uuid hm hx] at h3 h4
    refine hk.one a c ?_ ?_ h3 h4
    · show _ = _; rw [← moved_tag hm]; exact h1
    · show _ = _; rw [← moved_tag hm]; exact h2

theorem moved_up {h' : Heap} {x b k j : Nat} (hb : b ∈ s.world.ids) (hm : Moved s.heap h' x b) (hr : Reach h' k j)
    (hx : ¬ Reach s.heap x j) : Reach s.heap k j := by
  induction hr with
  | refl => exact .refl
  | @snoc p c _ hc ih =>
    rcases (moved_kids_mem hm (heap_some.mpr hb) p c).mp hc with ⟨_, hc'⟩ | ⟨rfl, _⟩
    · exact .snoc (ih fun h => hx (.snoc h hc')) hc'
    · exact absurd .refl hx

theorem moved_bin (hs : Inv s) {h' : Heap} {x b d m r : Nat} {u : Bytes} (hm : Moved s.heap h' x b) (hx : IsElem s.heap x)
    (hcyc : ¬ Reach s.heap x b) (hk : Skeleton s.heap d m r) (hb : IsBin s.heap u b) : IsBin h' u b := by
  have hbm := (inDoc_mem hs hb.doc).1
  refine ⟨?_, ?_, ?_, (moved_uuid hm hx b _).mpr hb.uuid⟩
  · show _ = _; rw [moved_tag hm]; exact hb.tag
  · exact (moved_inDoc hs hm hbm hcyc (elem_not_doc hk hx) b).mpr (.inl ⟨hb.doc, hcyc⟩)
  · rintro ⟨k, h1, h2, h3⟩
    exact hb.hist ⟨k, by rw [← moved_tag hm]; exact h1, h2, moved_up hbm hm h3 hcyc⟩

/-! ## Above the root group -/

theorem above_root (hs : Inv s) {d m r g k : Nat} (hk : Skeleton s.heap d m r) (hg : s.heap.all r "Group".toList = [g])
    (h : Reach s.heap k g) : k = g ∨ k = r ∨ k = d ∨ k = 0 := by
  have h1 : g ∈ s.heap.kids r := (all_sub (by rw [hg]; simp : g ∈ s.heap.all r "Group".toList)).1
  have h2 : r ∈ s.heap.kids d := (all_sub (by rw [hk.root]; simp : r ∈ s.heap.all d "Root".toList)).1
  have h3 : d ∈ s.heap.kids 0 := List.mem_of_mem_head? hk.doc
  rcases reach_kid_up hs h h1 with e | h
  · exact .inl e
  rcases reach_kid_up hs h h2 with e | h
  · exact .inr (.inl e)
  rcases reach_kid_up hs h h3 with e | h
  · exact .inr (.inr (.inl e))
  · exact .inr (.inr (.inr (reach_zero hs h)))

theorem root_facts {d m r g : Nat} (hk : Skeleton s.heap d m r) (hg : s.heap.all r "Group".toList = [g]) :
    IsGroup s.heap g ∧ s.heap.tag r = "Root".toList ∧ InDoc s.heap g := by
  have h1 := all_sub (by rw [hg]; simp : g ∈ s.heap.all r "Group".toList)
  have h2 := all_sub (by rw [hk.root]; simp : r ∈ s.heap.all d "Root".toList)
  exact ⟨h1.2, h2.2, d, hk.doc, .snoc (.snoc .refl h2.1) h1.1⟩

theorem root_no_hist (hs : Inv s) {d m r g : Nat} (hk : Skeleton s.heap d m r) (hg : s.heap.all r "Group".toList = [g]) :
    ¬ InHist s.heap g := by
  rintro ⟨k, h1, h2, h3⟩
  rcases above_root hs hk hg h3 with rfl | rfl | rfl | rfl
  · exact h2 rfl
  · rw [(root_facts hk hg).2.1] at h1; exact absurd h1 (by decide)
  · rw [hk.tag] at h1; exact absurd h1 (by decide)
  · rw [hs.zero_tag] at h1; exact absurd h1 (by decide)

/-- Nothing but the root group is an entry or a group with the root group below it. -/
theorem above_root_elem (hs : Inv s) {d m r g x : Nat} (hk : Skeleton s.heap d m r) (hg : s.heap.all r "Group".toList = [g])
    (hx : IsElem s.heap x) (h : Reach s.heap x g) : x = g := by
  rcases above_root hs hk hg h with e | rfl | rfl | rfl
  · exact e
  · exact absurd (root_facts hk hg).2.1 (elem_tag hx (by decide) (by decide))
  · exact absurd hk.tag (elem_tag hx (by decide) (by decide))
  · exact absurd hs.zero_tag (elem_tag hx (by decide) (by decide))

/-! ## Making the bin -/

theorem newBin_run (env : Env) (s : Db) : newGroup env (some "Recycle Bin".toList) none none s =
    ((encodeTime s.version (env.now s.ticks)).map (binXml (env.uuid1 s.uuids)), { s with ticks := s.ticks + 1, uuids := s.uuids + 1 }) := by
  have e : textEl "Name".toList [] (some "Recycle Bin".toList) = .ok (.mk "Name".toList [] (some "Recycle Bin".toList) []) := textEl_ok (by decide +kernel)
  unfold newGroup baseKids
  cases hh : encodeTime s.version (env.now s.ticks) with
  | error x =>
    refine bind_err (s' := { s with ticks := s.ticks + 1, uuids := s.uuids + 1 }) ?_
    show ((lift (encodeTime s.version (env.now s.ticks)) >>= _) _ : Except PyErr (List Xml) × Db) = _
    rw [hh]
    rfl
  | ok now =>
    rw [e]
    have e2 : baseKids env none false none s = (.ok ((binXml (env.uuid1 s.uuids) now).kids.take 2), { s with ticks := s.ticks + 1, uuids := s.uuids + 1 }) := by
      show ((lift (encodeTime s.version (env.now s.ticks)) >>= _) _ : Except PyErr (List Xml) × Db) = _
      rw [hh]
      rfl
    unfold baseKids at e2
    rw [bind_of e2]
    rfl

/-- Only the text of `i` changed. -/
def Retext (h h' : Heap) (i : Nat) (v : Option Str) : Prop :=
  ∀ j, h' j = (h j).map fun r => if j = i then { r with text := v } else r

theorem retext_kids {h h' : Heap} {i : Nat} {v : Option Str} (hr : Retext h h' i v) (j : Nat) : h'.kids j = h.kids j := by
  unfold Heap.kids
  rw [hr j]
  cases h j with
  | none => rfl
  | some r => show (if j = i then _ else r : Node.Rec).kids = _; split <;> rfl

theorem retext_tag {h h' : Heap} {i : Nat} {v : Option Str} (hr : Retext h h' i v) (j : Nat) : h'.tag j = h.tag j := by
  unfold Heap.tag
  rw [hr j]
  cases h j with
  | none => rfl
  | some r => show (if j = i then _ else r : Node.Rec).tag = _; split <;> rfl

theorem retext_text {h h' : Heap} {i : Nat} {v : Option Str} (hr : Retext h h' i v) {j : Nat} (hj : j ≠ i) : h'.text j = h.text j := by
  unfold Heap.text
  rw [hr j]
  cases h j with
  | none => rfl
  | some r => show (if j = i then _ else r : Node.Rec).text = _; rw [if_neg hj]; rfl

theorem retext_all {h h' : Heap} {i : Nat} {v : Option Str} (hr : Retext h h' i v) (j : Nat) (t : Str) : h'.all j t = h.all j t := by
  unfold Heap.all
  rw [retext_kids hr]
  simp only [retext_tag hr]

theorem retext_reach {h h' : Heap} {i : Nat} {v : Option Str} (hr : Retext h h' i v) (a b : Nat) : Reach h' a b ↔ Reach h a b := by
  constructor
  · intro h1
    induction h1 with
    | refl => exact .refl
    | snoc _ hk ih => rw [retext_kids hr] at hk; exact .snoc ih hk
  · intro h1
    induction h1 with
    | refl => exact .refl
    | snoc _ hk ih => rw [← retext_kids hr] at hk; exact .snoc ih hk

theorem retext_inDoc {h h' : Heap} {i : Nat} {v : Option Str} (hr : Retext h h' i v) (j : Nat) : InDoc h' j ↔ InDoc h j := by
  unfold InDoc docEl
  rw [retext_kids hr]
  simp only [retext_reach hr]

theorem retext_hist {h h' : Heap} {i : Nat} {v : Option Str} (hr : Retext h h' i v) (j : Nat) : InHist h' j ↔ InHist h j := by
  unfold InHist
  simp only [retext_reach hr, retext_tag hr]

theorem retext_uuid {h h' : Heap} {i : Nat} {v : Option Str} (hr : Retext h h' i v) (hi : h.tag i ≠ "UUID".toList) (j : Nat) (u : Str) :
    HasUuid h' j u ↔ HasUuid h j u := by
  unfold HasUuid
  rw [retext_all hr]
  constructor
  · rintro ⟨k, h1, h2⟩
    rw [retext_text hr (by rintro rfl; exact hi (all_sub h1).2)] at h2
    exact ⟨k, h1, h2⟩
  · rintro ⟨k, h1, h2⟩
    rw [← retext_text hr (by rintro rfl; exact hi (all_sub h1).2)] at h2
    exact ⟨k, h1, h2⟩

/-- The content of a child. -/
theorem content_kid (hs : Inv s) {e k : Nat} {x : Xml} (h : content s e = some x) (hk : k ∈ s.heap.kids e) :
    ∃ y ∈ x.kids, content s k = some y := by
  obtain ⟨n, h1, rfl⟩ := content_node h
  rw [node_kids h1] at hk
  obtain ⟨c, hc, rfl⟩ := List.mem_map.mp hk
  obtain ⟨hm, _⟩ := Node.get?_some h1
  refine ⟨c.xml, ?_, ?_⟩
  · rw [xml_kids]; exact List.mem_map_of_mem hc
  · unfold content
    rw [kid_get hs.world.uniq hm hc]
    rfl

theorem bin_parts (hs : Inv s) {n j : Nat} {u : Bytes} {now : Str} (h : content s n = some (binXml u now)) (hr : Reach s.heap n j) :
    j = n ∨ ¬ IsElem s.heap j := by
  let Q : Xml → Prop := fun y => y ∈ (binXml u now).kids ∨ ∃ z ∈ (binXml u now).kids, y ∈ z.kids
  suffices key : j = n ∨ ∃ y, content s j = some y ∧ Q y by
    rcases key with e | ⟨y, hy, hq⟩
    · exact .inl e
    · refine .inr fun he => ?_
      have ht := content_tag hy
      have h1 : y.tag ≠ "Entry".toList ∧ y.tag ≠ "Group".toList := by
        rcases hq with hq | ⟨z, hz, hq⟩
        · simp only [binXml, Xml.kids, List.mem_cons, List.not_mem_nil, or_false] at hq
          rcases hq with rfl | rfl | rfl <;> exact ⟨by simp only [Xml.tag]; decide, by simp only [Xml.tag]; decide⟩
        · simp only [binXml, Xml.kids, List.mem_cons, List.not_mem_nil, or_false] at hz
          rcases hz with rfl | rfl | rfl
          · cases hq
          · simp only [Xml.kids, List.mem_cons, List.not_mem_nil, or_false] at hq
            rcases hq with rfl | rfl | rfl | rfl | rfl | rfl | rfl <;>
              exact ⟨by simp only [Xml.tag]; decide, by simp only [Xml.tag]; decide⟩
          · cases hq
      rw [← ht] at h1
      exact elem_tag he h1.1.symm h1.2.symm rfl
  induction hr with
  | refl => exact .inl rfl
  | @snoc b c _ hc ih =>
    right
    rcases ih with rfl | ⟨y, hy, hq⟩
    · obtain ⟨z, hz, hcz⟩ := content_kid hs h hc
      exact ⟨z, hcz, .inl hz⟩
    · obtain ⟨z, hz, hcz⟩ := content_kid hs hy hc
      refine ⟨z, hcz, ?_⟩
      rcases hq with hq | ⟨w, hw, hq⟩
      · exact .inr ⟨y, hq, hz⟩
      · exfalso
        simp only [binXml, Xml.kids, List.mem_cons, List.not_mem_nil, or_false] at hw
        rcases hw with rfl | rfl | rfl
        · cases hq
        · simp only [Xml.kids, List.mem_cons, List.not_mem_nil, or_false] at hq
          rcases hq with rfl | rfl | rfl | rfl | rfl | rfl | rfl <;> cases hz
        · cases hq

theorem added_skel {s s' : Db} {p n m' d m r : Nat} (hs : Inv s) (hs' : Inv s') (h : Added s.heap s'.heap p n m') (hp : p ≠ 0)
    (hk : Skeleton s.heap d m r) (hn : IsElem s'.heap n) : Skeleton s'.heap d m r := by
  have hdl := doc_lt hs h hk.doc
  refine ⟨?_, ?_, ?_, ?_⟩
  · rw [added_doc hs hs' h hp]; exact hk.doc
  · rw [added_tag hs h hdl]; exact hk.tag
  · rw [added_all hs h hdl, if_neg fun e => elem_tag hn (by decide) (by decide) e.2, List.append_nil]; exact hk.info
  · rw [added_all hs h hdl, if_neg fun e => elem_tag hn (by decide) (by decide) e.2, List.append_nil]; exact hk.root

/-- `_create_or_get_recyclebin_group` when there is no bin. -/
theorem binGroup_new (env : Env) (hs : Inv s) {d m r g el : Nat} {u : Bytes} (hk : Settled s.heap d m r g el u)
    (hno : ∀ b, ¬ IsBin s.heap u b) (hf : FreshUuids env s) :
    (∃ e, encodeTime s.version (env.now s.ticks) = .error e ∧
      binGroup env s = (.error e, { s with ticks := s.ticks + 1, uuids := s.uuids + 1 })) ∨
    ∃ s' now, encodeTime s.version (env.now s.ticks) = .ok now ∧ binGroup env s = (.ok s.next, s') ∧ Inv s' ∧ NewBin s.heap s'.heap g el s.next (env.uuid1 s.uuids) ∧
      content s' s.next = some (binXml (env.uuid1 s.uuids) now) ∧ Settled s'.heap d m r g el (env.uuid1 s.uuids) ∧
      IsBin s'.heap (env.uuid1 s.uuids) s.next ∧ (∀ j, InDoc s.heap j → InDoc s'.heap j) ∧
      (∀ j, j ≠ s.next → Reach s'.heap j s.next → Reach s.heap j g) := by
  obtain ⟨o, ho, hob⟩ := recycleBin_run env hs hk
  have ho' : o = none := by
    cases o with
    | none => rfl
    | some b => exact absurd ((hob b).mp rfl) (hno b)
  subst ho'
  have hroot : rootGroup env s = (.ok (some g), s) := by
    rw [rootGroup_run env hs, rootEls_skel hk.skel hk.root]
    rfl
  have hlen := hf.len s.uuids (Nat.le_refl _)
  obtain ⟨hgt, hrt, hgd⟩ := root_facts hk.skel hk.root
  obtain ⟨hgm, hg0⟩ := inDoc_mem hs hgd
  have hgne : s.heap.tag g ≠ "RecycleBinUUID".toList := by rw [show s.heap.tag g = _ from hgt]; decide
  obtain ⟨helk, helt⟩ := find_kid hk.setting
  have helm := (kid_mem hs helk).1
  have hell : el < s.next := hs.bound el helm
  have hgl : g < s.next := hs.bound g hgm
  have hge : g ≠ el := by rintro rfl; exact hgne helt
  cases ht : encodeTime s.version (env.now s.ticks) with
  | error e =>
    left
    refine ⟨e, rfl, ?_⟩
    unfold binGroup
    rw [bind_of ho]
    show ((rootGroup env >>= _) s : Except PyErr Nat × Db) = _
    rw [bind_of hroot]
    refine bind_err ?_
    rw [newBin_run, ht]
    rfl
  | ok now =>
    right
    let s0 : Db := { s with ticks := s.ticks + 1, uuids := s.uuids + 1 }
    have hs0 : Inv s0 := ⟨hs.world, hs.bound⟩
    obtain ⟨s1, m1, hs1, e1, ha, hc⟩ := add_ok (s := s0) hs0 (p := g) hgm (binXml (env.uuid1 s.uuids) now)
    replace m1 : make g (binXml (env.uuid1 s.uuids) now) s0 = (.ok s.next, s1) := m1
    replace ha : Added s.heap s1.heap g s.next s1.next := ha
    replace hc : content s1 s.next = some (binXml (env.uuid1 s.uuids) now) := hc
    have hnt : s1.heap.tag s.next = "Group".toList := content_tag hc
    have hsk1 : Skeleton s1.heap d m r := added_skel hs hs1 ha hg0 hk.skel (.inr hnt)
    have hml : m < s.next := hs.bound m (kid_mem hs helk).2
    have hrd : r ∈ s.heap.kids d := (all_sub (by rw [hk.skel.root]; simp : r ∈ s.heap.all d "Root".toList)).1
    have hrl : r < s.next := hs.bound r (kid_mem hs hrd).1
    have hset1 : s1.heap.find m "RecycleBinUUID".toList = some el := by
      show (s1.heap.all m _).head? = _
      rw [added_all hs ha hml, if_neg (by rw [hnt]; rintro ⟨_, h⟩; exact absurd h (by decide)), List.append_nil]
      exact hk.setting
    obtain ⟨s2, t2, hs2, e2, hr⟩ := setText_ok hs1 el (some (b64encode (env.uuid1 s.uuids)))
      (fun t h => by injection h with h; rw [← h]; exact b64_xml _)
    replace hr : Retext s1.heap s2.heap el (some (b64encode (env.uuid1 s.uuids))) := hr
    have helt1 : s1.heap.tag el = "RecycleBinUUID".toList := by rw [added_tag hs ha hell]; exact helt
    have helu : s1.heap.tag el ≠ "UUID".toList := by rw [helt1]; decide
    have huu : HasUuid s1.heap s.next (b64encode (env.uuid1 s.uuids)) := by
      have h1 := (content_all hs1 hc "UUID".toList).1
      have h2 : (xall (binXml (env.uuid1 s.uuids) now) "UUID".toList).map Xml.text = [some (b64encode (env.uuid1 s.uuids))] := rfl
      rw [h2] at h1
      have h3 : some (b64encode (env.uuid1 s.uuids)) ∈ (s1.heap.all s.next "UUID".toList).map s1.heap.text := by rw [h1]; simp
      obtain ⟨k, h4, h5⟩ := List.mem_map.mp h3
      exact ⟨k, h4, h5⟩
    have hold : ∀ j, j < s.next → ∀ v, HasUuid s1.heap j v ↔ HasUuid s.heap j v := by
      intro j hj v
      unfold HasUuid
      rw [added_all hs ha hj, if_neg (by rw [hnt]; rintro ⟨_, h⟩; exact absurd h (by decide)), List.append_nil]
      constructor
      · rintro ⟨k, h1, h2⟩
        rw [added_text hs ha (hs.bound k (kid_mem hs (all_sub h1).1).1)] at h2
        exact ⟨k, h1, h2⟩
      · rintro ⟨k, h1, h2⟩
        rw [← added_text hs ha (hs.bound k (kid_mem hs (all_sub h1).1).1)] at h2
        exact ⟨k, h1, h2⟩
    have hnew : ∀ j, s.next ≤ j → IsElem s1.heap j → j = s.next := by
      intro j hj he
      have hjm := hs1.bound j (elem_mem he)
      rcases bin_parts hs1 hc ((ha.below j).mpr ⟨hj, hjm⟩) with h | h
      · exact h
      · exact absurd he h
    have hfr : s.heap s.next = none := ha.fresh _ (Nat.le_refl _)
    refine ⟨s2, now, rfl, ?_, hs2, ⟨hfr, ?_, ?_⟩, ?_, ⟨⟨?_, ?_, ?_, ?_⟩, ?_, ?_, ?_, hlen, ?_⟩, ⟨?_, ?_, ?_, ?_⟩, ?_, ?_⟩
    · unfold binGroup
      rw [bind_of ho]
      show ((rootGroup env >>= _) s : Except PyErr Nat × Db) = _
      rw [bind_of hroot, bind_of (show newGroup env (some "Recycle Bin".toList) none none s =
        (.ok (binXml (env.uuid1 s.uuids) now), s0) by rw [newBin_run, ht]; rfl),
        bind_of (orAttr_some g s0), bind_of m1, bind_of (metaEl_skel env hs1 hsk1 (by decide)), hset1, bind_of (orAttr_some el s1)]
      have hgu : getUuid s.next s1 = (.ok (env.uuid1 s.uuids), s1) := by
        unfold getUuid
        rw [bind_of (getSub_content hs1 hc _)]
        show lift (uuidOfText (some (b64encode (env.uuid1 s.uuids)))) s1 = _
        rw [uuid_text_ok hlen]
        rfl
      rw [bind_of hgu, bind_of t2]
      rfl
    · intro j q hq
      have hj := added_lt hs ha hq
      rw [hr j]
      by_cases e : j = g
      · subst e
        obtain ⟨q', h1, h2⟩ := ha.here
        rw [hq] at h1
        injection h1 with h1
        subst h1
        rw [h2, if_pos rfl]
        simp only [Option.map_some, if_neg hge]
      · rw [ha.other j e hj, hq, if_neg e]
        rfl
    · intro j hj he
      have hle : s.next ≤ j := by
        refine Nat.le_of_not_lt fun hlt => ?_
        have h1 : IsElem s1.heap j := by
          rcases he with he | he
          · left; show _ = _; rw [← retext_tag hr]; exact he
          · right; show _ = _; rw [← retext_tag hr]; exact he
        have h2 : s.heap.tag j ≠ [] := by
          rw [← added_tag hs ha hlt]
          exact elem_tag h1 (by decide) (by decide)
        apply h2
        unfold Heap.tag
        rw [hj]
        rfl
      refine hnew j hle ?_
      rcases he with he | he
      · left; show _ = _; rw [← retext_tag hr]; exact he
      · right; show _ = _; rw [← retext_tag hr]; exact he
    · rw [content_congr hs1 hs2 ?_ (tag_mem (by rw [hnt]; decide))]
      · exact hc
      · intro j hj
        have := ((ha.below j).mp hj).1
        rw [hr j]
        cases s1.heap j with
        | none => rfl
        | some q => simp only [Option.map_some, if_neg (show ¬ j = el by omega)]
    · unfold docEl; rw [retext_kids hr]; exact hsk1.doc
    · rw [retext_tag hr]; exact hsk1.tag
    · rw [retext_all hr]; exact hsk1.info
    · rw [retext_all hr]; exact hsk1.root
    · have hrg : r ≠ g := by
        rintro rfl
        rw [show s.heap.tag r = _ from hgt] at hrt
        exact absurd hrt (by decide)
      rw [retext_all hr, added_all hs ha hrl, if_neg (fun h => hrg h.1), List.append_nil]
      exact hk.root
    · show (s2.heap.all m _).head? = _
      rw [retext_all hr]
      exact hset1
    · have hx := hr el
      have hel1 := tag_mem (s := s1) (i := el) (by rw [helt1]; decide)
      obtain ⟨q, hq⟩ := heap_some.mpr hel1
      unfold Heap.text
      rw [hx, hq]
      show (if el = el then _ else q : Node.Rec).text = _
      rw [if_pos rfl]
    · have key : ∀ a, IsGroup s2.heap a → HasUuid s2.heap a (b64encode (env.uuid1 s.uuids)) → a = s.next := by
        intro a h1 h2
        rw [retext_uuid hr helu] at h2
        replace h1 : s1.heap.tag a = "Group".toList := by rw [← retext_tag hr]; exact h1
        by_cases hlt : a < s.next
        · rw [hold a hlt] at h2
          rw [added_tag hs ha hlt] at h1
          exact absurd h2 (hf.new s.uuids (Nat.le_refl _) a h1)
        · exact hnew a (by omega) (.inr h1)
      intro a b h1 h2 h3 h4
      rw [key a h1 h3, key b h2 h4]
    · show _ = _; rw [retext_tag hr]; exact hnt
    · rw [retext_inDoc hr, added_inDoc hs hs1 ha rfl hg0]
      exact .inr ⟨hgd, Nat.le_refl _, hs1.bound _ (tag_mem (by rw [hnt]; decide))⟩
    · rw [retext_hist hr]
      exact added_hist_new hs hs1 ha rfl (by rw [show s.heap.tag g = _ from hgt]; decide) (root_no_hist hs hk.skel hk.root)
    · rw [retext_uuid hr helu]; exact huu
    · intro j hj
      rw [retext_inDoc hr, added_inDoc hs hs1 ha rfl hg0]
      exact .inl hj
    · intro j hj hjr
      rw [retext_reach hr] at hjr
      rcases reach_kid_up hs1 hjr (added_n hs ha) with e | h
      · exact absurd e hj
      · exact (added_reach_old hs hs1 ha rfl hgl).mp h

/-! ## One call -/

theorem can_not_root (env : Env) (hs : Inv s) {d m r g el x : Nat} {u : Bytes} (hk : Settled s.heap d m r g el u)
    (h : canBeTrashed env x s = (.ok true, s)) : x ≠ g := by
  rintro rfl
  exact canBeTrashed_root env hs (by rw [rootEls_skel hk.skel hk.root]; rfl) h

/-- `trash_entry`, `trash_group` when there is a bin. -/
theorem trash_some (env : Env) (hs : Inv s) {d m r g el x b : Nat} {u : Bytes} (hk : Settled s.heap d m r g el u)
    (hb : IsBin s.heap u b) (hx : IsElem s.heap x) :
    (∃ e, trash env x s = (.error e, s)) ∨
    ∃ s', trash env x s = (.ok (), s') ∧ Inv s' ∧ s' = { s with world := s'.world } ∧ Moved s.heap s'.heap x b ∧
      ¬ Reach s.heap x b ∧ x ≠ g := by
  obtain ⟨o, ho, hob⟩ := recycleBin_run env hs hk
  obtain rfl := (hob b).mpr hb
  have hbin : binGroup env s = (.ok b, s) := by
    unfold binGroup
    rw [bind_of ho]
    rfl
  have hst := (still_canBeTrashed env x).eq s
  cases hc : canBeTrashed env x s with
  | mk q t =>
    rw [hc] at hst
    replace hst : t = s := hst
    subst hst
    unfold trash
    cases q with
    | error e => exact .inl ⟨e, bind_err hc⟩
    | ok v =>
      rw [bind_of hc]
      cases v with
      | false => exact .inl ⟨.unableToRecycle, rfl⟩
      | true =>
        show (∃ e, (binGroup env >>= fun bin => groupAppend bin x) t = (.error e, t)) ∨
          ∃ s', (binGroup env >>= fun bin => groupAppend bin x) t = (.ok (), s') ∧ _
        rw [bind_of hbin]
        by_cases hcyc : Reach t.heap x b
        · exact .inl ⟨.value, append_refused hs (elem_mem hx) hcyc⟩
        · obtain ⟨s', h1, h2, h3, h4⟩ := append_ok hs (elem_mem hx) (elem_zero hs hx) (inDoc_mem hs hb.doc).1 hcyc
            (elem_not_doc hk.skel hx)
          exact .inr ⟨s', h1, h2, h3, h4, hcyc, can_not_root env hs hk hc⟩

/-- … and when there is none. -/
theorem trash_new (env : Env) (hs : Inv s) {d m r g el x : Nat} {u : Bytes} (hk : Settled s.heap d m r g el u)
    (hno : ∀ b, ¬ IsBin s.heap u b) (hf : FreshUuids env s) (hx : IsElem s.heap x)
    (hc : canBeTrashed env x s = (.ok true, s)) :
    (∃ e, encodeTime s.version (env.now s.ticks) = .error e ∧
      trash env x s = (.error e, { s with ticks := s.ticks + 1, uuids := s.uuids + 1 })) ∨
    ∃ s1 s' now, encodeTime s.version (env.now s.ticks) = .ok now ∧ trash env x s = (.ok (), s') ∧ Inv s1 ∧ Inv s' ∧
      NewBin s.heap s1.heap g el s.next (env.uuid1 s.uuids) ∧
      content s1 s.next = some (binXml (env.uuid1 s.uuids) now) ∧ Settled s1.heap d m r g el (env.uuid1 s.uuids) ∧
      IsBin s1.heap (env.uuid1 s.uuids) s.next ∧ (∀ j, InDoc s.heap j → InDoc s1.heap j) ∧
      Moved s1.heap s'.heap x s.next ∧ ¬ Reach s1.heap x s.next ∧ x ≠ g ∧ IsElem s1.heap x ∧ x ≠ s.next := by
  have hxg := can_not_root env hs hk hc
  have e : trash env x s = (binGroup env >>= fun bin => groupAppend bin x) s := by
    unfold trash
    rw [bind_of hc]
    rfl
  rw [e]
  rcases binGroup_new env hs hk hno hf with ⟨e, he1, he⟩ | ⟨s1, now, h0, h1, h2, h3, h4, h5, h6, h7, h8⟩
  · exact .inl ⟨e, he1, bind_err he⟩
  · right
    obtain ⟨q, hq⟩ := heap_some.mpr (elem_mem hx)
    have hxt : s1.heap.tag x = s.heap.tag x := by
      unfold Heap.tag
      rw [h3.old x q hq, hq]
      show (if x = g then _ else if x = el then _ else q : Node.Rec).tag = _
      split
      · rfl
      · split <;> rfl
    have hx1 : IsElem s1.heap x := by
      rcases hx with hx | hx
      · left; show _ = _; rw [hxt]; exact hx
      · right; show _ = _; rw [hxt]; exact hx
    have hxn : x ≠ s.next := by rintro rfl; rw [h3.fresh] at hq; cases hq
    have hcyc : ¬ Reach s1.heap x s.next := fun h => hxg (above_root_elem hs hk.skel hk.root hx (h8 x hxn h))
    obtain ⟨s', m1, m2, _, m4⟩ := append_ok h2 (elem_mem hx1) (elem_zero h2 hx1) (inDoc_mem h2 h6.doc).1 hcyc
      (elem_not_doc h5.skel hx1)
    refine ⟨s1, s', now, h0, ?_, h2, m2, h3, h4, h5, h6, h7, m4, hcyc, hxg, hx1, hxn⟩
    rw [bind_of h1]
    exact m1

theorem trash_cases (env : Env) (x : Nat) (s : Db) :
    (∃ e, trash env x s = (.error e, s)) ∨ canBeTrashed env x s = (.ok true, s) := by
  have hst := (still_canBeTrashed env x).eq s
  cases hc : canBeTrashed env x s with
  | mk q t =>
    rw [hc] at hst
    replace hst : t = s := hst
    subst hst
    unfold trash
    cases q with
    | error e => exact .inl ⟨e, bind_err hc⟩
    | ok v =>
      rw [bind_of hc]
      cases v with
      | false => exact .inl ⟨.unableToRecycle, rfl⟩
      | true => exact .inr rfl

end Verif.Api
