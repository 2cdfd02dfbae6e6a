import Verif.Api.MoveLemmas
import Verif.Api.FieldLemmas
import Verif.Spec.Content
/-!
# Reading the content of an element; adding an element
-/
set_option linter.unusedVariables false

namespace Verif.Api
open Verif XPath Spec

theorem xml_tag (n : Node) : n.xml.tag = n.tag := by cases n; rw [Node.xml_mk]; rfl
theorem xml_text (n : Node) : n.xml.text = n.text := by cases n; rw [Node.xml_mk]; rfl
theorem xml_attrs (n : Node) : n.xml.attrs = n.attrs := by cases n; rw [Node.xml_mk]; rfl
theorem xml_kids (n : Node) : n.xml.kids = n.kids.map Node.xml := by cases n; rw [Node.xml_mk]; rfl

theorem filter_map_xml {ks : List Node} {p : Xml → Bool} {q : Node → Bool} (h : ∀ k ∈ ks, p k.xml = q k) :
    (ks.map Node.xml).filter p = (ks.filter q).map Node.xml := by
  induction ks with
  | nil => rfl
  | cons k ks ih =>
    rw [List.map_cons, List.filter_cons, List.filter_cons, h k (List.mem_cons_self ..),
      ih fun x hx => h x (List.mem_cons_of_mem _ hx)]
    cases q k <;> rfl

theorem xall_eq (n : Node) (t : Str) : xall n.xml t = (n.kids.filter fun k => k.tag == t).map Node.xml := by
  unfold xall
  rw [xml_kids]
  exact filter_map_xml fun k _ => by rw [xml_tag]

theorem xhasKey_eq (n : Node) (key : Str) :
    xhasKey n.xml key = n.kids.any fun c => c.tag == "Key".toList && c.text == some key := by
  unfold xhasKey
  rw [xall_eq, List.any_map, List.any_filter]
  congr 1
  funext c
  show (_ && (c.xml.text == some key)) = _
  rw [xml_text]

theorem flatMap_map_xml {ks : List Node} {f : Xml → List Xml} {g : Node → List Node}
    (h : ∀ k ∈ ks, f k.xml = (g k).map Node.xml) : (ks.map Node.xml).flatMap f = (ks.flatMap g).map Node.xml := by
  induction ks with
  | nil => rfl
  | cons k ks ih =>
    rw [List.map_cons, List.flatMap_cons, List.flatMap_cons, List.map_append, h k (List.mem_cons_self ..),
      ih fun x hx => h x (List.mem_cons_of_mem _ hx)]

theorem xvalues_eq (n : Node) (key : Str) : xvalues n.xml key = (fieldNodes n key).map Node.xml := by
  unfold xvalues fieldNodes
  rw [xall_eq, filter_map_xml (q := fun s => s.kids.any fun c => c.tag == "Key".toList && c.text == some key)
    (fun k _ => xhasKey_eq k key), List.filter_filter]
  rw [flatMap_map_xml (g := fun s => s.kids.filter fun v => v.tag == "Value".toList) (fun k _ => xall_eq k _)]
  congr 2
  apply List.filter_congr
  intro k _
  rw [Bool.and_comm]

theorem xdeep_eq (p : List Str) : ∀ n : Node, xdeep p n.xml = (descend p n).map Node.xml := by
  induction p with
  | nil => intro n; rfl
  | cons t p ih =>
    intro n
    unfold xdeep descend
    rw [xall_eq]
    exact flatMap_map_xml fun k _ => ih k

/-! ## The readings -/

variable {s : Db} {e : Nat} {x : Xml}

theorem content_node (h : content s e = some x) : ∃ n, s.world.get? e = some n ∧ n.xml = x := by
  unfold content at h
  cases hn : s.world.get? e with
  | none => rw [hn] at h; cases h
  | some n => rw [hn] at h; injection h with h; exact ⟨n, rfl, h⟩

theorem node_fieldNode {s : Db} (hs : Inv s) {n v : Node} (hm : n ∈ s.world.nodes) {key : Str} (hv : v ∈ fieldNodes n key) :
    s.world.get? v.id = some v := by
  unfold fieldNodes at hv
  obtain ⟨k, h1, h2⟩ := List.mem_flatMap.mp hv
  exact kid_get hs.world.uniq (Node.nodes_trans hm (Node.kid_mem_nodes (List.mem_filter.mp h1).1)) (List.mem_filter.mp h2).1

theorem content_tag (h : content s e = some x) : s.heap.tag e = x.tag := by
  obtain ⟨n, h1, rfl⟩ := content_node h
  rw [node_tag h1, xml_tag]

theorem content_values (hs : Inv s) (h : content s e = some x) (key : Str) :
    (valueEls s.heap e key).map s.heap.text = (xvalues x key).map Xml.text ∧
    (∀ a, (valueEls s.heap e key).map (s.heap.attr · a) = (xvalues x key).map (Xml.attr · a)) := by
  obtain ⟨n, h1, rfl⟩ := content_node h
  obtain ⟨hm, rfl⟩ := Node.get?_some h1
  rw [node_valueEls hs hm, xvalues_eq]
  simp only [List.map_map]
  constructor
  · apply List.map_congr_left
    intro v hv
    show s.heap.text v.id = v.xml.text
    rw [node_text (node_fieldNode hs hm hv), xml_text]
  · intro a
    apply List.map_congr_left
    intro v hv
    show s.heap.attr v.id a = v.xml.attr a
    rw [node_attr (node_fieldNode hs hm hv)]
    unfold Node.attr Xml.attr
    rw [xml_attrs]

theorem head_bind {α β} (l : List α) (f : α → Option β) : l.head?.bind f = (l.map f).head?.bind id := by
  cases l <;> rfl

theorem content_field (hs : Inv s) (h : content s e = some x) (key : Str) : field s.heap e key = xfield x key := by
  unfold field xfield
  rw [head_bind (valueEls s.heap e key), head_bind (xvalues x key), (content_values hs h key).1]

theorem content_mark (hs : Inv s) (h : content s e = some x) (key : Str) :
    mark s.heap e key = (xvalues x key).head?.bind (Xml.attr · "Protected".toList) := by
  unfold mark
  rw [head_bind (valueEls s.heap e key), head_bind (xvalues x key), (content_values hs h key).2]

theorem content_all (hs : Inv s) (h : content s e = some x) (t : Str) :
    (s.heap.all e t).map s.heap.text = (xall x t).map Xml.text ∧
    (s.heap.all e t).map (content s) = (xall x t).map some := by
  obtain ⟨n, h1, rfl⟩ := content_node h
  obtain ⟨hm, rfl⟩ := Node.get?_some h1
  rw [node_all hs hm, xall_eq]
  simp only [List.map_map]
  constructor
  · apply List.map_congr_left
    intro k hk
    show s.heap.text k.id = k.xml.text
    rw [node_text (kid_get hs.world.uniq hm (List.mem_filter.mp hk).1), xml_text]
  · apply List.map_congr_left
    intro k hk
    show content s k.id = some k.xml
    unfold content
    rw [kid_get hs.world.uniq hm (List.mem_filter.mp hk).1]
    rfl

theorem content_sub (hs : Inv s) (h : content s e = some x) (t : Str) : sub s.heap e t = xsub x t := by
  unfold sub xsub Heap.find
  rw [head_bind (s.heap.all e t), head_bind (xall x t), (content_all hs h t).1]

theorem content_find (hs : Inv s) (h : content s e = some x) (t : Str) :
    (s.heap.find e t).map (content s) = (xall x t).head?.map some := by
  unfold Heap.find
  rw [← List.head?_map, (content_all hs h t).2, List.head?_map]

theorem content_attr (h : content s e = some x) (a : Str) : s.heap.attr e a = x.attr a := by
  obtain ⟨n, h1, rfl⟩ := content_node h
  rw [node_attr h1]; unfold Node.attr Xml.attr; rw [xml_attrs]

theorem content_text (h : content s e = some x) : s.heap.text e = x.text := by
  obtain ⟨n, h1, rfl⟩ := content_node h
  rw [node_text h1, xml_text]

theorem same_kids {w : Node} {l r : List Node} (e : l.map Node.id = r.map Node.id) (hl : ∀ k ∈ l, w.get? k.id = some k)
    (hr : ∀ k ∈ r, w.get? k.id = some k) : l = r := by
  induction l generalizing r with
  | nil => cases r with
    | nil => rfl
    | cons _ _ => cases e
  | cons a l ih =>
    cases r with
    | nil => cases e
    | cons b r =>
      rw [List.map_cons, List.map_cons] at e
      injection e with f1 f2
      have ha := hl a (List.mem_cons_self ..)
      rw [f1, hr b (List.mem_cons_self ..)] at ha
      injection ha with ha
      rw [ha, ih f2 (fun k h => hl k (List.mem_cons_of_mem _ h)) (fun k h => hr k (List.mem_cons_of_mem _ h))]

/-- Contents are determined by the elements below. -/
theorem get_of_view {w : Node} (hu : w.Uniq) {n : Node} (hn : n.Uniq) (h : ∀ j ∈ n.ids, w.view j = n.view j) :
    w.get? n.id = some n := by
  induction n using Node.ind with
  | h i t a x ks ih =>
    have hself : (Node.mk i t a x ks).get? i = some (.mk i t a x ks) := Node.get?_mem hn (Node.self_mem_nodes _)
    have h0 := h i (Node.id_mem_ids _)
    have hv : (Node.mk i t a x ks).view i = some (Node.rec' (.mk i t a x ks)) := by unfold Node.view; rw [hself]; rfl
    rw [hv] at h0
    unfold Node.view at h0
    cases hm : w.get? i with
    | none => rw [hm] at h0; cases h0
    | some m =>
      rw [hm] at h0
      have h0 : m.rec' = Node.rec' (.mk i t a x ks) := by injection h0
      show w.get? i = _
      rw [hm]
      obtain ⟨m1, m2⟩ := Node.get?_some hm
      obtain ⟨mi, mt, ma, mx, mks⟩ := m
      have m2 : mi = i := m2
      have e1 : mt = t := congrArg Node.Rec.tag h0
      have e2 : ma = a := congrArg Node.Rec.attrs h0
      have e3 : mx = x := congrArg Node.Rec.text h0
      have e4 : mks.map Node.id = ks.map Node.id := congrArg Node.Rec.kids h0
      clear h0
      subst m2 e1 e2 e3
      have hk : ∀ k ∈ ks, w.get? k.id = some k := by
        intro k hk
        have hkn : k ∈ (Node.mk mi mt ma mx ks).nodes := Node.kid_mem_nodes hk
        refine ih k hk (Node.uniq_sub hn hkn) fun j hj => ?_
        obtain ⟨y, hy, rfl⟩ := List.mem_map.mp hj
        have hyn := Node.nodes_trans hkn hy
        rw [h _ (Node.mem_nodes_ids hyn)]
        unfold Node.view
        rw [Node.get?_mem hn hyn, Node.get?_mem (Node.uniq_sub hn hkn) hy]
      have hmk : ∀ k ∈ mks, w.get? k.id = some k := fun k hk => kid_get hu m1 hk
      rw [same_kids e4 hmk hk]

/-- The content of an element is what it was if everything below is. -/
theorem content_congr {s s' : Db} (hs : Inv s) (hs' : Inv s') {e : Nat} (h : ∀ j, Reach s.heap e j → s'.heap j = s.heap j)
    (he : e ∈ s.world.ids) : content s' e = content s e := by
  obtain ⟨n, hn⟩ := get_of_mem he
  obtain ⟨h1, rfl⟩ := Node.get?_some hn
  have hu := Node.uniq_sub hs.world.uniq h1
  unfold content
  rw [hn, get_of_view hs'.world.uniq hu]
  intro j hj
  have := h j ((reach_iff hs hn j).mpr hj)
  show s'.heap j = _
  rw [this]
  obtain ⟨y, hy, rfl⟩ := List.mem_map.mp hj
  unfold Db.heap Node.view
  rw [Node.get?_mem hs.world.uniq (Node.nodes_trans h1 hy), Node.get?_mem hu hy]

/-! ## A new element -/

theorem add_ok {s : Db} (hs : Inv s) {p : Nat} (hp : p ∈ s.world.ids) (x : Xml) :
    ∃ s', make p x s = (.ok s.next, s') ∧ Inv s' ∧ s' = { s with world := s'.world, next := s'.next } ∧
      Added s.heap s'.heap p s.next s'.next ∧ content s' s.next = some x := by
  obtain ⟨s', h1, h2, h3, h4⟩ := make_ok hs hp x
  have hlt : p < s.next := hs.bound p hp
  have hget : s'.world.get? s.next = some (Node.ofXml s.next x).1 := by
    have := get_of_view h2.world.uniq (Node.ofXml_uniq x s.next) (n := (Node.ofXml s.next x).1) ?_
    · rw [Node.ofXml_id] at this; exact this
    · intro j hj
      have := h4 j
      rw [if_pos (Node.ofXml_mem.mp hj).1] at this
      exact this
  have hn : s'.next = (Node.ofXml s.next x).2 := by rw [h3]
  refine ⟨s', h1, h2, by rw [hn]; exact h3, ⟨?_, ?_, fun j hj => hs.fresh hj, ?_⟩, ?_⟩
  · obtain ⟨r, hr⟩ := heap_some.mpr hp
    refine ⟨r, hr, ?_⟩
    rw [h4 p, if_neg (by omega), hr]
    simp
  · intro j hj hlt
    rw [h4 j, if_neg (by omega)]
    cases s.heap j with
    | none => rfl
    | some r => simp [hj]
  · intro j
    rw [reach_iff h2 hget, Node.ofXml_mem, hn]
  · unfold content
    rw [hget]
    show some (Node.ofXml s.next x).1.xml = _
    rw [Node.ofXml_xml]

variable {s s' : Db} {p n m : Nat}

/-- Which children there are after adding. -/
theorem added_kids (hs : Inv s) (h : Added s.heap s'.heap p n m) {b : Nat} (hb : b < n) :
    s'.heap.kids b = if b = p then s.heap.kids b ++ [n] else s.heap.kids b := by
  split
  · next e =>
    subst e
    obtain ⟨r, h1, h2⟩ := h.here
    unfold Heap.kids
    rw [h1, h2]
    rfl
  · next e => exact kids_congr (h.other b e hb)

theorem added_lt (hs : Inv s) (h : Added s.heap s'.heap p n m) {j : Nat} {r : Node.Rec} (hr : s.heap j = some r) : j < n := by
  refine Nat.lt_of_not_le fun hle => ?_
  rw [h.fresh j hle] at hr
  cases hr

theorem added_p (hs : Inv s) (h : Added s.heap s'.heap p n m) : p < n := by
  obtain ⟨r, h1, _⟩ := h.here
  exact added_lt hs h h1

/-- Children of old elements are old, apart from the new one. -/
theorem added_old_kid (hs : Inv s) (h : Added s.heap s'.heap p n m) {b c : Nat} (hb : b < n) (hc : c ∈ s'.heap.kids b) :
    c ∈ s.heap.kids b ∨ (c = n ∧ b = p) := by
  rw [added_kids hs h hb] at hc
  split at hc
  · next e =>
    rcases List.mem_append.mp hc with hc | hc
    · exact .inl hc
    · exact .inr ⟨List.mem_singleton.mp hc, e⟩
  · exact .inl hc

theorem added_n (hs : Inv s) (h : Added s.heap s'.heap p n m) : n ∈ s'.heap.kids p := by
  rw [added_kids hs h (added_p hs h), if_pos rfl]
  simp

/-- Parts of the new element are new. -/
theorem added_new_kid (hs : Inv s) (hs' : Inv s') (h : Added s.heap s'.heap p n m) (hm : s'.next = m) {b c : Nat} (hb : n ≤ b)
    (hc : c ∈ s'.heap.kids b) : n ≤ c := by
  have hbm : b < m := by rw [← hm]; exact hs'.bound b (kid_mem hs' hc).2
  exact ((h.below c).mp (.snoc ((h.below b).mpr ⟨hb, hbm⟩) hc)).1

theorem added_reach_new (hs : Inv s) (hs' : Inv s') (h : Added s.heap s'.heap p n m) (hm : s'.next = m) {a j : Nat}
    (hr : Reach s'.heap a j) (ha : n ≤ a) : n ≤ j := by
  induction hr with
  | refl => exact ha
  | snoc _ hk ih => exact added_new_kid hs hs' h hm ih hk

/-- Old elements are below one another as before. -/
theorem added_reach_old (hs : Inv s) (hs' : Inv s') (h : Added s.heap s'.heap p n m) (hm : s'.next = m) {a j : Nat}
    (hj : j < n) : Reach s'.heap a j ↔ Reach s.heap a j := by
  constructor
  · intro hr
    induction hr with
    | refl => exact .refl
    | @snoc b c hr hk ih =>
      by_cases hb : b < n
      · rcases added_old_kid hs h hb hk with hk | ⟨e, _⟩
        · exact .snoc (ih hb) hk
        · omega
      · have := added_new_kid hs hs' h hm (Nat.le_of_not_lt hb) hk
        omega
  · intro hr
    induction hr with
    | refl => exact .refl
    | @snoc b c hr hk ih =>
      have hb : b < n := by
        obtain ⟨r, hr⟩ := heap_some.mpr (kid_mem hs hk).2
        exact added_lt hs h hr
      refine .snoc (ih hb) ?_
      rw [added_kids hs h hb]
      split
      · exact List.mem_append_left _ hk
      · exact hk

theorem added_reach_mixed (hs : Inv s) (hs' : Inv s') (h : Added s.heap s'.heap p n m) (hm : s'.next = m) {a j : Nat} (ha : a < n)
    (hj : n ≤ j) : Reach s'.heap a j ↔ Reach s.heap a p ∧ j < m := by
  constructor
  · intro hr
    induction hr with
    | refl => omega
    | @snoc b c hr hk ih =>
      have hcm : c < m := by rw [← hm]; exact hs'.bound c (kid_mem hs' hk).1
      by_cases hb : b < n
      · rcases added_old_kid hs h hb hk with hk' | ⟨_, e⟩
        · have := (kid_mem hs hk').1
          obtain ⟨r, hr⟩ := heap_some.mpr this
          have := added_lt hs h hr
          omega
        · subst e
          exact ⟨(added_reach_old hs hs' h hm hb).mp hr, hcm⟩
      · exact ⟨(ih (Nat.le_of_not_lt hb)).1, hcm⟩
  · rintro ⟨hr, hjm⟩
    have h1 := (added_reach_old hs hs' h hm (added_p hs h)).mpr hr
    exact (Reach.snoc h1 (added_n hs h)).trans ((h.below j).mpr ⟨hj, hjm⟩)

theorem added_doc (hs : Inv s) (hs' : Inv s') (h : Added s.heap s'.heap p n m) (hp : p ≠ 0) : docEl s'.heap = docEl s.heap := by
  unfold docEl
  obtain ⟨r, h1, _⟩ := hs.root
  rw [added_kids hs h (added_lt hs h h1), if_neg (Ne.symm hp)]

theorem doc_lt (hs : Inv s) (h : Added s.heap s'.heap p n m) {d : Nat} (hd : docEl s.heap = some d) : d < n := by
  obtain ⟨d', h1, h2⟩ := doc_some hs
  rw [hd] at h1
  injection h1 with h1
  subst h1
  obtain ⟨r, hr⟩ := heap_some.mpr (kid_mem hs h2).1
  exact added_lt hs h hr

theorem added_inDoc (hs : Inv s) (hs' : Inv s') (h : Added s.heap s'.heap p n m) (hm : s'.next = m) (hp : p ≠ 0) (j : Nat) :
    InDoc s'.heap j ↔ InDoc s.heap j ∨ (InDoc s.heap p ∧ n ≤ j ∧ j < m) := by
  unfold InDoc
  rw [added_doc hs hs' h hp]
  constructor
  · rintro ⟨d, h1, h2⟩
    by_cases hj : j < n
    · exact .inl ⟨d, h1, (added_reach_old hs hs' h hm hj).mp h2⟩
    · have hj := Nat.le_of_not_lt hj
      obtain ⟨a, b⟩ := (added_reach_mixed hs hs' h hm (doc_lt hs h h1) hj).mp h2
      exact .inr ⟨⟨d, h1, a⟩, hj, b⟩
  · rintro (⟨d, h1, h2⟩ | ⟨⟨d, h1, h2⟩, h3, h4⟩)
    · have hj : j < n := by
        obtain ⟨r, hr⟩ := heap_some.mpr (inDoc_mem hs ⟨d, h1, h2⟩).1
        exact added_lt hs h hr
      exact ⟨d, h1, (added_reach_old hs hs' h hm hj).mpr h2⟩
    · exact ⟨d, h1, (added_reach_mixed hs hs' h hm (doc_lt hs h h1) h3).mpr ⟨h2, h4⟩⟩

theorem added_tag (hs : Inv s) (h : Added s.heap s'.heap p n m) {j : Nat} (hj : j < n) : s'.heap.tag j = s.heap.tag j := by
  by_cases e : j = p
  · subst e
    obtain ⟨r, h1, h2⟩ := h.here
    unfold Heap.tag; rw [h1, h2]; rfl
  · exact tag_congr (h.other j e hj)

theorem added_text (hs : Inv s) (h : Added s.heap s'.heap p n m) {j : Nat} (hj : j < n) : s'.heap.text j = s.heap.text j := by
  by_cases e : j = p
  · subst e
    obtain ⟨r, h1, h2⟩ := h.here
    unfold Heap.text; rw [h1, h2]; rfl
  · exact text_congr (h.other j e hj)

theorem added_attr (hs : Inv s) (h : Added s.heap s'.heap p n m) {j : Nat} (hj : j < n) (a : Str) :
    s'.heap.attr j a = s.heap.attr j a := by
  by_cases e : j = p
  · subst e
    obtain ⟨r, h1, h2⟩ := h.here
    unfold Heap.attr; rw [h1, h2]; rfl
  · exact attr_congr (h.other j e hj) a

theorem added_hist_old (hs : Inv s) (hs' : Inv s') (h : Added s.heap s'.heap p n m) (hm : s'.next = m) {j : Nat} (hj : j < n) :
    InHist s'.heap j ↔ InHist s.heap j := by
  constructor
  · rintro ⟨k, h1, h2, h3⟩
    have hk : k < n := by
      refine Nat.lt_of_not_le fun hle => ?_
      have := added_reach_new hs hs' h hm h3 hle
      omega
    exact ⟨k, by rw [← added_tag hs h hk]; exact h1, h2, (added_reach_old hs hs' h hm hj).mp h3⟩
  · rintro ⟨k, h1, h2, h3⟩
    have hk : k < n := by
      obtain ⟨r, hr⟩ := heap_some.mpr (tag_mem (s := s) (i := k) (by rw [h1]; decide))
      exact added_lt hs h hr
    exact ⟨k, by rw [added_tag hs h hk]; exact h1, h2, (added_reach_old hs hs' h hm hj).mpr h3⟩

/-- The new element is in history only if its parent is. -/
theorem added_hist_new (hs : Inv s) (hs' : Inv s') (h : Added s.heap s'.heap p n m) (hm : s'.next = m)
    (hp : s.heap.tag p ≠ "History".toList) (hh : ¬ InHist s.heap p) : ¬ InHist s'.heap n := by
  rintro ⟨k, h1, h2, h3⟩
  have hk : k < n := by
    refine Nat.lt_of_not_le fun hle => ?_
    rcases reach_kid_up hs' h3 (added_n hs h) with e | hr
    · exact h2 e
    · have := added_reach_new hs hs' h hm hr hle
      have := added_p hs h
      omega
  have hr := ((added_reach_mixed hs hs' h hm hk (Nat.le_refl n)).mp h3).1
  rw [added_tag hs h hk] at h1
  by_cases e : k = p
  · subst e; exact hp h1
  · exact hh ⟨k, h1, e, hr⟩

end Verif.Api
