import Verif.Api.SearchApi
import Verif.Api.BinaryLemmas
/-!
# Attachments as the searches see them
-/
namespace Verif.Spec
open Verif Api

/-- The attachments of an element: its `Binary` children that have a name. -/
def attsOf (h : Heap) (e : Nat) : List Nat := (h.all e "Binary".toList).filter fun b => !(h.all b "Key".toList).isEmpty

/-- The engine accepts every text for the pattern `.*`. -/
def MatchesAll (re : XPath.Regex) : Prop := ∃ f, re ".*".toList false = some f ∧ ∀ t, f t = true

/-- Elements taken from their parents, in order; nothing else changed. -/
def Dropped (h h' : Heap) (D : List Nat) : Prop :=
  ∀ j, h' j = (h j).map fun r => { r with kids := if j = 0 then r.kids ++ D else r.kids.filter fun k => !D.contains k }

end Verif.Spec

namespace Verif.Api
open Verif XPath Spec

theorem ids_sublist_kids (ks : List Node) : (ks.map Node.id).Sublist (ks.flatMap Node.ids) := by
  induction ks with
  | nil => exact .slnil
  | cons k ks ih =>
    rw [List.map_cons, List.flatMap_cons, Node.ids_eq, List.cons_append]
    exact (List.Sublist.trans ih (List.sublist_append_right _ _)).cons_cons _

theorem mem_sublist_flatMap {α β} {l : List α} {f : α → List β} {a : α} (h : a ∈ l) : (f a).Sublist (l.flatMap f) := by
  induction l with
  | nil => cases h
  | cons b l ih =>
    rw [List.flatMap_cons]
    rcases List.mem_cons.mp h with rfl | h
    · exact List.sublist_append_left _ _
    · exact (ih h).trans (List.sublist_append_right _ _)

theorem ids_sublist {n : Node} : ∀ {x : Node}, x ∈ n.nodes → x.ids.Sublist n.ids := by
  induction n using Node.ind with
  | h i t a x ks ih =>
    intro y hy
    rw [Node.nodes_eq] at hy
    rcases List.mem_cons.mp hy with rfl | hy
    · exact List.Sublist.refl _
    · obtain ⟨k, hk, hy⟩ := List.mem_flatMap.mp hy
      rw [Node.ids_eq (.mk i t a x ks)]
      exact ((ih k hk hy).trans (mem_sublist_flatMap hk)).cons _

/-- Children are listed in document order. -/
theorem kids_ordered (s : Db) (e : Nat) : (s.heap.kids e).Sublist s.world.ids := by
  cases hn : s.world.get? e with
  | none =>
    have : s.heap.kids e = [] := by unfold Heap.kids Db.heap Node.view; rw [hn]; rfl
    rw [this]
    exact List.nil_sublist _
  | some n =>
    obtain ⟨hm, _⟩ := Node.get?_some hn
    rw [node_kids hn]
    have : n.ids = n.id :: n.kids.flatMap Node.ids := Node.ids_eq n
    exact (((ids_sublist_kids n.kids).trans (this ▸ List.sublist_cons_self _ _)).trans (ids_sublist hm))

theorem holds_filename {T : Test} {x : Node} {v : Str} :
    KwHolds attachmentPlace T x (.attr "filename".toList (some v)) ↔ HasValue T x (.sub ["Key".toList]) v := by
  have hp : attachmentPlace "filename".toList = some (.sub ["Key".toList]) := by decide
  constructor
  · rintro ⟨p, h1, h2⟩
    rw [hp] at h1
    injection h1 with h1
    rw [h1]
    exact h2
  · exact fun h => ⟨_, hp, h⟩

theorem holds_id {T : Test} {x : Node} {v : Str} :
    KwHolds attachmentPlace T x (.attr "id".toList (some v)) ↔ HasValue T x .ref v := by
  have hp : attachmentPlace "id".toList = some .ref := by decide
  constructor
  · rintro ⟨p, h1, h2⟩
    rw [hp] at h1
    injection h1 with h1
    rw [h1]
    exact h2
  · exact fun h => ⟨_, hp, h⟩

theorem plain_noFlags : Plain (flagsStr none) := by decide

theorem cast_binary {s : Db} (hs : Inv s) {l : Loc} (hl : l ∈ allLocs s.world) (ht : l.node.tag = "Binary".toList) {p : Nat}
    (hk : l.node.id ∈ s.heap.kids p) (hp : s.heap.tag p = "Entry".toList) : castOk l = .ok () := by
  have hp0 : p ≠ 0 := by rintro rfl; rw [hs.zero_tag] at hp; exact absurd hp (by decide)
  have top : ∀ k ∈ s.world.kids, l.node.id = k.id → False := by
    intro k hk' e
    refine hp0 (parent_eq hs hk ?_)
    rw [node_kids (world_get hs), e]
    exact List.mem_map_of_mem hk'
  unfold castOk
  rw [if_neg (by rw [ht]; decide), if_neg (by rw [ht]; decide), if_pos ht]
  cases ha : l.anc with
  | nil =>
    exfalso
    rcases mem_allLocs.mp hl with h | ⟨k, hk', h⟩
    · rcases locs_parent h with h | ⟨q, r, h, _⟩
      · rw [h] at ht; exact absurd ht (by show ([] : Str) ≠ _; decide)
      · rw [ha] at h; cases h
    · rcases locs_parent h with h | ⟨q, r, h, _⟩
      · exact top k (List.mem_of_mem_drop hk') (by rw [h])
      · rw [ha] at h; cases h
  | cons q r =>
    obtain ⟨h1, h2⟩ := allLocs_parent hl ha
    have hq0 : q.id ≠ 0 := by
      intro e
      have : (⟨q, r⟩ : Loc) = ⟨docNode s.world, []⟩ := allLocs_inj hs.world h1 (docNode_mem _) (by rw [e]; rfl)
      have hq : q = docNode s.world := congrArg Loc.node this
      rw [hq] at h2
      exact top l.node (List.mem_of_mem_take h2) rfl
    have hqm : q ∈ s.world.nodes := (allLocs_node h1).resolve_left hq0
    have hqg := Node.get?_mem hs.world.uniq hqm
    have : p = q.id := by
      refine parent_eq hs hk ?_
      rw [node_kids hqg]
      exact List.mem_map_of_mem h2
    subst this
    show (if q.id = 0 then _ else if q.tag = "Entry".toList then _ else _) = _
    rw [if_neg hq0, if_pos (by rw [← node_tag hqg]; exact hp)]

/-- `entry.attachments` of a current entry: its named `Binary` children, in order. -/
theorem entryAttachments_run (env : Env) {s : Db} (hs : Inv s) {e : Nat} (ht : s.heap.tag e = "Entry".toList)
    (hh : ¬ InHist s.heap e) (hre : MatchesAll env.re) : entryAttachments env e s = (.ok (attsOf s.heap e), s) := by
  have hm : e ∈ s.world.ids := tag_mem (by rw [ht]; decide)
  have h0 : e ≠ 0 := by rintro rfl; rw [hs.zero_tag] at ht; exact absurd ht (by decide)
  obtain ⟨n, hn⟩ := get_of_mem hm
  obtain ⟨hnm, rfl⟩ := Node.get?_some hn
  obtain ⟨f, hf1, hf2⟩ := hre
  let a : FindArgs := { tree := some n.id, regex := true, kwargs := [.attr "filename".toList (some ".*".toList)] }
  have hko : ∀ k ∈ a.kwargs, KwOk .attachment k := by
    intro k hk
    rw [List.mem_singleton.mp hk]
    exact ⟨rfl, by decide⟩
  have hsc : ∀ x : Node, InScope s.world false a.tree x → x ∈ n.kids := by
    rintro x ⟨m, h1, h2, h3⟩
    rw [← Node.uniq_mem hs.world.uniq h1 hnm h2]
    exact h3
  obtain ⟨r, hr⟩ := find_ok (K := .attachment) (re := env.re) (recursive := false) hs.world (a := a) rfl (by simpa [a] using h0)
    (fun _ => plain_noFlags) hko
    (by intro k hk; rw [List.mem_singleton.mp hk]; intro _
        show (env.re ".*".toList false).isSome = true
        rw [hf1]; rfl)
    (by
      intro l hl hM
      refine cast_binary hs hl hM.tag (p := n.id) ?_ ht
      rw [node_kids hn]
      exact List.mem_map_of_mem (hsc _ hM.scope))
  obtain ⟨is, rfl, hsub, hmem⟩ := find_partial hs.world rfl (by simpa [a] using h0) (fun _ => plain_noFlags) hko hr
  have hfe : entryAttachments env n.id s = (.ok is, s) := by
    unfold entryAttachments
    rw [findAttachments_eq, hr]
    rfl
  rw [hfe]
  suffices h : is = attsOf s.heap n.id by rw [h]
  refine sublist_unique hs.world.uniq hsub ((List.filter_sublist).trans ((List.filter_sublist).trans (kids_ordered s n.id))) ?_
  intro i
  rw [hmem i]
  unfold attsOf
  rw [List.mem_filter]
  constructor
  · rintro ⟨x, hx, rfl, hM⟩
    have hxk := hsc _ hM.scope
    refine ⟨?_, ?_⟩
    · rw [node_all hs hnm]
      exact List.mem_map_of_mem (List.mem_filter.mpr ⟨hxk, by rw [beq_iff_eq]; exact hM.tag⟩)
    · obtain ⟨t, h2, _⟩ := holds_filename.mp (hM.filters _ (List.mem_singleton.mpr rfl))
      obtain ⟨y, h3, _⟩ := List.mem_map.mp h2
      rw [mem_descend_one] at h3
      rw [node_all hs hx]
      have : y ∈ x.kids.filter fun k => k.tag == "Key".toList := List.mem_filter.mpr ⟨h3.1, by rw [beq_iff_eq]; exact h3.2⟩
      cases hl : x.kids.filter fun k => k.tag == "Key".toList with
      | nil => rw [hl] at this; cases this
      | cons => rfl
  · rintro ⟨h1, h2⟩
    rw [node_all hs hnm] at h1
    obtain ⟨x, hx, rfl⟩ := List.mem_map.mp h1
    obtain ⟨hxk, hxt⟩ := List.mem_filter.mp hx
    rw [beq_iff_eq] at hxt
    have hxm := Node.nodes_trans hnm (Node.kid_mem_nodes hxk)
    refine ⟨x, hxm, rfl, ⟨⟨n, hnm, rfl, hxk⟩, hxt, ?_, ?_⟩⟩
    · intro _ hc
      obtain ⟨k, g1, g2, g3⟩ := (hist_iff hs hxm).mp hc
      have hxn : x.id ∈ s.heap.kids n.id := by rw [node_kids hn]; exact List.mem_map_of_mem hxk
      rcases reach_kid_up hs g3 hxn with g | g
      · exact g2 g
      · by_cases e : k = n.id
        · rw [e, ht] at g1; exact absurd g1 (by decide)
        · exact hh ⟨k, g1, e, g⟩
    · intro k hk
      rw [List.mem_singleton.mp hk]
      rw [node_all hs hxm] at h2
      cases hl : x.kids.filter fun k => k.tag == "Key".toList with
      | nil => rw [hl] at h2; cases h2
      | cons y ys =>
        have hy : y ∈ x.kids.filter fun k => k.tag == "Key".toList := by rw [hl]; exact List.mem_cons_self ..
        obtain ⟨y1, y2⟩ := List.mem_filter.mp hy
        rw [beq_iff_eq] at y2
        refine holds_filename.mpr ⟨y.text, List.mem_map_of_mem (mem_descend_one.mpr ⟨y1, y2⟩), ?_⟩
        exact ⟨f, hf1, hf2 _⟩

/-- `attachments` of an entry in the history finds nothing. -/
theorem entryAttachments_hist (env : Env) {s : Db} (hs : Inv s) {e : Nat} (he : e ∈ s.world.ids) (h0 : e ≠ 0)
    (hh : InHist s.heap e) (hre : MatchesAll env.re) : entryAttachments env e s = (.ok [], s) := by
  obtain ⟨n, hn⟩ := get_of_mem he
  obtain ⟨hnm, rfl⟩ := Node.get?_some hn
  obtain ⟨f, hf1, hf2⟩ := hre
  let a : FindArgs := { tree := some n.id, regex := true, kwargs := [.attr "filename".toList (some ".*".toList)] }
  have hko : ∀ k ∈ a.kwargs, KwOk .attachment k := by
    intro k hk
    rw [List.mem_singleton.mp hk]
    exact ⟨rfl, by decide⟩
  have none : ∀ x ∈ s.world.nodes, ¬ Matches Kind.attachment.tag Kind.attachment.place env.re s.world false a x := by
    intro x hx hM
    obtain ⟨m, h1, h2, h3⟩ := hM.scope
    rw [Node.uniq_mem hs.world.uniq h1 hnm h2] at h3
    refine hM.history rfl ((hist_iff hs hx).mpr ?_)
    obtain ⟨k, g1, g2, g3⟩ := hh
    have hxn : x.id ∈ s.heap.kids n.id := by rw [node_kids hn]; exact List.mem_map_of_mem h3
    refine ⟨k, g1, ?_, .snoc g3 hxn⟩
    rintro rfl
    exact no_cycle hs hxn g3
  obtain ⟨r, hr⟩ := find_ok (K := .attachment) (re := env.re) (recursive := false) hs.world (a := a) rfl (by simpa [a] using h0)
    (fun _ => plain_noFlags) hko
    (by intro k hk; rw [List.mem_singleton.mp hk]; intro _
        show (env.re ".*".toList false).isSome = true
        rw [hf1]; rfl)
    (by
      intro l hl hM
      rcases allLocs_node hl with h | h
      · have : l = ⟨docNode s.world, []⟩ := allLocs_inj hs.world hl (docNode_mem _) (by rw [h]; rfl)
        have ht := hM.tag
        rw [this] at ht
        exact absurd ht (by show ([] : Str) ≠ _; decide)
      · exact absurd hM (none _ h))
  obtain ⟨is, rfl, hsub, hmem⟩ := find_partial hs.world rfl (by simpa [a] using h0) (fun _ => plain_noFlags) hko hr
  have hfe : entryAttachments env n.id s = (.ok is, s) := by
    unfold entryAttachments
    rw [findAttachments_eq, hr]
    rfl
  rw [hfe]
  cases is with
  | nil => rfl
  | cons i is =>
    obtain ⟨x, hx, _, hM⟩ := (hmem i).mp (List.mem_cons_self ..)
    exact absurd hM (none x hx)

/-! ## Deleting several elements -/

theorem filter_all_true {α} {l : List α} {p : α → Bool} (h : ∀ a ∈ l, p a = true) : l.filter p = l := List.filter_eq_self.mpr h

theorem dropped_one {s : Db} (hs : Inv s) {h' : Heap} {p a : Nat} (hp : p ≠ 0) (hk : a ∈ s.heap.kids p) (h : Moved s.heap h' a 0) :
    Dropped s.heap h' [a] := by
  intro j
  rw [h j]
  cases hr : s.heap j with
  | none => rfl
  | some r =>
    simp only [Option.map_some]
    congr 2
    by_cases e : j = 0
    · subst e
      rw [if_pos rfl, if_pos rfl]
      congr 1
      apply filter_all_true
      intro c hc
      rw [bne_iff_ne]
      rintro rfl
      refine hp (parent_eq hs hk ?_)
      unfold Heap.kids
      rw [hr]
      exact hc
    · rw [if_neg e, if_neg e]
      apply List.filter_congr
      intro c _
      by_cases e : c = a <;> simp [bne, e]

theorem deleteAll_ok {D : List Nat} : ∀ {s : Db}, Inv s → D.Nodup → (∀ d ∈ D, ∃ p, p ≠ 0 ∧ d ∈ s.heap.kids p) →
    ∃ s', deleteAll D s = (.ok (), s') ∧ Inv s' ∧ s' = { s with world := s'.world } ∧ Dropped s.heap s'.heap D := by
  induction D with
  | nil =>
    intro s hs _ _
    refine ⟨s, rfl, hs, rfl, fun j => ?_⟩
    cases hr : s.heap j with
    | none => rfl
    | some r =>
      simp only [Option.map_some]
      congr 2
      split
      · rw [List.append_nil]
      · rw [filter_all_true (p := fun k => !([] : List Nat).contains k) fun _ _ => rfl]
  | cons d D ih =>
    intro s hs hn hp
    obtain ⟨p, p0, pk⟩ := hp d (List.mem_cons_self ..)
    obtain ⟨s1, h1, h2, h3, h4⟩ := delete_ok hs p0 pk
    have h5 := dropped_one hs p0 pk h4
    rw [List.nodup_cons] at hn
    obtain ⟨s2, g1, g2, g3, g4⟩ := ih h2 hn.2 (by
      intro x hx
      obtain ⟨q, q0, qk⟩ := hp x (List.mem_cons_of_mem _ hx)
      refine ⟨q, q0, (moved_kids_mem h4 (by obtain ⟨r, hr, _⟩ := hs.root; exact ⟨r, hr⟩) q x).mpr (.inl ⟨?_, qk⟩)⟩
      rintro rfl
      exact hn.1 hx)
    refine ⟨s2, ?_, g2, by rw [g3, h3], ?_⟩
    · rw [deleteAll, bind_of h1]
      exact g1
    · intro j
      rw [g4 j, h5 j]
      cases hr : s.heap j with
      | none => rfl
      | some r =>
        simp only [Option.map_some]
        congr 2
        by_cases e : j = 0
        · rw [if_pos e, if_pos e, if_pos e, List.append_assoc]
          rfl
        · rw [if_neg e, if_neg e, if_neg e, List.filter_filter]
          apply List.filter_congr
          intro c _
          by_cases c1 : c = d <;> by_cases c2 : c ∈ D <;> simp [c1, c2]

section
variable {s s' : Db} {D : List Nat}

theorem dropped_tag (h : Dropped s.heap s'.heap D) (j : Nat) : s'.heap.tag j = s.heap.tag j := by
  unfold Heap.tag; rw [h j]; cases s.heap j <;> rfl

theorem dropped_text (h : Dropped s.heap s'.heap D) (j : Nat) : s'.heap.text j = s.heap.text j := by
  unfold Heap.text; rw [h j]; cases s.heap j <;> rfl

theorem dropped_attr (h : Dropped s.heap s'.heap D) (j : Nat) (k : Str) : s'.heap.attr j k = s.heap.attr j k := by
  unfold Heap.attr; rw [h j]; cases s.heap j <;> rfl

theorem dropped_kids (h : Dropped s.heap s'.heap D) {j : Nat} (hj : j ≠ 0) :
    s'.heap.kids j = (s.heap.kids j).filter fun k => !D.contains k := by
  unfold Heap.kids; rw [h j]
  cases s.heap j with
  | none => rfl
  | some r => simp only [Option.map_some, if_neg hj]; rfl

theorem dropped_root (hs : Inv s) (h : Dropped s.heap s'.heap D) : s'.heap.kids 0 = s.heap.kids 0 ++ D := by
  obtain ⟨r, hr, _⟩ := hs.root
  unfold Heap.kids
  rw [h 0, hr]
  rfl

theorem dropped_all (h : Dropped s.heap s'.heap D) {j : Nat} (hj : j ≠ 0) (t : Str) :
    s'.heap.all j t = (s.heap.all j t).filter fun k => !D.contains k := by
  unfold Heap.all
  rw [dropped_kids h hj, List.filter_filter, List.filter_filter]
  apply List.filter_congr
  intro k _
  rw [dropped_tag h, Bool.and_comm]

/-- Nothing with another tag is dropped. -/
theorem dropped_all_other (h : Dropped s.heap s'.heap D) {j : Nat} (hj : j ≠ 0) {t : Str} (ht : ∀ d ∈ D, s.heap.tag d ≠ t) :
    s'.heap.all j t = s.heap.all j t := by
  rw [dropped_all h hj]
  apply filter_all_true
  intro k hk
  rw [Bool.not_eq_true', List.contains_eq_mem, decide_eq_false_iff_not]
  exact fun hd => ht k hd (all_sub hk).2

theorem dropped_doc (hs : Inv s) (h : Dropped s.heap s'.heap D) : docEl s'.heap = docEl s.heap := by
  obtain ⟨d, h1, h2⟩ := doc_some hs
  unfold docEl
  rw [dropped_root hs h]
  cases hk : s.heap.kids 0 with
  | nil => rw [hk] at h2; cases h2
  | cons => rfl

theorem dropped_metaEls (hs : Inv s) (h : Dropped s.heap s'.heap D) (t : Str) (ht : ∀ d ∈ D, s.heap.tag d = "Binary".toList)
    (htt : t ≠ "Binary".toList) : metaEls s'.heap t = metaEls s.heap t := by
  unfold metaEls
  obtain ⟨d, h1, h2⟩ := doc_some hs
  have e : (s'.heap.kids 0).take 1 = (s.heap.kids 0).take 1 := by
    rw [dropped_root hs h]
    cases hk : s.heap.kids 0 with
    | nil => rw [hk] at h2; cases h2
    | cons => rfl
  rw [e]
  apply flatMap_same
  intro k hk
  have hk0 : k ≠ 0 := kid_ne_zero hs (List.mem_of_mem_take hk)
  rw [dropped_tag h, dropped_all_other h hk0 fun d hd => by rw [ht d hd]; decide]
  split
  · apply flatMap_same
    intro m hm
    exact dropped_all_other h (kid_ne_zero hs (all_sub hm).1) fun d hd => by rw [ht d hd]; exact Ne.symm htt
  · rfl

theorem dropped_reach (hs : Inv s) (h : Dropped s.heap s'.heap D) {a j : Nat} (ha : a ≠ 0) (hr : Reach s'.heap a j) : Reach s.heap a j := by
  induction hr with
  | refl => exact .refl
  | @snoc b c _ hk ih =>
    have hb : b ≠ 0 := by rintro rfl; exact ha (reach_zero hs ih)
    rw [dropped_kids h hb] at hk
    exact .snoc ih (List.mem_filter.mp hk).1

/-- What stays in the document: what is not below a dropped element. -/
theorem dropped_inDoc (hs : Inv s) (h : Dropped s.heap s'.heap D) (hp : ∀ d ∈ D, ∃ p, p ≠ 0 ∧ d ∈ s.heap.kids p) (j : Nat) :
    InDoc s'.heap j ↔ InDoc s.heap j ∧ ∀ d ∈ D, ¬ Reach s.heap d j := by
  obtain ⟨e, he, hek⟩ := doc_some hs
  have he0 : e ≠ 0 := kid_ne_zero hs hek
  have hfree : ∀ d ∈ D, ¬ Reach s.heap d e := by
    intro d hd hr
    obtain ⟨p, p0, pk⟩ := hp d hd
    rcases reach_kid_up hs hr hek with rfl | hr
    · exact p0 (parent_eq hs pk hek)
    · exact kid_ne_zero hs pk (reach_zero hs hr)
  unfold InDoc
  rw [dropped_doc hs h, he]
  constructor
  · rintro ⟨_, ⟨⟩, hr⟩
    refine ⟨⟨e, rfl, dropped_reach hs h he0 hr⟩, ?_⟩
    clear hek
    induction hr with
    | refl => exact hfree
    | @snoc b c hb hk ih =>
      have hb0 : b ≠ 0 := by rintro rfl; exact he0 (reach_zero hs (dropped_reach hs h he0 hb))
      rw [dropped_kids h hb0] at hk
      obtain ⟨k1, k2⟩ := List.mem_filter.mp hk
      rw [Bool.not_eq_true', List.contains_eq_mem, decide_eq_false_iff_not] at k2
      intro d hd hr
      rcases reach_kid_up hs hr k1 with rfl | hr
      · exact k2 hd
      · exact ih d hd hr
  · rintro ⟨⟨_, ⟨⟩, hr⟩, hf⟩
    refine ⟨e, rfl, ?_⟩
    clear hek
    induction hr with
    | refl => exact .refl
    | @snoc b c hb hk ih =>
      have hb0 : b ≠ 0 := by rintro rfl; exact he0 (reach_zero hs hb)
      refine .snoc (ih fun d hd hr => hf d hd (.snoc hr hk)) ?_
      rw [dropped_kids h hb0, List.mem_filter]
      refine ⟨hk, ?_⟩
      rw [Bool.not_eq_true', List.contains_eq_mem, decide_eq_false_iff_not]
      exact fun hd => hf c hd .refl

/-- Dropping attachments leaves the binaries the same. -/
theorem dropped_binaries (env : Env) (hs : Inv s) (hs' : Inv s') (hv : s'.version = s.version ∧ s'.binaries = s.binaries)
    (h : Dropped s.heap s'.heap D) (ht : ∀ d ∈ D, s.heap.tag d = "Binary".toList)
    (hp : ∀ d ∈ D, ∃ p, d ∈ s.heap.kids p ∧ s.heap.tag p = "Entry".toList) : (binaries env s').1 = (binaries env s).1 := by
  cases h4 : versionGe4 s.version with
  | true => rw [binaries_four env h4, binaries_four env (by rw [hv.1]; exact h4), hv.2]
  | false =>
    rw [binaries_three env hs h4, binaries_three env hs' (by rw [hv.1]; exact h4)]
    have e1 : binEls s'.heap = binEls s.heap := by
      unfold binEls
      rw [dropped_metaEls hs h _ ht (by decide)]
      apply flatMap_same
      intro el hel
      obtain ⟨g1, g2⟩ := metaEls_mem hs hel
      have h0 : el ≠ 0 := by rintro rfl; rw [hs.zero_tag] at g2; exact absurd g2 (by decide)
      rw [dropped_all h h0]
      apply filter_all_true
      intro k hk
      rw [Bool.not_eq_true', List.contains_eq_mem, decide_eq_false_iff_not]
      intro hd
      obtain ⟨p, p1, p2⟩ := hp k hd
      rw [parent_eq hs p1 (all_sub hk).1, g2] at p2
      exact absurd p2 (by decide)
    rw [e1]
    have : ∀ (l : List Nat) (acc : List Bytes), binariesLoop env s'.heap l acc = binariesLoop env s.heap l acc := by
      intro l
      induction l with
      | nil => intro acc; rfl
      | cons i l ih =>
        intro acc
        have ed : binaryData env s'.heap i = binaryData env s.heap i := by
          unfold binaryData
          rw [dropped_text h, dropped_attr h]
        have ei : binaryId s'.heap i = binaryId s.heap i := by
          unfold binaryId
          rw [dropped_attr h]
        rw [binariesLoop, binariesLoop, ed, ei]
        congr 1
        funext d
        congr 1
        funext n
        exact ih _
    exact this _ _
end

end Verif.Api
