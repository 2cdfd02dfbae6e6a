import Verif.Props.C73_SearchCards
import Verif.Api.AttachLemmas
import Verif.Props.C77_Whole
/-!
# C73: searching attachments, said with cards
-/
namespace Verif.Props
open Verif XPath Spec Api

variable {s : Db}

/-! ## Scope -/

theorem scope_elem (hs : Sound s) {g : Nat} (hm : g ∈ s.world.ids) {x : Node} (hx : x ∈ s.world.nodes) :
    (InScope s.world true (some g) x ↔ x.id ≠ g ∧ Reach s.heap g x.id) ∧ (InScope s.world false (some g) x ↔ x.id ∈ s.heap.kids g) := by
  obtain ⟨n, hn⟩ := get_of_mem hm
  obtain ⟨hn', rfl⟩ := Node.get?_some hn
  constructor
  · constructor
    · rintro ⟨m, h1, h2, h3⟩
      rw [Node.uniq_mem hs.inv.world.uniq h1 hn' h2] at h3
      exact (below_iff hs.inv hn' hx).mp h3
    · intro h
      exact ⟨n, hn', rfl, (below_iff hs.inv hn' hx).mpr h⟩
  · rw [node_kids hn]
    constructor
    · rintro ⟨m, h1, h2, h3⟩
      rw [Node.uniq_mem hs.inv.world.uniq h1 hn' h2] at h3
      exact List.mem_map.mpr ⟨x, h3, rfl⟩
    · intro h
      obtain ⟨k, k1, k2⟩ := List.mem_map.mp h
      refine ⟨n, hn', rfl, ?_⟩
      rw [← Node.uniq_mem hs.inv.world.uniq (Node.nodes_trans hn' (Node.kid_mem_nodes k1)) hx k2]
      exact k1

/-- Entries below an entry are in its history or in that of such a one. -/
theorem older_of (hs : Sound s) {x y : Nat} (hx : s.heap.tag x = "Entry".toList) (hr : Reach s.heap x y) :
    (s.heap.tag y = "Entry".toList → (vaultOf s).Older x y) ∧
    (s.heap.tag y = "History".toList → ∃ e, (vaultOf s).Older x e ∧ s.heap.tag e = "Entry".toList ∧ y ∈ s.heap.all e "History".toList) := by
  have hx0 : x ≠ 0 := tag_ne_zero hs.inv (by rw [hx]; decide)
  induction hr with
  | refl => exact ⟨fun _ => .refl, fun h => by rw [hx] at h; exact absurd h (by decide)⟩
  | @snoc b c hb hk ih =>
    have hb0 : b ≠ 0 := fun e => zero_not_reach hs.inv hx0 (e ▸ hb)
    have hh := hs.shaped b c hb0 hk
    constructor
    · intro ht
      rw [ht] at hh
      rcases home_entry hh with e | e
      · have := spine_up hs.inv hs.shaped hx0 hb (by rw [e]; decide)
        rw [hx] at this
        exact absurd this (by decide)
      · obtain ⟨o, h4, ho, h5⟩ := ih.2 e
        have hno : ¬ NoCard (s.heap.tag o) := by rw [ho]; decide
        refine .past h4 (card_some hno) (l := s.heap.all b "Entry".toList) ?_ (List.mem_filter.mpr ⟨hk, beq_iff_eq.mpr ht⟩)
        have hone := (hs.neat o hno).once "History".toList (by decide)
        show (s.heap.find o "History".toList).map _ = _
        unfold Heap.find
        match hl : s.heap.all o "History".toList with
        | [] => rw [hl] at h5; cases h5
        | [z] => rw [hl] at h5; rw [List.mem_singleton.mp h5]; rfl
        | z :: z' :: l => rw [hl] at hone; simp at hone
    · intro ht
      rw [ht] at hh
      have he : s.heap.tag b = "Entry".toList := by
        have := hh _ (by decide : homes.lookup "History".toList = some ["Entry".toList])
        simpa using this
      exact ⟨b, ih.1 he, he, List.mem_filter.mpr ⟨hk, beq_iff_eq.mpr ht⟩⟩

/-- What may be given as `element`: a group, or an entry that is in a group. -/
def Vault.Element (v : Vault) (x : Nat) : Prop := v.IsGroup x ∨ ∃ g c, v.card g = some c ∧ c.kind = "Group".toList ∧ x ∈ c.entries

theorem file_scope (hs : Sound s) {element : Option Nat} (hg : ∀ x, element = some x → Vault.Element (vaultOf s) x) (recursive history : Bool)
    {x : Node} (hx : x ∈ s.world.nodes) {e : Nat} (he : s.heap.tag e = "Entry".toList) (hb : x.id ∈ s.heap.all e "Binary".toList) :
    (InScope s.world recursive element x ∧ (history = false → ¬ InHistory s.world x)) ↔ (vaultOf s).FileScope recursive history element e := by
  obtain ⟨b1, b2⟩ := all_kid hb
  rw [hist_iff hs.inv hx]
  obtain ⟨n, hn⟩ := get_of_mem (tag_mem (s := s) (i := e) (by rw [he]; decide))
  obtain ⟨hnm, rfl⟩ := Node.get?_some hn
  have hnt : n.tag = "Entry".toList := by rw [← node_tag hn]; exact he
  have hhist : InHist s.heap x.id ↔ InHist s.heap n.id := by
    constructor
    · rintro ⟨y, y1, y2, y3⟩
      rcases reach_kid_up hs.inv y3 b1 with e | e
      · exact absurd e y2
      · refine ⟨y, y1, ?_, e⟩
        rintro rfl
        rw [he] at y1
        exact absurd y1 (by decide)
    · rintro ⟨y, y1, y2, y3⟩
      refine ⟨y, y1, ?_, .snoc y3 b1⟩
      rintro rfl
      rw [b2] at y1
      exact absurd y1 (by decide)
  have up : ∀ {a : Nat}, s.heap.tag a ≠ "Binary".toList → (Reach s.heap a x.id ↔ Reach s.heap a n.id) := fun {a} ha =>
    ⟨fun h => (reach_kid_up hs.inv h b1).resolve_left fun e => ha (e ▸ b2), fun h => .snoc h b1⟩
  rw [hhist]
  cases element with
  | none =>
    cases recursive with
    | true =>
      have := entry_scope hs (group := none) nofun true history hnm
      rw [hist_iff hs.inv hnm, inDoc_scope hs.inv hnm] at this
      rw [inDoc_scope hs.inv hx]
      refine Iff.trans ?_ this
      obtain ⟨d, m, r, hk⟩ := hs.skeleton
      have : InDoc s.heap x.id ↔ InDoc s.heap n.id := by
        constructor
        · rintro ⟨d', h1, h2⟩
          refine ⟨d', h1, (up ?_).mp h2⟩
          rw [hk.doc] at h1
          injection h1 with h1
          rw [← h1, hk.tag]; decide
        · rintro ⟨d', h1, h2⟩; exact ⟨d', h1, .snoc h2 b1⟩
      rw [this]
      exact ⟨fun h => ⟨h.1, hnt, h.2⟩, fun h => ⟨h.1, h.2.2⟩⟩
    | false =>
      refine ⟨fun h => ?_, fun h => h.elim⟩
      obtain ⟨d, m, r, hk⟩ := hs.skeleton
      have h0 : s.world.get? 0 = some s.world := world_get hs.inv
      have hd := hk.doc
      unfold docEl at hd
      rw [node_kids h0, List.head?_map] at hd
      have h1 : some x = s.world.kids.head? := h.1
      rw [← h1] at hd
      injection hd with hd
      have ht := hk.tag
      rw [← hd, b2] at ht
      exact absurd ht (by decide)
  | some g =>
    have hg := hg g rfl
    have hgm : ¬ NoCard (s.heap.tag g) := by
      rcases hg with h | ⟨k, c, h1, _, h3⟩
      · rw [group_card.mp h]; decide
      · obtain ⟨_, rfl⟩ := card_inv h1
        rw [(all_kid h3).2]; decide
    have hgb : s.heap.tag g ≠ "Binary".toList := fun e => hgm (by rw [e]; decide)
    have hgh : ¬ InHist s.heap g := by
      rcases hg with h | ⟨k, c, h1, h2, h3⟩
      · exact spine_hist hs.inv hs.shaped (by rw [group_card.mp h]; decide)
      · obtain ⟨_, rfl⟩ := card_inv h1
        exact entry_hist hs.inv hs.shaped h2 h3
    cases recursive with
    | true =>
      rw [(scope_elem hs (card_mem hgm) hx).1, up hgb]
      have hne : x.id ≠ g := fun e => hgb (e ▸ b2)
      by_cases ht : s.heap.tag g = "Group".toList
      · have := entry_scope hs (group := some g) (fun y hy => by injection hy with hy; exact hy ▸ ht) true history hnm
        rw [hist_iff hs.inv hnm, (scope_elem hs (card_mem hgm) hnm).1] at this
        have hng : n.id ≠ g := by rintro rfl; rw [he] at ht; exact absurd ht (by decide)
        constructor
        · rintro ⟨⟨_, h1⟩, h2⟩
          exact .inl ⟨group_card.mpr ht, this.mp ⟨⟨hng, h1⟩, hnt, h2⟩⟩
        · rintro (⟨_, h⟩ | ⟨h, _⟩)
          · obtain ⟨⟨_, h1⟩, _, h2⟩ := this.mpr h
            exact ⟨⟨hne, h1⟩, h2⟩
          · rw [entry_card.mp h] at ht; exact absurd ht (by decide)
      · have hge : s.heap.tag g = "Entry".toList := by
          rcases hg with h | ⟨k, c, h1, _, h3⟩
          · exact absurd (group_card.mp h) ht
          · obtain ⟨_, rfl⟩ := card_inv h1
            exact (all_kid h3).2
        constructor
        · rintro ⟨⟨_, h1⟩, h2⟩
          refine .inr ⟨entry_card.mpr hge, ?_⟩
          have ho := (older_of hs hge h1).1 he
          cases history with
          | true => exact ho
          | false => exact (older_reach hge ho).2.2.resolve_right (h2 rfl)
        · rintro (⟨h, _⟩ | ⟨_, h⟩)
          · exact absurd (group_card.mp h) ht
          · cases history with
            | true => exact ⟨⟨hne, (older_reach hge h).2.1⟩, nofun⟩
            | false =>
              replace h : n.id = g := h
              exact ⟨⟨hne, by rw [h]; exact .refl⟩, fun _ => by rw [h]; exact hgh⟩
    | false =>
      rw [(scope_elem hs (card_mem hgm) hx).2]
      show _ ↔ n.id = g
      constructor
      · rintro ⟨h, _⟩
        exact (parent_eq hs.inv h b1).symm
      · intro h
        rw [h] at b1
        exact ⟨b1, fun _ => by rw [h]; exact hgh⟩

/-! ## Arguments -/

/-- The arguments the theorem is about: `id` or `filename` or both, no double quotes, patterns the engine can run. -/
structure FairFile (s : Db) (re : Regex) (a : FindArgs) : Prop where
  path : a.path = none
  element : ∀ x, a.tree = some x → Vault.Element (vaultOf s) x
  flags : a.regex = true → Plain (flagsStr a.flags)
  args : ∀ k ∈ a.kwargs, KwOk .attachment k
  runs : ∀ k ∈ a.kwargs, KwCompiles re a.regex (flagsStr a.flags) k
  given : ∃ k w, Kw.attr k (some w) ∈ a.kwargs

/-- The filters of the search are filters on the attachment. -/
theorem kw_file (hs : Sound s) {x : Node} (hx : x ∈ s.world.nodes) (h1 : ∀ t ∈ fileParts, (s.heap.all x.id t).length ≤ 1) (T : Test) {k : Kw}
    (hk : KwOk .attachment k) : KwHolds Kind.attachment.place T x k ↔ (fileOf s.heap x.id).Holds T k := by
  cases k with
  | uuid b => exact absurd rfl hk
  | tags ts => exact absurd hk.1 (by decide)
  | string d => exact absurd hk.1 (by decide)
  | attr k w =>
    cases w with
    | none => exact ⟨fun _ => trivial, fun _ => trivial⟩
    | some w =>
      show (∃ p, attachmentPlace k = some p ∧ HasValue T x p w) ↔ (if k = "id".toList then _ else if k = "filename".toList then _ else _)
      -- the child that is looked at
      have one : ∀ {t : Str} (f : Nat → Option Str), t ∈ fileParts →
          ((∃ v ∈ (s.heap.all x.id t).map f, T w v) ↔ ∃ v, (s.heap.find x.id t).map f = some v ∧ T w v) := by
        intro t f ht
        have := h1 t ht
        unfold Heap.find
        match hl : s.heap.all x.id t with
        | [] => exact ⟨nofun, nofun⟩
        | [z] =>
          constructor
          · rintro ⟨v, hv, hT⟩; exact ⟨f z, rfl, by rw [List.mem_singleton.mp hv] at hT; exact hT⟩
          · rintro ⟨v, hv, hT⟩; injection hv with hv; subst hv; exact ⟨f z, List.mem_singleton.mpr rfl, hT⟩
        | z :: z' :: l => rw [hl] at this; simp at this
      unfold attachmentPlace
      by_cases e1 : k = "id".toList
      · rw [if_pos e1, if_pos e1]
        refine Iff.trans ?_ (one (fun v => s.heap.attr v "Ref".toList) (t := "Value".toList) (by decide))
        have : valuesAt x .ref = (s.heap.all x.id "Value".toList).map fun v => s.heap.attr v "Ref".toList := by
          rw [node_all hs.inv hx, List.map_map]
          refine List.map_congr_left fun y hy => ?_
          exact (node_attr (Node.get?_mem hs.inv.world.uniq (Node.nodes_trans hx (Node.kid_mem_nodes (List.mem_filter.mp hy).1))) _).symm
        rw [← this]
        constructor
        · rintro ⟨p, hp, h⟩; injection hp with hp; subst hp; exact h
        · intro h; exact ⟨.ref, rfl, h⟩
      · rw [if_neg e1, if_neg e1]
        by_cases e2 : k = "filename".toList
        · rw [if_pos e2, if_pos e2]
          refine Iff.trans ?_ (one s.heap.text (t := "Key".toList) (by decide))
          have : valuesAt x (.sub ["Key".toList]) = (s.heap.all x.id "Key".toList).map s.heap.text := by
            rw [sub_values hs.inv _ hx]
            have : elsAt s.heap ["Key".toList] x.id = s.heap.all x.id "Key".toList := by
              show (s.heap.all x.id "Key".toList).flatMap (fun e => [e]) = _
              simp
            rw [this]
          rw [← this]
          constructor
          · rintro ⟨p, hp, h⟩; injection hp with hp; subst hp; exact h
          · intro h; exact ⟨_, rfl, h⟩
        · rw [if_neg e2, if_neg e2]
          exact ⟨fun ⟨_, h, _⟩ => (nomatch h), False.elim⟩

/-- `find_attachments` returns, in the order of the document and without duplicates, exactly the attachments of the entries asked for that
satisfy all arguments. The data of KDBX3 databases are not among them. -/
theorem C73_attachments (env : Env) (hs : Sound s) (hfl : Filed s.heap) {a : FindArgs} (recursive : Bool) (hf : FairFile s env.re a) :
    ∃ l, findAttachments env.re s.world recursive a = .ok (if a.first then .one l.head? else .list l) ∧ l.Sublist s.world.ids ∧ l.Nodup ∧
      ∀ i, i ∈ l ↔ ∃ e f, (vaultOf s).FileScope recursive a.history a.tree e ∧ (vaultOf s).HasFile e f ∧ f.handle = i ∧
        ∀ k ∈ a.kwargs, f.Holds (compares env.re a) k := by
  have h0 : a.tree ≠ some 0 := by
    intro h
    rcases hf.element 0 h with h | ⟨g, c, h1, _, h3⟩
    · have := group_card.mp h
      rw [hs.inv.zero_tag] at this
      exact absurd this (by decide)
    · obtain ⟨_, rfl⟩ := card_inv h1
      have := (all_kid h3).2
      rw [hs.inv.zero_tag] at this
      exact absurd this (by decide)
  -- a match has parts, so it is in an entry
  have home : ∀ {x : Node}, x ∈ s.world.nodes → Matches Kind.attachment.tag Kind.attachment.place env.re s.world recursive a x →
      ∃ e, s.heap.tag e = "Entry".toList ∧ x.id ∈ s.heap.all e "Binary".toList := by
    intro x hx hM
    have ht : s.heap.tag x.id = "Binary".toList := by rw [node_tag (Node.get?_mem hs.inv.world.uniq hx)]; exact hM.tag
    have hpar : ∃ p, p ≠ 0 ∧ x.id ∈ s.heap.kids p := by
      have low : ∀ {q : Nat}, q ≠ 0 → s.heap.tag q ≠ "Binary".toList → Reach s.heap q x.id → ∃ p, p ≠ 0 ∧ x.id ∈ s.heap.kids p := by
        intro q hq hqt hr
        cases hr with
        | refl => exact absurd ht hqt
        | @snoc b _ hb hk => exact ⟨b, fun e => zero_not_reach hs.inv hq (e ▸ hb), hk⟩
      have hsc := hM.scope
      obtain ⟨d, m, r, hk⟩ := hs.skeleton
      cases htr : a.tree with
      | none =>
        rw [htr] at hsc
        cases recursive with
        | true =>
          obtain ⟨d', h1, h2⟩ := (inDoc_scope hs.inv hx).mp hsc
          rw [hk.doc] at h1
          injection h1 with h1
          subst h1
          exact low (tag_ne_zero hs.inv (by rw [hk.tag]; decide)) (by rw [hk.tag]; decide) h2
        | false =>
          have hd := hk.doc
          unfold docEl at hd
          rw [node_kids (world_get hs.inv), List.head?_map] at hd
          have h1 : some x = s.world.kids.head? := hsc
          rw [← h1] at hd
          injection hd with hd
          have ht' := hk.tag
          rw [← hd, ht] at ht'
          exact absurd ht' (by decide)
      | some g =>
        rw [htr] at hsc
        have hgm : ¬ NoCard (s.heap.tag g) := by
          rcases hf.element g htr with h | ⟨k, c, h1, _, h3⟩
          · rw [group_card.mp h]; decide
          · obtain ⟨_, rfl⟩ := card_inv h1
            rw [(all_kid h3).2]; decide
        cases recursive with
        | true =>
          exact low (card_pos hs.inv hgm) (fun e => hgm (by rw [e]; decide)) ((scope_elem hs (card_mem hgm) hx).1.mp hsc).2
        | false => exact ⟨g, card_pos hs.inv hgm, (scope_elem hs (card_mem hgm) hx).2.mp hsc⟩
    obtain ⟨p, hp0, hp⟩ := hpar
    have hh := hs.shaped p x.id hp0 hp
    rw [ht] at hh
    have := hh _ (by decide : homes.lookup "Binary".toList = some ["Entry".toList, "Binaries".toList])
    simp only [List.mem_cons, List.not_mem_nil, or_false] at this
    rcases this with e | e
    · exact ⟨p, e, List.mem_filter.mpr ⟨hp, beq_iff_eq.mpr ht⟩⟩
    · exfalso
      have hno := (hfl.shelf p e x.id hp).2
      obtain ⟨k, w, hk⟩ := hf.given
      obtain ⟨pl, h1, t, h2, _⟩ := hM.filters _ hk
      have hxk : x.kids = [] := by
        rw [node_kids (Node.get?_mem hs.inv.world.uniq hx)] at hno
        exact List.map_eq_nil_iff.mp hno
      have h1 : attachmentPlace k = some pl := h1
      unfold attachmentPlace at h1
      split at h1
      · injection h1 with h1
        subst h1
        unfold valuesAt at h2
        rw [hxk] at h2
        cases h2
      · split at h1
        · injection h1 with h1
          subst h1
          have h2 : t ∈ ((x.kids.filter fun k => k.tag == "Key".toList).flatMap (descend [])).map Node.text := h2
          rw [hxk] at h2
          cases h2
        · cases h1
  obtain ⟨r, hr⟩ := find_ok (K := .attachment) (re := env.re) (recursive := recursive) hs.inv.world hf.path h0 hf.flags hf.args hf.runs (by
    intro l hl hM
    have hlm : l.node ∈ s.world.nodes := by
      rcases allLocs_node hl with e | e
      · have : l = ⟨docNode s.world, []⟩ := allLocs_inj hs.inv.world hl (docNode_mem _) (by rw [e]; rfl)
        have ht := hM.tag
        rw [this] at ht
        exact absurd ht (by show ([] : Str) ≠ _; decide)
      · exact e
    obtain ⟨e, h1, h2⟩ := home hlm hM
    exact cast_binary hs.inv hl hM.tag (all_kid h2).1 h1)
  obtain ⟨l, rfl, h1, h2⟩ := find_partial hs.inv.world hf.path h0 hf.flags hf.args hr
  refine ⟨l, by rw [findAttachments_eq]; exact hr, h1, h1.nodup hs.inv.world.uniq, fun i => ?_⟩
  rw [h2 i]
  constructor
  · rintro ⟨x, hx, rfl, hM⟩
    obtain ⟨e, e1, e2⟩ := home hx hM
    refine ⟨e, fileOf s.heap x.id, (file_scope hs hf.element recursive a.history hx e1 e2).mp ⟨hM.scope, hM.history⟩,
      has_file.mpr ⟨by rw [e1]; decide, e2, rfl⟩, rfl, fun k hk => ?_⟩
    exact (kw_file hs hx (hfl.once e x.id e1 e2) _ (hf.args k hk)).mp (hM.filters k hk)
  · rintro ⟨e, f, m1, m2, rfl, m3⟩
    obtain ⟨n1, n2, n3⟩ := has_file.mp m2
    obtain ⟨k1, k2⟩ := all_kid n2
    have e1 : s.heap.tag e = "Entry".toList := by
      have hh := hs.shaped e f.handle (card_pos hs.inv n1) k1
      rw [k2] at hh
      have := hh _ (by decide : homes.lookup "Binary".toList = some ["Entry".toList, "Binaries".toList])
      simp only [List.mem_cons, List.not_mem_nil, or_false] at this
      rcases this with h | h
      · exact h
      · exact absurd (by rw [h]; decide) n1
    obtain ⟨x, hgx⟩ := get_of_mem (tag_mem (s := s) (i := f.handle) (by rw [k2]; decide))
    obtain ⟨hx, hxe⟩ := Node.get?_some hgx
    rw [← hxe] at n2 n3 k1 k2 ⊢
    obtain ⟨j1, j2⟩ := (file_scope hs hf.element recursive a.history hx e1 n2).mpr m1
    refine ⟨x, hx, rfl, ⟨j1, by rw [← node_tag (Node.get?_mem hs.inv.world.uniq hx)]; exact k2, j2, fun k hk => ?_⟩⟩
    refine (kw_file hs hx (hfl.once e x.id e1 n2) _ (hf.args k hk)).mpr ?_
    rw [← n3]
    exact m3 k hk

/-- `kp.attachments` are the attachments that have a name, of the entries in the groups of the database. -/
theorem C73_all_attachments (env : Env) (hm : MatchesAll env.re) (hs : Sound s) (hfl : Filed s.heap) :
    ∃ l, allAttachments env s = (.ok l, s) ∧ l.Sublist s.world.ids ∧ l.Nodup ∧
      ∀ i, i ∈ l ↔ ∃ e f, (vaultOf s).EntryOf false (vaultOf s).Current e ∧ (vaultOf s).HasFile e f ∧ f.handle = i ∧ f.name ≠ none := by
  obtain ⟨g, g1, g2⟩ := hm
  obtain ⟨l, h1, h2, h3, h4⟩ := C73_attachments env hs hfl (a := { regex := true, kwargs := [.attr "filename".toList (some ".*".toList)] }) true
    ⟨rfl, nofun, fun _ => plain_noFlags, by decide, fun k hk => by
      rw [List.mem_singleton.mp hk]
      intro _
      show (env.re ".*".toList false).isSome = true
      rw [g1]; rfl, ⟨_, _, List.mem_singleton.mpr rfl⟩⟩
  refine ⟨l, ?_, h2, h3, fun i => ?_⟩
  · unfold allAttachments findAttachmentList
    rw [h1]
    rfl
  · rw [h4 i]
    constructor
    · rintro ⟨e, f, m1, m2, m3, m4⟩
      refine ⟨e, f, m1, m2, m3, fun hn => ?_⟩
      obtain ⟨t, ht, _⟩ := m4 _ (List.mem_singleton.mpr rfl)
      rw [hn] at ht
      cases ht
    · rintro ⟨e, f, m1, m2, m3, m4⟩
      refine ⟨e, f, m1, m2, m3, fun k hk => ?_⟩
      rw [List.mem_singleton.mp hk]
      cases hn : f.name with
      | none => exact absurd hn m4
      | some t => exact ⟨t, hn, g, g1, g2 _⟩

/-! ## Instances -/

/-- Looking for the attachment with number 0; and for number 1, which is in the history. -/
example :
    let a : FindArgs := { tree := some 14, kwargs := [.attr "id".toList (some "0".toList)] }
    FairFile Sample.db Sample.env.re a ∧ Sound Sample.db ∧ Filed Sample.db.heap ∧
      findAttachments Sample.env.re Sample.db.world true a = .ok (.list [47]) :=
  ⟨⟨rfl, fun x h => by injection h with h; subst h; exact .inl ⟨_, card_some (by decide +kernel), by decide +kernel⟩, nofun, by decide, fun k _ => kw_compiles_exact k,
    ⟨_, _, List.mem_singleton.mpr rfl⟩⟩, sample_sound, sample_filed, by decide +kernel⟩

example :
    let a : FindArgs := { tree := some 23, history := true, kwargs := [.attr "id".toList (some "1".toList)] }
    FairFile Sample.db Sample.env.re a ∧ findAttachments Sample.env.re Sample.db.world true a = .ok (.list [73]) ∧
      findAttachments Sample.env.re Sample.db.world true { a with history := false } = .ok (.list []) :=
  ⟨⟨rfl, fun x h => by injection h with h; subst h; exact .inr ⟨14, _, card_some (by decide +kernel), by decide +kernel, by decide +kernel⟩, nofun, by decide,
    fun k _ => kw_compiles_exact k, ⟨_, _, List.mem_singleton.mpr rfl⟩⟩, by decide +kernel, by decide +kernel⟩

/-- All attachments. -/
example : MatchesAll Sample.env.re ∧ (allAttachments Sample.env Sample.db).1 = .ok [47, 119] := ⟨sample_matchesAll, by decide +kernel⟩

end Verif.Props
