import Verif.Spec.VaultSearch
import Verif.Api.VaultMore
import Verif.Api.SearchApi
import Verif.XPath.Uses
/-!
# Searches, said with cards: lemmas
-/
namespace Verif.Api
open Verif XPath Spec

variable {s : Db}

/-! ## Values -/

theorem field_values (hs : Inv s) {n : Node} (hn : n ∈ s.world.nodes) (key : Str) :
    valuesAt n (.field key) = (valueEls s.heap n.id key).map s.heap.text := by
  rw [node_valueEls hs hn, List.map_map]
  show (fieldNodes n key).map Node.text = _
  refine List.map_congr_left fun x hx => ?_
  have hxw : x ∈ s.world.nodes := by
    unfold fieldNodes at hx
    obtain ⟨g, h1, h2⟩ := List.mem_flatMap.mp hx
    exact Node.nodes_trans hn (Node.nodes_trans (Node.kid_mem_nodes (List.mem_filter.mp h1).1) (Node.kid_mem_nodes (List.mem_filter.mp h2).1))
  exact (node_text (Node.get?_mem hs.world.uniq hxw)).symm

theorem sub_values (hs : Inv s) (p : List Str) {n : Node} (hn : n ∈ s.world.nodes) :
    valuesAt n (.sub p) = (elsAt s.heap p n.id).map s.heap.text := by
  show (descend p n).map Node.text = _
  induction p generalizing n with
  | nil => 
    show [n.text] = [s.heap.text n.id]
    rw [node_text (Node.get?_mem hs.world.uniq hn)]
  | cons t p ih =>
    show ((n.kids.filter fun k => k.tag == t).flatMap (descend p)).map Node.text = ((s.heap.all n.id t).flatMap (elsAt s.heap p)).map s.heap.text
    rw [node_all hs hn, List.map_flatMap, List.map_flatMap]
    have key : ∀ l : List Node, (∀ k ∈ l, k ∈ s.world.nodes) →
        (l.flatMap fun a => (descend p a).map Node.text) = (l.map Node.id).flatMap fun a => (elsAt s.heap p a).map s.heap.text := by
      intro l hl
      induction l with
      | nil => rfl
      | cons k l ihl =>
        rw [List.flatMap_cons, List.map_cons, List.flatMap_cons, ih (hl k (List.mem_cons_self ..)), ihl fun k hk => hl k (List.mem_cons_of_mem _ hk)]
    exact key _ fun k hk => Node.nodes_trans hn (Node.kid_mem_nodes (List.mem_filter.mp hk).1)

theorem field_one {h : Heap} {x : Nat} (hf : Fields h x) (key : Str) : (valueEls h x key).map h.text = (prop h x key).toList := by
  unfold prop valueEls
  have h1 := hf.uniq key
  match hl : fieldEls h x key with
  | [] => rfl
  | [a] =>
    obtain ⟨v, hv⟩ := hf.value a (List.mem_filter.mp (by rw [show (h.all x "String".toList).filter _ = _ from hl]; exact List.mem_singleton.mpr rfl)).1
    rw [List.flatMap_cons, List.flatMap_nil, List.append_nil, hv]
    rfl
  | a :: b :: l => rw [hl] at h1; simp at h1

/-- A child there is at most one of: a comparison that needs a text. -/
theorem sub_one {h : Heap} {x : Nat} {t : Str} (hl : (h.all x t).length ≤ 1) {P : Option Str → Prop} (hP : ¬ P none) :
    (∃ v ∈ (elsAt h [t] x).map h.text, P v) ↔ ∃ w, sub h x t = some w ∧ P (some w) := by
  have he : elsAt h [t] x = h.all x t := by
    show (h.all x t).flatMap (fun e => [e]) = _
    simp
  rw [he]
  unfold sub Heap.find
  match hm : h.all x t with
  | [] =>
    constructor
    · rintro ⟨_, h, _⟩; cases h
    · rintro ⟨_, h, _⟩; cases h
  | [a] =>
    constructor
    · rintro ⟨v, hv, hp⟩
      rw [List.mem_singleton.mp hv] at hp
      cases ht : h.text a with
      | none => rw [ht] at hp; exact absurd hp hP
      | some w => rw [ht] at hp; exact ⟨w, ht, hp⟩
    · rintro ⟨w, hw, hp⟩
      have hw : h.text a = some w := hw
      exact ⟨some w, by rw [List.map_cons, hw]; exact List.mem_cons_self .., hp⟩
  | a :: b :: l => rw [hm] at hl; simp at hl

/-- The filters of a search are filters on the card. -/
theorem kw_card (hs : Sound s) {x : Node} (hx : x ∈ s.world.nodes) (hc : ¬ NoCard (s.heap.tag x.id)) (K : Kind) (T : Test) (k : Kw)
    (hk : KwOk K k) (ha : K ≠ .attachment) (hsh : Sharp T K k) :
    KwHolds K.place T x k ↔ (cardOf s.heap x.id).Holds T K k := by
  have hn := hs.neat x.id hc
  have fld : ∀ key w, HasValue T x (.field key) w ↔ ∃ t, (cardOf s.heap x.id).field key = some t ∧ T w t := by
    intro key w
    unfold HasValue
    rw [field_values hs.inv hx, field_one hn.fields]
    show (∃ t ∈ (prop s.heap x.id key).toList, _) ↔ ∃ t, prop s.heap x.id key = some t ∧ _
    cases prop s.heap x.id key with
    | none => exact ⟨nofun, nofun⟩
    | some v =>
      constructor
      · rintro ⟨t, h, hT⟩; exact ⟨v, rfl, by rw [List.mem_singleton.mp h] at hT; exact hT⟩
      · rintro ⟨t, h, hT⟩; injection h with h; subst h; exact ⟨v, List.mem_singleton.mpr rfl, hT⟩
  have txt : ∀ (p : TextProp) w, ¬ T w none → p.tag ∈ singles →
      (HasValue T x (.sub [p.tag]) w ↔ ∃ t, (cardOf s.heap x.id).text p = some t ∧ T w (some t)) := by
    intro p w hT hp
    unfold HasValue
    rw [sub_values hs.inv _ hx]
    exact sub_one (hn.once _ hp) hT
  have aut : ∀ (p : AutoProp) w, HasValue T x (.sub p.path) w ↔ ∃ t ∈ (cardOf s.heap x.id).auto p, T w t := by
    intro p w
    unfold HasValue
    rw [sub_values hs.inv _ hx]
    exact Iff.rfl
  have fld' : ∀ key w, HasValue T x (.field key) w ↔ ∃ t ∈ ((cardOf s.heap x.id).field key).toList, T w t := by
    intro key w
    rw [fld]
    cases (cardOf s.heap x.id).field key with
    | none => exact ⟨nofun, nofun⟩
    | some v =>
      constructor
      · rintro ⟨t, h, hT⟩; injection h with h; subst h; exact ⟨v, List.mem_singleton.mpr rfl, hT⟩
      · rintro ⟨t, h, hT⟩; exact ⟨v, rfl, by rw [List.mem_singleton.mp h] at hT; exact hT⟩
  have txt' : ∀ (p : TextProp) w, ¬ T w none → p.tag ∈ singles →
      (HasValue T x (.sub [p.tag]) w ↔ ∃ t ∈ (((cardOf s.heap x.id).text p).map some).toList, T w t) := by
    intro p w h1 h2
    rw [txt p w h1 h2]
    cases (cardOf s.heap x.id).text p with
    | none => exact ⟨nofun, nofun⟩
    | some v =>
      constructor
      · rintro ⟨t, h, hT⟩; injection h with h; subst h; exact ⟨some v, List.mem_singleton.mpr rfl, hT⟩
      · rintro ⟨t, h, hT⟩; exact ⟨v, rfl, by rw [List.mem_singleton.mp h] at hT; exact hT⟩
  -- one argument, given where its values are
  have one : ∀ {pl : Place} {l : List (Option Str)} {w : Str}, (HasValue T x pl w ↔ ∃ t ∈ l, T w t) →
      ((∃ p, some pl = some p ∧ HasValue T x p w) ↔ ∃ m, some l = some m ∧ ∃ t ∈ m, T w t) := by
    intro pl l w h
    constructor
    · rintro ⟨p, e, h'⟩; injection e with e; subst e; exact ⟨l, rfl, h.mp h'⟩
    · rintro ⟨m, e, h'⟩; injection e with e; subst e; exact ⟨pl, rfl, h.mpr h'⟩
  cases k with
  | attr k w =>
    cases w with
    | none => exact Iff.rfl
    | some w =>
      show (∃ p, K.place k = some p ∧ HasValue T x p w) ↔ ∃ l, (cardOf s.heap x.id).values K k = some l ∧ ∃ t ∈ l, T w t
      cases K with
      | attachment => exact absurd rfl ha
      | entry =>
        show (∃ p, entryPlace k = some p ∧ _) ↔ _
        unfold entryPlace Card.values
        dsimp only
        iterate 6
          split
          · exact one (fld' _ w)
        split
        · exact one (aut .sequence w)
        split
        · exact one (aut .window w)
        split
        · exact one (aut .enabled w)
        · exact ⟨nofun, nofun⟩
      | group =>
        show (∃ p, groupPlace k = some p ∧ _) ↔ _
        unfold groupPlace Card.values
        dsimp only
        split
        · exact one (txt' .name w (hsh rfl) (by decide))
        split
        · exact one (txt' .notes w (hsh rfl) (by decide))
        · exact ⟨nofun, nofun⟩
  | uuid b => exact txt .uuid _ hsh (by decide)
  | string d =>
    show (∀ p ∈ d, HasValue T x (.field p.1) p.2) ↔ ∀ p ∈ d, ∃ t, (cardOf s.heap x.id).field p.1 = some t ∧ T p.2 t
    exact ⟨fun h p hp => (fld _ _).mp (h p hp), fun h p hp => (fld _ _).mpr (h p hp)⟩
  | tags ts =>
    obtain ⟨w0, hw0, hne⟩ := hsh
    have := sub_one (h := s.heap) (x := x.id) (t := "Tags".toList) (hn.once _ (by decide)) (P := fun v => ∀ t ∈ ts, t <:+: v.getD []) (by
      intro h
      exact hne (List.infix_nil.mp (h w0 hw0)))
    rw [← sub_values hs.inv _ hx] at this
    refine Iff.trans ?_ this
    show (∃ n ∈ x.kids, n.tag = "Tags".toList ∧ ∀ t ∈ ts, t <:+: n.text.getD []) ↔ ∃ v ∈ (descend ["Tags".toList] x).map Node.text, _
    constructor
    · rintro ⟨n, h1, h2, h3⟩
      refine ⟨n.text, List.mem_map.mpr ⟨n, List.mem_flatMap.mpr ⟨n, List.mem_filter.mpr ⟨h1, by rw [h2]; decide⟩, List.mem_singleton.mpr rfl⟩, rfl⟩, h3⟩
    · rintro ⟨v, h1, h3⟩
      obtain ⟨n, h0, rfl⟩ := List.mem_map.mp h1
      obtain ⟨m, h1, h2⟩ := List.mem_flatMap.mp h0
      rw [List.mem_singleton.mp h2] at h3
      obtain ⟨h1, h2⟩ := List.mem_filter.mp h1
      exact ⟨m, h1, eq_of_beq h2, h3⟩

/-! ## Scope -/

/-- What is below an element that is neither an entry nor a history, given which groups are. -/
theorem held (hs : Sound s) {a : Nat} (h0 : a ≠ 0) (ha : s.heap.tag a ≠ "Entry".toList) (ha' : s.heap.tag a ≠ "History".toList)
    {G : Nat → Prop} (hG : ∀ y, Reach s.heap a y → s.heap.tag y = "Group".toList → G y) {x : Nat} (hr : Reach s.heap a x) :
    (s.heap.tag x = "Entry".toList → (vaultOf s).EntryOf true G x) ∧
    (s.heap.tag x = "History".toList → ∃ e, (vaultOf s).EntryOf true G e ∧ s.heap.tag e = "Entry".toList ∧ x ∈ s.heap.all e "History".toList) := by
  induction hr with
  | refl => exact ⟨fun h => absurd h ha, fun h => absurd h ha'⟩
  | @snoc b c hb hk ih =>
    have hb0 : b ≠ 0 := fun e => zero_not_reach hs.inv h0 (e ▸ hb)
    have hh := hs.shaped b c hb0 hk
    constructor
    · intro ht
      rw [ht] at hh
      have hc : c ∈ s.heap.all b "Entry".toList := List.mem_filter.mpr ⟨hk, beq_iff_eq.mpr ht⟩
      rcases home_entry hh with e | e
      · exact ⟨b, _, c, hG b hb e, card_some (by rw [e]; decide), hc, .refl⟩
      · obtain ⟨o, ⟨k, d, e0, h1, h2, h3, h4⟩, ho, h5⟩ := ih.2 e
        have hno : ¬ NoCard (s.heap.tag o) := by rw [ho]; decide
        refine ⟨k, d, e0, h1, h2, h3, .past h4 (card_some hno) (l := s.heap.all b "Entry".toList) ?_ hc⟩
        have hone := (hs.neat o hno).once "History".toList (by decide)
        show (s.heap.find o "History".toList).map _ = _
        unfold Heap.find
        match hl : s.heap.all o "History".toList with
        | [] => rw [hl] at h5; cases h5
        | [z] => rw [hl] at h5; rw [List.mem_singleton.mp h5]; rfl
        | z :: z' :: l => rw [hl] at hone; simp at hone
    · intro ht
      rw [ht] at hh
      have he : s.heap.tag b = "Entry".toList := by
        have := hh _ (by decide : homes.lookup "History".toList = some ["Entry".toList])
        simpa using this
      exact ⟨b, ih.1 he, he, List.mem_filter.mpr ⟨hk, beq_iff_eq.mpr ht⟩⟩

end Verif.Api
