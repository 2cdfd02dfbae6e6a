import Verif.Spec.Shape
import Verif.Api.TidyLemmas
import Verif.Api.AttachLemmas
/-!
# Lemmas about where elements are
-/
namespace Verif.Api
open Verif XPath Spec

/-- An element of which nothing is required. -/
theorem home_free {p t : Str} (h : homes.lookup t = none) : Home p t := fun l hl => by rw [h] at hl; cases hl

theorem shapedXml_iff (n : Node) : ShapedXml n.xml ↔ ∀ k ∈ n.nodes, ∀ c ∈ k.kids, Home k.tag c.tag := by
  induction n using Node.ind with
  | h i t a x ks ih =>
    rw [Node.xml_mk, Node.nodes_mk]
    have hx : ∀ c : Node, c.xml.tag = c.tag := fun c => by cases c; rw [Node.xml_mk]; rfl
    constructor
    · intro h k hk
      obtain ⟨h1, h2⟩ := Xml.all_root h
      rcases List.mem_cons.mp hk with e | e
      · rw [e]
        intro c hc
        rw [← hx c]
        exact h1 _ (List.mem_map_of_mem hc)
      · obtain ⟨c, hc, hk⟩ := List.mem_flatMap.mp e
        exact (ih c hc).mp (h2 _ (List.mem_map_of_mem hc)) k hk
    · intro h
      refine .mk (fun k hk => ?_) fun k hk => ?_
      · obtain ⟨c, hc, rfl⟩ := List.mem_map.mp hk
        rw [hx c]
        exact h _ (List.mem_cons_self ..) c hc
      · obtain ⟨c, hc, rfl⟩ := List.mem_map.mp hk
        exact (ih c hc).mpr fun k hk => h k (List.mem_cons_of_mem _ (List.mem_flatMap.mpr ⟨c, hc, hk⟩))

variable {s t : Db}

theorem nodes_kid {n k c : Node} (hk : k ∈ n.nodes) (hc : c ∈ k.kids) : c ∈ n.nodes := by
  refine Node.nodes_trans hk ?_
  cases k with
  | mk i t a x ks => rw [Node.nodes_mk]; exact List.mem_cons_of_mem _ (List.mem_flatMap.mpr ⟨c, hc, by cases c; rw [Node.nodes_mk]; exact List.mem_cons_self ..⟩)

theorem shaped_content (hs : Inv s) (h : Shaped s.heap) {e : Nat} {x : Xml} (he : e ≠ 0) (hc : content s e = some x) : ShapedXml x := by
  obtain ⟨n, hn, rfl⟩ := content_node hc
  obtain ⟨hm, hid⟩ := Node.get?_some hn
  rw [shapedXml_iff]
  intro k hk c hck
  have hg := Node.get?_mem hs.world.uniq (Node.nodes_trans hm hk)
  have hgc := Node.get?_mem hs.world.uniq (Node.nodes_trans hm (nodes_kid hk hck))
  have h0 : k.id ≠ 0 := by
    intro e0
    have := (reach_iff hs hn k.id).mpr (Node.mem_nodes_ids hk)
    rw [e0] at this
    exact zero_not_reach hs he this
  have := h k.id c.id h0 (by unfold Heap.kids Db.heap Node.view; rw [hg]; exact List.mem_map_of_mem hck)
  rw [node_tag hg, node_tag hgc] at this
  exact this

theorem content_shaped (hs : Inv s) {e : Nat} {x : Xml} (hc : content s e = some x) (h : ShapedXml x) {j c : Nat}
    (hj : Reach s.heap e j) (hk : c ∈ s.heap.kids j) : Home (s.heap.tag j) (s.heap.tag c) := by
  obtain ⟨n, hn, rfl⟩ := content_node hc
  obtain ⟨hm, hid⟩ := Node.get?_some hn
  obtain ⟨k, hkn, rfl⟩ := List.mem_map.mp ((reach_iff hs hn j).mp hj)
  have hg := Node.get?_mem hs.world.uniq (Node.nodes_trans hm hkn)
  have hkk : s.heap.kids k.id = k.kids.map Node.id := by unfold Heap.kids Db.heap Node.view; rw [hg]; rfl
  rw [hkk] at hk
  obtain ⟨c', hc', rfl⟩ := List.mem_map.mp hk
  have hgc := Node.get?_mem hs.world.uniq (Node.nodes_trans hm (nodes_kid hkn hc'))
  rw [node_tag hg, node_tag hgc]
  exact (shapedXml_iff n).mp h k hkn c' hc'

theorem shaped_added (hs : Inv s) (ht : Inv t) (h : Shaped s.heap) {p : Nat} (hA : Added s.heap t.heap p s.next t.next) {x : Xml}
    (hx : ShapedXml x) (hc : content t s.next = some x) (hp : Home (s.heap.tag p) x.tag) : Shaped t.heap := by
  intro j c h0 hk
  by_cases hj : s.next ≤ j
  · have hlt : j < t.next := ht.bound j (kid_mem ht hk).2
    exact content_shaped ht hc hx ((hA.below j).mpr ⟨hj, hlt⟩) hk
  · have hjl : j < s.next := by omega
    rw [added_tag hs hA hjl]
    rcases added_old_kid hs hA hjl hk with h1 | ⟨rfl, h1⟩
    · rw [added_tag hs hA (hs.bound c (kid_mem hs h1).1)]
      exact h j c h0 h1
    · rw [h1, content_tag hc]
      exact hp

/-! ## New trees -/

theorem shaped_leaf {t : Str} {a : List (Str × Str)} {w : Option Str} : ShapedXml (Xml.mk t a w []) :=
  .mk (fun _ h => nomatch h) fun _ h => nomatch h

theorem shaped_textEl {t : Str} {a : List (Str × Str)} {v : Option Str} {x : Xml} (h : textEl t a v = .ok x) : ShapedXml x := by
  obtain ⟨w, _, _, rfl⟩ := textEl_inv h
  exact shaped_leaf

theorem textEl_name {t : Str} {a : List (Str × Str)} {v : Option Str} {x : Xml} (h : textEl t a v = .ok x) : x.tag = t := by
  obtain ⟨w, _, _, rfl⟩ := textEl_inv h
  rfl

theorem shaped_node {t : Str} {a : List (Str × Str)} {w : Option Str} {ks : List Xml} (h : ∀ k ∈ ks, Home t k.tag ∧ ShapedXml k) :
    ShapedXml (Xml.mk t a w ks) := .mk (fun k hk => (h k hk).1) fun k hk => (h k hk).2

theorem shaped_string {key : Str} {v p : Option Str} {x : Xml} (h : stringEl key v p = .ok x) : ShapedXml x ∧ x.tag = "String".toList := by
  have go : ∀ as : List (Str × Str), (do
      let k ← textEl "Key".toList [] (some key)
      let v ← textEl "Value".toList as v
      pure (Xml.mk "String".toList [] none [k, v])) = .ok x → ShapedXml x ∧ x.tag = "String".toList := by
    intro as h
    cases hk : textEl "Key".toList [] (some key) with
    | error e => rw [hk] at h; cases h
    | ok k =>
      rw [hk] at h
      have h : (textEl "Value".toList as v >>= fun v => pure (Xml.mk "String".toList [] none [_, v])) = .ok x := h
      cases hv : textEl "Value".toList as v with
      | error e => rw [hv] at h; cases h
      | ok y =>
        rw [hv] at h
        injection h with h
        rw [← h]
        refine ⟨shaped_node fun z hz => ?_, rfl⟩
        rcases List.mem_cons.mp hz with e | e
        · rw [e, textEl_name hk]; exact ⟨home_free (by decide), shaped_textEl hk⟩
        · rw [List.mem_singleton.mp e, textEl_name hv]; exact ⟨home_free (by decide), shaped_textEl hv⟩
  cases p with
  | none => exact go [] h
  | some q => exact go [("Protected".toList, q)] h

theorem shaped_optString {key : Str} {v p : Option Str} {l : List Xml} (h : optString key v p = .ok l) :
    ∀ x ∈ l, Home "Entry".toList x.tag ∧ ShapedXml x := by
  cases v with
  | none => injection h with h; rw [← h]; exact fun _ h => nomatch h
  | some t =>
    have h : (if t = [] then .ok [] else (stringEl key (some t) p >>= fun x => pure [x]) : Except PyErr (List Xml)) = .ok l := h
    by_cases ht : t = []
    · rw [if_pos ht] at h; injection h with h; rw [← h]; exact fun _ h => nomatch h
    · rw [if_neg ht] at h
      cases h1 : stringEl key (some t) p with
      | error e => rw [h1] at h; cases h
      | ok x =>
        rw [h1] at h; injection h with h; rw [← h]
        intro y hy
        rw [List.mem_singleton.mp hy, (shaped_string h1).2]
        exact ⟨by decide, (shaped_string h1).1⟩

theorem shaped_optText {p tag : Str} {v : Option Str} {l : List Xml} (hp : Home p tag) (h : optText tag v = .ok l) :
    ∀ x ∈ l, Home p x.tag ∧ ShapedXml x := by
  cases v with
  | none => injection h with h; rw [← h]; exact fun _ h => nomatch h
  | some t =>
    have h : (if t = [] then .ok [] else (textEl tag [] (some t) >>= fun x => pure [x]) : Except PyErr (List Xml)) = .ok l := h
    by_cases ht : t = []
    · rw [if_pos ht] at h; injection h with h; rw [← h]; exact fun _ h => nomatch h
    · rw [if_neg ht] at h
      cases h1 : textEl tag [] (some t) with
      | error e => rw [h1] at h; cases h
      | ok x =>
        rw [h1] at h; injection h with h; rw [← h]
        intro y hy
        rw [List.mem_singleton.mp hy, textEl_name h1]
        exact ⟨hp, shaped_textEl h1⟩

theorem shaped_optTags {v : Option (List Str)} {l : List Xml} (h : optTags v = .ok l) : ∀ x ∈ l, Home "Entry".toList x.tag ∧ ShapedXml x := by
  cases v with
  | none => injection h with h; rw [← h]; exact fun _ h => nomatch h
  | some t =>
    have h : (if t = [] then .ok [] else (textEl "Tags".toList [] (some (joinTags t)) >>= fun x => pure [x]) : Except PyErr (List Xml)) = .ok l := h
    by_cases ht : t = []
    · rw [if_pos ht] at h; injection h with h; rw [← h]; exact fun _ h => nomatch h
    · rw [if_neg ht] at h
      cases h1 : textEl "Tags".toList [] (some (joinTags t)) with
      | error e => rw [h1] at h; cases h
      | ok x =>
        rw [h1] at h; injection h with h; rw [← h]
        intro y hy
        rw [List.mem_singleton.mp hy, textEl_name h1]
        exact ⟨home_free (by decide), shaped_textEl h1⟩

/-- The children put into every new element. -/
theorem shaped_base {env : Env} {p : Str} {icon : Option Str} {b : Bool} {e : Option DateTime} {s s' : Db} {l : List Xml}
    (h : baseKids env icon b e s = (.ok l, s')) : ∀ x ∈ l, Home p x.tag ∧ ShapedXml x := by
  have hi : ∃ is, optText "IconID".toList icon = .ok is := by
    unfold baseKids at h
    obtain ⟨u, s1, _, h⟩ := bind_inv h
    obtain ⟨is, s2, h2, _⟩ := bind_inv h
    exact ⟨is, (lift_inv h2).1⟩
  obtain ⟨is, hi⟩ := hi
  obtain ⟨now, exp, h1, h2, _, rfl⟩ := baseKids_inv h
  intro x hx
  unfold baseX at hx
  rw [← optText_inv hi] at hx
  rcases List.mem_cons.mp hx with e | hx
  · rw [e]; exact ⟨home_free (by rfl), shaped_leaf⟩
  · rcases List.mem_append.mp hx with hx | hx
    · exact shaped_optText (home_free (by decide)) hi x hx
    · rw [List.mem_singleton.mp hx]
      refine ⟨home_free (by rfl), shaped_node fun k hk => ?_⟩
      simp only [List.mem_cons, List.not_mem_nil, or_false] at hk
      rcases hk with e | e | e | e | e | e | e <;> rw [e] <;> exact ⟨home_free (by rfl), shaped_leaf⟩

theorem shaped_group {env : Env} {a b c : Option Str} {s s' : Db} {x : Xml} (h : newGroup env a b c s = (.ok x, s')) : ShapedXml x := by
  unfold newGroup at h
  obtain ⟨l, s1, h1, h⟩ := bind_inv h
  obtain ⟨n, s2, h2, h⟩ := bind_inv h
  obtain ⟨m, s3, h3, h⟩ := bind_inv h
  obtain ⟨rfl, _⟩ := pure_inv h
  refine shaped_node fun k hk => ?_
  rcases List.mem_append.mp hk with hk | hk
  · rcases List.mem_append.mp hk with hk | hk
    · exact shaped_base h1 k hk
    · rw [List.mem_singleton.mp hk, textEl_name (lift_inv h2).1]; exact ⟨home_free (by decide), shaped_textEl (lift_inv h2).1⟩
  · exact shaped_optText (home_free (by decide)) (lift_inv h3).1 k hk

theorem shaped_auto : ShapedXml autoX := by
  refine shaped_node fun k hk => ?_
  simp only [List.mem_cons, List.not_mem_nil, or_false] at hk
  rcases hk with e | e | e | e <;> rw [e]
  · exact ⟨home_free (by decide), shaped_leaf⟩
  · exact ⟨home_free (by decide), shaped_leaf⟩
  · exact ⟨home_free (by decide), shaped_leaf⟩
  · refine ⟨home_free (by decide), shaped_node fun k hk => ?_⟩
    simp only [List.mem_cons, List.not_mem_nil, or_false] at hk
    rcases hk with e | e <;> rw [e] <;> exact ⟨home_free (by decide), shaped_leaf⟩

theorem shaped_entry {env : Env} {a : EntryArgs} {s s' : Db} {x : Xml} (h : newEntry env a s = (.ok x, s')) : ShapedXml x := by
  have str : ∀ {key v p y}, stringEl key v p = .ok y → Home "Entry".toList y.tag ∧ ShapedXml y := fun h => by
    rw [(shaped_string h).2]; exact ⟨by decide, (shaped_string h).1⟩
  unfold newEntry at h
  obtain ⟨l, s1, h1, h⟩ := bind_inv h
  obtain ⟨x1, s2, h2, h⟩ := bind_inv h
  obtain ⟨x2, s3, h3, h⟩ := bind_inv h
  obtain ⟨x3, s4, h4, h⟩ := bind_inv h
  obtain ⟨l1, s5, h5, h⟩ := bind_inv h
  obtain ⟨l2, s6, h6, h⟩ := bind_inv h
  obtain ⟨l3, s7, h7, h⟩ := bind_inv h
  obtain ⟨l4, s8, h8, h⟩ := bind_inv h
  obtain ⟨rfl, _⟩ := pure_inv h
  refine shaped_node fun k hk => ?_
  rcases List.mem_append.mp hk with hk | hk
  · rcases List.mem_append.mp hk with hk | hk
    · rcases List.mem_append.mp hk with hk | hk
      · rcases List.mem_append.mp hk with hk | hk
        · rcases List.mem_append.mp hk with hk | hk
          · rcases List.mem_append.mp hk with hk | hk
            · exact shaped_base h1 k hk
            · simp only [List.mem_cons, List.not_mem_nil, or_false] at hk
              rcases hk with e | e | e <;> rw [e]
              · exact str (lift_inv h2).1
              · exact str (lift_inv h3).1
              · exact str (lift_inv h4).1
          · exact shaped_optString (lift_inv h5).1 k hk
        · exact shaped_optString (lift_inv h6).1 k hk
      · exact shaped_optString (lift_inv h7).1 k hk
    · exact shaped_optTags (lift_inv h8).1 k hk
  · rw [List.mem_singleton.mp hk]; exact ⟨home_free (by decide), shaped_auto⟩

theorem shaped_archive {x : Xml} (h : ShapedXml x) : ShapedXml (Xml.mk x.tag x.attrs x.text (dropFirst "History".toList x.kids)) := by
  cases x with
  | mk t a v ks =>
    obtain ⟨h1, h2⟩ := Xml.all_root h
    have sub : ∀ l : List Xml, ∀ k ∈ dropFirst "History".toList l, k ∈ l := by
      intro l
      induction l with
      | nil => intro k hk; exact hk
      | cons a l ih =>
        intro k hk
        unfold dropFirst at hk
        split at hk
        · exact List.mem_cons_of_mem _ hk
        · rcases List.mem_cons.mp hk with e | e
          · rw [e]; exact List.mem_cons_self ..
          · exact List.mem_cons_of_mem _ (ih k e)
    exact shaped_node fun k hk => ⟨h1 k (sub ks k hk), h2 k (sub ks k hk)⟩

theorem shaped_attachment {k : Xml} {v : Option Str} {i : Int} (h : textEl "Key".toList [] v = .ok k) :
    ShapedXml (Xml.mk "Binary".toList [] none [k, Xml.mk "Value".toList [("Ref".toList, intStr i)] none []]) := by
  refine shaped_node fun z hz => ?_
  rcases List.mem_cons.mp hz with e | e
  · rw [e, textEl_name h]; exact ⟨home_free (by decide), shaped_textEl h⟩
  · rw [List.mem_singleton.mp e]; exact ⟨home_free (by rfl), shaped_leaf⟩

end Verif.Api
