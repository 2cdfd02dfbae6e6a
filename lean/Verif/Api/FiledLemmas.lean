import Verif.Api.ShapeLemmas
/-!
# Lemmas about attachments and lists of data
-/
namespace Verif.Api
open Verif XPath Spec

theorem node_xml_tag (c : Node) : c.xml.tag = c.tag := by cases c; rw [Node.xml_mk]; rfl
theorem node_xml_kids (c : Node) : c.xml.kids = c.kids.map Node.xml := by cases c; rw [Node.xml_mk]; rfl

theorem filedXml_iff (n : Node) : FiledXml n.xml ↔ ∀ k ∈ n.nodes, ∀ c ∈ k.kids, Suits k.tag c.xml := by
  induction n using Node.ind with
  | h i t a x ks ih =>
    rw [Node.xml_mk, Node.nodes_mk]
    constructor
    · intro h k hk
      obtain ⟨h1, h2⟩ := Xml.all_root h
      rcases List.mem_cons.mp hk with e | e
      · rw [e]
        intro c hc
        exact h1 _ (List.mem_map_of_mem hc)
      · obtain ⟨c, hc, hk⟩ := List.mem_flatMap.mp e
        exact (ih c hc).mp (h2 _ (List.mem_map_of_mem hc)) k hk
    · intro h
      refine .mk (fun k hk => ?_) fun k hk => ?_
      · obtain ⟨c, hc, rfl⟩ := List.mem_map.mp hk
        exact h _ (List.mem_cons_self ..) c hc
      · obtain ⟨c, hc, rfl⟩ := List.mem_map.mp hk
        exact (ih c hc).mpr fun k hk => h k (List.mem_cons_of_mem _ (List.mem_flatMap.mpr ⟨c, hc, hk⟩))

/-- What `Suits` says of an element of the heap. -/
def SuitsAt (h : Heap) (p : Str) (c : Nat) : Prop :=
  (p = "Entry".toList → h.tag c = "Binary".toList → (∀ t ∈ fileParts, (h.all c t).length ≤ 1) ∧ ∀ k ∈ h.kids c, h.kids k = []) ∧
  (p = "Binaries".toList → h.tag c = "Binary".toList ∧ h.kids c = [])

theorem filed_iff {h : Heap} : Filed h ↔ ∀ p c, c ∈ h.kids p → SuitsAt h (h.tag p) c := by
  constructor
  · intro hf p c hc
    refine ⟨fun e1 e2 => ?_, fun e => hf.shelf p e c hc⟩
    have hb : c ∈ h.all p "Binary".toList := List.mem_filter.mpr ⟨hc, by rw [beq_iff_eq]; exact e2⟩
    exact ⟨hf.once p c e1 hb, hf.leaf p c e1 hb⟩
  · intro hh
    have sub : ∀ {e b : Nat}, b ∈ h.all e "Binary".toList → b ∈ h.kids e ∧ h.tag b = "Binary".toList := fun hb =>
      ⟨(List.mem_filter.mp hb).1, beq_iff_eq.mp (List.mem_filter.mp hb).2⟩
    exact ⟨fun e b he hb => ((hh e b (sub hb).1).1 he (sub hb).2).1, fun e b he hb => ((hh e b (sub hb).1).1 he (sub hb).2).2,
      fun l hl k hk => (hh l k hk).2 hl⟩

variable {s t : Db}

/-- The two agree. -/
theorem holds_node (hs : Inv s) {c : Node} (hc : c ∈ s.world.nodes) (p : Str) : SuitsAt s.heap p c.id ↔ Suits p c.xml := by
  have hg := Node.get?_mem hs.world.uniq hc
  have hk : s.heap.kids c.id = c.kids.map Node.id := node_kids hg
  have hgk : ∀ k ∈ c.kids, s.world.get? k.id = some k := fun k hk => Node.get?_mem hs.world.uniq (nodes_kid hc hk)
  have e1 : ∀ t, (s.heap.all c.id t).length = (c.xml.kids.filter fun k => k.tag == t).length := by
    intro t
    unfold Heap.all
    rw [hk, node_xml_kids, List.filter_map, List.filter_map, List.length_map, List.length_map]
    refine congrArg _ (List.filter_congr fun k hkk => ?_)
    show (s.heap.tag k.id == _) = (k.xml.tag == _)
    rw [node_tag (hgk k hkk), node_xml_tag]
  have e2 : (∀ k ∈ s.heap.kids c.id, s.heap.kids k = []) ↔ ∀ k ∈ c.xml.kids, k.kids = [] := by
    rw [hk, node_xml_kids]
    simp only [List.forall_mem_map]
    refine forall_congr' fun k => forall_congr' fun hkk => ?_
    rw [node_kids (hgk k hkk), node_xml_kids]
    cases k.kids <;> simp
  have e3 : s.heap.kids c.id = [] ↔ c.xml.kids = [] := by
    rw [hk, node_xml_kids]
    cases c.kids <;> simp
  unfold SuitsAt Suits
  simp only [e1]
  rw [e2, e3, node_tag hg, node_xml_tag]

theorem filed_content (hs : Inv s) (h : Filed s.heap) {e : Nat} {x : Xml} (hc : content s e = some x) : FiledXml x := by
  obtain ⟨n, hn, rfl⟩ := content_node hc
  obtain ⟨hm, hid⟩ := Node.get?_some hn
  rw [filedXml_iff]
  intro k hk c hck
  have hg := Node.get?_mem hs.world.uniq (Node.nodes_trans hm hk)
  have := filed_iff.mp h k.id c.id (by rw [node_kids hg]; exact List.mem_map_of_mem hck)
  rw [node_tag hg] at this
  exact (holds_node hs (Node.nodes_trans hm (nodes_kid hk hck)) _).mp this

theorem content_filed (hs : Inv s) {e : Nat} {x : Xml} (hc : content s e = some x) (h : FiledXml x) {j c : Nat}
    (hj : Reach s.heap e j) (hk : c ∈ s.heap.kids j) : SuitsAt s.heap (s.heap.tag j) c := by
  obtain ⟨n, hn, rfl⟩ := content_node hc
  obtain ⟨hm, hid⟩ := Node.get?_some hn
  obtain ⟨k, hkn, rfl⟩ := List.mem_map.mp ((reach_iff hs hn j).mp hj)
  have hg := Node.get?_mem hs.world.uniq (Node.nodes_trans hm hkn)
  rw [node_kids hg] at hk
  obtain ⟨c', hc', rfl⟩ := List.mem_map.mp hk
  rw [node_tag hg]
  exact (holds_node hs (Node.nodes_trans hm (nodes_kid hkn hc')) _).mpr ((filedXml_iff n).mp h k hkn c' hc')

/-- The tags of the elements in which new elements are put. -/
def openTags : List Str := ["Entry".toList, "Group".toList, "History".toList, "Binaries".toList]

/-- What is open is in no attachment and no list of data. -/
theorem open_home : ∀ t ∈ openTags, t ≠ "Binary".toList ∧ (t = "Binaries".toList ∨ ¬ Home "Binary".toList t) := by decide

/-- `x` may be put in the element `p`. -/
structure Takes (h : Heap) (p : Nat) (x : Xml) : Prop where
  tag : h.tag p ∈ openTags
  holds : Suits (h.tag p) x
  filed : FiledXml x
  list : h.tag p = "Binaries".toList → ∃ q, p ∈ h.kids q ∧ h.tag q ≠ "Binary".toList

theorem filed_added (hs : Inv s) (ht : Inv t) (hh : Shaped s.heap) (h : Filed s.heap) {p : Nat} (hA : Added s.heap t.heap p s.next t.next) {x : Xml}
    (hc : content t s.next = some x) (hx : Takes s.heap p x) : Filed t.heap := by
  obtain ⟨hp, hH, hx, hb⟩ := hx
  rw [filed_iff]
  intro j c hk
  by_cases hj : s.next ≤ j
  · have hlt : j < t.next := ht.bound j (kid_mem ht hk).2
    exact content_filed ht hc hx ((hA.below j).mpr ⟨hj, hlt⟩) hk
  · have hjl : j < s.next := by omega
    rw [added_tag hs hA hjl]
    rcases added_old_kid hs hA hjl hk with h1 | ⟨rfl, h1⟩
    · have hcl := hs.bound c (kid_mem hs h1).1
      obtain ⟨g1, g2⟩ := filed_iff.mp h j c h1
      have hck : c ≠ p → t.heap.kids c = s.heap.kids c := fun e => by rw [added_kids hs hA hcl, if_neg e]
      unfold SuitsAt
      rw [added_tag hs hA hcl]
      constructor
      · intro e1 e2
        obtain ⟨g3, g4⟩ := g1 e1 e2
        have hcp : c ≠ p := by rintro rfl; exact (open_home _ hp).1 e2
        constructor
        · intro w hw
          replace g3 := g3 w hw
          unfold Heap.all at g3 ⊢
          rw [hck hcp, List.filter_congr fun k hkk => by rw [added_tag hs hA (hs.bound k (kid_mem hs hkk).1)]]
          exact g3
        · rw [hck hcp]
          intro k hkc
          have hkp : k ≠ p := by
            rintro rfl
            rcases (open_home _ hp).2 with e | e
            · obtain ⟨q, hq, hqt⟩ := hb e
              rw [parent_eq hs hq hkc] at hqt
              exact hqt e2
            · have := hh c k (kid_ne_zero hs h1) hkc
              rw [e2] at this
              exact e this
          rw [added_kids hs hA (hs.bound k (kid_mem hs hkc).1), if_neg hkp]
          exact g4 k hkc
      · intro e
        obtain ⟨g3, g4⟩ := g2 e
        have hcp : c ≠ p := by rintro rfl; exact (open_home _ hp).1 g3
        rw [hck hcp]
        exact ⟨g3, g4⟩
    · subst h1
      obtain ⟨n, hn, rfl⟩ := content_node hc
      obtain ⟨hm, hid⟩ := Node.get?_some hn
      have := (holds_node ht hm (s.heap.tag j)).mpr hH
      rw [hid] at this
      exact this

/-- What an entry or a group may be put in. -/
theorem moving_home {t u : Str} (h : Home t u) (hu : u = "Entry".toList ∨ u = "Group".toList) :
    t ≠ "Entry".toList ∧ t ≠ "Binaries".toList ∧ t ≠ "Binary".toList ∧ ¬ Home "Binary".toList t := by
  have : t = "Group".toList ∨ t = "History".toList ∨ t = "Root".toList := by
    rcases hu with e | e
    · rw [e] at h
      have h := h ["Group".toList, "History".toList] (by decide)
      rcases List.mem_cons.mp h with e | h
      · exact .inl e
      · exact .inr (.inl (List.mem_singleton.mp h))
    · rw [e] at h
      have h := h ["Root".toList, "Group".toList] (by decide)
      rcases List.mem_cons.mp h with e | h
      · exact .inr (.inr e)
      · exact .inl (List.mem_singleton.mp h)
  rcases this with e | e | e <;> rw [e] <;> decide

theorem filed_same (hf : Filed s.heap) (htag : ∀ j, t.heap.tag j = s.heap.tag j) (hkids : ∀ j, t.heap.kids j = s.heap.kids j) : Filed t.heap := by
  have hall : ∀ j x, t.heap.all j x = s.heap.all j x := fun j x => by
    unfold Heap.all
    rw [hkids]
    exact List.filter_congr fun k _ => by rw [htag]
  refine ⟨fun e b he hb => ?_, fun e b he hb => ?_, fun l hl k hk => ?_⟩
  · intro x hx; rw [hall] at hb ⊢; rw [htag] at he; exact hf.once e b he hb x hx
  · rw [hall] at hb; rw [htag] at he; rw [hkids]; intro k hk; rw [hkids]; exact hf.leaf e b he hb k hk
  · rw [htag] at hl ⊢; rw [hkids] at hk ⊢; exact hf.shelf l hl k hk

theorem filed_moved (hs : Inv s) (hh : Shaped s.heap) (hf : Filed s.heap) {c d : Nat} (htag : ∀ j, t.heap.tag j = s.heap.tag j)
    (hkids : ∀ j ≠ d, t.heap.kids j = (s.heap.kids j).filter (· != c))
    (hX : d ≠ 0 → Home (s.heap.tag d) (s.heap.tag c) ∧ (s.heap.tag c = "Entry".toList ∨ s.heap.tag c = "Group".toList)) : Filed t.heap := by
  have hd : s.heap.tag d ≠ "Entry".toList ∧ s.heap.tag d ≠ "Binaries".toList ∧ s.heap.tag d ≠ "Binary".toList := by
    by_cases h0 : d = 0
    · rw [h0, hs.zero_tag]; decide
    · obtain ⟨h1, h2, h3, _⟩ := moving_home (hX h0).1 (hX h0).2
      exact ⟨h1, h2, h3⟩
  rw [filed_iff]
  intro p k hk
  unfold SuitsAt
  rw [htag, htag]
  by_cases e : p = d
  · rw [e]
    exact ⟨fun e => absurd e hd.1, fun e => absurd e hd.2.1⟩
  · rw [hkids p e] at hk
    have hk := (List.mem_filter.mp hk).1
    obtain ⟨g1, g2⟩ := filed_iff.mp hf p k hk
    constructor
    · intro e1 e2
      obtain ⟨g3, g4⟩ := g1 e1 e2
      have hkd : k ≠ d := by rintro rfl; exact hd.2.2 e2
      constructor
      · intro t ht
        replace g3 := g3 t ht
        unfold Heap.all at g3 ⊢
        rw [hkids k hkd, List.filter_congr fun j _ => by rw [htag], List.filter_filter]
        refine Nat.le_trans ?_ g3
        have : ∀ l : List Nat, (l.filter fun j => s.heap.tag j == t && (j != c)).length ≤ (l.filter fun j => s.heap.tag j == t).length := by
          intro l
          rw [← List.filter_filter]
          exact List.Sublist.length_le (List.Sublist.filter _ (List.filter_sublist ..))
        exact this _
      · rw [hkids k hkd]
        intro j hj
        have hj := (List.mem_filter.mp hj).1
        have hjd : j ≠ d := by
          rintro rfl
          have := hh k j (kid_ne_zero hs hk) hj
          rw [e2] at this
          exact (moving_home (hX (kid_ne_zero hs hj)).1 (hX (kid_ne_zero hs hj)).2).2.2.2 this
        rw [hkids j hjd, g4 j hj]
        rfl
    · intro e1
      obtain ⟨g3, g4⟩ := g2 e1
      have hkd : k ≠ d := by rintro rfl; exact hd.2.2 g3
      rw [hkids k hkd, g4]
      exact ⟨g3, rfl⟩

/-! ## New trees -/

/-- No element is one of the two. -/
def Tame (x : Xml) : Prop := Xml.All (fun t _ _ _ => t ≠ "Binary".toList ∧ t ≠ "Binaries".toList) x

theorem tame_filed {x : Xml} (h : Tame x) : FiledXml x := by
  induction x using Xml.ind with
  | h t a x ks ih =>
    obtain ⟨h1, h2⟩ := Xml.all_root h
    refine .mk (fun k hk => ⟨fun _ e => ?_, fun e => absurd e h1.2⟩) fun k hk => ih k hk (h2 k hk)
    have := h2 k hk
    cases k with
    | mk t' a' x' ks' => exact absurd e (Xml.all_root this).1.1

theorem tame_tag {x : Xml} (h : Tame x) : x.tag ≠ "Binary".toList := by
  cases x with
  | mk t a w ks => exact (Xml.all_root h).1.1

theorem tame_holds {x : Xml} {p : Str} (h : Tame x) (hp : p ≠ "Binaries".toList) : Suits p x :=
  ⟨fun _ e => absurd e (tame_tag h), fun e => absurd e hp⟩

theorem tame_leaf {t : Str} {a : List (Str × Str)} {w : Option Str} (h : t ≠ "Binary".toList ∧ t ≠ "Binaries".toList) : Tame (Xml.mk t a w []) :=
  .mk h fun _ h => nomatch h

theorem tame_node {t : Str} {a : List (Str × Str)} {w : Option Str} {ks : List Xml} (h : t ≠ "Binary".toList ∧ t ≠ "Binaries".toList)
    (hk : ∀ k ∈ ks, Tame k) : Tame (Xml.mk t a w ks) := .mk h hk

theorem tame_textEl {t : Str} {a : List (Str × Str)} {v : Option Str} {x : Xml} (ht : t ≠ "Binary".toList ∧ t ≠ "Binaries".toList)
    (h : textEl t a v = .ok x) : Tame x := by
  obtain ⟨w, _, _, rfl⟩ := textEl_inv h
  exact tame_leaf ht

theorem tame_string {key : Str} {v p : Option Str} {x : Xml} (h : stringEl key v p = .ok x) : Tame x := by
  have go : ∀ as : List (Str × Str), (do
      let k ← textEl "Key".toList [] (some key)
      let v ← textEl "Value".toList as v
      pure (Xml.mk "String".toList [] none [k, v])) = .ok x → Tame x := by
    intro as h
    cases hk : textEl "Key".toList [] (some key) with
    | error e => rw [hk] at h; cases h
    | ok k =>
      rw [hk] at h
      have h : (textEl "Value".toList as v >>= fun v => pure (Xml.mk "String".toList [] none [_, v])) = .ok x := h
      cases hv : textEl "Value".toList as v with
      | error e => rw [hv] at h; cases h
      | ok y =>
        rw [hv] at h
        injection h with h
        rw [← h]
        refine tame_node (by decide) fun z hz => ?_
        rcases List.mem_cons.mp hz with e | e
        · rw [e]; exact tame_textEl (by decide) hk
        · rw [List.mem_singleton.mp e]; exact tame_textEl (by decide) hv
  cases p with
  | none => exact go [] h
  | some q => exact go [("Protected".toList, q)] h

theorem tame_optString {key : Str} {v p : Option Str} {l : List Xml} (h : optString key v p = .ok l) : ∀ x ∈ l, Tame x := by
  cases v with
  | none => injection h with h; rw [← h]; exact fun _ h => nomatch h
  | some t =>
    have h : (if t = [] then .ok [] else (stringEl key (some t) p >>= fun x => pure [x]) : Except PyErr (List Xml)) = .ok l := h
    by_cases ht : t = []
    · rw [if_pos ht] at h; injection h with h; rw [← h]; exact fun _ h => nomatch h
    · rw [if_neg ht] at h
      cases h1 : stringEl key (some t) p with
      | error e => rw [h1] at h; cases h
      | ok x =>
        rw [h1] at h; injection h with h; rw [← h]
        intro y hy
        rw [List.mem_singleton.mp hy]
        exact tame_string h1

theorem tame_optText {tag : Str} {v : Option Str} {l : List Xml} (hp : tag ≠ "Binary".toList ∧ tag ≠ "Binaries".toList) (h : optText tag v = .ok l) :
    ∀ x ∈ l, Tame x := by
  cases v with
  | none => injection h with h; rw [← h]; exact fun _ h => nomatch h
  | some t =>
    have h : (if t = [] then .ok [] else (textEl tag [] (some t) >>= fun x => pure [x]) : Except PyErr (List Xml)) = .ok l := h
    by_cases ht : t = []
    · rw [if_pos ht] at h; injection h with h; rw [← h]; exact fun _ h => nomatch h
    · rw [if_neg ht] at h
      cases h1 : textEl tag [] (some t) with
      | error e => rw [h1] at h; cases h
      | ok x =>
        rw [h1] at h; injection h with h; rw [← h]
        intro y hy
        rw [List.mem_singleton.mp hy]
        exact tame_textEl hp h1

theorem tame_optTags {v : Option (List Str)} {l : List Xml} (h : optTags v = .ok l) : ∀ x ∈ l, Tame x := by
  cases v with
  | none => injection h with h; rw [← h]; exact fun _ h => nomatch h
  | some t =>
    have h : (if t = [] then .ok [] else (textEl "Tags".toList [] (some (joinTags t)) >>= fun x => pure [x]) : Except PyErr (List Xml)) = .ok l := h
    by_cases ht : t = []
    · rw [if_pos ht] at h; injection h with h; rw [← h]; exact fun _ h => nomatch h
    · rw [if_neg ht] at h
      cases h1 : textEl "Tags".toList [] (some (joinTags t)) with
      | error e => rw [h1] at h; cases h
      | ok x =>
        rw [h1] at h; injection h with h; rw [← h]
        intro y hy
        rw [List.mem_singleton.mp hy]
        exact tame_textEl (by decide) h1

theorem tame_base {env : Env} {icon : Option Str} {b : Bool} {e : Option DateTime} {s s' : Db} {l : List Xml}
    (h : baseKids env icon b e s = (.ok l, s')) : ∀ x ∈ l, Tame x := by
  have hi : ∃ is, optText "IconID".toList icon = .ok is := by
    unfold baseKids at h
    obtain ⟨u, s1, _, h⟩ := bind_inv h
    obtain ⟨is, s2, h2, _⟩ := bind_inv h
    exact ⟨is, (lift_inv h2).1⟩
  obtain ⟨is, hi⟩ := hi
  obtain ⟨now, exp, h1, h2, _, rfl⟩ := baseKids_inv h
  intro x hx
  unfold baseX at hx
  rw [← optText_inv hi] at hx
  rcases List.mem_cons.mp hx with e | hx
  · rw [e]; exact tame_leaf (by decide)
  · rcases List.mem_append.mp hx with hx | hx
    · exact tame_optText (by decide) hi x hx
    · rw [List.mem_singleton.mp hx]
      refine tame_node (by decide) fun k hk => ?_
      simp only [List.mem_cons, List.not_mem_nil, or_false] at hk
      rcases hk with e | e | e | e | e | e | e <;> rw [e] <;> exact tame_leaf (by decide)

theorem tame_group {env : Env} {a b c : Option Str} {s s' : Db} {x : Xml} (h : newGroup env a b c s = (.ok x, s')) : Tame x := by
  unfold newGroup at h
  obtain ⟨l, s1, h1, h⟩ := bind_inv h
  obtain ⟨n, s2, h2, h⟩ := bind_inv h
  obtain ⟨m, s3, h3, h⟩ := bind_inv h
  obtain ⟨rfl, _⟩ := pure_inv h
  refine tame_node (by decide) fun k hk => ?_
  rcases List.mem_append.mp hk with hk | hk
  · rcases List.mem_append.mp hk with hk | hk
    · exact tame_base h1 k hk
    · rw [List.mem_singleton.mp hk]; exact tame_textEl (by decide) (lift_inv h2).1
  · exact tame_optText (by decide) (lift_inv h3).1 k hk

theorem tame_auto : Tame autoX := by
  refine tame_node (by decide) fun k hk => ?_
  simp only [List.mem_cons, List.not_mem_nil, or_false] at hk
  rcases hk with e | e | e | e <;> rw [e]
  · exact tame_leaf (by decide)
  · exact tame_leaf (by decide)
  · exact tame_leaf (by decide)
  · refine tame_node (by decide) fun k hk => ?_
    simp only [List.mem_cons, List.not_mem_nil, or_false] at hk
    rcases hk with e | e <;> rw [e] <;> exact tame_leaf (by decide)

theorem tame_entry {env : Env} {a : EntryArgs} {s s' : Db} {x : Xml} (h : newEntry env a s = (.ok x, s')) : Tame x := by
  unfold newEntry at h
  obtain ⟨l, s1, h1, h⟩ := bind_inv h
  obtain ⟨x1, s2, h2, h⟩ := bind_inv h
  obtain ⟨x2, s3, h3, h⟩ := bind_inv h
  obtain ⟨x3, s4, h4, h⟩ := bind_inv h
  obtain ⟨l1, s5, h5, h⟩ := bind_inv h
  obtain ⟨l2, s6, h6, h⟩ := bind_inv h
  obtain ⟨l3, s7, h7, h⟩ := bind_inv h
  obtain ⟨l4, s8, h8, h⟩ := bind_inv h
  obtain ⟨rfl, _⟩ := pure_inv h
  refine tame_node (by decide) fun k hk => ?_
  rcases List.mem_append.mp hk with hk | hk
  · rcases List.mem_append.mp hk with hk | hk
    · rcases List.mem_append.mp hk with hk | hk
      · rcases List.mem_append.mp hk with hk | hk
        · rcases List.mem_append.mp hk with hk | hk
          · rcases List.mem_append.mp hk with hk | hk
            · exact tame_base h1 k hk
            · simp only [List.mem_cons, List.not_mem_nil, or_false] at hk
              rcases hk with e | e | e <;> rw [e]
              · exact tame_string (lift_inv h2).1
              · exact tame_string (lift_inv h3).1
              · exact tame_string (lift_inv h4).1
          · exact tame_optString (lift_inv h5).1 k hk
        · exact tame_optString (lift_inv h6).1 k hk
      · exact tame_optString (lift_inv h7).1 k hk
    · exact tame_optTags (lift_inv h8).1 k hk
  · rw [List.mem_singleton.mp hk]; exact tame_auto

theorem filed_archive {x : Xml} (h : FiledXml x) : FiledXml (Xml.mk x.tag x.attrs x.text (dropFirst "History".toList x.kids)) := by
  cases x with
  | mk t a v ks =>
    obtain ⟨h1, h2⟩ := Xml.all_root h
    have sub : ∀ l : List Xml, ∀ k ∈ dropFirst "History".toList l, k ∈ l := by
      intro l
      induction l with
      | nil => intro k hk; exact hk
      | cons a l ih =>
        intro k hk
        unfold dropFirst at hk
        split at hk
        · exact List.mem_cons_of_mem _ hk
        · rcases List.mem_cons.mp hk with e | e
          · rw [e]; exact List.mem_cons_self ..
          · exact List.mem_cons_of_mem _ (ih k e)
    exact .mk (fun k hk => h1 k (sub ks k hk)) fun k hk => h2 k (sub ks k hk)

theorem filed_attachment {k : Xml} {v : Option Str} {i : Int} (h : textEl "Key".toList [] v = .ok k) :
    FiledXml (Xml.mk "Binary".toList [] none [k, Xml.mk "Value".toList [("Ref".toList, intStr i)] none []]) ∧
    Suits "Entry".toList (Xml.mk "Binary".toList [] none [k, Xml.mk "Value".toList [("Ref".toList, intStr i)] none []]) := by
  obtain ⟨w, _, _, rfl⟩ := textEl_inv h
  refine ⟨.mk (fun z _ => ⟨fun e => absurd e (by decide), fun e => absurd e (by decide)⟩) fun z hz => ?_, fun _ _ => ⟨?_, ?_⟩, fun e => absurd e (by decide)⟩
  · rcases List.mem_cons.mp hz with e | e
    · rw [e]; exact tame_filed (tame_leaf (by decide))
    · rw [List.mem_singleton.mp e]; exact tame_filed (tame_leaf (by decide))
  · intro t ht
    show ([Xml.mk "Key".toList [] (some w) [], Xml.mk "Value".toList [("Ref".toList, intStr i)] none []].filter _).length ≤ 1
    rcases List.mem_cons.mp ht with rfl | ht
    · rw [List.filter_cons, if_pos (by show (("Key".toList == "Key".toList) = true); decide), List.filter_cons,
        if_neg (by show ¬ (("Value".toList == "Key".toList) = true); decide)]
      exact Nat.le_refl 1
    · rw [List.mem_singleton.mp ht, List.filter_cons, if_neg (by show ¬ (("Key".toList == "Value".toList) = true); decide)]
      exact List.length_filter_le _ [Xml.mk "Value".toList [("Ref".toList, intStr i)] none []]
  · intro z hz
    rcases List.mem_cons.mp hz with e | e
    · rw [e]; rfl
    · rw [List.mem_singleton.mp e]; rfl

theorem filed_binary {a : List (Str × Str)} {w : Option Str} : FiledXml (Xml.mk "Binary".toList a w []) ∧ Suits "Binaries".toList (Xml.mk "Binary".toList a w []) :=
  ⟨.mk nofun nofun, fun e => absurd e (by decide), fun _ => ⟨rfl, rfl⟩⟩

/-- What is tame may be put in entries, groups and histories. -/
theorem tame_takes {h : Heap} {p : Nat} {x : Xml} (hp : h.tag p ∈ ["Entry".toList, "Group".toList, "History".toList]) (hx : Tame x) : Takes h p x := by
  have h1 : ∀ t ∈ ["Entry".toList, "Group".toList, "History".toList], t ∈ openTags ∧ t ≠ "Binaries".toList := by decide
  exact ⟨(h1 _ hp).1, tame_holds hx (h1 _ hp).2, tame_filed hx, fun e => absurd e (h1 _ hp).2⟩

theorem history_takes {h : Heap} {p : Nat} {x : Xml} (hp : h.tag p = "Entry".toList) (hx : FiledXml x) :
    Takes h p (Xml.mk "History".toList [] none [x]) := by
  refine ⟨by rw [hp]; decide, ⟨fun _ e => absurd e (by show "History".toList ≠ _; decide), fun e => absurd e (by rw [hp]; decide)⟩,
    .mk (fun k _ => ⟨fun e => absurd e (by decide), fun e => absurd e (by decide)⟩) fun k hk => ?_, fun e => absurd e (by rw [hp]; decide)⟩
  rw [List.mem_singleton.mp hk]
  exact hx

theorem archive_takes {h : Heap} {p : Nat} {x : Xml} (hp : h.tag p = "History".toList) (hx : FiledXml x) :
    Takes h p (Xml.mk x.tag x.attrs x.text (dropFirst "History".toList x.kids)) :=
  ⟨by rw [hp]; decide, ⟨fun e => absurd e (by rw [hp]; decide), fun e => absurd e (by rw [hp]; decide)⟩, filed_archive hx, fun e => absurd e (by rw [hp]; decide)⟩

theorem attachment_takes {h : Heap} {p : Nat} {k : Xml} {v : Option Str} {i : Int} (hp : h.tag p = "Entry".toList) (hk : textEl "Key".toList [] v = .ok k) :
    Takes h p (Xml.mk "Binary".toList [] none [k, Xml.mk "Value".toList [("Ref".toList, intStr i)] none []]) :=
  ⟨by rw [hp]; decide, by rw [hp]; exact (filed_attachment hk).2, (filed_attachment hk).1, fun e => absurd e (by rw [hp]; decide)⟩

theorem binary_takes {h : Heap} {p m : Nat} {a : List (Str × Str)} {w : Option Str} (hp : h.tag p = "Binaries".toList) (hm : p ∈ h.kids m)
    (ht : h.tag m = "Meta".toList) : Takes h p (Xml.mk "Binary".toList a w []) :=
  ⟨by rw [hp]; decide, by rw [hp]; exact filed_binary.2, filed_binary.1, fun _ => ⟨m, hm, by rw [ht]; decide⟩⟩

end Verif.Api
