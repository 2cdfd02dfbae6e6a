import Verif.Api.VaultOps
import Verif.Props.C44_EmptyGroup
import Verif.Api.ListLemmas
/-!
# What each operation does to the cards
-/
namespace Verif.Api
open Verif XPath Spec

/-- The vault of the new state, and what has to hold of it. -/
structure Did (s' : Db) (v : Vault) : Prop where
  vault : vaultOf s' = v
  neat : ∀ y, ¬ NoCard (s'.heap.tag y) → Neat s'.heap y

section
variable {s s' : Db} {x : Nat}

theorem change_state {v : Vault} {x : Nat} {f : Card → Card} {a b : Nat} (h1 : a = v.ticks) (h2 : b = v.uuids) :
    { v.change x f with ticks := a, uuids := b } = v.change x f := by subst h1; subst h2; rfl

/-- Elements that were not there and are not among the new ones. -/
theorem fresh_of (hs : Inv s) (hs' : Inv s') {P : Nat → Prop} (ho : ∀ j, j ≠ 0 → j ∉ s.world.ids → j < s.next → s'.heap j = s.heap j)
    (hn : ∀ j, s.next ≤ j → j < s'.next → P j → NoCard (s'.heap.tag j)) {j : Nat} (hj : j ∉ s.world.ids) (hP : P j) : NoCard (s'.heap.tag j) := by
  by_cases h1 : j < s.next
  · rw [tag_congr (ho j (fun e => hj (e ▸ hs.zero_mem)) hj h1), not_mem_tag hj]; exact bodyNil
  · by_cases h2 : j < s'.next
    · exact hn j (by omega) h2 hP
    · rw [not_mem_tag fun hm => h2 (hs'.bound j hm)]; exact bodyNil

/-! ## Texts -/

theorem text_did (hs : Sound s) (hx : ¬ NoCard (s.heap.tag x)) (p : TextProp) {v : Str} (hv : XmlText v) :
    ∃ s', setSub x p.tag (some v) s = (.ok (), s') ∧ Did s' ((vaultOf s).change x (.setText p v)) := by
  have hm := card_mem hx
  obtain ⟨s', h1, h2⟩ := setSub_ok hs.inv (card_pos hs.inv hx) hm p.tag hv
  have hn : s'.next = s.next + 1 := by rw [h2.state]
  have ht : s'.heap.tag x = s.heap.tag x := by
    obtain ⟨r, r1, r2⟩ := h2.here
    unfold Heap.tag; rw [r1, r2]; rfl
  have hq : ∀ j ∈ s.world.ids, j ≠ 0 → j ≠ x → s'.heap j = s.heap j := fun j hj h0 hne => h2.other j h0 hne (hs.inv.bound j hj)
  have l : Local s s' x none := by
    refine ⟨h2.inv, hx, ⟨x, .self, ht, hq⟩, fun j hj _ => ?_, h2.document, by rw [h2.state]⟩
    refine fresh_of (P := fun _ => True) hs.inv h2.inv (fun j h0 hj hlt => h2.other j h0 (fun e => hj (e ▸ hm)) hlt) (fun j h1 h2' _ => ?_) hj trivial
    have : j = s.next := by omega
    subst this
    show NoCard (((s'.heap s.next).map Node.Rec.tag).getD [])
    rw [h2.new]
    exact bodyText p
  have a : ∀ t, t ≠ p.tag → SameAt s.heap s'.heap x t := fun t ht =>
    Local.other hs.inv hq (fun j hj => l.tag hs.inv hj) (.inl rfl) ht (h2.all_other hs.inv ht)
  have hone := (hs.neat x hx).once p.tag (single_text p)
  refine ⟨s', h1, ?_, l.all_neat hs ⟨fun t ht => ?_, ?_⟩⟩
  · rw [l.vault hs (card_text ht a (h2.sub_new hs.inv hone))]
    exact change_state (by rw [h2.state]; rfl) (by rw [h2.state]; rfl)
  · by_cases e : t = p.tag
    · rw [e, h2.all_new hs.inv hone]; exact Nat.le_refl _
    · rw [(a t e).all]; exact (hs.neat x hx).once t ht
  · exact (a _ (by cases p <;> decide)).fields (hs.neat x hx).fields

/-! ## String fields -/

theorem setField_fresh (env : Env) (hs : Inv s) {e : Nat} (he : e ≠ 0) (hm : e ∈ s.world.ids) {key value : Str} (hk : Plain key)
    (hkx : XmlText key) (hv : XmlText value) (prot : Option Bool) :
    ∀ j, s.next ≤ j → NoCard ((setField env e key (some value) prot s).2.heap.tag j) := by
  have hold : ∀ f, (fieldEls s.heap e key).head? = some f → f ∈ s.heap.kids e := by
    intro f hf
    exact (all_sub (List.mem_filter.mp (List.mem_of_mem_head? hf)).1).1
  obtain ⟨s', h1, h2⟩ := replace_ok hs he hm (fieldEls s.heap e key).head? hold
    (stringXml key value (newMark s.heap e key prot))
  have : setField env e key (some value) prot s = (.ok (), s') := by
    unfold setField
    rw [bind_of (first_field env hs he hm hk), bind_of (markFor_run env hs he hm hk prot)]
    obtain ⟨u, s1, a1, a2⟩ := bind_inv h1
    rw [bind_of a1, stringEl_ok hkx hv]
    show (make e _ >>= fun _ => pure ()) s1 = _
    rw [bind_of a2]
    rfl
  rw [this]
  intro j hj
  show NoCard (((s'.heap j).map Node.Rec.tag).getD [])
  obtain ⟨n0, n1, n2, n3⟩ := stringXml_heap h2
  have hlt : ∀ {j}, j ∈ s'.world.ids → j < s.next + 3 := fun {j} h => by
    have := h2.inv.bound j h; rw [n3] at this; exact this
  by_cases h : j < s.next + 3
  · rcases (by omega : j = s.next ∨ j = s.next + 1 ∨ j = s.next + 2) with rfl | rfl | rfl
    · rw [h2.fresh _ (by omega)]
      have : ((((Node.ofXml s.next (stringXml key value (newMark s.heap e key prot))).1.view s.next).map Node.Rec.tag).getD []) = "String".toList := by
        show ((((Node.mk s.next "String".toList [] none [.mk (s.next + 1) "Key".toList [] (some key) [],
          .mk (s.next + 2) "Value".toList (protAttr _) (some value) []]).view s.next).map Node.Rec.tag).getD []) = _
        simp [Node.view, Node.get?, Node.nodes, Node.id, Node.rec', Node.tag]
      rw [this]; exact bodyString
    · rw [n1]; show NoCard "Key".toList; decide
    · rw [n2]; show NoCard "Value".toList; decide
  · cases hr : s'.heap j with
    | none => exact bodyNil
    | some r => exact absurd (hlt (mem_of_heap hr)) h

theorem runSet_fresh (env : Env) (hs : Inv s) {e : Nat} (he : e ≠ 0) (hm : e ∈ s.world.ids) {o : SetOp} (ho : o.Ok) :
    ∀ j, s.next ≤ j → NoCard ((runSet env e o s).2.heap.tag j) := by
  cases o with
  | custom k v p =>
    obtain ⟨h1, h2, h3, h4⟩ := ho
    show ∀ j, _ → NoCard (((if k ∈ reservedKeys then (fail .assertion : M Unit) else setField env e k (some v) (some p)) s).2.heap.tag j)
    rw [if_neg h1]
    exact setField_fresh env hs he hm h2 h3 h4 _
  | std f v =>
    have ho : XmlText v := ho
    have key := fun p => setField_fresh env hs he hm (plain_std f) (xml_std f) ho p
    have prot : ∀ g : Field, g = f → (g = .password ∨ g = .otp) → ∀ j, s.next ≤ j → NoCard ((runSet env e (.std f v) s).2.heap.tag j) := by
      intro g hg hp
      have : runSet env e (.std f v) = (getField env e f.key >>= fun old =>
          if old.getD [] ≠ [] then setField env e f.key (some v) else setField env e f.key (some v) (some true)) := by
        subst hg
        rcases hp with rfl | rfl <;> rfl
      rw [this, bind_of (getField_run env hs he hm (plain_std f))]
      split
      · exact key none
      · exact key (some true)
    cases f with
    | password => exact prot _ rfl (.inl rfl)
    | otp => exact prot _ rfl (.inr rfl)
    | title => exact key none
    | username => exact key none
    | url => exact key none
    | notes => exact key none

theorem all_other_kids {h h' : Heap} {e : Nat} (hk : otherKids h' e = otherKids h e)
    (ht : ∀ k ∈ otherKids h e, h'.tag k = h.tag k) {t : Str} (hne : t ≠ "String".toList) : h'.all e t = h.all e t := by
  have all_eq : ∀ g : Heap, g.all e t = (otherKids g e).filter fun k => g.tag k == t := by
    intro g
    unfold Heap.all otherKids
    rw [List.filter_filter]
    apply List.filter_congr
    intro k _
    by_cases hk : g.tag k = t
    · rw [hk, bne_iff_ne.mpr hne, Bool.and_true]
    · rw [beq_eq_false_iff_ne.mpr hk]; rfl
  rw [all_eq, all_eq, hk]
  exact List.filter_congr fun k hk => by rw [ht k hk]

theorem field_did (env : Env) (hs : Sound s) {e : Nat} (hx : ¬ NoCard (s.heap.tag e)) {o : SetOp} (ho : o.Ok) :
    ∃ s', runSet env e o s = (.ok (), s') ∧ Did s' ((vaultOf s).change e
      (.setField o.key o.value (o.newMark (((cardOf s.heap e).field o.key).bind id) ((cardOf s.heap e).mark o.key)))) := by
  have hm := card_mem hx
  have he0 := card_pos hs.inv hx
  obtain ⟨s', h1, h2⟩ := runSet_ok env hs.inv he0 hm (hs.neat e hx).fields ho
  have hfr := runSet_fresh env hs.inv he0 hm ho
  rw [h1] at hfr
  have only := h2.only hs.inv
  have hq : ∀ j ∈ s.world.ids, j ≠ 0 → j ≠ e → s'.heap j = s.heap j := fun j hj h0 hne => only.other j h0 hne (hs.inv.bound j hj)
  have l : Local s s' e none := by
    refine ⟨h2.inv, hx, ⟨e, .self, h2.tag, hq⟩, fun j hj _ => ?_, only.document, by rw [h2.state]⟩
    exact fresh_of (P := fun _ => True) hs.inv h2.inv (fun j h0 hj hlt => only.other j h0 (fun e => hj (e ▸ hm)) hlt)
      (fun j h1 _ _ => hfr j h1) hj trivial
  have a : ∀ t, t ≠ "String".toList → SameAt s.heap s'.heap e t := fun t ht =>
    Local.other hs.inv hq (fun j hj => l.tag hs.inv hj) (.inl rfl) ht
      (all_other_kids only.kids (fun k hk => l.tag hs.inv (kid_mem hs.inv (List.mem_filter.mp hk).1).1) ht)
  have hold : field s.heap e o.key = ((cardOf s.heap e).field o.key).bind id := by
    rw [field_eq]
    show _ = (prop s.heap e o.key).bind id
    cases prop s.heap e o.key <;> rfl
  refine ⟨s', h1, ?_, l.all_neat hs ⟨fun t ht => ?_, h2.fields⟩⟩
  · rw [l.vault hs (f := .setField o.key o.value (o.newMark (((cardOf s.heap e).field o.key).bind id) ((cardOf s.heap e).mark o.key)))
      (card_fields h2.tag a ?_ (funext fun k => h2.prop k) (funext fun k => ?_) rfl)]
    · exact change_state (by rw [h2.state]; rfl) (by rw [h2.state]; rfl)
    · obtain ⟨ks, k1, k2⟩ := h2.keys
      rw [k1, k2]; rfl
    · rw [← hold]; exact h2.mark k
  · rw [(a t (by rintro rfl; exact absurd ht (by decide))).all]; exact (hs.neat e hx).once t ht

theorem deleted_did (hs : Sound s) {e : Nat} (hx : ¬ NoCard (s.heap.tag e)) {k : Str} (h2 : FieldDeleted s s' e k) :
    Did s' ((vaultOf s).change e (.dropField k)) := by
  have hm := card_mem hx
  have hq : ∀ j ∈ s.world.ids, j ≠ 0 → j ≠ e → s'.heap j = s.heap j := fun j hj h0 hne => h2.other j h0 hne
  have l : Local s s' e none := by
    refine ⟨h2.inv, hx, ⟨e, .self, h2.tag, hq⟩, fun j hj _ => ?_, h2.document, by rw [h2.state]⟩
    refine fresh_of (P := fun _ => True) hs.inv h2.inv (fun j h0 hj hlt => h2.other j h0 (fun e => hj (e ▸ hm))) (fun j h1 h2' _ => ?_) hj trivial
    rw [h2.state] at h2'
    have h2' : j < s.next := h2'
    omega
  have ho : otherKids s'.heap e = otherKids s.heap e := by
    obtain ⟨r, r1, r2⟩ := h2.here
    have k1 : s.heap.kids e = r.kids := by unfold Heap.kids; rw [r1]; rfl
    have k2 : s'.heap.kids e = r.kids.filter fun j => !(fieldEls s.heap e k).contains j := by unfold Heap.kids; rw [r2]; rfl
    unfold otherKids
    rw [k1, k2, List.filter_filter]
    apply List.filter_congr
    intro j hj
    rw [← k1] at hj
    rw [l.tag hs.inv (kid_mem hs.inv hj).1, Bool.and_eq_left_iff_imp]
    intro ht
    rw [bne_iff_ne] at ht
    simp only [Bool.not_eq_true', List.contains_eq_mem, decide_eq_false_iff_not]
    exact fun hc => ht (all_sub (List.mem_filter.mp hc).1).2
  have a : ∀ t, t ≠ "String".toList → SameAt s.heap s'.heap e t := fun t ht =>
    Local.other hs.inv hq (fun j hj => l.tag hs.inv hj) (.inl rfl) ht
      (all_other_kids ho (fun k hk => l.tag hs.inv (kid_mem hs.inv (List.mem_filter.mp hk).1).1) ht)
  refine ⟨?_, l.all_neat hs ⟨fun t ht => ?_, h2.fields⟩⟩
  · rw [l.vault hs (f := .dropField k) (card_fields h2.tag a h2.keys (funext fun q => h2.prop q) (funext fun q => h2.mark q) rfl)]
    exact change_state (by rw [h2.state]; rfl) (by rw [h2.state]; rfl)
  · rw [(a t (by rintro rfl; exact absurd ht (by decide))).all]; exact (hs.neat e hx).once t ht

theorem dropField_did (env : Env) (hs : Sound s) {e : Nat} (hx : ¬ NoCard (s.heap.tag e)) {k : Str} (hk : Plain k) :
    (¬ (k ∈ reservedKeys ∨ (cardOf s.heap e).field k = none) ∧
      ∃ s', deleteCustom env e k s = (.ok (), s') ∧ Did s' ((vaultOf s).change e (.dropField k))) ∨
    ((k ∈ reservedKeys ∨ (cardOf s.heap e).field k = none) ∧ deleteCustom env e k s = (.error .attribute, s)) := by
  rcases deleteCustom_ok env hs.inv (card_pos hs.inv hx) (card_mem hx) (hs.neat e hx).fields hk with ⟨c1, c2, s', h1, h2⟩ | ⟨c, h1⟩
  · exact .inl ⟨fun h => h.elim c1 c2, s', h1, deleted_did hs hx h2⟩
  · exact .inr ⟨c, h1⟩

/-! ## Times -/

theorem change_id {v : Vault} {x : Nat} {f : Card → Card} (h : ∀ c, v.card x = some c → f c = c) : v.change x f = v := by
  refine Vault.ext ?_ rfl rfl rfl rfl
  funext j
  show (if j = x then (v.card x).map f else v.card j) = v.card j
  by_cases e : j = x
  · rw [if_pos e, e]
    cases hc : v.card x with
    | none => rfl
    | some c => exact congrArg some (h c hc)
  · rw [if_neg e]

theorem change_eq {v : Vault} {x : Nat} {f g : Card → Card} (h : ∀ c, v.card x = some c → f c = g c) : v.change x f = v.change x g := by
  refine Vault.ext ?_ rfl rfl rfl rfl
  funext j
  show (if j = x then (v.card x).map f else v.card j) = if j = x then (v.card x).map g else v.card j
  by_cases e : j = x
  · rw [if_pos e, if_pos e]
    cases hc : v.card x with
    | none => rfl
    | some c => exact congrArg some (h c hc)
  · rw [if_neg e, if_neg e]

theorem changed_did (hs : Sound s) (hx : ¬ NoCard (s.heap.tag x)) {p : TimeProp} {q : Nat} (hq : timeEl s.heap x p.tag = some q) {w : Str}
    (h : TextChanged s s' q (some w)) : Did s' ((vaultOf s).setTime x p w) := by
  obtain ⟨m1, m2, k, m3, m4⟩ := timeEl_mem hs.inv hq
  obtain ⟨k1, k2⟩ := find_kid m3
  have hpart : Part s.heap x q := .kid (.kid .self k1 (by rw [k2]; decide)) m4 (by rw [m2]; exact bodyTime p)
  have ho : ∀ j ∈ s.world.ids, j ≠ 0 → j ≠ q → s'.heap j = s.heap j := fun j _ _ hne => h.other hne
  have l : Local s s' x none := by
    refine ⟨h.inv, hx, ⟨q, hpart, h.tag q, ho⟩, fun j hj _ => ?_, ?_, by rw [h.state]⟩
    · rw [h.tag, not_mem_tag hj]; exact bodyNil
    · unfold docEl; rw [h.kids]
  have hall : ∀ t, s'.heap.all x t = s.heap.all x t := by
    intro t
    unfold Heap.all
    rw [h.kids]
    exact List.filter_congr fun k _ => by rw [h.tag]
  have a : ∀ t, t ≠ "Times".toList → SameAt s.heap s'.heap x t := fun t ht =>
    Local.other hs.inv ho (fun j hj => h.tag j) (.inr ⟨k, k1, k2, .kid m4⟩) ht (hall t)
  have hr : ∃ r, s.heap q = some r := heap_some.mpr m1
  have htx : s'.heap.text q = some w := by
    obtain ⟨r, hr⟩ := hr
    unfold Heap.text
    rw [h.heap q, hr]
    simp
  refine ⟨?_, l.all_neat hs ⟨fun t ht => ?_, (a _ (by decide)).fields (hs.neat x hx).fields⟩⟩
  · rw [l.vault hs (f := .setTime p w) (card_time (h.tag x) a (by rw [changed_timeEl h, hq]; exact congrArg some htx) fun o hne => ?_)]
    · rw [change_state (by rw [h.state]; rfl) (by rw [h.state]; rfl)]
      refine change_eq fun c hc => ?_
      rw [card_some hx] at hc
      injection hc with hc
      subst hc
      rw [if_neg]
      show (timeEl s.heap x p.tag).map s.heap.text ≠ none
      rw [hq]; simp
    · rw [changed_timeEl h]
      cases ht : timeEl s.heap x o.tag with
      | none => rfl
      | some c =>
        refine congrArg some (h.text ?_)
        rintro rfl
        exact timeTag_ne hne (timeEl_inj hs.inv ht hq).2
  · rw [hall t]; exact (hs.neat x hx).once t ht

/-! ## Emptying a group -/

theorem empty_did (hs : Sound s) {g : Nat} (hx : s.heap.tag g = "Group".toList) :
    ∃ s', emptyGroup g s = (.ok (), s') ∧ Did s' ((vaultOf s).change g fun c => { c with entries := [], groups := [] }) := by
  have hb : ¬ NoCard (s.heap.tag g) := by rw [hx]; decide
  obtain ⟨s', h1, h2, h3, h4, h5, ⟨r, r1, r2⟩, h6, h7, h8, _⟩ := Props.C44_empty_group hs.inv (card_pos hs.inv hb) (card_mem hb)
  have ht : s'.heap.tag g = s.heap.tag g := by unfold Heap.tag; rw [r1, r2]; rfl
  have hq : ∀ j ∈ s.world.ids, j ≠ 0 → j ≠ g → s'.heap j = s.heap j := fun j _ h0 hne => h6 j h0 hne
  have l : Local s s' g none := by
    refine ⟨h2, hb, ⟨g, .self, ht, hq⟩, fun j hj _ => ?_, h7, by rw [h3]⟩
    rw [tag_congr (h6 j (fun e => hj (e ▸ hs.inv.zero_mem)) fun e => hj (e ▸ card_mem hb)), not_mem_tag hj]
    exact bodyNil
  have a : ∀ t, NoCard t → SameAt s.heap s'.heap g t := fun t hbt =>
    Local.other (T := "Entry".toList) hs.inv hq (fun j hj => l.tag hs.inv hj) (.inl rfl) hbt.1 (h8 t hbt.1 hbt.2)
  refine ⟨s', h1, ?_, l.all_neat hs ⟨fun t ht => ?_, (a _ (by decide)).fields (hs.neat g hb).fields⟩⟩
  · rw [l.vault hs (f := fun c => { c with entries := [], groups := [] }) (by rw [card_lists ht a, h4, h5])]
    exact change_state (by rw [h3]; rfl) (by rw [h3]; rfl)
  · rw [(a t (by revert t; decide)).all]; exact (hs.neat g hb).once t ht

/-! ## Taking a card out of a list, and putting it into another -/

theorem holder (hs : Sound s) (hx : ¬ NoCard (s.heap.tag x)) {j : Nat} (h0 : j ≠ 0) (hk : x ∈ s.heap.kids j) :
    s.heap.tag j ∈ ["Group".toList, "Root".toList, "History".toList] := by
  have h := hs.shaped j x h0 hk
  have hx : s.heap.tag x = "Entry".toList ∨ s.heap.tag x = "Group".toList := by
    by_cases e1 : s.heap.tag x = "Entry".toList
    · exact .inl e1
    · by_cases e2 : s.heap.tag x = "Group".toList
      · exact .inr e2
      · exact absurd ⟨e1, e2⟩ hx
  rcases hx with e | e <;> rw [e] at h
  · rcases home_entry h with h | h <;> rw [h] <;> decide
  · rcases home_group h with h | h <;> rw [h] <;> decide

/-- In a part of a card there is no entry or group, but in its history. -/
theorem part_holds (hs : Sound s) (hx : ¬ NoCard (s.heap.tag x)) {y : Nat} (hy : ¬ NoCard (s.heap.tag y)) {j : Nat} (hp : Part s.heap y j)
    (hne : j ≠ y) (hh : s.heap.tag j ≠ "History".toList) : x ∉ s.heap.kids j := by
  intro hk
  obtain ⟨j0, _⟩ := part_pos hs.inv hy hp
  have hj := holder hs hx j0 hk
  cases hp with
  | self => exact hne rfl
  | kid hp hk hb =>
    rename_i p
    have hp0 := (part_pos hs.inv hy hp).1
    have hhome := hs.shaped p j hp0 hk
    rcases List.mem_cons.mp hj with h | hj
    · exact hb.2 h
    · rcases List.mem_cons.mp hj with h | hj
      · rw [h] at hhome
        have hroot := home_root hhome
        cases hp with
        | self => rw [hroot] at hy; exact hy (by decide)
        | kid hq hl _ =>
          have hup := hs.shaped _ p (part_pos hs.inv hy hq).1 hl
          rw [hroot] at hup
          exact home_doc hup
      · exact hh (List.mem_singleton.mp hj)

theorem moved_lists {d : Nat} (h : Moved s.heap s'.heap x d) {j : Nat} (hj : j ∈ s.world.ids) (t : Str) :
    s'.heap.all j t = (s.heap.all j t).filter (· != x) ++ if j = d ∧ s.heap.tag x = t then [x] else [] := by
  unfold Heap.all
  rw [moved_kids h j (heap_some.mpr hj), filter_filter_swap]
  have hsw : ∀ l : List Nat, l.filter (fun k => s'.heap.tag k == t) = l.filter fun k => s.heap.tag k == t := fun l =>
    List.filter_congr fun k _ => by rw [moved_tag h]
  by_cases e : j = d
  · rw [if_pos e, List.filter_append, hsw, hsw]
    by_cases e' : s.heap.tag x = t
    · rw [if_pos ⟨e, e'⟩, List.filter_cons_of_pos (by rw [beq_iff_eq]; exact e')]; rfl
    · rw [if_neg fun h => e' h.2, List.filter_cons_of_neg (by rw [beq_iff_eq]; exact e')]; rfl
  · rw [if_neg e, if_neg fun h => e h.1, hsw, List.append_nil]

variable {d : Nat}

/-- The list with the moved card at the end, if it belongs there. -/
def putIn (s : Db) (x d : Nat) (t : Str) (y : Nat) (l : List Nat) : List Nat := l ++ if y = d ∧ s.heap.tag x = t then [x] else []

theorem moved_parts (hs : Sound s) (hx : ¬ NoCard (s.heap.tag x)) (hd : d = 0 ∨ ¬ NoCard (s.heap.tag d)) (h : Moved s.heap s'.heap x d)
    {y : Nat} (hy : ¬ NoCard (s.heap.tag y)) :
    (∀ t, NoCard t → t ≠ "History".toList → SameAt s.heap s'.heap y t) ∧ s'.heap.all y "History".toList = s.heap.all y "History".toList ∧
    cardOf s'.heap y = { (cardOf s.heap y).unlink x with
      entries := putIn s x d "Entry".toList y ((cardOf s.heap y).entries.filter (· != x))
      groups := putIn s x d "Group".toList y ((cardOf s.heap y).groups.filter (· != x)) } := by
  have hym := card_mem hy
  have hall : ∀ t, NoCard t → s'.heap.all y t = s.heap.all y t := by
    intro t hb
    rw [moved_lists h hym, if_neg (fun e => hx (by rw [e.2]; exact hb)), List.append_nil, List.filter_eq_self]
    intro k hk
    rw [bne_iff_ne]
    rintro rfl
    exact hx (by rw [(all_sub hk).2]; exact hb)
  have hsame : ∀ j, Part s.heap y j → j ≠ y → s.heap.tag j ≠ "History".toList → s'.heap j = s.heap j := by
    intro j hp hne hh
    obtain ⟨j0, j1⟩ := part_pos hs.inv hy hp
    refine moved_same h ?_ (part_holds hs hx hy hp hne hh)
    rintro rfl
    rcases hd with hd | hd
    · exact j0 hd
    · exact hne (part_group hp hd)
  have a : ∀ t, NoCard t → t ≠ "History".toList → SameAt s.heap s'.heap y t := by
    intro t hb hh
    refine ⟨hall t hb, fun _ k hk j hj => ⟨?_, fun c _ => moved_tag h c⟩⟩
    obtain ⟨k1, k2⟩ := all_sub hk
    have hbk : NoCard (s.heap.tag k) := by rw [k2]; exact hb
    have hbj : NoCard (s.heap.tag j) := by
      cases hj with
      | self => exact hbk
      | kid _ _ hbj => exact hbj
    refine hsame j (part_trans (.kid .self k1 hbk) hj) (fun e => hy (e ▸ hbj)) fun e => ?_
    cases hj with
    | self => exact hh (k2.symm.trans e)
    | @kid p _ hp hc _ =>
      have hbp : NoCard (s.heap.tag p) := by
        cases hp with
        | self => exact hbk
        | kid _ _ hbp => exact hbp
      have := hs.shaped p j (part_pos hs.inv hy (part_trans (.kid .self k1 hbk) hp)).1 hc
      rw [e] at this
      have : s.heap.tag p = "Entry".toList := by
        have := this _ rfl
        simpa using this
      exact hbp.1 this
  refine ⟨a, hall _ bodyHistory, ?_⟩
  refine Card.ext (moved_tag h y) ?_ ?_ (a _ bodyString (by decide)).keysOf (a _ bodyString (by decide)).prop (a _ bodyString (by decide)).mark
    (a _ bodyBinary (by decide)).files (funext fun q => (a _ (by decide) (by decide)).auto q) ?_ (moved_lists h hym _) (moved_lists h hym _)
  · funext q; exact (a _ (bodyText q) (by cases q <;> decide)).sub (bodyText q)
  · funext q; exact (a _ bodyTimes (by decide)).time (bodyTime q)
  · show (s'.heap.find y _).map _ = ((s.heap.find y _).map _).map _
    unfold Heap.find
    rw [hall _ bodyHistory]
    cases hk : (s.heap.all y "History".toList).head? with
    | none => rfl
    | some k =>
      have hk := List.mem_of_mem_head? hk
      obtain ⟨k1, k2⟩ := all_sub hk
      refine congrArg some ?_
      show s'.heap.all k "Entry".toList = (s.heap.all k "Entry".toList).filter (· != x)
      rw [moved_lists h (kid_mem hs.inv k1).1, if_neg, List.append_nil]
      rintro ⟨rfl, _⟩
      rcases hd with hd | hd
      · exact kid_ne_zero hs.inv k1 hd
      · exact hd (by rw [k2]; exact bodyHistory)

theorem moved_roots (hs : Sound s) (hx : ¬ NoCard (s.heap.tag x)) (hd : d = 0 ∨ ¬ NoCard (s.heap.tag d)) (h : Moved s.heap s'.heap x d) :
    docEl s.heap ≠ some x ∧ rootsOf s'.heap = (rootsOf s.heap).filter (· != x) := by
  obtain ⟨o, m, r, hk⟩ := hs.skeleton
  have hdoc : docEl s.heap ≠ some x := by
    rw [hk.doc]
    intro e
    injection e with e
    subst e
    rw [hk.tag] at hx
    exact hx (by decide)
  have ho : o ∈ s.heap.kids 0 := List.mem_of_mem_head? hk.doc
  have hr : r ∈ s.heap.kids o ∧ s.heap.tag r = "Root".toList := all_sub (by rw [hk.root]; exact List.mem_singleton.mpr rfl)
  have hbr : NoCard (s.heap.tag r) := by rw [hr.2]; decide
  have hne : r ≠ x := by rintro rfl; exact hx hbr
  refine ⟨hdoc, ?_⟩
  have hroot : s'.heap.all o "Root".toList = [r] := by
    rw [moved_lists h (kid_mem hs.inv ho).1, hk.root, if_neg (fun e => hx (by rw [e.2]; decide)), List.append_nil,
      List.filter_cons_of_pos (by rw [bne_iff_ne]; exact hne)]
    rfl
  rw [roots_eq ((moved_doc hs.inv h hdoc).trans hk.doc) hroot, roots_of hk, moved_lists h (kid_mem hs.inv hr.1).1, if_neg, List.append_nil]
  rintro ⟨e, _⟩
  subst e
  rcases hd with hd | hd
  · exact kid_ne_zero hs.inv hr.1 hd
  · exact hd hbr

theorem moved_neat (hs : Sound s) (hx : ¬ NoCard (s.heap.tag x)) (hd : d = 0 ∨ ¬ NoCard (s.heap.tag d)) (h : Moved s.heap s'.heap x d) :
    ∀ y, ¬ NoCard (s'.heap.tag y) → Neat s'.heap y := by
  intro y hy
  rw [moved_tag h] at hy
  obtain ⟨a, b, _⟩ := moved_parts hs hx hd h hy
  refine ⟨fun t ht => ?_, (a _ bodyString (by decide)).fields (hs.neat y hy).fields⟩
  by_cases e : t = "History".toList
  · rw [e, b]; exact (hs.neat y hy).once _ (by decide)
  · rw [(a t (by revert t; decide) e).all]; exact (hs.neat y hy).once t ht

theorem moved_card (hs : Sound s) (hx : ¬ NoCard (s.heap.tag x)) (hd : d = 0 ∨ ¬ NoCard (s.heap.tag d)) (h : Moved s.heap s'.heap x d) (y : Nat) :
    (vaultOf s').card y = (((vaultOf s).unlink x).card y).map fun c => { c with
      entries := putIn s x d "Entry".toList y c.entries, groups := putIn s x d "Group".toList y c.groups } := by
  show (if NoCard (s'.heap.tag y) then none else some (cardOf s'.heap y)) =
    ((if NoCard (s.heap.tag y) then none else some (cardOf s.heap y)).map (Card.unlink x)).map _
  rw [moved_tag h]
  by_cases hy : NoCard (s.heap.tag y)
  · rw [if_pos hy, if_pos hy]; rfl
  · rw [if_neg hy, if_neg hy, (moved_parts hs hx hd h hy).2.2]; rfl

theorem moved_out (hs : Sound s) (hx : ¬ NoCard (s.heap.tag x)) (h : Moved s.heap s'.heap x 0) (he : s' = { s with world := s'.world }) :
    Did s' ((vaultOf s).unlink x) := by
  refine ⟨?_, moved_neat hs hx (.inl rfl) h⟩
  refine Vault.ext ?_ (moved_roots hs hx (.inl rfl) h).2 (by rw [he]; rfl) (by rw [he]; rfl) (by rw [he]; rfl)
  funext y
  rw [moved_card hs hx (.inl rfl) h]
  by_cases hy : ((vaultOf s).unlink x).card y = none
  · rw [hy]; rfl
  · have hy0 : y ≠ 0 := by
      rintro rfl
      refine hy ?_
      show ((if NoCard (s.heap.tag 0) then none else _).map (Card.unlink x)) = none
      rw [hs.inv.zero_tag, if_pos bodyNil]; rfl
    cases hc : ((vaultOf s).unlink x).card y with
    | none => rfl
    | some c =>
      refine congrArg some ?_
      refine Card.ext rfl rfl rfl rfl rfl rfl rfl rfl rfl ?_ ?_
      · show c.entries ++ _ = _
        rw [if_neg fun e => hy0 e.1, List.append_nil]
      · show c.groups ++ _ = _
        rw [if_neg fun e => hy0 e.1, List.append_nil]

theorem moved_in (hs : Sound s) (hx : ¬ NoCard (s.heap.tag x)) (hd : s.heap.tag d = "Group".toList) (h : Moved s.heap s'.heap x d)
    (he : s' = { s with world := s'.world }) :
    (s.heap.tag x = "Entry".toList → Did s' (((vaultOf s).unlink x).addEntry d x)) ∧
    (s.heap.tag x = "Group".toList → Did s' (((vaultOf s).unlink x).addGroup d x)) := by
  have hd' : d = 0 ∨ ¬ NoCard (s.heap.tag d) := .inr (by rw [hd]; decide)
  have hr := (moved_roots hs hx hd' h).2
  constructor
  · intro ht
    refine ⟨Vault.ext (funext fun y => ?_) hr (by rw [he]; rfl) (by rw [he]; rfl) (by rw [he]; rfl), moved_neat hs hx hd' h⟩
    rw [moved_card hs hx hd' h]
    show _ = if y = d then (((vaultOf s).unlink x).card d).map _ else ((vaultOf s).unlink x).card y
    by_cases e : y = d
    · subst e
      rw [if_pos rfl]
      cases ((vaultOf s).unlink x).card y with
      | none => rfl
      | some c =>
        refine congrArg some (Card.ext rfl rfl rfl rfl rfl rfl rfl rfl rfl ?_ ?_)
        · show c.entries ++ _ = _
          rw [if_pos ⟨rfl, ht⟩]
        · show c.groups ++ _ = _
          rw [if_neg (by rw [ht]; exact fun h => absurd h.2 (by decide)), List.append_nil]
    · rw [if_neg e]
      cases ((vaultOf s).unlink x).card y with
      | none => rfl
      | some c =>
        refine congrArg some (Card.ext rfl rfl rfl rfl rfl rfl rfl rfl rfl ?_ ?_)
        · show c.entries ++ _ = _
          rw [if_neg fun h => e h.1, List.append_nil]
        · show c.groups ++ _ = _
          rw [if_neg fun h => e h.1, List.append_nil]
  · intro ht
    refine ⟨Vault.ext (funext fun y => ?_) hr (by rw [he]; rfl) (by rw [he]; rfl) (by rw [he]; rfl), moved_neat hs hx hd' h⟩
    rw [moved_card hs hx hd' h]
    show _ = if y = d then (((vaultOf s).unlink x).card d).map _ else ((vaultOf s).unlink x).card y
    by_cases e : y = d
    · subst e
      rw [if_pos rfl]
      cases ((vaultOf s).unlink x).card y with
      | none => rfl
      | some c =>
        refine congrArg some (Card.ext rfl rfl rfl rfl rfl rfl rfl rfl rfl ?_ ?_)
        · show c.entries ++ _ = _
          rw [if_neg (by rw [ht]; exact fun h => absurd h.2 (by decide)), List.append_nil]
        · show c.groups ++ _ = _
          rw [if_pos ⟨rfl, ht⟩]
    · rw [if_neg e]
      cases ((vaultOf s).unlink x).card y with
      | none => rfl
      | some c =>
        refine congrArg some (Card.ext rfl rfl rfl rfl rfl rfl rfl rfl rfl ?_ ?_)
        · show c.entries ++ _ = _
          rw [if_neg fun h => e h.1, List.append_nil]
        · show c.groups ++ _ = _
          rw [if_neg fun h => e h.1, List.append_nil]

/-- Below a group there are groups only in groups. -/
theorem below_reach (hs : Sound s) (hx : s.heap.tag x = "Group".toList) {g : Nat} (hg : s.heap.tag g = "Group".toList) :
    (vaultOf s).Below x g ↔ Reach s.heap x g := by
  have hx0 : x ≠ 0 := tag_ne_zero hs.inv (by rw [hx]; decide)
  constructor
  · intro h
    clear hg
    induction h with
    | refl => exact .refl
    | sub _ hc hy ih =>
      obtain ⟨_, rfl⟩ := card_inv hc
      exact .snoc ih (all_sub hy).1
  · intro h
    have key : ∀ j, Reach s.heap x j → (s.heap.tag j = "Group".toList → (vaultOf s).Below x j) ∧ s.heap.tag j ≠ "Root".toList ∧
        s.heap.tag j ≠ "KeePassFile".toList := by
      intro j hj
      induction hj with
      | refl => exact ⟨fun _ => .refl, by rw [hx]; decide, by rw [hx]; decide⟩
      | snoc hb hc ih =>
        rename_i b c
        have hb0 : b ≠ 0 := by rintro rfl; exact hx0 (reach_zero hs.inv hb)
        have hh := hs.shaped _ _ hb0 hc
        refine ⟨fun hg => ?_, fun hr => ?_, fun hr => ?_⟩
        · rw [hg] at hh
          rcases home_group hh with h | h
          · exact absurd h ih.2.1
          · refine .sub (ih.1 h) (card_some (by rw [h]; decide)) ?_
            exact List.mem_filter.mpr ⟨hc, by rw [beq_iff_eq]; exact hg⟩
        · rw [hr] at hh; exact ih.2.2 (home_root hh)
        · rw [hr] at hh; exact home_doc hh
    exact (key g h).1 hg

end

end Verif.Api
