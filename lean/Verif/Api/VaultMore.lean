import Verif.Api.VaultPast
import Verif.Props.C49_Attachments
/-!
# Steps of the vault: auto-type and attachments
-/
namespace Verif.Api
open Verif XPath Spec

/-- One element has another text or other attributes. -/
structure Edited (s s' : Db) (q : Nat) : Prop where
  inv : Inv s'
  state : s' = { s with world := s'.world }
  other : ∀ j, j ≠ q → s'.heap j = s.heap j
  tag : ∀ j, s'.heap.tag j = s.heap.tag j
  kids : ∀ j, s'.heap.kids j = s.heap.kids j

section
variable {s s' : Db} {x q : Nat}

theorem edited_text {v : Option Str} (h : TextChanged s s' q v) : Edited s s' q :=
  ⟨h.inv, h.state, fun _ hj => h.other hj, h.tag, h.kids⟩

theorem edited_attr {k v : Str} (hi : Inv s') (hst : s' = { s with world := s'.world })
    (h : ∀ j, s'.heap j = (s.heap j).map fun r => if j = q then { r with attrs := Node.putAttr k v r.attrs } else r) : Edited s s' q := by
  refine ⟨hi, hst, fun j hj => ?_, fun j => ?_, fun j => ?_⟩
  · rw [h j]; cases s.heap j with
    | none => rfl
    | some r => simp only [Option.map_some, if_neg hj]
  · unfold Heap.tag; rw [h j]; cases s.heap j with
    | none => rfl
    | some r => simp only [Option.map_some]; split <;> rfl
  · unfold Heap.kids; rw [h j]; cases s.heap j with
    | none => rfl
    | some r => simp only [Option.map_some]; split <;> rfl

theorem Edited.all (h : Edited s s' q) (e : Nat) (t : Str) : s'.heap.all e t = s.heap.all e t := by
  unfold Heap.all
  rw [h.kids]
  exact List.filter_congr fun k _ => by rw [h.tag]

theorem Edited.find (h : Edited s s' q) (e : Nat) (t : Str) : s'.heap.find e t = s.heap.find e t := by unfold Heap.find; rw [h.all]

theorem Edited.els (h : Edited s s' q) (p : List Str) : ∀ e, elsAt s'.heap p e = elsAt s.heap p e := by
  induction p with
  | nil => intro e; rfl
  | cons t p ih =>
    intro e
    show (s'.heap.all e t).flatMap _ = (s.heap.all e t).flatMap _
    rw [h.all, funext ih]

theorem Edited.local_ (h : Edited s s' q) (hx : ¬ NoCard (s.heap.tag x)) (hp : Part s.heap x q) : Local s s' x none := by
  refine ⟨h.inv, hx, ⟨q, hp, h.tag q, fun j _ _ hne => h.other j hne⟩, fun j hj _ => ?_, ?_, by rw [h.state]⟩
  · rw [h.tag, not_mem_tag hj]; exact bodyNil
  · unfold docEl; rw [h.kids]

theorem Edited.same (h : Edited s s' q) (hs : Inv s) {k : Nat} (k1 : k ∈ s.heap.kids x) (hr : Reach s.heap k q) {t : Str}
    (ht : t ≠ s.heap.tag k) : SameAt s.heap s'.heap x t :=
  Local.other hs (fun j _ _ hne => h.other j hne) (fun j _ => h.tag j) (.inr ⟨k, k1, rfl, hr⟩) ht (h.all x t)

/-- What is left is that the changed card is as it should be. -/
theorem Edited.did (h : Edited s s' q) (hs : Sound s) (hx : ¬ NoCard (s.heap.tag x)) (hp : Part s.heap x q) {f : Card → Card}
    (hf : cardOf s'.heap x = f (cardOf s.heap x)) (ha : SameAt s.heap s'.heap x "String".toList) : Did s' ((vaultOf s).change x f) := by
  have l := h.local_ hx hp
  refine ⟨?_, l.all_neat hs ⟨fun t ht => ?_, ha.fields (hs.neat x hx).fields⟩⟩
  · rw [l.vault hs hf]
    exact change_state (by rw [h.state]; rfl) (by rw [h.state]; rfl)
  · rw [h.all]; exact (hs.neat x hx).once t ht

/-! ## Elements at a place -/

theorem els_root (hs : Inv s) (p : List Str) : ∀ {k k' y : Nat}, y ∈ elsAt s.heap p k → y ∈ elsAt s.heap p k' → k = k' := by
  induction p with
  | nil =>
    intro k k' y h h'
    exact (List.mem_singleton.mp h).symm.trans (List.mem_singleton.mp h')
  | cons t p ih =>
    intro k k' y h h'
    obtain ⟨c, c1, c2⟩ := List.mem_flatMap.mp h
    obtain ⟨c', d1, d2⟩ := List.mem_flatMap.mp h'
    have := ih c2 d2
    subst this
    exact parent_eq hs (all_sub c1).1 (all_sub d1).1

theorem els_nodup (hs : Inv s) (p : List Str) : ∀ k, (elsAt s.heap p k).Nodup := by
  induction p with
  | nil => intro k; exact List.pairwise_singleton _ _
  | cons t p ih =>
    intro k
    show ((s.heap.all k t).flatMap _).Nodup
    refine List.pairwise_flatMap.mpr ⟨fun c _ => ih c, ?_⟩
    refine (all_nodup hs k t).imp ?_
    rintro a b hab y hy _ hy' rfl
    exact hab (els_root hs p hy hy')

theorem els_tag (p : List Str) (t : Str) : ∀ {k y : Nat}, y ∈ elsAt s.heap (p ++ [t]) k → s.heap.tag y = t := by
  induction p with
  | nil =>
    intro k y h
    obtain ⟨c, c1, c2⟩ := List.mem_flatMap.mp h
    rw [List.mem_singleton.mp c2]
    exact (all_sub c1).2
  | cons u p ih =>
    intro k y h
    obtain ⟨c, _, c2⟩ := List.mem_flatMap.mp h
    exact ih c2

theorem els_part (p : List Str) (hp : ∀ u ∈ p, NoCard u) : ∀ {k y : Nat}, Part s.heap x k → y ∈ elsAt s.heap p k → Part s.heap x y ∧ Reach s.heap k y := by
  induction p with
  | nil =>
    intro k y h hy
    rw [List.mem_singleton.mp hy]
    exact ⟨h, .refl⟩
  | cons t p ih =>
    intro k y h hy
    obtain ⟨c, c1, c2⟩ := List.mem_flatMap.mp hy
    obtain ⟨k1, k2⟩ := all_sub c1
    obtain ⟨a, b⟩ := ih (fun u hu => hp u (List.mem_cons_of_mem _ hu)) (.kid h k1 (by rw [k2]; exact hp t (List.mem_cons_self ..))) c2
    exact ⟨a, Reach.trans (.kid k1) b⟩

/-! ## Auto-type -/

def autoTail : AutoProp → List Str
  | .enabled | .sequence => ["AutoType".toList]
  | .window => ["AutoType".toList, "Association".toList]

def autoLast : AutoProp → Str
  | .enabled => "Enabled".toList
  | .sequence => "DefaultSequence".toList
  | .window => "Window".toList

theorem auto_path (p : AutoProp) : p.path = autoTail p ++ [autoLast p] := by cases p <;> rfl

theorem autoLast_ne {p p' : AutoProp} (h : p' ≠ p) : autoLast p' ≠ autoLast p := by
  revert h; cases p <;> cases p' <;> decide

theorem auto_body (p : AutoProp) : ∀ u ∈ p.path, NoCard u := by cases p <;> decide

theorem auto_first (p : AutoProp) : ∃ l, p.path = "AutoType".toList :: l := by cases p <;> exact ⟨_, rfl⟩

theorem card_auto {h h' : Heap} {a : AutoProp → List (Option Str)} (ht : h'.tag x = h.tag x) (sm : ∀ t, t ≠ "AutoType".toList → SameAt h h' x t)
    (ha : ∀ p : AutoProp, (elsAt h' p.path x).map h'.text = a p) : cardOf h' x = { cardOf h x with auto := a } := by
  refine Card.ext ht ?_ ?_ (sm _ (by decide)).keysOf (sm _ (by decide)).prop (sm _ (by decide)).mark (sm _ (by decide)).files
    (funext ha) (sm _ (by decide)).past (sm _ (by decide)).all (sm _ (by decide)).all
  · funext q; exact (sm _ (by cases q <;> decide)).sub (bodyText q)
  · funext q; exact (sm _ (by decide)).time (bodyTime q)

theorem auto_did (hs : Sound s) (hx : ¬ NoCard (s.heap.tag x)) {p : AutoProp} {l : List Nat} (hl : elsAt s.heap p.path x = q :: l) {w : Option Str}
    (h : TextChanged s s' q w) : Did s' ((vaultOf s).change x (.setAuto p w)) := by
  have hq : q ∈ elsAt s.heap p.path x := by rw [hl]; exact List.mem_cons_self ..
  obtain ⟨hp, _⟩ := els_part p.path (auto_body p) .self hq
  have e := edited_text h
  obtain ⟨k, k1, k2, k3⟩ : ∃ k ∈ s.heap.kids x, s.heap.tag k = "AutoType".toList ∧ Reach s.heap k q := by
    obtain ⟨r, hr⟩ := auto_first p
    have hb := auto_body p
    rw [hr] at hq hb
    obtain ⟨c, c1, c2⟩ := List.mem_flatMap.mp hq
    obtain ⟨d1, d2⟩ := all_sub c1
    exact ⟨c, d1, d2, (els_part r (fun u hu => hb u (List.mem_cons_of_mem _ hu)) (.kid .self d1 (by rw [d2]; decide)) c2).2⟩
  have sm : ∀ t, t ≠ "AutoType".toList → SameAt s.heap s'.heap x t := fun t ht => e.same hs.inv k1 k3 (by rw [k2]; exact ht)
  have htx : s'.heap.text q = w := by
    obtain ⟨r, hr⟩ := heap_some.mpr (part_pos hs.inv hx hp).2
    unfold Heap.text
    rw [h.heap q, hr]
    simp
  have hne : ∀ l' : List Nat, q ∉ l' → l'.map s'.heap.text = l'.map s.heap.text := fun l' hn =>
    List.map_congr_left fun c hc => h.text fun e => hn (e ▸ hc)
  refine e.did hs hx hp (f := .setAuto p w) (card_auto (e.tag x) sm fun p' => ?_) (sm _ (by decide))
  rw [e.els]
  show _ = if p' = p then w :: ((elsAt s.heap p.path x).map s.heap.text).tail else (elsAt s.heap p'.path x).map s.heap.text
  by_cases ep : p' = p
  · subst ep
    have hn := els_nodup hs.inv p'.path x
    rw [hl] at hn
    rw [if_pos rfl, hl, List.map_cons, htx, hne l (List.nodup_cons.mp hn).1]; rfl
  · rw [if_neg ep, hne]
    intro hc
    rw [auto_path] at hc hq
    exact autoLast_ne ep ((els_tag _ _ hc).symm.trans (els_tag _ _ hq))

/-! ## Attachments -/

theorem card_files {h h' : Heap} {l : List File} (ht : h'.tag x = h.tag x) (sm : ∀ t, t ≠ "Binary".toList → SameAt h h' x t)
    (hl : (h'.all x "Binary".toList).map (fileOf h') = l) : cardOf h' x = { cardOf h x with files := l } := by
  refine Card.ext ht ?_ ?_ (sm _ (by decide)).keysOf (sm _ (by decide)).prop (sm _ (by decide)).mark hl
    (funext fun q => (sm _ (by decide)).auto q) (sm _ (by decide)).past (sm _ (by decide)).all (sm _ (by decide)).all
  · funext q; exact (sm _ (by cases q <;> decide)).sub (bodyText q)
  · funext q; exact (sm _ (by decide)).time (bodyTime q)

theorem has_file {e : Nat} {f : File} : (vaultOf s).HasFile e f ↔ ¬ NoCard (s.heap.tag e) ∧ f.handle ∈ s.heap.all e "Binary".toList ∧ f = fileOf s.heap f.handle := by
  constructor
  · rintro ⟨c, h1, h2⟩
    obtain ⟨h3, rfl⟩ := card_inv h1
    obtain ⟨b, b1, rfl⟩ := List.mem_map.mp h2
    exact ⟨h3, b1, rfl⟩
  · rintro ⟨h1, h2, h3⟩
    refine ⟨_, card_some h1, ?_⟩
    rw [h3]
    exact List.mem_map_of_mem h2

/-- A part of one attachment is edited. -/
theorem file_did (hs : Sound s) (hx : ¬ NoCard (s.heap.tag x)) {a : Nat} (ha : a ∈ s.heap.all x "Binary".toList) (hq : q ∈ s.heap.kids a)
    (hb : NoCard (s.heap.tag q)) (h : Edited s s' q) {f : File → File} (hf : fileOf s'.heap a = f (fileOf s.heap a)) :
    Did s' ((vaultOf s).change x (.changeFile a f)) := by
  obtain ⟨a1, a2⟩ := all_sub ha
  have hp : Part s.heap x q := .kid (.kid .self a1 (by rw [a2]; decide)) hq hb
  have sm : ∀ t, t ≠ "Binary".toList → SameAt s.heap s'.heap x t := fun t ht => h.same hs.inv a1 (.kid hq) (by rw [a2]; exact ht)
  refine h.did hs hx hp (f := .changeFile a f) (card_files (l := ((cardOf s.heap x).files.map fun y : File => if y.handle = a then f y else y)) (h.tag x) sm ?_)
    (sm _ (by decide))
  show _ = ((s.heap.all x "Binary".toList).map (fileOf s.heap)).map _
  rw [h.all, List.map_map]
  apply List.map_congr_left
  intro b hb
  show fileOf s'.heap b = if b = a then f (fileOf s.heap b) else fileOf s.heap b
  by_cases e : b = a
  · rw [if_pos e, e, hf]
  · rw [if_neg e]
    have hk : ∀ t c, s.heap.find b t = some c → s'.heap c = s.heap c := by
      intro t c hc
      refine h.other c ?_
      rintro rfl
      exact e (parent_eq hs.inv (find_kid hc).1 hq)
    refine File.ext rfl ?_ ?_
    · show (s'.heap.find b _).map _ = (s.heap.find b _).map _
      rw [h.find]
      cases hc : s.heap.find b "Key".toList with
      | none => rfl
      | some c => exact congrArg some (text_same (hk _ c hc))
    · show (s'.heap.find b _).map _ = (s.heap.find b _).map _
      rw [h.find]
      cases hc : s.heap.find b "Value".toList with
      | none => rfl
      | some c => exact congrArg some (attr_same (hk _ c hc) _)

theorem setAttName_did (hs : Sound s) (hx : ¬ NoCard (s.heap.tag x)) {a : Nat} (ha : a ∈ s.heap.all x "Binary".toList)
    (hf : s.heap.find a "Key".toList = some q) {v : Option Str} (hv : ∀ t, v = some t → XmlText t) :
    ∃ s', setAttName a v s = (.ok (), s') ∧ Did s' ((vaultOf s).change x (.changeFile a fun f => { f with name := some v })) := by
  obtain ⟨s', h1, h2⟩ := text_changed hs.inv q hv
  obtain ⟨k1, k2⟩ := find_kid hf
  have e := edited_text h2
  refine ⟨s', ?_, file_did hs hx ha k1 (by rw [k2]; decide) e (File.ext rfl ?_ ?_)⟩
  · unfold setAttName
    rw [bind_of (findKid_run a _ s), hf, bind_of (orAttr_some q s)]
    exact h1
  · show (s'.heap.find a _).map _ = some v
    rw [e.find, hf]
    obtain ⟨r, hr⟩ := heap_some.mpr (kid_mem hs.inv k1).1
    refine congrArg some ?_
    unfold Heap.text
    rw [h2.heap q, hr]
    simp
  · show (s'.heap.find a _).map _ = (s.heap.find a _).map _
    rw [e.find, funext fun v => h2.attr v "Ref".toList]

theorem setAttId_did (hs : Sound s) (hx : ¬ NoCard (s.heap.tag x)) {a : Nat} (ha : a ∈ s.heap.all x "Binary".toList)
    (hf : s.heap.find a "Value".toList = some q) (i : Int) :
    ∃ s', setAttId a i s = (.ok (), s') ∧ Did s' ((vaultOf s).change x (.changeFile a fun f => { f with number := some (some (intStr i)) })) := by
  obtain ⟨s', h1, h2, h3, h4⟩ := setAttr_ok hs.inv q "Ref".toList (intStr i) (intStr_xml i)
  obtain ⟨k1, k2⟩ := find_kid hf
  have e := edited_attr h2 h3 h4
  refine ⟨s', ?_, file_did hs hx ha k1 (by rw [k2]; decide) e (File.ext rfl ?_ ?_)⟩
  · unfold setAttId
    rw [bind_of (findKid_run a _ s), hf, bind_of (orAttr_some q s)]
    exact h1
  · show (s'.heap.find a _).map _ = (s.heap.find a _).map _
    rw [e.find]
    cases hc : s.heap.find a "Key".toList with
    | none => rfl
    | some c =>
      refine congrArg some (text_same (e.other c ?_))
      rintro rfl
      have := (find_kid hc).2
      rw [k2] at this
      exact absurd this (by decide)
  · show (s'.heap.find a _).map _ = some _
    rw [e.find, hf]
    obtain ⟨r, hr⟩ := heap_some.mpr (kid_mem hs.inv k1).1
    refine congrArg some ?_
    show (s'.heap q).bind _ = _
    rw [h4 q, hr]
    simp only [Option.map_some, Option.bind_some, if_true]
    rw [Node.putAttr_lookup, if_pos rfl]

theorem addAttachment_did (hs : Sound s) (hx : ¬ NoCard (s.heap.tag x)) (i : Int) {n : Str} (hn : XmlText n) :
    ∃ s', addAttachment x i (some n) s = (.ok s.next, s') ∧
      Did s' ((vaultOf s).change x fun c => { c with files := c.files ++ [⟨s.next, some (some n), some (some (intStr i))⟩] }) := by
  have hxm := card_mem hx
  have hx0 := card_pos hs.inv hx
  have hxl := hs.inv.bound x hxm
  obtain ⟨s', h1, h2, h3, h4, h5⟩ := add_ok hs.inv hxm (Props.attachmentXml n i)
  have hrun : addAttachment x i (some n) s = (.ok s.next, s') := by
    unfold addAttachment
    have : textEl "Key".toList [] (some n) = .ok (Xml.mk "Key".toList [] (some n) []) := textEl_ok hn
    rw [this]
    exact h1
  have htn : s'.heap.tag s.next = "Binary".toList := content_tag h5
  have hq : ∀ j ∈ s.world.ids, j ≠ 0 → j ≠ x → s'.heap j = s.heap j := fun j hj _ hne => h4.other j hne (hs.inv.bound j hj)
  have htag : ∀ j ∈ s.world.ids, s'.heap.tag j = s.heap.tag j := fun j hj => added_tag hs.inv h4 (hs.inv.bound j hj)
  have hbelow : ∀ j, s.next ≤ j → j < s'.next → NoCard (s'.heap.tag j) := by
    intro j j1 j2
    by_cases e : j = s.next
    · rw [e, htn]; decide
    · have := content_below (P := fun t => structural t = true) (x := Props.attachmentXml n i) h2 h5 (by
        intro k hk
        rcases List.mem_cons.mp hk with rfl | hk
        · exact ⟨by decide, fun _ h => nomatch h⟩
        · rw [List.mem_singleton.mp hk]
          exact ⟨by decide, fun _ h => nomatch h⟩) ((h4.below j).mpr ⟨j1, j2⟩) e
      unfold structural at this
      simp only [Bool.and_eq_true, bne_iff_ne] at this
      exact ⟨this.1.1, this.1.2⟩
  have l : Local s s' x none := by
    refine ⟨h2, hx, ⟨x, .self, htag x hxm, hq⟩, fun j hj _ => ?_, added_doc hs.inv h2 h4 hx0, by rw [h3]⟩
    exact fresh_of (P := fun _ => True) hs.inv h2 (fun j h0 hj hlt => h4.other j (fun e => hj (e ▸ hxm)) hlt)
      (fun j j1 j2 _ => hbelow j j1 j2) hj trivial
  have hall : ∀ t, t ≠ "Binary".toList → s'.heap.all x t = s.heap.all x t := fun t ht =>
    added_all_other hs.inv h4 hxm fun _ => by rw [htn]; exact ht.symm
  have sm : ∀ t, t ≠ "Binary".toList → SameAt s.heap s'.heap x t := fun t ht =>
    Local.other (T := "Binary".toList) hs.inv hq htag (.inl rfl) ht (hall t ht)
  have hnew : fileOf s'.heap s.next = ⟨s.next, some (some n), some (some (intStr i))⟩ := by
    obtain ⟨k, k1, k2⟩ := content_one (t := "Key".toList) (y := Xml.mk "Key".toList [] (some n) []) h2 h5 rfl
    obtain ⟨v, v1, v2⟩ := content_one (t := "Value".toList) (y := Xml.mk "Value".toList [("Ref".toList, intStr i)] none []) h2 h5 rfl
    unfold fileOf Heap.find
    rw [k1, v1]
    refine File.ext rfl ?_ ?_
    · exact congrArg some (content_text k2)
    · exact congrArg some ((content_attr v2 _).trans (by rfl))
  have hold : ∀ b ∈ s.heap.all x "Binary".toList, fileOf s'.heap b = fileOf s.heap b := by
    intro b hb
    obtain ⟨b1, b2⟩ := all_sub hb
    have hbm := (kid_mem hs.inv b1).1
    have hbx : b ≠ x := by rintro rfl; exact no_cycle hs.inv b1 .refl
    have hfind : ∀ t, s'.heap.find b t = s.heap.find b t := fun t => by
      unfold Heap.find
      rw [added_all_other hs.inv h4 hbm fun e => absurd e hbx]
    have hk : ∀ t c, s.heap.find b t = some c → s'.heap c = s.heap c := by
      intro t c hc
      obtain ⟨c1, _⟩ := find_kid hc
      refine hq c (kid_mem hs.inv c1).1 (kid_ne_zero hs.inv c1) ?_
      rintro rfl
      exact no_cycle hs.inv b1 (.kid c1)
    refine File.ext rfl ?_ ?_
    · show (s'.heap.find b _).map _ = (s.heap.find b _).map _
      rw [hfind]
      cases hc : s.heap.find b "Key".toList with
      | none => rfl
      | some c => exact congrArg some (text_same (hk _ c hc))
    · show (s'.heap.find b _).map _ = (s.heap.find b _).map _
      rw [hfind]
      cases hc : s.heap.find b "Value".toList with
      | none => rfl
      | some c => exact congrArg some (attr_same (hk _ c hc) _)
  refine ⟨s', hrun, ?_, l.all_neat hs ⟨fun t ht => ?_, (sm _ (by decide)).fields (hs.neat x hx).fields⟩⟩
  · rw [l.vault hs (f := fun c => { c with files := c.files ++ [⟨s.next, some (some n), some (some (intStr i))⟩] }) (card_files (htag x hxm) sm ?_)]
    · exact change_state (by rw [h3]; rfl) (by rw [h3]; rfl)
    · show _ = (s.heap.all x "Binary".toList).map (fileOf s.heap) ++ [_]
      rw [added_all hs.inv h4 hxl, if_pos ⟨rfl, htn⟩, List.map_append, List.map_singleton, hnew, List.map_congr_left hold]
  · rw [hall t (by rintro rfl; exact absurd ht (by decide))]; exact (hs.neat x hx).once t ht

theorem deleteAttachment_did (hs : Sound s) (hx : ¬ NoCard (s.heap.tag x)) {a : Nat} (ha : a ∈ s.heap.all x "Binary".toList) :
    ∃ s', delete a s = (.ok (), s') ∧ Did s' ((vaultOf s).change x (.dropFile a)) := by
  have hxm := card_mem hx
  have hx0 := card_pos hs.inv hx
  obtain ⟨a1, a2⟩ := all_sub ha
  obtain ⟨s', h1, h2, h3, h4⟩ := delete_ok hs.inv hx0 a1
  have h5 := dropped_one hs.inv hx0 a1 h4
  have hq : ∀ j ∈ s.world.ids, j ≠ 0 → j ≠ x → s'.heap j = s.heap j := by
    intro j hj j0 hne
    rw [h5 j]
    cases hr : s.heap j with
    | none => rfl
    | some r =>
      simp only [Option.map_some, if_neg j0]
      congr 2
      rw [List.filter_eq_self]
      intro k hk
      have hk : k ∈ s.heap.kids j := by unfold Heap.kids; rw [hr]; exact hk
      simp only [List.contains_cons, List.contains_nil, Bool.or_false, Bool.not_eq_true', beq_eq_false_iff_ne]
      rintro rfl
      exact hne (parent_eq hs.inv hk a1)
  have htag : ∀ j ∈ s.world.ids, s'.heap.tag j = s.heap.tag j := fun j _ => dropped_tag h5 j
  have l : Local s s' x none := by
    refine ⟨h2, hx, ⟨x, .self, htag x hxm, hq⟩, fun j hj _ => ?_, dropped_doc hs.inv h5, by rw [h3]⟩
    rw [dropped_tag h5, not_mem_tag hj]; exact bodyNil
  have hall : ∀ t, t ≠ "Binary".toList → s'.heap.all x t = s.heap.all x t := fun t ht =>
    dropped_all_other h5 hx0 fun d hd => by rw [List.mem_singleton.mp hd, a2]; exact ht.symm
  have sm : ∀ t, t ≠ "Binary".toList → SameAt s.heap s'.heap x t := fun t ht =>
    Local.other (T := "Binary".toList) hs.inv hq htag (.inl rfl) ht (hall t ht)
  have hold : ∀ b ∈ s.heap.all x "Binary".toList, fileOf s'.heap b = fileOf s.heap b := by
    intro b hb
    have b0 := kid_ne_zero hs.inv (all_sub hb).1
    have hfind : ∀ t, t ≠ "Binary".toList → s'.heap.find b t = s.heap.find b t := fun t ht => by
      unfold Heap.find
      rw [dropped_all_other h5 b0 fun d hd => by rw [List.mem_singleton.mp hd, a2]; exact ht.symm]
    refine File.ext rfl ?_ ?_
    · show (s'.heap.find b _).map _ = (s.heap.find b _).map _
      rw [hfind _ (by decide), funext fun c => dropped_text h5 c]
    · show (s'.heap.find b _).map _ = (s.heap.find b _).map _
      rw [hfind _ (by decide), funext fun c => dropped_attr h5 c "Ref".toList]
  refine ⟨s', h1, ?_, l.all_neat hs ⟨fun t ht => ?_, (sm _ (by decide)).fields (hs.neat x hx).fields⟩⟩
  · rw [l.vault hs (f := .dropFile a) (card_files (htag x hxm) sm ?_)]
    · exact change_state (by rw [h3]; rfl) (by rw [h3]; rfl)
    · show _ = ((s.heap.all x "Binary".toList).map (fileOf s.heap)).filter _
      rw [dropped_all h5 hx0, List.filter_map, List.map_congr_left fun b hb => hold b (List.mem_filter.mp hb).1]
      congr 1
      refine List.filter_congr fun b _ => ?_
      show _ = (b != a)
      by_cases e : b = a <;> simp [bne, e]
  · rw [hall t (by rintro rfl; exact absurd ht (by decide))]; exact (hs.neat x hx).once t ht

end

end Verif.Api
