import Verif.Api.HistoryLemmas
import Verif.Api.AddLemmas
import Verif.Api.Sample
/-!
# C45: snapshots in the history
-/
namespace Verif.Props
open Verif XPath Spec Api

/-- `save_history` puts one more snapshot at the end of the history. It is a new element, its content is that of the
entry without the history. Nothing else changes: the entry apart from its history, the earlier snapshots, and every
other element are as before. -/
theorem C45_save {s : Db} (hs : Inv s) {e : Nat} (ht : IsEntry s.heap e) {x : Xml} (hx : content s e = some x)
    (h1 : (s.heap.all e "History".toList).length ≤ 1) {old : List Nat} (ho : history e s = (.ok old, s)) :
    ∃ s' n, saveHistory e s = (.ok (), s') ∧ Inv s' ∧ s' = { s with world := s'.world, next := s'.next } ∧
      history e s' = (.ok (old ++ [n]), s') ∧ n ∉ s.world.ids ∧ content s' n = some (bare x) ∧
      (∀ k ∈ old, content s' k = content s k) ∧
      (∃ y, content s' e = some y ∧ bare y = bare x) ∧ (s'.heap.all e "History".toList).length = 1 ∧
      (∀ j ∈ s.world.ids, j ≠ e → j ∉ s.heap.all e "History".toList → s'.heap j = s.heap j) := by
  have hm : e ∈ s.world.ids := tag_mem (by rw [show s.heap.tag e = _ from ht]; decide)
  have he0 : e ≠ 0 := tag_ne_zero hs (by rw [show s.heap.tag e = _ from ht]; decide)
  have hxt : x.tag = "Entry".toList := by rw [← content_tag hx]; exact ht
  rw [history_run] at ho
  obtain ⟨s', a1, a2, a3, a4⟩ := saveHistory_ok hs hm hx
  have hn : s'.heap.kids e = s'.heap.kids e := rfl
  have hlt := hs.bound e hm
  have hbare : ∀ {p}, Added s.heap s'.heap p s.next s'.next → (p = e ∧ s'.heap.tag s.next = "History".toList ∨
      p ∈ s.heap.all e "History".toList) → ∃ y, content s' e = some y ∧ bare y = bare x := by
    intro p ha hp
    have hkids : (s'.heap.kids e).filter (fun k => s'.heap.tag k != "History".toList) =
        (s.heap.kids e).filter fun k => s.heap.tag k != "History".toList := by
      have hold : (s.heap.kids e).filter (fun k => s'.heap.tag k != "History".toList) =
          (s.heap.kids e).filter fun k => s.heap.tag k != "History".toList := by
        apply List.filter_congr
        intro k hk
        rw [added_tag hs ha (hs.bound k (kid_mem hs hk).1)]
      rw [added_kids hs ha hlt]
      rcases hp with ⟨rfl, hp⟩ | hp
      · rw [if_pos rfl, List.filter_append, hold]
        simp [hp]
      · rw [if_neg ?_, hold]
        rintro rfl
        have := (List.mem_filter.mp hp).1
        exact no_cycle hs this .refl
    refine bare_same hs a2 hx ?_ hkids fun k hk hkt => ?_
    · obtain ⟨r, hr⟩ := heap_some.mpr hm
      by_cases ep : e = p
      · obtain ⟨r, b1, b2⟩ := ha.here
        rw [← ep] at b1 b2
        exact ⟨r, _, b1, b2⟩
      · exact ⟨r, r.kids, hr, by rw [ha.other e ep hlt]; exact hr⟩
    · refine added_content hs a2 ha (kid_mem hs hk).1 fun hr => ?_
      rcases hp with ⟨rfl, _⟩ | hp
      · exact no_cycle hs hk hr
      · obtain ⟨hp, hpt⟩ := List.mem_filter.mp hp
        rcases reach_kid_up hs hr hp with h | h
        · subst h
          exact hkt (beq_iff_eq.mp hpt)
        · exact no_cycle hs hk h
  cases hf : s.heap.find e "History".toList with
  | some h =>
    rw [hf] at a4 ho
    obtain ⟨a4, a5⟩ := a4
    injection ho with ho _
    injection ho with ho
    have hh := find_kid hf
    have hhm := (kid_mem hs hh.1).1
    have hhlt := hs.bound h hhm
    have hhe : e ≠ h := by rintro rfl; exact no_cycle hs hh.1 .refl
    have hall : s.heap.all e "History".toList = [h] := by
      unfold Heap.find at hf
      cases hl : s.heap.all e "History".toList with
      | nil => rw [hl] at hf; cases hf
      | cons a l =>
        rw [hl] at hf h1
        injection hf with hf
        rw [List.length_cons] at h1
        rw [hf, List.eq_nil_of_length_eq_zero (l := l) (by omega)]
    have hall' : s'.heap.all e "History".toList = [h] := by
      rw [added_all hs a4 hlt, hall, if_neg (fun h => hhe h.1)]; rfl
    have hdrop : (Xml.mk x.tag x.attrs x.text (dropFirst "History".toList x.kids)) = bare x := by
      unfold bare
      rw [dropFirst_one]
      have := (content_all hs hx "History".toList).2
      have := congrArg List.length this
      rw [List.length_map, List.length_map] at this
      show (xall x "History".toList).length ≤ 1
      omega
    rw [hdrop] at a5
    have hnt : s'.heap.tag s.next = "Entry".toList := by rw [content_tag a5]; exact hxt
    refine ⟨s', s.next, a1, a2, a3, ?_, fun hc => Nat.lt_irrefl _ (hs.bound _ hc), a5, ?_,
      hbare a4 (.inr (by rw [hall]; exact List.mem_singleton.mpr rfl)), by rw [hall']; rfl, ?_⟩
    · rw [history_run]
      unfold Heap.find
      rw [hall']
      show (Except.ok (s'.heap.all h "Entry".toList), s') = _
      rw [added_all hs a4 hhlt, if_pos ⟨rfl, hnt⟩, ← ho]
    · intro k hk
      rw [← ho] at hk
      have hk := (List.mem_filter.mp hk).1
      exact added_content hs a2 a4 (kid_mem hs hk).1 fun hr => no_cycle hs hk hr
    · intro j hj _ hjh
      refine a4.other j ?_ (hs.bound j hj)
      rintro rfl
      exact hjh (by rw [hall]; exact List.mem_singleton.mpr rfl)
  | none =>
    rw [hf] at a4 ho
    obtain ⟨a4, a5⟩ := a4
    injection ho with ho _
    injection ho with ho
    have hall : s.heap.all e "History".toList = [] := by
      unfold Heap.find at hf
      exact List.head?_eq_none_iff.mp hf
    have hnt : s'.heap.tag s.next = "History".toList := content_tag a5
    have hall' : s'.heap.all e "History".toList = [s.next] := by
      rw [added_all hs a4 hlt, hall, if_pos ⟨rfl, hnt⟩]; rfl
    have hb : bare x = x := by
      have := (content_all hs hx "History".toList).2
      rw [hall] at this
      have h0 : xall x "History".toList = [] := by
        cases hl : xall x "History".toList with
        | nil => rfl
        | cons => rw [hl] at this; cases this
      unfold bare
      rw [List.filter_eq_self.mpr ?_]
      · cases x; rfl
      · intro k hk
        have := List.filter_eq_nil_iff.mp h0 k hk
        simp only [bne, Bool.not_eq_true] at this ⊢
        rw [this]; rfl
    have hc := (content_all a2 a5 "Entry".toList).2
    have hx1 : xall (Xml.mk "History".toList [] none [x]) "Entry".toList = [x] := by
      show List.filter _ [x] = _
      rw [List.filter_cons_of_pos (by rw [beq_iff_eq]; exact hxt)]; rfl
    rw [hx1] at hc
    cases hl : s'.heap.all s.next "Entry".toList with
    | nil => rw [hl] at hc; cases hc
    | cons k l =>
      rw [hl] at hc
      injection hc with hc hc2
      have hl0 : l = [] := by
        cases l with
        | nil => rfl
        | cons => cases hc2
      subst hl0
      have hk : k ∈ s'.heap.kids s.next := (List.mem_filter.mp (by show k ∈ s'.heap.all s.next "Entry".toList; rw [hl]; exact List.mem_singleton.mpr rfl)).1
      refine ⟨s', k, a1, a2, a3, ?_, ?_, by rw [hb]; exact hc, ?_, hbare a4 (.inl ⟨rfl, hnt⟩), by rw [hall']; rfl, ?_⟩
      · rw [history_run]
        unfold Heap.find
        rw [hall', ← ho]
        show (Except.ok (s'.heap.all s.next "Entry".toList), s') = _
        rw [hl]; rfl
      · intro hc
        have := added_new_kid hs a2 a4 rfl (Nat.le_refl _) hk
        have := hs.bound k hc
        omega
      · intro k hk
        rw [← ho] at hk
        cases hk
      · intro j hj hje _
        exact a4.other j hje (hs.bound j hj)

/-! ## Later changes -/

/-- What is not to change: the snapshots in the history element `h` of `e`, as they are in a heap. -/
def snapFrame (hp : Heap) (e h : Nat) : Frame where
  F j := InSnapshot hp h j
  P p t := p = h ∨ (p = e ∧ t = "History".toList)

/-- The history begins as it began in `s`. -/
structure Begins (s : Db) (e h : Nat) (t : Db) : Prop where
  good : Good (snapFrame s.heap e h) t
  frozen : ∀ i, InSnapshot s.heap h i → t.heap i = s.heap i
  hist : t.heap.find e "History".toList = some h
  pre : s.heap.all h "Entry".toList <+: t.heap.all h "Entry".toList
  kids : ∀ k ∈ s.heap.kids h, k ∈ t.heap.kids h
  tag : t.heap.tag e = "Entry".toList
  doc : ∀ d, docEl t.heap = some d → t.heap.tag d = "KeePassFile".toList

theorem snap_good {s : Db} (hs : Inv s) {e h : Nat} (hh : s.heap.find e "History".toList = some h) : Good (snapFrame s.heap e h) s := by
  refine ⟨hs, fun i ⟨k, h1, h2⟩ => reach_mem hs h2 (kid_mem hs h1).1, fun ⟨k, h1, h2⟩ => zero_not_reach hs (kid_ne_zero hs h1) h2, ?_, nofun, nofun, nofun⟩
  rintro p c hp h0 ht hc ⟨k, h1, h2⟩
  rcases reach_kid_up hs h2 hc with e1 | e1
  · subst e1
    rw [parent_eq hs hc h1] at ht
    exact ht (find_kid hh).2
  · exact hp ⟨k, h1, e1⟩

section
variable {s t : Db} {e h : Nat}

theorem Begins.hist_of (b : Begins s e h t) {x : Nat} (hx : InSnapshot s.heap h x) : InHist t.heap x := by
  obtain ⟨k, h1, h2⟩ := hx
  have hk := b.kids k h1
  have hr : Reach t.heap k x := by
    have hF : ∀ y, Reach s.heap k y → InSnapshot s.heap h y := fun y hy => ⟨k, h1, hy⟩
    induction h2 with
    | refl => exact .refl
    | @snoc y z hy hz ih =>
      refine .snoc ih ?_
      have := b.frozen y (hF y hy)
      unfold Heap.kids at hz ⊢
      rw [this]; exact hz
  refine ⟨h, (find_kid b.hist).2, ?_, Reach.trans (.snoc .refl hk) hr⟩
  rintro rfl
  exact no_cycle b.good.inv hk hr

theorem Begins.own (b : Begins s e h t) {x : Nat} (hx : t.heap.tag x ∈ castTags) (hh : ¬ InHist t.heap x) :
    Own (snapFrame s.heap e h) t x := by
  have hne : t.heap.tag x ≠ [] := by intro e; rw [e] at hx; exact absurd hx (by decide)
  refine ⟨tag_mem hne, tag_ne_zero b.good.inv hne, fun hF => hh (b.hist_of hF), fun e => ?_⟩
  rw [e] at hx
  exact absurd hx (by show "History".toList ∉ castTags; decide)

theorem Begins.noP (b : Begins s e h t) {x : Nat} (hx : t.heap.tag x ∈ castTags) {n : Str} (hn : n ≠ "History".toList) :
    ¬ (snapFrame s.heap e h).P x n := by
  rintro (rfl | ⟨_, h2⟩)
  · rw [(find_kid b.hist).2] at hx
    exact absurd hx (by decide)
  · exact hn h2

theorem Begins.movable (b : Begins s e h t) {x : Nat} (hx : t.heap.tag x ∈ castTags) (hh : ¬ InHist t.heap x) :
    Movable (snapFrame s.heap e h) t x := by
  have o := b.own hx hh
  refine ⟨o.mem, o.ne, fun hd => ?_, fun p hp => ⟨fun hF => ?_, fun _ hP => ?_⟩⟩
  · rw [b.doc x hd] at hx
    exact absurd hx (by decide)
  · refine hh ((hist_kid b.good.inv hp).mpr (.inr (b.hist_of hF)))
  · rcases hP with rfl | ⟨_, h2⟩
    · exact hh ((hist_kid b.good.inv hp).mpr (.inl (find_kid b.hist).2))
    · rw [h2] at hx
      exact absurd hx (by decide)

end

/-- The elements a call is made on. -/
def handles : Call → List Nat
  | .setUuid x _ | .setIcon x _ | .setTime x _ _ | .setExpires x _ | .expired x | .touch x _ | .delete x => [x]
  | .setName g _ | .setNotes g _ => [g]
  | .append g xs => g :: xs
  | .setField e _ _ | .setCustom e _ _ _ | .deleteCustom e _ | .setTags e _ | .setAutoEnabled e _ | .setAuto e _ _
  | .saveHistory e | .deleteHistory e _ _ | .reindex e _ | .addAttachment e _ _ => [e]
  | .setAttId a _ | .setAttName a _ | .deleteAttachment a => [a]
  | .addGroup g _ _ _ | .addEntry g _ _ | .emptyGroup g => [g]
  | .moveGroup x g | .moveEntry x g => [x, g]
  | .trash x => [x]
  | _ => []

/-- Calls on entries, groups and attachments that are not themselves part of a history, except those that delete from
the history of `e`. Custom property names contain no quote (`C45_quote` shows why). The methods of the database as a
whole are left out: `delete_binary` renumbers attachments in snapshots by design. -/
def Ordinary (e : Nat) (hp : Heap) (c : Call) : Prop :=
  c.Typed hp ∧ (∀ x ∈ handles c, ¬ InHist hp x) ∧
  match c with
  | .deleteHistory e' _ _ => e' ≠ e
  | .setCustom _ k _ _ | .deleteCustom _ k => ∀ c ∈ k, c ≠ '"'
  | .trash _ | .addBinary _ _ _ | .deleteBinary _ | .setMeta _ _ | .setCredDate _ | .setCredDays _ _ | .credChange _
  | .setPassword _ | .setKeyfile _ => False
  | _ => True

theorem Run.void' {α} {f : Frame} {s : Db} {m : M α} {Q : α → Db → Prop} (h : Run f s m Q) : Keeps f s (void m) :=
  Api.Run.bind h fun _ _ _ _ => keeps_pure ()

theorem entry_tag {h : Heap} {x : Nat} (hx : IsEntry h x) : h.tag x ∈ castTags := by
  rw [show h.tag x = "Entry".toList from hx]; decide
theorem group_tag {h : Heap} {x : Nat} (hx : IsGroup h x) : h.tag x ∈ castTags := by
  rw [show h.tag x = "Group".toList from hx]; decide
theorem elem_tag {h : Heap} {x : Nat} (hx : IsElem h x) : h.tag x ∈ castTags := hx.elim entry_tag group_tag
theorem attach_tag {h : Heap} {x : Nat} (hx : IsAttach h x) : h.tag x ∈ castTags := by
  rw [show h.tag x = "Binary".toList from hx]; decide

theorem ordinary_keeps (env : Env) {s t : Db} {e h : Nat} (b : Begins s e h t) (c : Call) (hL : Ordinary e t.heap c)
    (hc : c ≠ .saveHistory e) : Keeps (snapFrame s.heap e h) t (c.run env) := by
  obtain ⟨ht, hh, hx⟩ := hL
  have hist : ∀ e', e' ≠ e → Own (snapFrame s.heap e h) t e' →
      ∀ k ∈ t.heap.all e' "History".toList, ¬ (snapFrame s.heap e h).F k ∧ ∀ n, ¬ (snapFrame s.heap e h).P k n := by
    intro e' hne o k hk
    obtain ⟨hk, hkt⟩ := List.mem_filter.mp hk
    refine ⟨(o.kid b.good hk).2.2, ?_⟩
    rintro n (rfl | ⟨rfl, _⟩)
    · exact hne (parent_eq b.good.inv hk (find_kid b.hist).1)
    · have := b.tag
      rw [beq_iff_eq.mp hkt] at this
      exact absurd this (by decide)
  have histP : ∀ e', e' ≠ e → t.heap.tag e' ∈ castTags → ¬ (snapFrame s.heap e h).P e' "History".toList := by
    rintro e' hne ht' (rfl | ⟨h1, _⟩)
    · rw [(find_kid b.hist).2] at ht'
      exact absurd ht' (by decide)
    · exact hne h1
  cases c with
  | setUuid x u => exact keeps_setSub (b.own (elem_tag ht) (hh x (by simp [handles]))) (b.noP (elem_tag ht) (by decide)) (fun h => nomatch h) fun h => nomatch h
  | setIcon x v => exact keeps_setSub (b.own (elem_tag ht) (hh x (by simp [handles]))) (b.noP (elem_tag ht) (by decide)) (fun h => nomatch h) fun h => nomatch h
  | setTime x p v => exact keeps_setTime (b.own (elem_tag ht) (hh x (by simp [handles]))) (fun h => nomatch h) fun h => nomatch h
  | setExpires x v => exact keeps_setExpires (b.own (elem_tag ht) (hh x (by simp [handles])))
  | expired x => exact Run.void' (keeps_expired env x)
  | touch x m => exact keeps_touch env (b.own (elem_tag ht) (hh x (by simp [handles])))
  | delete x => exact keeps_delete (b.movable (elem_tag ht) (hh x (by simp [handles])))
  | setName g v => exact keeps_setSub (b.own (group_tag ht) (hh g (by simp [handles]))) (b.noP (group_tag ht) (by decide)) (fun h => nomatch h) fun h => nomatch h
  | setNotes g v => exact keeps_setSub (b.own (group_tag ht) (hh g (by simp [handles]))) (b.noP (group_tag ht) (by decide)) (fun h => nomatch h) fun h => nomatch h
  | append g xs =>
    have o := b.own (group_tag ht.1) (hh g (by simp [handles]))
    refine keeps_groupAppendAll o.mem o.free (fun h => nomatch h) xs (fun x hx => ?_) fun h => nomatch h
    have hxh := hh x (by simp [handles, hx])
    have hxt := elem_tag (ht.2 x hx)
    refine ⟨b.movable hxt hxh, b.noP (group_tag ht.1) ?_, (b.own hxt hxh).free⟩
    intro e1
    rw [e1] at hxt
    exact absurd hxt (by decide)
  | setField x k v => exact keeps_setStd env (b.own (entry_tag ht) (hh x (by simp [handles]))) (b.noP (entry_tag ht) (by decide)) (fun h => nomatch h) fun h => nomatch h
  | setCustom x k v p =>
    exact keeps_setCustom env (b.own (entry_tag ht) (hh x (by simp [handles]))) (b.noP (entry_tag ht) (by decide)) (.inl hx) (fun h => nomatch h) fun h => nomatch h
  | deleteCustom x k =>
    exact keeps_deleteCustom env (b.own (entry_tag ht) (hh x (by simp [handles]))) (b.noP (entry_tag ht) (by decide)) (.inl hx)
  | setTags x ts => exact keeps_setSub (b.own (entry_tag ht) (hh x (by simp [handles]))) (b.noP (entry_tag ht) (by decide)) (fun h => nomatch h) fun h => nomatch h
  | setAutoEnabled x v => exact keeps_setAutoEnabled (b.own (entry_tag ht) (hh x (by simp [handles])))
  | setAuto x w v => exact keeps_setAuto (b.own (entry_tag ht) (hh x (by simp [handles])))
  | saveHistory x =>
    have hne : x ≠ e := fun e1 => hc (by rw [e1])
    have o := b.own (entry_tag ht) (hh x (by simp [handles]))
    exact keeps_saveHistory o (fun k hk => ⟨(hist x hne o k hk).1, (hist x hne o k hk).2 _⟩) (histP x hne (entry_tag ht)) (fun h => nomatch h) fun h => nomatch h
  | deleteHistory x k all =>
    have o := b.own (entry_tag ht) (hh x (by simp [handles]))
    exact keeps_deleteHistory o (hist x hx o) (histP x hx (entry_tag ht))
  | reindex x i =>
    have hxh := hh x (by simp [handles])
    exact keeps_reindex (b.movable (entry_tag ht) hxh) (b.own (entry_tag ht) hxh).free
  | addAttachment x i n =>
    exact Run.void' (keeps_addAttachment (b.own (entry_tag ht) (hh x (by simp [handles]))) (b.noP (entry_tag ht) (by decide)) (fun h => nomatch h) fun h => nomatch h)
  | setAttId a i => exact keeps_setAttId (b.own (attach_tag ht) (hh a (by simp [handles])))
  | setAttName a v => exact keeps_setAttName (b.own (attach_tag ht) (hh a (by simp [handles])))
  | deleteAttachment a => exact keeps_delete (b.movable (attach_tag ht) (hh a (by simp [handles])))
  | addGroup g _ _ _ =>
    have o := b.own (group_tag ht) (hh g (by simp [handles]))
    exact Run.void' (keeps_addGroup env o.mem o.ne o.free (b.noP (group_tag ht) (by decide)) (fun h => nomatch h) fun h => nomatch h)
  | addEntry g _ _ =>
    have o := b.own (group_tag ht) (hh g (by simp [handles]))
    exact Run.void' (keeps_addEntry env o.mem o.ne o.free (b.noP (group_tag ht) (by decide)) (fun h => nomatch h) fun h => nomatch h)
  | moveGroup x g =>
    have o := b.own (group_tag ht.2) (hh g (by simp [handles]))
    have hxh := hh x (by simp [handles])
    refine (keeps_appendEl (b.movable (group_tag ht.1) hxh) o.mem o.free (fun _ => b.noP (group_tag ht.2) ?_)
      (fun _ => (b.own (group_tag ht.1) hxh).free) (fun h => nomatch h) fun h => nomatch h).keeps
    rw [show t.heap.tag x = _ from ht.1]; decide
  | moveEntry x g =>
    have o := b.own (group_tag ht.2) (hh g (by simp [handles]))
    have hxh := hh x (by simp [handles])
    refine (keeps_appendEl (b.movable (entry_tag ht.1) hxh) o.mem o.free (fun _ => b.noP (group_tag ht.2) ?_)
      (fun _ => (b.own (entry_tag ht.1) hxh).free) (fun h => nomatch h) fun h => nomatch h).keeps
    rw [show t.heap.tag x = _ from ht.1]; decide
  | emptyGroup g =>
    have o := b.own (group_tag ht) (hh g (by simp [handles]))
    exact keeps_emptyGroup o.ne o.free (b.noP (group_tag ht) (by decide)) (b.noP (group_tag ht) (by decide))
  | trash x => exact hx.elim
  | addBinary _ _ _ => exact hx.elim
  | deleteBinary _ => exact hx.elim
  | setMeta _ _ => exact hx.elim
  | setCredDate _ => exact hx.elim
  | setCredDays _ _ => exact hx.elim
  | credChange _ => exact hx.elim
  | setPassword _ => exact hx.elim
  | setKeyfile _ => exact hx.elim

theorem begins_kept {s t u : Db} {e h : Nat} (b : Begins s e h t) (k : Kept (snapFrame s.heap e h) t u) : Begins s e h u := by
  have hem : e ∈ t.world.ids := tag_mem (by rw [b.tag]; decide)
  have he0 : e ≠ 0 := tag_ne_zero b.good.inv (by rw [b.tag]; decide)
  have hhk := find_kid b.hist
  have hhm := (kid_mem b.good.inv hhk.1).1
  have hh0 := kid_ne_zero b.good.inv hhk.1
  refine ⟨k.good, fun i hi => (k.frozen i hi).trans (b.frozen i hi), ?_, ?_, ?_, (k.tag e hem).trans b.tag, ?_⟩
  · unfold Heap.find
    rw [k.all e hem he0 _ (.inr ⟨rfl, rfl⟩)]
    exact b.hist
  · rw [k.all h hhm hh0 _ (.inl rfl)]; exact b.pre
  · intro c hc
    have := b.kids c hc
    have hm : c ∈ t.heap.all h (t.heap.tag c) := List.mem_filter.mpr ⟨this, by simp⟩
    rw [← k.all h hhm hh0 _ (.inl rfl)] at hm
    exact (List.mem_filter.mp hm).1
  · intro d hd
    rw [k.doc] at hd
    rw [k.tag d (tag_mem (by rw [b.doc d hd]; decide))]
    exact b.doc d hd

theorem begins_save {s t : Db} {e h : Nat} (b : Begins s e h t) (hh : ¬ InHist t.heap e) : Begins s e h (saveHistory e t).2 := by
  have hem : e ∈ t.world.ids := tag_mem (by rw [b.tag]; decide)
  obtain ⟨x, hx⟩ := content_some hem
  obtain ⟨u, a1, a2, a3, a4⟩ := saveHistory_ok b.good.inv hem hx
  rw [b.hist] at a4
  obtain ⟨a4, a5⟩ := a4
  have o := b.own (entry_tag b.tag) hh
  have k : Kept ⟨InSnapshot s.heap h, fun _ _ => False, false, false, false, false, false⟩ t (saveHistory e t).2 := by
    have o' : Own ⟨InSnapshot s.heap h, fun _ _ => False, false, false, false, false, false⟩ t e := ⟨o.mem, o.ne, o.free, o.hist⟩
    have g' : Good ⟨InSnapshot s.heap h, fun _ _ => False, false, false, false, false, false⟩ t := ⟨b.good.inv, b.good.mem, b.good.zero, b.good.own, nofun, nofun, nofun⟩
    refine (keeps_saveHistory o' (fun k hk => ⟨?_, fun h => h⟩) (fun h => h) (fun h => nomatch h) (fun h => nomatch h) g').1
    exact (o.kid b.good (List.mem_filter.mp hk).1).2.2
  rw [a1] at k ⊢
  have hhk := find_kid b.hist
  have hhm := (kid_mem b.good.inv hhk.1).1
  have hhe : e ≠ h := by rintro rfl; exact no_cycle b.good.inv hhk.1 .refl
  refine ⟨⟨k.good.inv, k.good.mem, k.good.zero, k.good.own, nofun, nofun, nofun⟩, fun i hi => (k.frozen i hi).trans (b.frozen i hi), ?_, ?_, ?_,
    (k.tag e hem).trans b.tag, ?_⟩
  · unfold Heap.find
    rw [added_all b.good.inv a4 (b.good.inv.bound e hem), if_neg fun h => hhe h.1, List.append_nil]
    exact b.hist
  · rw [added_all b.good.inv a4 (b.good.inv.bound h hhm)]
    exact b.pre.trans (List.prefix_append _ _)
  · intro c hc
    rw [added_kids b.good.inv a4 (b.good.inv.bound h hhm), if_pos rfl]
    exact List.mem_append_left _ (b.kids c hc)
  · intro d hd
    have hdoc := k.doc
    rw [hdoc] at hd
    exact (k.tag d (tag_mem (by rw [b.doc d hd]; decide))).trans (b.doc d hd)

/-- Whatever is later called on entries, groups and attachments outside histories, the earlier snapshots stay in the
history, first and in order, and their content stays the same; this includes further `save_history`. -/
theorem C45_frozen (env : Env) {s t : Db} (hs : Inv s) {e : Nat} (he : IsEntry s.heap e)
    (hd : ∀ d, docEl s.heap = some d → s.heap.tag d = "KeePassFile".toList)
    {old : List Nat} (ho : history e s = (.ok old, s)) (hx : Exec env (Ordinary e) s t) :
    ∃ new, history e t = (.ok (old ++ new), t) ∧ ∀ k ∈ old, content t k = content s k := by
  rw [history_run] at ho
  cases hf : s.heap.find e "History".toList with
  | none =>
    rw [hf] at ho
    injection ho with ho _
    injection ho with ho
    subst ho
    exact ⟨_, history_run e t, fun k hk => by cases hk⟩
  | some h =>
    rw [hf] at ho
    injection ho with ho _
    injection ho with ho
    have b : Begins s e h t := by
      induction hx with
      | refl => exact ⟨snap_good hs hf, fun _ _ => rfl, hf, List.prefix_refl _, fun _ h => h, he, hd⟩
      | @step t c _ hL ih =>
        by_cases hc : c = .saveHistory e
        · subst hc
          exact begins_save ih (hL.2.1 e (by simp [handles]))
        · exact begins_kept ih (ordinary_keeps env ih c hL hc ih.good).1
    obtain ⟨new, hn⟩ := b.pre
    refine ⟨new, ?_, fun k hk => ?_⟩
    · rw [history_run, b.hist, ← ho, hn]
    · rw [← ho] at hk
      have hk := (List.mem_filter.mp hk).1
      exact content_congr hs b.good.inv (fun j hj => b.frozen j ⟨k, hk, hj⟩) (kid_mem hs hk).1

/-- Snapshots made by `save_history` contain no history of their own. -/
theorem C45_flat (x : Xml) : xall (bare x) "History".toList = [] := by
  unfold xall bare
  refine List.filter_eq_nil_iff.mpr fun k hk => ?_
  have := (List.mem_filter.mp hk).2
  simp only [bne, Bool.not_eq_true'] at this
  rw [this]
  exact Bool.false_ne_true

/-- The condition on names is needed: a custom property name with a quote can reach the history and remove it. -/
theorem C45_quote : (history 23 Sample.db).1.toOption = some [56] ∧
    (setCustom Sample.env 23 "pin\"]/../../History/Entry[\"x".toList (some "1".toList) false Sample.db).1.isOk = true ∧
    (history 23 (setCustom Sample.env 23 "pin\"]/../../History/Entry[\"x".toList (some "1".toList) false Sample.db).2).1.toOption =
      some [] := by
  refine ⟨?_, ?_, ?_⟩ <;> decide +kernel

/-! Entry 23 of the sample database has one snapshot, entry 76 has none. -/
example : IsEntry Sample.db.heap 23 ∧ (content Sample.db 23).isSome ∧ (Sample.db.heap.all 23 "History".toList).length ≤ 1 ∧
    (history 23 Sample.db).1.toOption = some [56] ∧ IsEntry Sample.db.heap 76 ∧ (history 76 Sample.db).1.toOption = some [] :=
  ⟨show _ = _ by decide +kernel, by decide +kernel, by decide +kernel, by decide +kernel, show _ = _ by decide +kernel,
    by decide +kernel⟩

theorem sample_not_hist {s : Db} {x : Nat} (hs : Inv s) (h : (s.world.nodes.all fun k =>
    k.tag != "History".toList || k.id == x || !(k.ids.contains x)) = true) : ¬ InHist s.heap x := by
  rintro ⟨k, h1, h2, h3⟩
  have hm : k ∈ s.world.ids := tag_mem (by rw [h1]; decide)
  obtain ⟨n, hn⟩ := get_of_mem hm
  obtain ⟨hn1, rfl⟩ := Node.get?_some hn
  have := List.all_eq_true.mp h n hn1
  rw [node_tag hn] at h1
  have hr : x ∈ n.ids := (reach_iff hs hn x).mp h3
  simp [h1, h2, hr] at this

/-- The password is changed and another snapshot saved. -/
example : Exec Sample.env (Ordinary 23) Sample.db
    ((Call.saveHistory 23).run Sample.env ((Call.setField 23 .password (some "new".toList)).run Sample.env Sample.db).2).2 := by
  have h : Ordinary 23 Sample.db.heap (.setField 23 .password (some "new".toList)) := by
    refine ⟨show _ = _ by decide +kernel, fun x hx => ?_, trivial⟩
    rw [List.mem_singleton.mp hx]
    exact sample_not_hist Sample.db_inv (by decide +kernel)
  have e1 : Exec Sample.env (Ordinary 23) Sample.db _ := .step (.setField 23 .password (some "new".toList)) (.refl _) h
  refine .step (.saveHistory 23) e1 ⟨show _ = _ by decide +kernel, fun x hx => ?_, trivial⟩
  rw [List.mem_singleton.mp hx]
  refine sample_not_hist ?_ (by decide +kernel)
  have b : Begins Sample.db 23 55 Sample.db :=
    ⟨snap_good Sample.db_inv (by decide +kernel), fun _ _ => rfl, by decide +kernel, List.prefix_refl _, fun _ h => h,
      by decide +kernel, fun d hd => by
        have : docEl Sample.db.heap = some 1 := by decide +kernel
        rw [this] at hd; injection hd with hd; rw [← hd]; decide +kernel⟩
  exact (ordinary_keeps Sample.env b _ h (by intro h; cases h) b.good).1.good.inv

end Verif.Props
