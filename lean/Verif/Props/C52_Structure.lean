import Verif.Api.RootLemmas
import Verif.Api.Sample
import Verif.Spec.Calls
/-!
# C52: every sequence of method calls keeps the structure
-/
namespace Verif.Props
open Verif XPath Spec Api

theorem forest_of {s : Db} (hs : Inv s) : Forest s.heap where
  exist p c hc := by
    obtain ⟨r, hr⟩ := heap_some.mpr (kid_mem hs hc).1
    rw [hr]; exact fun h => by cases h
  once p := by
    cases hp : s.heap p with
    | none => unfold Heap.kids; rw [hp]; exact List.nodup_nil
    | some r => unfold Heap.kids; rw [hp]; exact kids_nodup hs hp
  parent p q c hp hq := parent_eq hs hp hq
  placed c hc h0 := by
    have hm : c ∈ s.world.ids := by
      cases h : s.heap c with
      | none => exact absurd h hc
      | some r => exact heap_some.mp ⟨r, h⟩
    obtain ⟨p, hp, k, hk, e⟩ := Node.kid_of_ids hm (by rw [hs.world.id]; exact h0)
    refine ⟨p.id, ?_⟩
    rw [node_kids (Node.get?_mem hs.world.uniq hp)]
    exact List.mem_map.mpr ⟨k, hk, e⟩
  acyclic p c hc := no_cycle hs hc

theorem own_of {f : Frame} {s : Db} (h : Guard f s) (hg : Good f s) {x : Nat} (ht : s.heap.tag x ∈ castTags) : Own f s x := by
  have hne : s.heap.tag x ≠ [] := by intro e; rw [e] at ht; exact absurd ht (by decide)
  refine ⟨tag_mem hne, tag_ne_zero hg.inv hne, h.free x, fun e => ?_⟩
  rw [e] at ht
  exact absurd ht (by unfold Frame.gate; cases f.doc <;> decide)

theorem Run.void {α} {f : Frame} {s : Db} {m : M α} {Q : α → Db → Prop} (h : Run f s m Q) : Keeps f s (void m) :=
  Api.Run.bind h fun _ _ _ _ => keeps_pure ()

theorem elem_cast {h : Heap} {x : Nat} (hx : IsElem h x) : h.tag x ∈ castTags := by
  rcases hx with e | e
  · rw [show h.tag x = "Entry".toList from e]; decide
  · rw [show h.tag x = "Group".toList from e]; decide
theorem entry_cast {h : Heap} {x : Nat} (hx : IsEntry h x) : h.tag x ∈ castTags := elem_cast (.inl hx)
theorem group_cast {h : Heap} {x : Nat} (hx : IsGroup h x) : h.tag x ∈ castTags := elem_cast (.inr hx)
theorem attach_cast {h : Heap} {x : Nat} (hx : IsAttach h x) : h.tag x ∈ castTags := by
  rw [show h.tag x = "Binary".toList from hx]; decide

/-- Every call leaves alone what is guarded, if it is not asked to move a guarded element. -/
theorem call_keeps (env : Env) {f : Frame} {s : Db} (h : Guard f s) (hg : Good f s) (c : Call) (ht : c.Typed s.heap)
    (hm : ∀ x ∈ c.moved, ∀ p, x ∈ s.heap.kids p → ¬ f.P p (s.heap.tag x))
    (hN : f.uuid = true ∨ f.fine = true → c.Public) (hU : ∀ x u, c = .setUuid x u → ¬ f.P x "UUID".toList)
    (htr : ∀ x, c = .trash x → canBeTrashed env x s = (.ok true, s) → ∀ p, x ∈ s.heap.kids p → ¬ f.P p (s.heap.tag x)) :
    Keeps f s (c.run env) := by
  have noP : ∀ {x t}, s.heap.tag x ∈ castTags → t ≠ "UUID".toList → ¬ f.P x t := fun hx ht => h.no (not_skel hx) fun _ => ht
  have castU : ∀ {x}, s.heap.tag x ∈ castTags → s.heap.tag x ≠ "UUID".toList := by
    intro x hx e
    rw [e] at hx
    exact absurd hx (by decide)
  have anyP : ∀ {x t}, ¬ f.uuid = true → s.heap.tag x ∈ castTags → ¬ f.P x t := fun hu hx => h.no (not_skel hx) fun h => absurd h hu
  have entryP : ∀ {p t}, t ∈ ["Entry".toList, "Binary".toList] → ¬ f.P p t := by
    intro p t hx hP
    have := h.kid p t hP
    rcases List.mem_cons.mp hx with e | e
    · rw [e] at this; exact absurd this (by decide)
    · rw [List.mem_singleton.mp e] at this; exact absurd this (by decide)
  have hist : ∀ e, ∀ k ∈ s.heap.all e "History".toList, ¬ f.F k ∧ ∀ t, ¬ f.P k t := by
    intro e k hk
    refine ⟨h.free k, fun t => h.none ?_⟩
    rw [beq_iff_eq.mp (List.mem_filter.mp hk).2]
    decide
  have elemHome : ∀ {x}, IsElem s.heap x → Home "Group".toList (s.heap.tag x) := by
    intro x hx
    rcases hx with hx | hx
    · rw [show s.heap.tag x = _ from hx]; decide
    · rw [show s.heap.tag x = _ from hx]; decide
  have kin : ∀ {x}, IsElem s.heap x → s.heap.tag x ∈ ["Entry".toList, "Group".toList, "History".toList] := by
    rintro x (hx | hx) <;> rw [show s.heap.tag x = _ from hx] <;> decide
  have box : ∀ {x}, s.heap.tag x ∈ castTags → f.fine = true → s.heap.tag x ∈ boxTags := fun hx _ => cast_box hx
  cases c with
  | setUuid x u =>
    exact keeps_setSub (own_of h hg (elem_cast ht)) (hU x u rfl) (fun hf => ⟨box (elem_cast ht) hf, by decide, by decide⟩) (fun _ => by decide)
      fun _ _ => ⟨kin ht, by decide⟩
  | setIcon x v =>
    exact keeps_setSub (own_of h hg (elem_cast ht)) (noP (elem_cast ht) (by decide)) (fun hf => ⟨box (elem_cast ht) hf, by decide, by decide⟩) (fun _ => by decide)
      fun _ _ => ⟨kin ht, by decide⟩
  | setTime x p v =>
    refine keeps_setTime (own_of h hg (elem_cast ht)) (fun hu => ?_) fun hf => ?_
    · have := hN (.inl hu)
      rintro rfl
      exact absurd this (show ¬ "UUID".toList ∈ ["CreationTime".toList, "LastModificationTime".toList, "LastAccessTime".toList, "ExpiryTime".toList] by decide)
    · have h1 : p ∈ ["CreationTime".toList, "LastModificationTime".toList, "LastAccessTime".toList, "ExpiryTime".toList] := hN (.inr hf)
      have h2 : ∀ q ∈ ["CreationTime".toList, "LastModificationTime".toList, "LastAccessTime".toList, "ExpiryTime".toList], q ∈ leafTags := by decide
      exact h2 p h1
  | setExpires x v => exact keeps_setExpires (own_of h hg (elem_cast ht))
  | expired x => exact Run.void (keeps_expired env x)
  | touch x m => exact keeps_touch env (own_of h hg (elem_cast ht))
  | delete x => exact keeps_delete (h.movable (elem_cast ht) hg (hm x (List.mem_singleton.mpr rfl)))
  | setName g v =>
    exact keeps_setSub (own_of h hg (group_cast ht)) (noP (group_cast ht) (by decide)) (fun hf => ⟨box (group_cast ht) hf, by decide, by decide⟩) (fun _ => by decide)
      fun _ _ => ⟨kin (.inr ht), by decide⟩
  | setNotes g v =>
    exact keeps_setSub (own_of h hg (group_cast ht)) (noP (group_cast ht) (by decide)) (fun hf => ⟨box (group_cast ht) hf, by decide, by decide⟩) (fun _ => by decide)
      fun _ _ => ⟨kin (.inr ht), by decide⟩
  | append g xs =>
    exact keeps_groupAppendAll (own_of h hg (group_cast ht.1)).mem (h.free g) (box (group_cast ht.1)) xs (fun x hx =>
      ⟨h.movable (elem_cast (ht.2 x hx)) hg (hm x hx), noP (group_cast ht.1) (castU (elem_cast (ht.2 x hx))), h.free x⟩)
      (fun _ x hx => by rw [show s.heap.tag g = _ from ht.1]; exact elemHome (ht.2 x hx)) fun _ _ x hx => ht.2 x hx
  | setField e k v => exact keeps_setStd env (own_of h hg (entry_cast ht)) (noP (entry_cast ht) (by decide)) (box (entry_cast ht)) fun _ => ht
  | setCustom e k v p => exact keeps_setCustom env (own_of h hg (entry_cast ht)) (noP (entry_cast ht) (by decide)) (if hu : f.uuid = true then .inl (fun c hc e => hN (.inl hu) (e ▸ hc)) else .inr fun _ => anyP hu (entry_cast ht)) (fun hf => ⟨box (entry_cast ht) hf, fun c hc e => hN (.inr hf) (e ▸ hc)⟩) fun _ => ht
  | deleteCustom e k => exact keeps_deleteCustom env (own_of h hg (entry_cast ht)) (noP (entry_cast ht) (by decide)) (if hu : f.uuid = true then .inl (fun c hc e => hN (.inl hu) (e ▸ hc)) else .inr fun _ => anyP hu (entry_cast ht))
  | setTags e ts =>
    exact keeps_setSub (own_of h hg (entry_cast ht)) (noP (entry_cast ht) (by decide)) (fun hf => ⟨box (entry_cast ht) hf, by decide, by decide⟩) (fun _ => by decide)
      fun _ _ => ⟨kin (.inl ht), by decide⟩
  | setAutoEnabled e v => exact keeps_setAutoEnabled (own_of h hg (entry_cast ht))
  | setAuto e w v => exact keeps_setAuto (own_of h hg (entry_cast ht))
  | saveHistory e =>
    exact keeps_saveHistory (own_of h hg (entry_cast ht)) (fun k hk => ⟨(hist e k hk).1, (hist e k hk).2 _⟩) (noP (entry_cast ht) (by decide)) (box (entry_cast ht)) fun _ => ht
  | deleteHistory e k all => exact keeps_deleteHistory (own_of h hg (entry_cast ht)) (hist e) (noP (entry_cast ht) (by decide))
  | reindex e i =>
    refine keeps_reindex (h.movable (entry_cast ht) hg fun p _ => entryP ?_) (h.free e) fun _ _ => ht
    rw [show s.heap.tag e = "Entry".toList from ht]; decide
  | addAttachment e i n => exact Run.void (keeps_addAttachment (own_of h hg (entry_cast ht)) (noP (entry_cast ht) (by decide)) (box (entry_cast ht)) fun _ => ht)
  | setAttId a i => exact keeps_setAttId (own_of h hg (attach_cast ht))
  | setAttName a v => exact keeps_setAttName (own_of h hg (attach_cast ht))
  | deleteAttachment a =>
    refine keeps_delete (h.movable (attach_cast ht) hg fun p _ => entryP ?_)
    rw [show s.heap.tag a = "Binary".toList from ht]; decide
  | addGroup g a b c =>
    have o := own_of h hg (group_cast ht)
    exact Run.void (keeps_addGroup env o.mem o.ne o.free (noP (group_cast ht) (by decide)) (box (group_cast ht)) fun _ => ht)
  | addEntry g a b =>
    have o := own_of h hg (group_cast ht)
    exact Run.void (keeps_addEntry env o.mem o.ne o.free (noP (group_cast ht) (by decide)) (box (group_cast ht)) fun _ => ht)
  | moveGroup x g =>
    have o := own_of h hg (group_cast ht.2)
    exact (keeps_appendEl (h.movable (group_cast ht.1) hg (hm x (List.mem_singleton.mpr rfl))) o.mem o.free
      (fun _ => noP (group_cast ht.2) (castU (group_cast ht.1))) (fun _ => h.free x) (box (group_cast ht.2)) (fun _ => by
        rw [show s.heap.tag x = _ from ht.1, show s.heap.tag g = _ from ht.2]; decide) fun _ _ => .inr ht.1).keeps
  | moveEntry x g =>
    have o := own_of h hg (group_cast ht.2)
    exact (keeps_appendEl (h.movable (entry_cast ht.1) hg (hm x (List.mem_singleton.mpr rfl))) o.mem o.free
      (fun _ => noP (group_cast ht.2) (castU (entry_cast ht.1))) (fun _ => h.free x) (box (group_cast ht.2)) (fun _ => by
        rw [show s.heap.tag x = _ from ht.1, show s.heap.tag g = _ from ht.2]; decide) fun _ _ => .inl ht.1).keeps
  | trash x => exact keeps_trash env h (elem_cast ht) (fun hc => h.movable (elem_cast ht) hg (htr x rfl hc)) (fun _ => elemHome ht) fun _ _ => ht
  | emptyGroup g =>
    have o := own_of h hg (group_cast ht)
    exact keeps_emptyGroup o.ne o.free (noP (group_cast ht) (by decide)) (noP (group_cast ht) (by decide))
  | addBinary d c p => exact Run.void (keeps_addBinary env h)
  | deleteBinary i => exact keeps_deleteBinary env h
  | setMeta n v =>
    refine keeps_setMeta env h.free (fun hu => ?_) fun hf => ?_
    · have := hN (.inl hu)
      simp only [Call.Public, List.mem_cons, List.not_mem_nil, or_false] at this
      rcases this with rfl | rfl | rfl <;> exact ⟨by decide, by decide⟩
    · have := hN (.inr hf)
      simp only [Call.Public, List.mem_cons, List.not_mem_nil, or_false] at this
      rcases this with rfl | rfl | rfl <;> exact ⟨by decide, by decide⟩
  | setCredDate d => exact keeps_setCredDate env h.free
  | setCredDays r n => exact keeps_setMeta env h.free (fun _ => by cases r <;> exact ⟨by decide, by decide⟩) fun _ => by cases r <;> exact ⟨by decide, by decide⟩
  | credChange r => exact Run.void (keeps_credChange env r)
  | setPassword p => exact keeps_setPassword env h.free
  | setKeyfile p => exact keeps_setKeyfile env h.free

/-- `Meta` and `Root` of the document element; with the flag also the groups of `Root`. -/
def docFrame (d r : Nat) (withRoot : Bool) : Frame where
  F _ := False
  P p t := (p = d ∧ (t = "Meta".toList ∨ t = "Root".toList)) ∨ (withRoot = true ∧ p = r ∧ t = "Group".toList)

theorem good_doc {s : Db} (hs : Inv s) (d r : Nat) (b : Bool) : Good (docFrame d r b) s :=
  ⟨hs, fun _ h => h.elim, fun h => h, fun _ _ _ _ _ _ h => h, nofun, nofun, nofun⟩

theorem doc_no_uuid (d r x : Nat) (b : Bool) : ¬ (docFrame d r b).P x "UUID".toList := by
  rintro (⟨_, h | h⟩ | ⟨_, _, h⟩) <;> exact absurd h (by decide)

theorem guard_doc {s : Db} {d m r : Nat} (hk : Skeleton s.heap d m r) (b : Bool) : Guard (docFrame d r b) s := by
  have hr : s.heap.tag r = "Root".toList := by
    have : r ∈ s.heap.all d "Root".toList := by rw [hk.root]; exact List.mem_singleton.mpr rfl
    exact beq_iff_eq.mp (List.mem_filter.mp this).2
  refine ⟨fun _ h => h, ?_, ?_⟩
  · rintro p t (⟨rfl, rfl | rfl⟩ | ⟨_, rfl, rfl⟩)
    · exact ⟨tag_mem (by rw [hk.tag]; decide), .inl ⟨by rw [hk.tag]; decide, by decide⟩⟩
    · exact ⟨tag_mem (by rw [hk.tag]; decide), .inl ⟨by rw [hk.tag]; decide, by decide⟩⟩
    · exact ⟨tag_mem (by rw [hr]; decide), .inl ⟨by rw [hr]; decide, by decide⟩⟩
  · intro d' hd
    rw [hk.doc] at hd
    injection hd with hd
    rw [← hd]; exact hk.tag

/-- What is kept over a sequence of calls is kept over one more. -/
theorem skeleton_kept {s t : Db} {d m r : Nat} {b : Bool} (hk : Skeleton s.heap d m r) (h : Kept (docFrame d r b) s t) :
    Skeleton t.heap d m r := by
  have hd : d ∈ s.world.ids := tag_mem (by rw [hk.tag]; decide)
  have h0 : d ≠ 0 := by
    rintro rfl
    have := hk.doc
    have hdoc : (0 : Nat) ∈ s.heap.kids 0 := List.mem_of_mem_head? this
    have hroot : 0 ∈ t.world.ids := h.ids 0 hd
    have := h.good.inv.zero_tag
    rw [h.tag 0 hd, hk.tag] at this
    exact absurd this (by decide)
  exact ⟨h.doc.trans hk.doc, (h.tag d hd).trans hk.tag, (h.all d hd h0 _ (.inl ⟨rfl, .inl rfl⟩)).trans hk.info,
    (h.all d hd h0 _ (.inl ⟨rfl, .inr rfl⟩)).trans hk.root⟩

/-- Whatever methods are called in whatever order, with whatever arguments, and whether or not they raise: the elements
form trees, and the document keeps its document element, `Meta` and `Root`. -/
theorem C52_structure (env : Env) {s t : Db} (hs : Inv s) {d m r : Nat} (hk : Skeleton s.heap d m r)
    (h : Exec env (fun h c => c.Typed h) s t) : Forest t.heap ∧ Skeleton t.heap d m r := by
  suffices Inv t ∧ Skeleton t.heap d m r from ⟨forest_of this.1, this.2⟩
  induction h with
  | refl => exact ⟨hs, hk⟩
  | @step t c _ hL ih =>
    obtain ⟨h1, h2⟩ := ih
    have hg := good_doc h1 d r false
    have noP : ∀ x, t.heap.tag x ∈ castTags → ∀ p, ¬ (docFrame d r false).P p (t.heap.tag x) := by
      intro x hx p hP
      rcases hP with ⟨_, e | e⟩ | ⟨e, _⟩
      · rw [e] at hx; exact absurd hx (by decide)
      · rw [e] at hx; exact absurd hx (by decide)
      · cases e
    have := (call_keeps env (guard_doc h2 false) hg c hL ?_ (fun h => h.elim (fun h => nomatch h) fun h => nomatch h) (fun x _ _ => doc_no_uuid d r x _) ?_ hg).1
    · exact ⟨this.good.inv, skeleton_kept h2 this⟩
    · intro x hx p _
      refine noP x ?_ p
      cases c with
      | delete y => rw [List.mem_singleton.mp hx]; exact elem_cast hL
      | append g ys => exact elem_cast (hL.2 x hx)
      | moveGroup y g => rw [List.mem_singleton.mp hx]; exact group_cast hL.1
      | moveEntry y g => rw [List.mem_singleton.mp hx]; exact entry_cast hL.1
      | _ => cases hx
    · rintro x rfl _ p _
      exact noP x (elem_cast hL) p

theorem rootEls_one {h : Heap} {d m r g : Nat} (hk : Skeleton h d m r) (hg : h.all r "Group".toList = [g]) : rootEls h = [g] := by
  unfold rootEls
  have hd := hk.doc
  unfold docEl at hd
  cases e : h.kids 0 with
  | nil => rw [e] at hd; cases hd
  | cons a l =>
    rw [e] at hd
    injection hd with hd
    subst hd
    simp only [List.take_succ_cons, List.take_zero, List.flatMap_cons, List.flatMap_nil, List.append_nil]
    rw [if_pos hk.tag, hk.root]
    simp only [List.flatMap_cons, List.flatMap_nil, List.append_nil]
    exact hg

/-- No call asks to delete or move the root group; it may ask to trash it. -/
def SparesRoot (h : Heap) (c : Call) : Prop := c.Typed h ∧ ∀ x ∈ c.moved, ¬ IsRoot h x

/-- The root group also stays, if it is not itself the argument of `delete`, `delete_group`, `move_group` or
`Group.append`. -/
theorem C52_root_group (env : Env) {s t : Db} (hs : Inv s) {d m r g : Nat} (hk : Skeleton s.heap d m r)
    (hg : s.heap.all r "Group".toList = [g]) (h : Exec env SparesRoot s t) :
    Forest t.heap ∧ Skeleton t.heap d m r ∧ t.heap.all r "Group".toList = [g] ∧ t.heap.tag g = "Group".toList ∧
      rootGroup env t = (.ok (some g), t) := by
  suffices h : Inv t ∧ Skeleton t.heap d m r ∧ t.heap.all r "Group".toList = [g] by
    obtain ⟨h1, h2, h3⟩ := h
    refine ⟨forest_of h1, h2, h3, ?_, ?_⟩
    · have : g ∈ t.heap.all r "Group".toList := by rw [h3]; exact List.mem_singleton.mpr rfl
      exact beq_iff_eq.mp (List.mem_filter.mp this).2
    · rw [rootGroup_run env h1, rootEls_one h2 h3]; rfl
  induction h with
  | refl => exact ⟨hs, hk, hg⟩
  | @step t c _ hL ih =>
    obtain ⟨h1, h2, h3⟩ := ih
    have hgood := good_doc h1 d r true
    have hr : t.heap.tag r = "Root".toList := by
      have : r ∈ t.heap.all d "Root".toList := by rw [h2.root]; exact List.mem_singleton.mpr rfl
      exact beq_iff_eq.mp (List.mem_filter.mp this).2
    have noP : ∀ x, t.heap.tag x ∈ castTags → ¬ IsRoot t.heap x → ∀ p, x ∈ t.heap.kids p →
        ¬ (docFrame d r true).P p (t.heap.tag x) := by
      intro x hx hn p hp hP
      rcases hP with ⟨_, e | e⟩ | ⟨_, rfl, e⟩
      · rw [e] at hx; exact absurd hx (by decide)
      · rw [e] at hx; exact absurd hx (by decide)
      · refine hn ⟨d, p, h2.doc, h2.tag, ?_, List.mem_filter.mpr ⟨hp, beq_iff_eq.mpr e⟩⟩
        rw [h2.root]; exact List.mem_singleton.mpr rfl
    have := (call_keeps env (guard_doc h2 true) hgood c hL.1 ?_ (fun h => h.elim (fun h => nomatch h) fun h => nomatch h) (fun x _ _ => doc_no_uuid d r x _) ?_ hgood).1
    · refine ⟨this.good.inv, skeleton_kept h2 this, ?_⟩
      have hm : r ∈ t.world.ids := tag_mem (by rw [hr]; decide)
      have h0 : r ≠ 0 := tag_ne_zero h1 (by rw [hr]; decide)
      exact (this.all r hm h0 _ (.inr ⟨rfl, rfl, rfl⟩)).trans h3
    · intro x hx p hp
      refine noP x ?_ (hL.2 x hx) p hp
      have hL1 := hL.1
      cases c with
      | delete y => rw [List.mem_singleton.mp hx]; exact elem_cast hL1
      | append g ys => exact elem_cast (hL1.2 x hx)
      | moveGroup y g => rw [List.mem_singleton.mp hx]; exact group_cast hL1.1
      | moveEntry y g => rw [List.mem_singleton.mp hx]; exact entry_cast hL1.1
      | _ => cases hx
    · rintro x rfl hc p hp
      refine noP x (elem_cast hL.1) (fun hx => ?_) p hp
      rw [← mem_rootEls, rootEls_one h2 h3] at hx
      rw [List.mem_singleton.mp hx] at hc
      exact canBeTrashed_root env h1 (by rw [rootEls_one h2 h3]; rfl) hc

/-- The exception is needed: `delete_group` removes the root group like any other, and afterwards the database has none. -/
theorem C52_root_deleted : IsRoot Sample.db.heap 14 ∧ ((Call.delete 14).run Sample.env Sample.db).1.isOk = true ∧
    ((Call.delete 14).run Sample.env Sample.db).2.heap.all 13 "Group".toList = [] ∧
    (rootGroup Sample.env ((Call.delete 14).run Sample.env Sample.db).2).1.toOption = some none := by
  refine ⟨⟨1, 13, ?_, ?_, ?_, ?_⟩, ?_, ?_, ?_⟩ <;> decide +kernel

/-! The hypotheses hold in the sample database, and long sequences are possible. -/
theorem sample_skeleton : Skeleton Sample.db.heap 1 2 13 := by
  refine ⟨?_, ?_, ?_, ?_⟩ <;> decide +kernel

example : Inv Sample.db ∧ Skeleton Sample.db.heap 1 2 13 ∧ Sample.db.heap.all 13 "Group".toList = [14] :=
  ⟨Sample.db_inv, sample_skeleton, by decide +kernel⟩

/-- An entry is trashed, which makes the recycle bin; then the root group is, which is refused. -/
example : Exec Sample.env SparesRoot Sample.db
    ((Call.trash 14).run Sample.env ((Call.trash 23).run Sample.env ((Call.saveHistory 23).run Sample.env Sample.db).2).2).2 := by
  refine .step _ (.step _ (.step _ (.refl _) ⟨?_, fun _ h => by cases h⟩) ⟨?_, fun _ h => by cases h⟩) ⟨?_, fun _ h => by cases h⟩
  · exact show _ = _ by decide +kernel
  · exact Or.inl (show _ = _ by decide +kernel)
  · exact Or.inr (show _ = _ by decide +kernel)

example : ((Call.trash 23).run Sample.env Sample.db).1.isOk = true ∧
    23 ∉ ((Call.trash 23).run Sample.env Sample.db).2.heap.kids 14 ∧
    ((Call.trash 14).run Sample.env Sample.db).1.isOk = false := by
  decide +kernel

end Verif.Props
