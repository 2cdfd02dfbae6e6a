import Verif.Api.ListLemmas
import Verif.Props.C52_Structure
import Verif.Props.C53_Identity
import Verif.Props.C64_Calls
/-!
# C68: groups, entries and the lists of them
-/
namespace Verif.Props
open Verif XPath Spec Api

/-- All elements are to be where they may be. -/
def shapeFrame : Frame where
  F _ := False
  P _ _ := False
  shape := true

/-- Whatever methods are called in whatever order, with whatever arguments, and whether or not they raise: every element stays where elements
of its kind may be. -/
theorem C68_shape (env : Env) {s t : Db} (hs : Inv s) (hd : DocOk s.heap) (hh : Shaped s.heap)
    (h : Exec env (fun h c => c.Typed h) s t) : Shaped t.heap := by
  suffices Inv t ∧ DocOk t.heap ∧ Shaped t.heap from this.2.2
  induction h with
  | refl => exact ⟨hs, hd, hh⟩
  | @step t c _ hL ih =>
    obtain ⟨h1, h2, h3⟩ := ih
    have hg : Good shapeFrame t := ⟨h1, fun _ h => h.elim, fun h => h, fun _ _ _ _ _ _ h => h, nofun, fun _ => h3, nofun⟩
    have hG : Guard shapeFrame t := ⟨fun _ h => h, fun _ _ h => h.elim, h2⟩
    have hk := (call_keeps env hG hg c hL (fun _ _ _ _ h => h) (fun h => h.elim (fun h => nomatch h) fun h => nomatch h) (fun _ _ _ h => h)
      (fun _ _ _ _ _ h => h) hg).1
    exact ⟨hk.good.inv, (hG.kept hk).doc, hk.good.shape rfl⟩

/-- So do the elements of a file, if they are where they may be when it is opened. -/
theorem C68_opened (env : Env) {k : Kdbx} {x : Xml} (hx : k.tree = .ok x) (hn : x.tag = "KeePassFile".toList) (hh : ShapedXml x) {a b : Nat} {s t : Db}
    (hl : k.load a b = .ok s) (h : Exec env (fun h c => c.Typed h) s t) : Shaped t.heap := by
  obtain ⟨s', e, hi, hd, hc, _⟩ := load_ok hx a b
  rw [hl] at e
  injection e with e
  subst e
  refine C68_shape env hi (fun d hd' => ?_) (fun p c h0 hk => content_shaped hi hc hh (load_reach hl hi (kid_mem hi hk).2 h0) hk) h
  rw [hd] at hd'
  injection hd' with hd'
  subst hd'
  exact (content_tag hc).trans hn

variable {s : Db}

/-- `groups` lists every group once: the root groups, their subgroups, the subgroups of those, and so on. -/
theorem C68_groups (env : Env) (hs : Inv s) (hh : Shaped s.heap) {d m r : Nat} (hk : Skeleton s.heap d m r) :
    ∃ l, allGroups env s = (.ok l, s) ∧ l.Nodup ∧ ∀ g, g ∈ l ↔ ∃ r, IsRoot s.heap r ∧ Under s.heap r g := by
  obtain ⟨l, h1, h2, h3⟩ := allGroups_run env hs
  refine ⟨l, h1, h2, fun g => ?_⟩
  rw [h3, ← groups_under hs hh hk.doc hk.tag]
  constructor
  · rintro ⟨a, b, _⟩
    exact ⟨a, b⟩
  · rintro ⟨a, b⟩
    exact ⟨a, b, spine_hist hs hh (by rw [b]; decide)⟩

/-- `entries` lists exactly what the groups list as theirs: all together, each once. -/
theorem C68_entries (env : Env) (hs : Inv s) (hh : Shaped s.heap) {d m r : Nat} (hk : Skeleton s.heap d m r) :
    ∃ gs es of_, allGroups env s = (.ok gs, s) ∧ allEntries env s = (.ok es, s) ∧ (∀ g, groupEntries g s = (.ok (of_ g), s)) ∧
      es.Nodup ∧ es.Perm (gs.flatMap of_) := by
  obtain ⟨gs, g1, g2, g3⟩ := allGroups_run env hs
  obtain ⟨es, e1, e2, e3⟩ := allEntries_run env hs
  have hf := forest_of hs
  refine ⟨gs, es, fun g => s.heap.all g "Entry".toList, g1, e1, fun _ => rfl, e2, ?_⟩
  refine (List.perm_ext_iff_of_nodup e2 ?_).mpr fun e => ?_
  · refine List.pairwise_flatMap.mpr ⟨fun g _ => (hf.once g).filter _, ?_⟩
    refine g2.imp fun {a b} hab => ?_
    intro x hx y hy e
    subst e
    exact hab (hf.parent a b x (all_kid hx).1 (all_kid hy).1)
  · rw [e3, List.mem_flatMap]
    constructor
    · rintro ⟨a, b, c⟩
      obtain ⟨g, h1, h2, h3⟩ := entry_group hs hh hk.doc hk.tag a b c
      exact ⟨g, (g3 g).mpr ⟨h1, h2, spine_hist hs hh (by rw [h2]; decide)⟩, h3⟩
    · rintro ⟨g, h1, h2⟩
      obtain ⟨a, b, c⟩ := (g3 g).mp h1
      obtain ⟨d', a1, a2⟩ := a
      exact ⟨⟨d', a1, .snoc a2 (all_kid h2).1⟩, (all_kid h2).2, entry_hist hs hh b h2⟩

/-- The links up and down agree: an entry is in the list of the group that is its `group`, and in no other list; a group is in `subgroups` of
its `parentgroup`, and of no other group. -/
theorem C68_links (hs : Inv s) {g c : Nat} (hg : s.heap.tag g = "Group".toList)
    (hc : c ∈ s.heap.all g "Entry".toList ∨ c ∈ s.heap.all g "Group".toList) :
    groupOf c s = (.ok (some g), s) ∧ ∀ g', c ∈ s.heap.all g' "Entry".toList ∨ c ∈ s.heap.all g' "Group".toList → g' = g := by
  have hck : c ∈ s.heap.kids g := hc.elim (fun h => (all_kid h).1) fun h => (all_kid h).1
  refine ⟨groupOf_kid hs hg hck, fun g' h => ?_⟩
  exact parent_eq hs (h.elim (fun h => (all_kid h).1) fun h => (all_kid h).1) hck

/-- Every entry that is listed has a `group`, a listed group in whose list it is, and is no history entry. -/
theorem C68_has_group (env : Env) (hs : Inv s) (hh : Shaped s.heap) {d m r : Nat} (hk : Skeleton s.heap d m r) {gs es : List Nat}
    (hg : allGroups env s = (.ok gs, s)) (he : allEntries env s = (.ok es, s)) {e : Nat} (hm : e ∈ es) :
    ∃ g ∈ gs, groupOf e s = (.ok (some g), s) ∧ (∃ l, groupEntries g s = (.ok l, s) ∧ e ∈ l) ∧ isHistoryEntry e s = (.ok false, s) := by
  obtain ⟨gs', g1, _, g3⟩ := allGroups_run env hs
  obtain ⟨es', e1, _, e3⟩ := allEntries_run env hs
  rw [hg] at g1
  rw [he] at e1
  injection g1 with g1 _; injection g1 with g1; subst g1
  injection e1 with e1 _; injection e1 with e1; subst e1
  obtain ⟨a, b, c⟩ := (e3 e).mp hm
  obtain ⟨g, h1, h2, h3⟩ := entry_group hs hh hk.doc hk.tag a b c
  refine ⟨g, (g3 g).mpr ⟨h1, h2, spine_hist hs hh (by rw [h2]; decide)⟩, groupOf_kid hs h2 (all_kid h3).1, ⟨_, rfl, h3⟩, ?_⟩
  rw [isHistoryEntry_kid hs (tag_ne_zero hs (by rw [h2]; decide)) (all_kid h3).1, h2]
  rfl

/-- Exactly the root groups have no `parentgroup`, and `is_root_group` says so. -/
theorem C68_root (env : Env) (hs : Inv s) (hh : Shaped s.heap) {d m r : Nat} (hk : Skeleton s.heap d m r) {gs : List Nat}
    (hg : allGroups env s = (.ok gs, s)) {g : Nat} (hm : g ∈ gs) :
    (IsRoot s.heap g ∧ isRootGroup g s = (.ok true, s) ∧ groupOf g s = (.ok none, s)) ∨
    (¬ IsRoot s.heap g ∧ isRootGroup g s = (.ok false, s) ∧ ∃ p ∈ gs, groupOf g s = (.ok (some p), s) ∧
      ∃ l, groupSubgroups p s = (.ok l, s) ∧ g ∈ l) := by
  obtain ⟨l, g1, _, g3⟩ := C68_groups env hs hh hk
  rw [hg] at g1
  injection g1 with g1 _; injection g1 with g1; subst g1
  have still : ∀ {x} {o : Option Nat}, (groupOf x s).1 = .ok o → groupOf x s = (.ok o, s) := by
    intro x o h
    exact Prod.ext h ((still_groupOf x).eq s)
  obtain ⟨r', hr, hu⟩ := (g3 g).mp hm
  have isr : ∀ {x}, IsRoot s.heap x → isRootGroup x s = (.ok true, s) ∧ groupOf x s = (.ok none, s) := by
    rintro x ⟨d', q, h1, h2, h3, h4⟩
    have hq0 : q ≠ 0 := tag_ne_zero hs (by rw [(all_kid h3).2]; decide)
    have hd0 : d' ≠ 0 := tag_ne_zero hs (by rw [h2]; decide)
    refine ⟨by rw [isRootGroup_kid hs hq0 (all_kid h4).1, (all_kid h3).2]; rfl, still ?_⟩
    rw [groupOf_skip hs hq0 (by rw [(all_kid h3).2]; decide) (all_kid h4).1, groupOf_skip hs hd0 (by rw [h2]; decide) (all_kid h3).1,
      groupOf_top hs (List.mem_of_mem_head? h1)]
  cases hu with
  | refl => exact .inl ⟨hr, isr hr⟩
  | @sub p _ hp hc =>
    right
    have hpg : s.heap.tag p = "Group".toList := ((groups_under hs hh hk.doc hk.tag).mpr ⟨r', hr, hp⟩).2
    have hp0 : p ≠ 0 := tag_ne_zero hs (by rw [hpg]; decide)
    have h1 := isRootGroup_kid hs hp0 (all_kid hc).1
    rw [hpg] at h1
    have h1 : isRootGroup g s = (.ok false, s) := h1
    refine ⟨fun h => ?_, h1, p, (g3 p).mpr ⟨r', hr, hp⟩, groupOf_kid hs hpg (all_kid hc).1, _, rfl, hc⟩
    rw [(isr h).1] at h1
    cases h1

/-- The items of a history are history entries, are not listed, and their `group` is the group of the entry. -/
theorem C68_history (env : Env) (hs : Inv s) {e h : Nat} {l es : List Nat} (he : IsEntry s.heap e) (hl : history e s = (.ok l, s)) (hm : h ∈ l)
    (hes : allEntries env s = (.ok es, s)) : isHistoryEntry h s = (.ok true, s) ∧ h ∉ es ∧ (groupOf h s).1 = (groupOf e s).1 := by
  unfold history at hl
  rw [bind_of (findKid_run e "History".toList s)] at hl
  cases ho : s.heap.find e "History".toList with
  | none =>
    rw [ho] at hl
    injection hl with hl _; injection hl with hl
    rw [← hl] at hm
    cases hm
  | some k =>
    rw [ho] at hl
    have hl : (Except.ok (s.heap.all k "Entry".toList), s) = (.ok l, s) := hl
    injection hl with hl _; injection hl with hl
    subst hl
    obtain ⟨hk1, hk2⟩ := all_kid (List.mem_of_mem_head? ho)
    obtain ⟨hh1, hh2⟩ := all_kid hm
    have hk0 : k ≠ 0 := tag_ne_zero hs (by rw [hk2]; decide)
    have he0 : e ≠ 0 := tag_ne_zero hs (by rw [show s.heap.tag e = _ from he]; decide)
    refine ⟨by rw [isHistoryEntry_kid hs hk0 hh1, hk2]; rfl, fun hin => ?_, ?_⟩
    · obtain ⟨es', e1, _, e3⟩ := allEntries_run env hs
      rw [hes] at e1
      injection e1 with e1 _; injection e1 with e1; subst e1
      refine ((e3 h).mp hin).2.2 ⟨k, hk2, ?_, .kid hh1⟩
      rintro rfl
      exact no_cycle hs hh1 .refl
    · rw [groupOf_skip hs hk0 (by rw [hk2]; decide) hh1, groupOf_skip hs he0 (by rw [show s.heap.tag e = _ from he]; decide) hk1]

/-! The hypotheses hold in the sample database: a group in the root group, a group in that, and entries in all of them. -/
theorem shaped_of (hs : Inv s) (h : ∀ n ∈ s.world.nodes, n.id ≠ 0 → ∀ c ∈ n.kids, Home n.tag c.tag) : Shaped s.heap := by
  intro p c h0 hk
  obtain ⟨n, hn⟩ := get_of_mem (kid_mem hs hk).2
  obtain ⟨hm, rfl⟩ := Node.get?_some hn
  rw [node_kids hn] at hk
  obtain ⟨c', hc', rfl⟩ := List.mem_map.mp hk
  rw [node_tag hn, node_tag (Node.get?_mem hs.world.uniq (nodes_kid hm hc'))]
  exact h n hm h0 c' hc'

theorem sample_shaped : Shaped Sample.db.heap := shaped_of Sample.db_inv (by decide +kernel)

example : allGroups Sample.env Sample.db = (.ok [14, 93, 122], Sample.db) ∧ allEntries Sample.env Sample.db = (.ok [23, 76, 102], Sample.db) ∧
    groupEntries 14 Sample.db = (.ok [23, 76], Sample.db) := by
  refine ⟨Prod.ext ?_ rfl, Prod.ext ?_ rfl, Prod.ext ?_ rfl⟩ <;> decide +kernel

/-- Also after a group was moved and an entry trashed. -/
def rearranged : Db := ((Call.trash 23).run Sample.env ((Call.moveGroup 122 14).run Sample.env Sample.db).2).2

example : Exec Sample.env (fun h c => c.Typed h) Sample.db rearranged ∧ Shaped rearranged.heap ∧
    (allGroups Sample.env rearranged).1.toOption = some [14, 93, 122, 148] ∧ rearranged.heap.all 14 "Entry".toList = [76] ∧
    rearranged.heap.all 148 "Entry".toList = [23] := by
  have h : Exec Sample.env (fun h c => c.Typed h) Sample.db rearranged :=
    .step _ (.step _ (.refl _) ⟨by show _ = _; decide +kernel, by show _ = _; decide +kernel⟩) (.inl (by show _ = _; decide +kernel))
  refine ⟨h, C68_shape Sample.env Sample.db_inv ?_ sample_shaped h, ?_, ?_, ?_⟩
  · intro d hd
    rw [sample_skeleton.doc] at hd
    injection hd with hd
    rw [← hd]
    exact sample_skeleton.tag
  · decide +kernel
  · decide +kernel
  · decide +kernel

/-- A history entry. -/
def remembered : Db := ((Call.saveHistory 102).run Sample.env Sample.db).2

example : ∃ h, (history 102 remembered).1.toOption = some [h] ∧ (isHistoryEntry h remembered).1.toOption = some true ∧
    (groupOf h remembered).1.toOption = some (some 93) ∧ (allEntries Sample.env remembered).1.toOption = some [23, 76, 102] := by
  refine ⟨149, ?_, ?_, ?_, ?_⟩ <;> decide +kernel

end Verif.Props
