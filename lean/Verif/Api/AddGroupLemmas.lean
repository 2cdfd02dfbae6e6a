import Verif.Spec.NewGroup
import Verif.Api.AddLemmas
import Verif.Api.TrashLemmas
/-!
# `add_group`
-/
namespace Verif.Api
open Verif XPath Spec

theorem newGroup_read {env : Env} {name icon notes : Option Str} {s s' : Db} {x : Xml}
    (h : newGroup env name icon notes s = (.ok x, s')) :
    ∃ now n, name = some n ∧ XmlText n ∧ encodeTime s.version (env.now s.ticks) = .ok now ∧
      s' = { s with ticks := s.ticks + 1, uuids := s.uuids + 1 } ∧ x = groupXml (env.uuid1 s.uuids) now n icon notes := by
  unfold newGroup at h
  obtain ⟨l, s1, h1, h⟩ := bind_inv h
  obtain ⟨now, exp, e1, e2, rfl, rfl⟩ := baseKids_inv h1
  injection e2 with e2
  subst e2
  obtain ⟨xt, s2, h2, h⟩ := bind_inv h
  obtain ⟨g2, rfl⟩ := lift_inv h2
  obtain ⟨n, hn, hx, rfl⟩ := textEl_inv g2
  obtain ⟨l1, s2, h2, h⟩ := bind_inv h
  obtain ⟨g2, rfl⟩ := lift_inv h2
  have e4 := optText_inv g2
  subst e4
  obtain ⟨rfl, rfl⟩ := pure_inv h
  exact ⟨now, n, hn, hx, e1, rfl, rfl⟩

theorem newGroup_ok {env : Env} {name icon notes : Option Str} {s : Db} {now n : Str} (h : GroupArgsOk env s name icon notes now n) :
    newGroup env name icon notes s = (.ok (groupXml (env.uuid1 s.uuids) now n icon notes),
      { s with ticks := s.ticks + 1, uuids := s.uuids + 1 }) := by
  unfold newGroup
  rw [bind_of (baseKids_ok _ h.icon h.stamp (show expiryText env s.version none now = .ok now from rfl)), h.name.1,
    lift_bind (textEl_ok h.name.2), lift_bind (optText_ok h.notes)]
  rfl

theorem addGroup_inv {env : Env} {dest : Nat} {name icon notes : Option Str} {s s' : Db} {i : Nat}
    (h : addGroup env dest name icon notes s = (.ok i, s')) :
    ∃ now n, name = some n ∧ encodeTime s.version (env.now s.ticks) = .ok now ∧
      make dest (groupXml (env.uuid1 s.uuids) now n icon notes) { s with ticks := s.ticks + 1, uuids := s.uuids + 1 } = (.ok i, s') := by
  unfold addGroup at h
  obtain ⟨x, s1, h1, h⟩ := bind_inv h
  obtain ⟨now, n, e1, _, e2, rfl, rfl⟩ := newGroup_read h1
  exact ⟨now, n, e1, e2, h⟩

theorem group_all (u : Bytes) (now n : Str) (icon notes : Option Str) (tag : Str) :
    xall (groupXml u now n icon notes) tag =
      (if tag = "UUID".toList then [leafX "UUID" (b64encode u)] else []) ++
      (if tag = "IconID".toList then optLeaf "IconID" icon else []) ++
      (if tag = "Times".toList then [timesX now now false] else []) ++
      (if tag = "Name".toList then [leafX "Name" n] else []) ++
      (if tag = "Notes".toList then optLeaf "Notes" notes else []) := by
  have one : ∀ (x : Xml), ([x].filter fun k => k.tag == tag) = if tag = x.tag then [x] else [] := by
    intro x
    rw [List.filter_cons]
    by_cases h : tag = x.tag
    · rw [if_pos h, if_pos (beq_iff_eq.mpr h.symm)]; rfl
    · rw [if_neg h, if_neg fun hc => h (beq_iff_eq.mp hc).symm]; rfl
  unfold groupXml
  rw [xall_append]
  rw [List.filter_append, List.filter_append, List.filter_append, List.filter_append, one, optLeaf_tag, one, one, optLeaf_tag]
  rfl

theorem optLeaf_text (t : String) (v : Option Str) : ((optLeaf t v).head?).bind Xml.text = nonEmpty v := by
  unfold optLeaf
  cases v with
  | none => rfl
  | some w =>
    by_cases hw : w = []
    · simp [hw, nonEmpty]
    · simp only [if_neg hw, nonEmpty]; rfl

theorem group_first (u : Bytes) (now n : Str) (icon notes : Option Str) :
    xsub (groupXml u now n icon notes) "UUID".toList = some (b64encode u) ∧
    xsub (groupXml u now n icon notes) "IconID".toList = nonEmpty icon ∧
    xsub (groupXml u now n icon notes) "Name".toList = some n ∧
    xsub (groupXml u now n icon notes) "Notes".toList = nonEmpty notes ∧
    (xall (groupXml u now n icon notes) "Times".toList).head? = some (timesX now now false) := by
  refine ⟨?_, ?_, ?_, ?_, ?_⟩
  · unfold xsub
    rw [group_all, if_pos (by decide)]
    rfl
  · unfold xsub
    rw [group_all, if_neg (by decide), if_pos (by decide), if_neg (by decide), if_neg (by decide), if_neg (by decide), List.append_nil,
      List.append_nil, List.append_nil, List.nil_append]
    exact optLeaf_text ..
  · unfold xsub
    rw [group_all, if_neg (by decide), if_neg (by decide), if_neg (by decide), if_pos (by decide)]
    rfl
  · unfold xsub
    rw [group_all, if_neg (by decide), if_neg (by decide), if_neg (by decide), if_neg (by decide), if_pos (by decide)]
    exact optLeaf_text ..
  · rw [group_all, if_neg (by decide), if_neg (by decide), if_pos (by decide)]
    rfl

theorem group_kids_tags (u : Bytes) (now n : Str) (icon notes : Option Str) :
    ∀ k ∈ (groupXml u now n icon notes).kids, Xml.All (fun t _ _ _ => structural t = true) k := by
  intro k hk
  apply tagsAll_all (n := 5)
  have hk : k ∈ [leafX "UUID" (b64encode u)] ++ optLeaf "IconID" icon ++ [timesX now now false] ++ [leafX "Name" n] ++ optLeaf "Notes" notes := hk
  have o : ∀ (t : String) (v : Option Str), structural t.toList = true → k ∈ optLeaf t v → tagsAll structural 5 k = true := by
    intro t v ht h
    unfold optLeaf at h
    cases v with
    | none => cases h
    | some w =>
      by_cases hw : w = []
      · simp [hw] at h
      · simp only [if_neg hw] at h
        rw [List.mem_singleton.mp h]
        unfold tagsAll
        rw [Bool.and_eq_true]
        exact ⟨ht, rfl⟩
  simp only [List.mem_append, List.mem_cons, List.not_mem_nil, or_false] at hk
  rcases hk with (((rfl | h) | rfl) | rfl) | h
  · rfl
  · exact o _ _ (by decide) h
  · rfl
  · rfl
  · exact o _ _ (by decide) h

/-- What `find_groups` finds in the whole database with history hidden: the groups that satisfy the filters. -/
theorem findGroupList_run (env : Env) {s : Db} (hs : Inv s) {ks : List Kw} (hk : ∀ k ∈ ks, KwOk .group k) :
    ∃ l, findGroupList env true { kwargs := ks } s = (.ok l, s) ∧ l.Nodup ∧
      ∀ i, i ∈ l ↔ ∃ n, s.world.get? i = some n ∧ InDoc s.heap i ∧ s.heap.tag i = "Group".toList ∧ ¬ InHist s.heap i ∧
        ∀ k ∈ ks, KwHolds groupPlace exact n k := by
  obtain ⟨r, hr⟩ := find_ok (K := .group) (re := env.re) (recursive := true) hs.world (a := { kwargs := ks }) rfl (by simp) (by simp) hk
    (fun k _ => kw_compiles_exact k) cast_group
  obtain ⟨is, rfl, hsub, hm⟩ := find_partial hs.world rfl (by simp) (by simp) hk hr
  refine ⟨is, ?_, hsub.nodup hs.world.uniq, ?_⟩
  · unfold findGroupList
    rw [findGroups_eq, hr]
    rfl
  · intro i
    rw [hm i]
    constructor
    · rintro ⟨x, hx, rfl, h⟩
      have hg := Node.get?_mem hs.world.uniq hx
      exact ⟨x, hg, (inDoc_scope hs hx).mp h.scope, by rw [node_tag hg]; exact h.tag,
        fun hh => h.history rfl ((hist_iff hs hx).mpr hh), h.filters⟩
    · rintro ⟨x, hg, h1, h2, h3, h4⟩
      obtain ⟨hx, hid⟩ := Node.get?_some hg
      subst hid
      refine ⟨x, hx, rfl, ⟨(inDoc_scope hs hx).mpr h1, by rw [← node_tag hg]; exact h2, fun _ hh => h3 ((hist_iff hs hx).mp hh), h4⟩⟩

end Verif.Api
