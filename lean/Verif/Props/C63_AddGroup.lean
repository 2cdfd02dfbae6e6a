import Verif.Api.AddGroupLemmas
import Verif.Props.C39_AddEntry
/-!
# C63: `add_group` adds exactly the group asked for
-/
namespace Verif.Props
open Verif XPath Spec Api

/-- The new group `i` reads back as the arguments say, and is empty. -/
structure GroupReads (env : Env) (s s' : Db) (i : Nat) (n : Str) (icon notes : Option Str) : Prop where
  tag : s'.heap.tag i = "Group".toList
  name : getName i s' = (.ok (some n), s')
  notes : getGroupNotes i s' = (.ok (nonEmpty notes), s')
  icon : getIcon i s' = (.ok (nonEmpty icon), s')
  uuid : (env.uuid1 s.uuids).length = 16 → getUuid i s' = (.ok (env.uuid1 s.uuids), s')
  times : ∀ p ∈ ["CreationTime".toList, "LastModificationTime".toList, "LastAccessTime".toList, "LocationChanged".toList,
    "ExpiryTime".toList], getTime i p s' = ((stored s.version (env.now s.ticks)).map some, s')
  expires : getExpires i s' = (.ok (some false), s')
  entries : groupEntries i s' = (.ok [], s')
  subgroups : groupSubgroups i s' = (.ok [], s')

/-- The elements changed by `add_group`: one more element, the last child of the destination. Its parts are the
ids from `s.next` on. -/
structure GroupAdded (s s' : Db) (dest i : Nat) : Prop where
  inv : Inv s'
  new : i = s.next
  last : s'.heap.kids dest = s.heap.kids dest ++ [i]
  tag : s'.heap.tag dest = s.heap.tag dest
  text : s'.heap.text dest = s.heap.text dest
  others : ∀ j, j ≠ dest → j < s.next → s'.heap j = s.heap j
  below : ∀ j, s.next ≤ j → (Reach s'.heap i j ↔ j < s'.next)
  entries : ∀ j, s'.heap.tag j = "Entry".toList ↔ s.heap.tag j = "Entry".toList
  groups : ∀ j, s'.heap.tag j = "Group".toList ↔ s.heap.tag j = "Group".toList ∨ j = i
  history : ∀ j, s'.heap.tag j = "History".toList ↔ s.heap.tag j = "History".toList
  outside : s'.version = s.version ∧ s'.binaries = s.binaries ∧ s'.password = s.password ∧ s'.keyfile = s.keyfile
  clock : s'.ticks = s.ticks + 1 ∧ s'.uuids = s.uuids + 1

theorem groupAdded_of {s s' : Db} (hs : Inv s) {dest : Nat} {x : Xml} (hx : x.tag = "Group".toList)
    (hk : ∀ k ∈ x.kids, Xml.All (fun t _ _ _ => structural t = true) k) (h1 : Inv s')
    (h2 : s' = { s with ticks := s.ticks + 1, uuids := s.uuids + 1, world := s'.world, next := s'.next })
    (h3 : Added s.heap s'.heap dest s.next s'.next) (h4 : content s' s.next = some x) : GroupAdded s s' dest s.next := by
  have htag : s'.heap.tag s.next = "Group".toList := by rw [content_tag h4, hx]
  have hold : ∀ j, s.next ≤ j → s.heap.tag j = [] := by
    intro j hj
    unfold Heap.tag
    rw [h3.fresh j hj]; rfl
  have hnew : ∀ j, s.next ≤ j → j ≠ s.next → structural (s'.heap.tag j) = true := by
    intro j hj hne
    by_cases hm : j < s'.next
    · exact content_below h1 h4 (P := fun t => structural t = true) hk ((h3.below j).mpr ⟨hj, hm⟩) hne
    · have : s'.heap j = none := heap_none.mpr fun h => hm (h1.bound j h)
      unfold Heap.tag
      rw [this]; decide
  have htags : ∀ j t, t ≠ [] → t ≠ "Group".toList → (structural t = false) → (s'.heap.tag j = t ↔ s.heap.tag j = t) := by
    intro j t ht hte hst
    by_cases hj : j < s.next
    · rw [added_tag hs h3 hj]
    · rw [hold j (by omega)]
      constructor
      · intro h
        by_cases hjn : j = s.next
        · subst hjn; rw [htag] at h; exact absurd h.symm hte
        · have := hnew j (by omega) hjn
          rw [h, hst] at this; cases this
      · intro h; exact absurd h.symm ht
  refine ⟨h1, rfl, ?_, ?_, ?_, h3.other, ?_, ?_, ?_, ?_, ?_, ?_⟩
  · rw [added_kids hs h3 (added_p hs h3), if_pos rfl]
  · exact added_tag hs h3 (added_p hs h3)
  · exact added_text hs h3 (added_p hs h3)
  · intro j hj; rw [h3.below]; exact ⟨fun h => h.2, fun h => ⟨hj, h⟩⟩
  · intro j; exact htags j _ (by decide) (by decide) (by decide)
  · intro j
    by_cases hj : j < s.next
    · rw [added_tag hs h3 hj]
      exact ⟨.inl, fun h => h.elim id fun e => by omega⟩
    · rw [hold j (by omega)]
      constructor
      · intro h
        by_cases hjn : j = s.next
        · exact .inr hjn
        · have := hnew j (by omega) hjn
          rw [h] at this
          exact absurd this (by decide)
      · rintro (h | rfl)
        · cases h
        · exact htag
  · intro j; exact htags j _ (by decide) (by decide) (by decide)
  · rw [h2]; exact ⟨rfl, rfl, rfl, rfl⟩
  · rw [h2]; exact ⟨rfl, rfl⟩

theorem groupReads_of {env : Env} {s s' : Db} (hs' : Inv s') {i : Nat} {icon notes : Option Str} {now n : Str}
    (hv : s'.version = s.version) (hc : content s' i = some (groupXml (env.uuid1 s.uuids) now n icon notes))
    (h4 : encodeTime s.version (env.now s.ticks) = .ok now) : GroupReads env s s' i n icon notes := by
  obtain ⟨e1, e2, e3, e4, e5⟩ := group_first (env.uuid1 s.uuids) now n icon notes
  obtain ⟨f1, f2, f3⟩ := times_first now now false
  have kids : ∀ t, xall (groupXml (env.uuid1 s.uuids) now n icon notes) t = [] → s'.heap.all i t = [] := by
    intro t ht
    have := (content_all hs' hc t).1
    rw [ht] at this
    exact List.map_eq_nil_iff.mp this
  refine ⟨content_tag hc, ?_, ?_, ?_, ?_, ?_, ?_, ?_, ?_⟩
  · unfold getName
    rw [getSub_content hs' hc, e3]
  · unfold getGroupNotes
    rw [getSub_content hs' hc, e4]
  · unfold getIcon
    rw [getSub_content hs' hc, e2]
  · intro hl
    unfold getUuid
    rw [bind_of (getSub_content hs' hc _), e1, lift_run]
    rw [uuidOfText_ok hl]
  · intro q hq
    have : ∃ y, (xall (timesX now now false) q).head? = some y ∧ y.text = some now := by
      simp only [List.mem_cons, List.not_mem_nil, or_false] at hq
      rcases hq with rfl | rfl | rfl | rfl | rfl
      · exact f1 _ (by simp)
      · exact f1 _ (by simp)
      · exact f1 _ (by simp)
      · exact f1 _ (by simp)
      · exact ⟨_, f2, rfl⟩
    obtain ⟨y, g1, g2⟩ := this
    rw [getTime_content hs' hc e5 g1 g2, hv]
    unfold stored
    rw [h4]
    rfl
  · rw [getExpires_content hs' hc e5 f3]
    rfl
  · unfold groupEntries
    rw [findKids_run, kids]
    rw [group_all, if_neg (by decide), if_neg (by decide), if_neg (by decide), if_neg (by decide), if_neg (by decide)]
    rfl
  · unfold groupSubgroups
    rw [findKids_run, kids]
    rw [group_all, if_neg (by decide), if_neg (by decide), if_neg (by decide), if_neg (by decide), if_neg (by decide)]
    rfl

theorem addGroup_all {env : Env} {s s' : Db} (hs : Inv s) {dest i : Nat} (hm : dest ∈ s.world.ids) {name icon notes : Option Str}
    (h : addGroup env dest name icon notes s = (.ok i, s')) : ∃ n, name = some n ∧ i = s.next ∧ GroupAdded s s' dest i ∧
      GroupReads env s s' i n icon notes ∧ Added s.heap s'.heap dest s.next s'.next := by
  obtain ⟨now, n, h1, h4, h6⟩ := addGroup_inv h
  obtain ⟨s1, g1, g2, g3, g4, g5⟩ := add_ok (inv_quiet hs (s.ticks + 1) (s.uuids + 1)) hm
    (groupXml (env.uuid1 s.uuids) now n icon notes)
  rw [g1] at h6
  injection h6 with e1 e2
  injection e1 with e1
  replace e1 : s.next = i := e1
  subst e2
  replace g3 : s1 = { s with ticks := s.ticks + 1, uuids := s.uuids + 1, world := s1.world, next := s1.next } := g3
  replace g4 : Added s.heap s1.heap dest s.next s1.next := g4
  replace g5 : content s1 s.next = some (groupXml (env.uuid1 s.uuids) now n icon notes) := g5
  subst e1
  exact ⟨n, h1, rfl, groupAdded_of hs rfl (group_kids_tags _ _ _ _ _) g2 g3 g4 g5, groupReads_of g2 (by rw [g3]) g5 h4, g4⟩

/-- Whatever `add_group` returns is the one new group: last in the destination, with the name, notes and icon asked for, a
uuid of its own and the current time, without entries and groups; every other element is as before. -/
theorem C63_added {env : Env} {s s' : Db} (hs : Inv s) {dest i : Nat} (hm : dest ∈ s.world.ids) {name icon notes : Option Str}
    (h : addGroup env dest name icon notes s = (.ok i, s')) :
    ∃ n, name = some n ∧ GroupAdded s s' dest i ∧ GroupReads env s s' i n icon notes := by
  obtain ⟨n, h1, _, h2, h3, _⟩ := addGroup_all hs hm h
  exact ⟨n, h1, h2, h3⟩

/-- The groups found by a name after `add_group`: those found before, and the new one if it is the name given. -/
theorem C63_found {env : Env} {s s' : Db} (hs : Inv s) {dest i : Nat} (hd : InDoc s.heap dest) (hg : s.heap.tag dest = "Group".toList)
    (hh : ¬ InHist s.heap dest) {n : Str} {icon notes : Option Str}
    (h : addGroup env dest (some n) icon notes s = (.ok i, s')) (v : Str) (hp : Plain v) :
    ∃ l l', findGroupList env true { kwargs := [.attr "name".toList (some v)] } s = (.ok l, s) ∧
      findGroupList env true { kwargs := [.attr "name".toList (some v)] } s' = (.ok l', s') ∧ l'.Nodup ∧
      ∀ j, j ∈ l' ↔ j ∈ l ∨ (j = i ∧ v = n) := by
  obtain ⟨hm, hd0⟩ := inDoc_mem hs hd
  obtain ⟨n', hn', rfl, h1, h2, h4⟩ := addGroup_all hs hm h
  injection hn' with hn'
  subst hn'
  have hs' := h1.inv
  have hkw : ∀ k ∈ [Kw.attr "name".toList (some v)], KwOk .group k := by
    intro k hk'
    rw [List.mem_singleton.mp hk']
    exact ⟨by decide, hp⟩
  obtain ⟨l, f1, f2, f3⟩ := findGroupList_run env hs hkw
  obtain ⟨l', g1, g2, g3⟩ := findGroupList_run env hs' hkw
  have hpl : groupPlace "name".toList = some (.sub ["Name".toList]) := by decide
  have hold : ∀ {t : Db} (ht : Inv t) {j : Nat} {nd : Node} (hn : t.world.get? j = some nd),
      (∀ k ∈ [Kw.attr "name".toList (some v)], KwHolds groupPlace exact nd k) ↔ ∃ k ∈ t.heap.all j "Name".toList, t.heap.text k = some v := by
    intro t ht j nd hn
    rw [← hasValue_sub ht hn]
    constructor
    · intro hk
      obtain ⟨p, e1, e2⟩ := hk _ (List.mem_singleton.mpr rfl)
      replace e1 : groupPlace "name".toList = some p := e1
      rw [hpl] at e1
      injection e1 with e1
      subst e1
      exact e2
    · intro hv k hk
      rw [List.mem_singleton.mp hk]
      exact ⟨_, hpl, hv⟩
  have ids : ∀ {t : Db} {j : Nat}, (∃ nd, t.world.get? j = some nd) ↔ j ∈ t.world.ids := by
    intro t j
    constructor
    · rintro ⟨nd, hn⟩
      obtain ⟨hw, e⟩ := Node.get?_some hn
      rw [← e]; exact List.mem_map_of_mem hw
    · exact fun hj => get_of_mem hj
  have char : ∀ {t : Db} (ht : Inv t) (j : Nat), (∃ nd, t.world.get? j = some nd ∧ InDoc t.heap j ∧ t.heap.tag j = "Group".toList ∧
      ¬ InHist t.heap j ∧ ∀ k ∈ [Kw.attr "name".toList (some v)], KwHolds groupPlace exact nd k) ↔
      j ∈ t.world.ids ∧ InDoc t.heap j ∧ t.heap.tag j = "Group".toList ∧ ¬ InHist t.heap j ∧
        ∃ k ∈ t.heap.all j "Name".toList, t.heap.text k = some v := by
    intro t ht j
    constructor
    · rintro ⟨nd, a, b, c, d, e⟩
      exact ⟨ids.mp ⟨nd, a⟩, b, c, d, (hold ht a).mp e⟩
    · rintro ⟨a, b, c, d, e⟩
      obtain ⟨nd, hn⟩ := ids.mpr a
      exact ⟨nd, hn, b, c, d, (hold ht hn).mpr e⟩
  refine ⟨l, l', f1, g1, g2, fun j => ?_⟩
  rw [g3 j, f3 j, char hs' j, char hs j]
  have hid : s.next ∈ s'.world.ids := (kid_mem hs' (added_n hs h4)).1
  by_cases hj : j < s.next
  · have hmem : j ∈ s'.world.ids ↔ j ∈ s.world.ids := by
      rw [← heap_some, ← heap_some]
      by_cases hjd : j = dest
      · subst hjd
        obtain ⟨r, e1, e2⟩ := h4.here
        rw [e1, e2]; simp
      · rw [h4.other j hjd hj]
    have hname : (∃ k ∈ s'.heap.all j "Name".toList, s'.heap.text k = some v) ↔ ∃ k ∈ s.heap.all j "Name".toList, s.heap.text k = some v := by
      rw [added_all hs h4 hj, if_neg (by rw [h2.tag]; rintro ⟨_, h⟩; exact absurd h (by decide)), List.append_nil]
      refine exists_congr fun k => and_congr_right fun hk => ?_
      rw [added_text hs h4 (hs.bound k (kid_mem hs (all_sub hk).1).1)]
    rw [hmem, hname, added_tag hs h4 hj, added_hist_old hs hs' h4 rfl hj, added_inDoc hs hs' h4 rfl hd0]
    constructor
    · rintro ⟨a, b | b, c⟩
      · exact .inl ⟨a, b, c⟩
      · omega
    · rintro (⟨a, b, c⟩ | b)
      · exact ⟨a, .inl b, c⟩
      · omega
  · have hno : ¬ j ∈ s.world.ids := fun h => hj (hs.bound j h)
    by_cases hjn : j = s.next
    · subst hjn
      have hnm : (∃ k ∈ s'.heap.all s.next "Name".toList, s'.heap.text k = some v) ↔ v = n := by
        have hn1 := h2.name
        unfold getName at hn1
        rw [getSub_run] at hn1
        injection hn1 with hn1 _
        injection hn1 with hn1
        obtain ⟨now, m, e1, e2, e3⟩ := addGroup_inv h
        injection e1 with e1
        subst e1
        obtain ⟨s1, q1, q2, q3, q4, q5⟩ := add_ok (inv_quiet hs (s.ticks + 1) (s.uuids + 1)) hm
          (groupXml (env.uuid1 s.uuids) now n icon notes)
        rw [q1] at e3
        injection e3 with _ e3
        subst e3
        have hall := (content_all q2 q5 "Name".toList)
        rw [group_all, if_neg (by decide), if_neg (by decide), if_neg (by decide), if_pos (by decide), if_neg (by decide)] at hall
        have hl := congrArg List.length hall.1
        rw [List.length_map] at hl
        replace hl : (s1.heap.all s.next "Name".toList).length = 1 := hl
        obtain ⟨k, hk⟩ := List.length_eq_one_iff.mp hl
        rw [hk]
        unfold sub Heap.find at hn1
        rw [hk] at hn1
        replace hn1 : s1.heap.text k = some n := hn1
        simp [hn1, eq_comm]
      rw [hnm]
      constructor
      · rintro ⟨_, _, _, _, e⟩
        exact .inr ⟨rfl, e⟩
      · rintro (⟨a, _⟩ | ⟨_, e⟩)
        · exact absurd a hno
        · exact ⟨hid, (added_inDoc hs hs' h4 rfl hd0 _).mpr (.inr ⟨hd, Nat.le_refl _, hs'.bound _ hid⟩), h2.tag,
            added_hist_new hs hs' h4 rfl (by rw [hg]; decide) hh, e⟩
    · constructor
      · rintro ⟨_, _, c, _⟩
        rcases (h1.groups j).mp c with c | c
        · unfold Heap.tag at c
          rw [h4.fresh j (by omega)] at c
          cases c
        · exact absurd c hjn
      · rintro (⟨a, _⟩ | ⟨e, _⟩)
        · exact absurd a hno
        · exact absurd e hjn

/-- `add_group` succeeds for every name, icon and notes that can be written to XML; a group of the same name is no obstacle. -/
theorem C63_succeeds (env : Env) {s : Db} (hs : Inv s) {dest : Nat} (hm : dest ∈ s.world.ids) {name icon notes : Option Str}
    {now n : Str} (h : GroupArgsOk env s name icon notes now n) : ∃ s', addGroup env dest name icon notes s = (.ok s.next, s') := by
  obtain ⟨s', g, _⟩ := add_ok (inv_quiet hs (s.ticks + 1) (s.uuids + 1)) hm (groupXml (env.uuid1 s.uuids) now n icon notes)
  refine ⟨s', ?_⟩
  unfold addGroup
  rw [bind_of (newGroup_ok h)]
  exact g

/-- A call that raises adds nothing and changes no element, and without a name it raises. -/
theorem C63_refused (env : Env) {s : Db} (hs : Inv s) {dest : Nat} (hm : dest ∈ s.world.ids) (name icon notes : Option Str) :
    (name = none → ∃ x, (addGroup env dest name icon notes s).1 = .error x) ∧
    ∀ x s', addGroup env dest name icon notes s = (.error x, s') → ∃ t u, s' = { s with ticks := t, uuids := u } := by
  constructor
  · rintro rfl
    cases hr : addGroup env dest none icon notes s with
    | mk r s' =>
      cases r with
      | error x => exact ⟨x, rfl⟩
      | ok i =>
        obtain ⟨_, _, h, _⟩ := addGroup_inv hr
        cases h
  · intro x s' hr
    unfold addGroup at hr
    rw [bind_run] at hr
    obtain ⟨t, u, hq⟩ := quiet_group env name icon notes s
    cases h2 : newGroup env name icon notes s with
    | mk r s2 =>
      rw [h2] at hr hq
      replace hq : s2 = { s with ticks := t, uuids := u } := hq
      cases r with
      | error e => injection hr with _ h; exact ⟨t, u, h.symm.trans hq⟩
      | ok p =>
        obtain ⟨s3, g, _⟩ := add_ok (inv_quiet hs t u) hm p
        replace hr : make dest p s2 = (.error x, s') := hr
        rw [hq, g] at hr
        cases hr

example : ∃ now, GroupArgsOk Sample.env Sample.db (some "new <&>".toList) (some "3".toList) (some []) now "new <&>".toList := by
  obtain ⟨now, h1⟩ := ok_of_isOk (x := encodeTime Sample.db.version (Sample.env.now Sample.db.ticks)) (by decide +kernel)
  exact ⟨now, ⟨rfl, by decide⟩, (by rintro w ⟨⟩; decide), (by rintro w ⟨⟩; decide), h1⟩

example : Inv Sample.db ∧ 93 ∈ Sample.db.world.ids ∧ InDoc Sample.db.heap 93 ∧ Sample.db.heap.tag 93 = "Group".toList :=
  ⟨Sample.db_inv, by decide +kernel, ⟨1, by decide +kernel, .snoc (.snoc (.snoc .refl (show 13 ∈ _ by decide +kernel))
    (show 14 ∈ _ by decide +kernel)) (by decide +kernel)⟩, by decide +kernel⟩

end Verif.Props
