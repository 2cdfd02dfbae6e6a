import Verif.Api.NewLemmas
import Verif.Api.SearchApi
/-!
# `add_entry`
-/
namespace Verif.Api
open Verif XPath Spec

/-- With well-formed fields there is one value. -/
theorem value_field {h : Heap} {e : Nat} (hf : Fields h e) (key v : Str) :
    (∃ k ∈ valueEls h e key, h.text k = some v) ↔ field h e key = some v := by
  have hl : valueEls h e key = [] ∨ ∃ x, valueEls h e key = [x] := by
    unfold valueEls
    have := hf.uniq key
    cases hh : fieldEls h e key with
    | nil => exact .inl rfl
    | cons a l =>
      rw [hh] at this
      simp only [List.length_cons] at this
      have hl : l = [] := List.length_eq_zero_iff.mp (by omega)
      have ha : a ∈ h.all e "String".toList := by
        have : a ∈ fieldEls h e key := by rw [hh]; exact List.mem_cons_self ..
        exact (List.mem_filter.mp this).1
      obtain ⟨x, hx⟩ := hf.value a ha
      refine .inr ⟨x, ?_⟩
      rw [hl, List.flatMap_cons, List.flatMap_nil, List.append_nil, hx]
  unfold field
  rcases hl with hl | ⟨x, hl⟩
  · rw [hl]; simp
  · rw [hl]; simp

theorem hist_kid {s : Db} (hs : Inv s) {p e : Nat} (hk : e ∈ s.heap.kids p) :
    InHist s.heap e ↔ s.heap.tag p = "History".toList ∨ InHist s.heap p := by
  constructor
  · rintro ⟨k, h1, h2, h3⟩
    rcases reach_kid_up hs h3 hk with h | h
    · exact absurd h h2
    · by_cases e : k = p
      · subst e; exact .inl h1
      · exact .inr ⟨k, h1, e, h⟩
  · rintro (h | ⟨k, h1, h2, h3⟩)
    · exact ⟨p, h, fun e' => no_cycle hs hk (e' ▸ .refl), .kid hk⟩
    · exact ⟨k, h1, fun e' => no_cycle hs hk (e' ▸ h3), .snoc h3 hk⟩

/-- The search for a duplicate. -/
theorem dup_run (env : Env) {s : Db} (hs : Inv s) {dest : Nat} (h0 : dest ≠ 0) {a : EntryArgs} {t n : Str}
    (ht : a.title = some t) (hn : a.username = some n) (pt : Plain t) (pn : Plain n) :
    ∃ o, findEntry env false (dupArgs dest a) s = (.ok o, s) ∧
      (o.isSome = true ↔ ∃ e ∈ s.heap.all dest "Entry".toList, ¬ InHist s.heap e ∧
        (∃ k ∈ valueEls s.heap e "Title".toList, s.heap.text k = some t) ∧
        ∃ k ∈ valueEls s.heap e "UserName".toList, s.heap.text k = some n) := by
  have hkw : (dupArgs dest a).kwargs = [.attr "title".toList (some t), .attr "username".toList (some n)] := by
    unfold dupArgs; rw [ht, hn]
  have hk : ∀ k ∈ (dupArgs dest a).kwargs, KwOk .entry k := by
    rw [hkw]
    intro k hk
    simp only [List.mem_cons, List.not_mem_nil, or_false] at hk
    rcases hk with rfl | rfl
    · exact ⟨by decide, pt⟩
    · exact ⟨by decide, pn⟩
  have htree : (dupArgs dest a).tree ≠ some 0 := fun h => h0 (by injection h)
  obtain ⟨r, hr⟩ := find_ok (K := .entry) (re := env.re) (recursive := false) hs.world (a := dupArgs dest a) rfl htree
    (by intro h; cases h) hk (fun k _ => kw_compiles_exact k) cast_entry
  obtain ⟨is, rfl, _, hm⟩ := find_partial hs.world rfl htree (by intro h; cases h) hk hr
  refine ⟨is.head?, ?_, ?_⟩
  · unfold findEntry
    rw [findEntries_eq, hr]
    rfl
  · have hhead : (is.head?.isSome = true) ↔ ∃ i, i ∈ is := by
      cases is with
      | nil => simp
      | cons a l => simp
    rw [hhead]
    have hp1 : entryPlace "title".toList = some (.field "Title".toList) := by decide
    have hp2 : entryPlace "username".toList = some (.field "UserName".toList) := by decide
    have key : ∀ i, i ∈ is ↔ i ∈ s.heap.all dest "Entry".toList ∧ ¬ InHist s.heap i ∧
        (∃ k ∈ valueEls s.heap i "Title".toList, s.heap.text k = some t) ∧
        ∃ k ∈ valueEls s.heap i "UserName".toList, s.heap.text k = some n := by
      intro i
      rw [hm i]
      constructor
      · rintro ⟨x, hx, rfl, h⟩
        have hg := Node.get?_mem hs.world.uniq hx
        obtain ⟨g, hgm, hgid, hxk⟩ : ∃ g ∈ s.world.nodes, g.id = dest ∧ x ∈ g.kids := h.scope
        refine ⟨?_, fun hh => h.history rfl ((hist_iff hs hx).mpr hh), ?_, ?_⟩
        · rw [← hgid, node_all hs hgm]
          exact List.mem_map.mpr ⟨x, List.mem_filter.mpr ⟨hxk, by rw [h.tag]; rfl⟩, rfl⟩
        · obtain ⟨p, e1, e2⟩ := h.filters _ (by rw [hkw]; exact List.mem_cons_self ..)
          replace e1 : entryPlace "title".toList = some p := e1
          rw [hp1] at e1
          injection e1 with e1
          subst e1
          exact (hasValue_field hs hg _ _).mp e2
        · obtain ⟨p, e1, e2⟩ := h.filters (.attr "username".toList (some n)) (by rw [hkw]; simp)
          replace e1 : entryPlace "username".toList = some p := e1
          rw [hp2] at e1
          injection e1 with e1
          subst e1
          exact (hasValue_field hs hg _ _).mp e2
      · rintro ⟨h1, h2, h3, h4⟩
        obtain ⟨hk1, hk2⟩ := all_sub h1
        obtain ⟨pn', cn, g1, g2, g3, g4⟩ := heap_kid hs hk1
        obtain ⟨q1, q2⟩ := Node.get?_some g1
        obtain ⟨q3, q4⟩ := Node.get?_some g4
        refine ⟨cn, q3, q4, ⟨⟨pn', q1, q2, g2⟩, ?_, ?_, ?_⟩⟩
        · rw [← node_tag g4]; exact hk2
        · intro _ hh; apply h2; rw [← q4]; exact (hist_iff hs q3).mp hh
        · rw [hkw]
          intro k hk
          simp only [List.mem_cons, List.not_mem_nil, or_false] at hk
          rcases hk with rfl | rfl
          · exact ⟨_, hp1, (hasValue_field hs g4 _ _).mpr h3⟩
          · exact ⟨_, hp2, (hasValue_field hs g4 _ _).mpr h4⟩
    constructor
    · rintro ⟨i, hi⟩
      obtain ⟨a, b⟩ := (key i).mp hi
      exact ⟨i, a, b⟩
    · rintro ⟨i, a, b⟩
      exact ⟨i, (key i).mpr ⟨a, b⟩⟩

theorem find_quiet (env : Env) (r : Bool) (a : FindArgs) (s : Db) : (findEntry env r a s).2 = s := rfl

theorem groupPath_state (g : Nat) (s : Db) : (groupPath g s).2 = s := by
  unfold groupPath
  rw [bind_run]
  unfold placeOf
  cases locOf s.world g with
  | none => rfl
  | some l =>
    show ((lift (isRootIn l.anc) >>= _) s).2 = s
    rw [bind_run, lift_run]
    cases isRootIn l.anc with
    | error e => rfl
    | ok b =>
      cases b
      · show ((if (l.anc.find? fun p => p.tag == "Group".toList).isNone = true then pure []
            else lift (pathLoop l.anc [nameIn l.node]) : M _) s).2 = s
        split <;> rfl
      · rfl

/-- How `add_entry` succeeds. -/
theorem addEntry_inv {env : Env} {dest : Nat} {a : EntryArgs} {force : Bool} {s s' : Db} {i : Nat}
    (h : addEntry env dest a force s = (.ok i, s')) :
    ∃ o now exp t n p, findEntry env false (dupArgs dest a) s = (.ok o, s) ∧ (o.isSome && !force) = false ∧
      a.title = some t ∧ a.username = some n ∧ a.password = some p ∧
      encodeTime s.version (env.now s.ticks) = .ok now ∧ expiryText env s.version a.expiry now = .ok exp ∧
      make dest (entryXml (env.uuid1 s.uuids) now exp a t n p) { s with ticks := s.ticks + 1, uuids := s.uuids + 1 } = (.ok i, s') := by
  unfold addEntry at h
  obtain ⟨o, s1, h1, hb⟩ := bind_inv h
  have e1 : s1 = s := by have := find_quiet env false (dupArgs dest a) s; rw [h1] at this; exact this
  subst e1
  by_cases hc : (o.isSome && !force) = true
  · rw [if_pos hc] at hb
    obtain ⟨_, s2, _, hd⟩ := bind_inv hb
    cases hd
  · rw [if_neg hc] at hb
    obtain ⟨x, s2, h2, hd⟩ := bind_inv hb
    obtain ⟨now, exp, t, n, p, e1, e2, e3, e4, e5, rfl, rfl⟩ := newEntry_inv h2
    exact ⟨o, now, exp, t, n, p, h1, Bool.eq_false_iff.mpr hc, e1, e2, e3, e4, e5, hd⟩

theorem addEntry_ok {env : Env} {dest : Nat} {a : EntryArgs} {force : Bool} {s : Db} {now exp t n p : Str} {o : Option Nat}
    (h : ArgsOk env s a now exp t n p) (ho : findEntry env false (dupArgs dest a) s = (.ok o, s)) (hf : (o.isSome && !force) = false) :
    addEntry env dest a force s =
      make dest (entryXml (env.uuid1 s.uuids) now exp a t n p) { s with ticks := s.ticks + 1, uuids := s.uuids + 1 } := by
  unfold addEntry
  rw [bind_of ho, if_neg (by rw [hf]; decide), bind_of (newEntry_ok h)]

/-- A failed `add_entry` changes no element. -/
theorem addEntry_error {env : Env} {dest : Nat} {a : EntryArgs} {force : Bool} {s s' : Db} {x : PyErr}
    (h : addEntry env dest a force s = (.error x, s')) : ∃ t u, s' = { s with ticks := t, uuids := u } := by
  unfold addEntry at h
  rw [bind_run] at h
  have hq := find_quiet env false (dupArgs dest a) s
  cases h1 : findEntry env false (dupArgs dest a) s with
  | mk r s1 =>
    rw [h1] at h hq
    replace hq : s1 = s := hq
    subst hq
    cases r with
    | error e => injection h with _ h; exact ⟨s1.ticks, s1.uuids, h.symm⟩
    | ok o =>
      replace h : (if (o.isSome && !force) = true then (groupPath dest >>= fun _ => fail .exception) else
        (newEntry env a >>= fun x => make dest x) : M Nat) s1 = (.error x, s') := h
      by_cases hc : (o.isSome && !force) = true
      · rw [if_pos hc, bind_run] at h
        have hg := groupPath_state dest s1
        cases h2 : groupPath dest s1 with
        | mk r s2 =>
          rw [h2] at h hg
          replace hg : s2 = s1 := hg
          subst hg
          cases r with
          | error e => injection h with _ h; exact ⟨s2.ticks, s2.uuids, h.symm⟩
          | ok p => injection h with _ h; exact ⟨s2.ticks, s2.uuids, h.symm⟩
      · rw [if_neg hc, bind_run] at h
        obtain ⟨t, u, hq⟩ := quiet_entry env a s1
        cases h2 : newEntry env a s1 with
        | mk r s2 =>
          rw [h2] at h hq
          replace hq : s2 = { s1 with ticks := t, uuids := u } := hq
          cases r with
          | error e => injection h with _ h; exact ⟨t, u, h.symm.trans hq⟩
          | ok p => cases h

theorem inv_quiet {s : Db} (hs : Inv s) (t u : Nat) : Inv { s with ticks := t, uuids := u } := ⟨hs.world, hs.bound⟩

/-! ## Children in a content -/

theorem content_child {s : Db} (hs : Inv s) {e : Nat} {x y : Xml} (h : content s e = some x) {t : Str} (hy : (xall x t).head? = some y) :
    ∃ k, s.heap.find e t = some k ∧ content s k = some y := by
  have := content_find hs h t
  rw [hy] at this
  cases hk : s.heap.find e t with
  | none => rw [hk] at this; cases this
  | some k => rw [hk] at this; injection this with this; exact ⟨k, rfl, this⟩

theorem getSub_content {s : Db} (hs : Inv s) {e : Nat} {x : Xml} (h : content s e = some x) (t : Str) :
    getSub e t s = (.ok (xsub x t), s) := by rw [getSub_run, content_sub hs h]

/-- A time stamp of a content. -/
theorem getTime_content {s : Db} (hs : Inv s) {e : Nat} {x tm y : Xml} (h : content s e = some x) {prop v : Str}
    (h1 : (xall x "Times".toList).head? = some tm) (h2 : (xall tm prop).head? = some y) (h3 : y.text = some v) :
    getTime e prop s = ((decodeTime s.version (some v)).map some, s) := by
  obtain ⟨k, hk, ck⟩ := content_child hs h h1
  obtain ⟨q, hq, cq⟩ := content_child hs ck h2
  unfold getTime
  rw [bind_of (findKid_run e _ s), hk]
  show (findKid k prop >>= _) s = _
  rw [bind_of (findKid_run k _ s), hq]
  show (textOf q >>= _) s = _
  rw [bind_of (textOf_run q s), content_text cq, h3]
  show (reads Db.version >>= _) s = _
  rw [bind_of (reads_run _ s)]
  show (lift _ >>= _) s = _
  rw [bind_run, lift_run]
  cases decodeTime s.version (some v) <;> rfl

theorem getExpires_content {s : Db} (hs : Inv s) {e : Nat} {x tm y : Xml} (h : content s e = some x)
    (h1 : (xall x "Times".toList).head? = some tm) (h2 : (xall tm "Expires".toList).head? = some y) :
    getExpires e s = (.ok (y.text.map fun t => t == "True".toList), s) := by
  obtain ⟨k, hk, ck⟩ := content_child hs h h1
  obtain ⟨q, hq, cq⟩ := content_child hs ck h2
  unfold getExpires
  rw [bind_of (findKid_run e _ s), hk, bind_of (orAttr_some k s), bind_of (findKid_run k _ s), hq, bind_of (orAttr_some q s),
    bind_of (textOf_run q s), content_text cq]
  rfl

/-! ## No entries inside a new entry -/

theorem all_nodes {P : Str → List (Str × Str) → Option Str → List Xml → Prop} {n : Node} (h : Xml.All P n.xml) :
    ∀ x ∈ n.nodes, P x.tag x.attrs x.text (x.kids.map Node.xml) := by
  induction n using Node.ind with
  | h i t a v ks ih =>
    intro x hx
    rw [Node.xml_mk] at h
    obtain ⟨h1, h2⟩ := Xml.all_root h
    rw [Node.nodes_mk] at hx
    rcases List.mem_cons.mp hx with rfl | hx
    · exact h1
    · obtain ⟨k, hk, hxk⟩ := List.mem_flatMap.mp hx
      exact ih k hk (h2 _ (List.mem_map_of_mem hk)) x hxk

/-- Tags below the root of a content. -/
theorem content_below {s : Db} (hs : Inv s) {e : Nat} {x : Xml} (h : content s e = some x) {P : Str → Prop}
    (hx : ∀ k ∈ x.kids, Xml.All (fun t _ _ _ => P t) k) {j : Nat} (hr : Reach s.heap e j) (hj : j ≠ e) : P (s.heap.tag j) := by
  obtain ⟨n, h1, rfl⟩ := content_node h
  have hid := (reach_iff hs h1 j).mp hr
  obtain ⟨y, hy, rfl⟩ := List.mem_map.mp hid
  obtain ⟨hm, rfl⟩ := Node.get?_some h1
  rw [node_tag (Node.get?_mem hs.world.uniq (Node.nodes_trans hm hy))]
  rw [Node.nodes_eq] at hy
  rcases List.mem_cons.mp hy with rfl | hy
  · exact absurd rfl hj
  · obtain ⟨k, hk, hyk⟩ := List.mem_flatMap.mp hy
    refine all_nodes (P := fun t _ _ _ => P t) (hx k.xml ?_) y hyk
    rw [xml_kids]
    exact List.mem_map_of_mem hk

/-- Tags in a tree, decidable. -/
def tagsAll (p : Str → Bool) : Nat → Xml → Bool
  | 0, _ => false
  | n + 1, x => p x.tag && x.kids.all (tagsAll p n)

theorem tagsAll_all {p : Str → Bool} {n : Nat} : ∀ {x : Xml}, tagsAll p n x = true → Xml.All (fun t _ _ _ => p t = true) x := by
  induction n with
  | zero => intro x h; cases h
  | succ n ih =>
    intro x h
    obtain ⟨t, a, v, ks⟩ := x
    unfold tagsAll at h
    rw [Bool.and_eq_true, List.all_eq_true] at h
    exact .mk h.1 fun k hk => ih (h.2 k hk)

def structural (t : Str) : Bool := t != "Entry".toList && t != "Group".toList && t != "History".toList

theorem entry_kids_tags (u : Bytes) (now exp : Str) (a : EntryArgs) (t n p : Str) :
    ∀ k ∈ (entryXml u now exp a t n p).kids, Xml.All (fun t _ _ _ => structural t = true) k := by
  intro k hk
  apply tagsAll_all (n := 5)
  have hk : k ∈ [leafX "UUID" (b64encode u)] ++ optLeaf "IconID" a.icon ++ [timesX now exp a.expiry.isSome] ++
    [stringXml "Title".toList t none, stringXml "UserName".toList n none, stringXml "Password".toList p (some "True".toList)] ++
    optX "URL".toList a.url none ++ optX "Notes".toList a.notes none ++ optX "otp".toList a.otp (some "True".toList) ++
    tagsX a.tags ++ [autoX] := hk
  have o1 : ∀ key v q, k ∈ optX key v q → tagsAll structural 5 k = true := by
    intro key v q h
    unfold optX at h
    cases v with
    | none => cases h
    | some w =>
      by_cases hw : w = []
      · simp [hw] at h
      · simp only [if_neg hw] at h
        rw [List.mem_singleton.mp h]; rfl
  have o2 : k ∈ optLeaf "IconID" a.icon → tagsAll structural 5 k = true := by
    intro h
    unfold optLeaf at h
    cases hv : a.icon with
    | none => rw [hv] at h; cases h
    | some w =>
      rw [hv] at h
      by_cases hw : w = []
      · simp [hw] at h
      · simp only [if_neg hw] at h
        rw [List.mem_singleton.mp h]; rfl
  have o3 : k ∈ tagsX a.tags → tagsAll structural 5 k = true := by
    intro h
    unfold tagsX at h
    cases hv : tagsText a.tags with
    | none => rw [hv] at h; cases h
    | some w => rw [hv] at h; rw [List.mem_singleton.mp h]; rfl
  simp only [List.mem_append, List.mem_cons, List.not_mem_nil, or_false] at hk
  rcases hk with (((((((rfl | h) | rfl) | (rfl | rfl | rfl)) | h) | h) | h) | h) | rfl
  · rfl
  · exact o2 h
  · rfl
  · rfl
  · rfl
  · rfl
  · exact o1 _ _ _ h
  · exact o1 _ _ _ h
  · exact o1 _ _ _ h
  · exact o3 h
  · rfl

/-- The fields of the other entries. -/
theorem added_field {s s' : Db} {p n m : Nat} (hs : Inv s) (h : Added s.heap s'.heap p n m) {e : Nat} (he : e ∈ s.world.ids)
    (hep : e ≠ p) (hp : s.heap.tag p ≠ "String".toList) (key : Str) :
    fieldEls s'.heap e key = fieldEls s.heap e key ∧ valueEls s'.heap e key = valueEls s.heap e key ∧
    field s'.heap e key = field s.heap e key ∧ mark s'.heap e key = mark s.heap e key := by
  have lt : ∀ {k}, k ∈ s.world.ids → k < n := fun hk => by
    obtain ⟨r, hr⟩ := heap_some.mpr hk
    exact added_lt hs h hr
  have hall : ∀ {i : Nat} (t : Str), i ∈ s.world.ids → i ≠ p → s'.heap.all i t = s.heap.all i t := by
    intro i t hi hip
    unfold Heap.all
    rw [kids_congr (h.other i hip (lt hi))]
    apply List.filter_congr
    intro k hk
    rw [added_tag hs h (lt (kid_mem hs hk).1)]
  have hstr : ∀ k ∈ s.heap.all e "String".toList, k ∈ s.world.ids ∧ k ≠ p := by
    intro k hk
    obtain ⟨h1, h2⟩ := all_sub hk
    exact ⟨(kid_mem hs h1).1, fun e' => hp (e' ▸ h2)⟩
  have hkey : ∀ k ∈ s.heap.all e "String".toList, hasKey s'.heap k key = hasKey s.heap k key := by
    intro k hk
    obtain ⟨h1, h2⟩ := hstr k hk
    unfold hasKey
    rw [hall _ h1 h2, Bool.eq_iff_iff, List.any_eq_true, List.any_eq_true]
    constructor
    · rintro ⟨c, hc, ht⟩
      exact ⟨c, hc, by rw [← added_text hs h (lt (kid_mem hs (all_sub hc).1).1)]; exact ht⟩
    · rintro ⟨c, hc, ht⟩
      exact ⟨c, hc, by rw [added_text hs h (lt (kid_mem hs (all_sub hc).1).1)]; exact ht⟩
  have e1 : fieldEls s'.heap e key = fieldEls s.heap e key := by
    unfold fieldEls
    rw [hall _ he hep]
    exact List.filter_congr hkey
  have e2 : valueEls s'.heap e key = valueEls s.heap e key := by
    unfold valueEls
    rw [e1]
    have : ∀ l : List Nat, (∀ k ∈ l, k ∈ fieldEls s.heap e key) →
        (l.flatMap fun s_1 => s'.heap.all s_1 "Value".toList) = l.flatMap fun s_1 => s.heap.all s_1 "Value".toList := by
      intro l hl
      induction l with
      | nil => rfl
      | cons a l ih =>
        obtain ⟨h1, h2⟩ := hstr a (List.mem_filter.mp (hl a (List.mem_cons_self ..))).1
        rw [List.flatMap_cons, List.flatMap_cons, hall _ h1 h2, ih fun k hk => hl k (List.mem_cons_of_mem _ hk)]
    exact this _ fun k hk => hk
  have hv : ∀ v ∈ valueEls s.heap e key, v < n := by
    intro v hv
    obtain ⟨k, _, h2⟩ := List.mem_flatMap.mp hv
    exact lt (kid_mem hs (all_sub h2).1).1
  refine ⟨e1, e2, ?_, ?_⟩
  · unfold field
    rw [e2]
    cases hh : (valueEls s.heap e key).head? with
    | none => rfl
    | some v => exact added_text hs h (hv v (List.mem_of_mem_head? hh))
  · unfold mark
    rw [e2]
    cases hh : (valueEls s.heap e key).head? with
    | none => rfl
    | some v => exact added_attr hs h (hv v (List.mem_of_mem_head? hh)) _

/-- Well-formed fields stay well-formed. -/
theorem added_fields {s s' : Db} {p n m : Nat} (hs : Inv s) (h : Added s.heap s'.heap p n m) {e : Nat} (he : e ∈ s.world.ids)
    (hep : e ≠ p) (hp : s.heap.tag p ≠ "String".toList) (hf : Fields s.heap e) : Fields s'.heap e := by
  have lt : ∀ {k}, k ∈ s.world.ids → k < n := fun hk => by
    obtain ⟨r, hr⟩ := heap_some.mpr hk
    exact added_lt hs h hr
  have hall : ∀ {i : Nat} (t : Str), i ∈ s.world.ids → i ≠ p → s'.heap.all i t = s.heap.all i t := by
    intro i t hi hip
    unfold Heap.all
    rw [kids_congr (h.other i hip (lt hi))]
    apply List.filter_congr
    intro k hk
    rw [added_tag hs h (lt (kid_mem hs hk).1)]
  have hstr : ∀ k ∈ s.heap.all e "String".toList, k ∈ s.world.ids ∧ k ≠ p := by
    intro k hk
    obtain ⟨h1, h2⟩ := all_sub hk
    exact ⟨(kid_mem hs h1).1, fun e' => hp (e' ▸ h2)⟩
  refine ⟨?_, ?_, ?_⟩
  · intro k hk
    rw [hall _ he hep] at hk
    obtain ⟨h1, h2⟩ := hstr k hk
    obtain ⟨c, t, hc, ht⟩ := hf.key k hk
    refine ⟨c, t, by rw [hall _ h1 h2]; exact hc, ?_⟩
    rw [added_text hs h, ht]
    exact lt (kid_mem hs (all_sub (show c ∈ s.heap.all k "Key".toList by rw [hc]; exact List.mem_cons_self ..)).1).1
  · intro k hk
    rw [hall _ he hep] at hk
    obtain ⟨h1, h2⟩ := hstr k hk
    rw [hall _ h1 h2]
    exact hf.value k hk
  · intro key
    rw [(added_field hs h he hep hp key).1]
    exact hf.uniq key

end Verif.Api
