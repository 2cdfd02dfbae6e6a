import Verif.XPath.Uses
/-!
# Searching by path
-/
namespace Verif.XPath
open Verif Spec

/-- Where instructions lead. -/
def Leads (re : Regex) (is : List Instr) (P : Loc → Loc → Prop) : Prop :=
  ∀ L R, evalInstrs re is L = .ok R → ∀ l, l ∈ R ↔ ∃ m ∈ L, P m l

/-- One step down. -/
def Down (n : Str) (m l : Loc) : Prop := l.node.tag = n ∧ ∃ k ∈ m.node.kids, l = ⟨k, m.node :: m.anc⟩

theorem leads_child (re : Regex) (n : Str) : Leads re [.child n] (Down n) := by
  intro L R h l
  have h : Instr.eval re (.child n) L = .ok R := by
    cases h; rfl
  exact mem_child h

theorem Selects.leads {re : Regex} {is : List Instr} {c : Loc → Prop} (h : Selects re is c) :
    Leads re is fun m l => l = m ∧ c l := by
  intro L R hR l
  rw [h L R hR]
  constructor
  · rintro ⟨hl, hc⟩; exact ⟨l, hl, rfl, hc⟩
  · rintro ⟨m, hm, rfl, hc⟩; exact ⟨hm, hc⟩

theorem leads_nil (re : Regex) : Leads re [] fun m l => l = m := by
  intro L R h l
  cases h
  exact ⟨fun hl => ⟨l, hl, rfl⟩, fun ⟨m, hm, e⟩ => e ▸ hm⟩

theorem Leads.append {re : Regex} {is js : List Instr} {P Q : Loc → Loc → Prop} (h : Leads re is P)
    (h' : Leads re js Q) : Leads re (is ++ js) fun m l => ∃ x, P m x ∧ Q x l := by
  intro L R hR l
  obtain ⟨M, h1, h2⟩ := evalInstrs_append_ok hR
  rw [h' M R h2]
  constructor
  · rintro ⟨x, hx, hq⟩
    obtain ⟨m, hm, hp⟩ := (h L M h1 x).mp hx
    exact ⟨m, hm, x, hp, hq⟩
  · rintro ⟨m, hm, x, hp, hq⟩
    exact ⟨x, (h L M h1 x).mpr ⟨m, hm, hp⟩, hq⟩

theorem Leads.congr {re : Regex} {is : List Instr} {P Q : Loc → Loc → Prop} (h : Leads re is P)
    (e : ∀ m l, P m l ↔ Q m l) : Leads re is Q := by
  intro L R hR l
  rw [h L R hR]
  simp only [e]

/-- One named group down. -/
theorem leads_group (re : Regex) (rg : Bool) (fl n : Str) :
    Leads re (.child "Group".toList :: placeInstrs rg fl n (.sub ["Name".toList]))
      fun m l => Down "Group".toList m l ∧ HasValue (testOf re rg fl) l.node (.sub ["Name".toList]) n :=
  ((leads_child re "Group".toList).append (selects_place re rg fl n (.sub ["Name".toList])).leads).congr fun m l => by
    constructor
    · rintro ⟨x, h1, rfl, h2⟩; exact ⟨h1, h2⟩
    · rintro ⟨h1, h2⟩; exact ⟨l, h1, rfl, h2⟩

/-- One titled entry down. -/
theorem leads_entry (re : Regex) (rg : Bool) (fl n : Str) :
    Leads re (.child "Entry".toList :: placeInstrs rg fl n (.field "Title".toList))
      fun m l => Down "Entry".toList m l ∧ HasValue (testOf re rg fl) l.node (.field "Title".toList) n :=
  ((leads_child re "Entry".toList).append (selects_place re rg fl n (.field "Title".toList)).leads).congr fun m l => by
    constructor
    · rintro ⟨x, h1, rfl, h2⟩; exact ⟨h1, h2⟩
    · rintro ⟨h1, h2⟩; exact ⟨l, h1, rfl, h2⟩

/-- `Follow` for places. -/
def FollowL (T : Test) : List Str → Loc → Loc → Prop
  | [], m, l => l = m
  | n :: ns, m, l => ∃ x, (Down "Group".toList m x ∧ HasValue T x.node (.sub ["Name".toList]) n) ∧ FollowL T ns x l

def groupsInstrs (rg : Bool) (fl : Str) (ns : List Str) : List Instr :=
  ns.flatMap fun n => .child "Group".toList :: placeInstrs rg fl n (.sub ["Name".toList])

theorem leads_groups (re : Regex) (rg : Bool) (fl : Str) (ns : List Str) :
    Leads re (groupsInstrs rg fl ns) (FollowL (testOf re rg fl) ns) := by
  induction ns with
  | nil => exact leads_nil re
  | cons n ns ih => exact (leads_group re rg fl n).append ih

theorem FollowL.node {T : Test} {ns : List Str} {m l : Loc} (h : FollowL T ns m l) : Follow T ns m.node l.node := by
  induction ns generalizing m with
  | nil => rw [show l = m from h]; rfl
  | cons n ns ih =>
    obtain ⟨x, ⟨⟨ht, k, hk, rfl⟩, hv⟩, hf⟩ := h
    exact ⟨k, hk, ht, hv, ih hf⟩

theorem follow_loc {T : Test} {ns : List Str} {m : Loc} {x : Node} (h : Follow T ns m.node x) :
    ∃ l, FollowL T ns m l ∧ l.node = x := by
  induction ns generalizing m with
  | nil => exact ⟨m, rfl, h.symm⟩
  | cons n ns ih =>
    obtain ⟨k, hk, ht, hv, hf⟩ := h
    obtain ⟨l, hl, rfl⟩ := ih (m := ⟨k, m.node :: m.anc⟩) hf
    exact ⟨l, ⟨_, ⟨⟨ht, k, hk, rfl⟩, hv⟩, hl⟩, rfl⟩

def topInstrs : List Instr := [.child "KeePassFile".toList, .child "Root".toList, .child "Group".toList]

def TopL (m l : Loc) : Prop := ∃ x y, Down "KeePassFile".toList m x ∧ Down "Root".toList x y ∧ Down "Group".toList y l

theorem leads_top (re : Regex) : Leads re topInstrs TopL :=
  ((leads_child re "KeePassFile".toList).append
    ((leads_child re "Root".toList).append (leads_child re "Group".toList))).congr fun m l => by
    constructor
    · rintro ⟨x, h1, y, h2, h3⟩; exact ⟨x, y, h1, h2, h3⟩
    · rintro ⟨x, y, h1, h2, h3⟩; exact ⟨x, h1, y, h2, h3⟩

theorem mem_docNode {w x : Node} : x ∈ (docNode w).kids ↔ some x = w.kids.head? := by
  show x ∈ w.kids.take 1 ↔ _
  cases w.kids <;> simp

theorem TopL.node {w : Node} {l : Loc} (h : TopL ⟨docNode w, []⟩ l) : TopGroup w l.node := by
  obtain ⟨x, y, ⟨h1, k1, hk1, rfl⟩, ⟨h2, k2, hk2, rfl⟩, h3, k3, hk3, rfl⟩ := h
  refine ⟨k1, mem_docNode.mp hk1, h1, ?_⟩
  exact mem_descend_cons.mpr ⟨k2, hk2, h2, mem_descend_cons.mpr ⟨k3, hk3, h3, List.mem_singleton.mpr rfl⟩⟩

theorem topGroup_loc {w r : Node} (h : TopGroup w r) : ∃ l, TopL ⟨docNode w, []⟩ l ∧ l.node = r := by
  obtain ⟨d, hd, ht, hr⟩ := h
  obtain ⟨k2, hk2, h2, hr2⟩ := mem_descend_cons.mp hr
  obtain ⟨k3, hk3, h3, hr3⟩ := mem_descend_cons.mp hr2
  have : r = k3 := List.mem_singleton.mp hr3
  subst this
  exact ⟨_, ⟨_, _, ⟨ht, d, mem_docNode.mpr hd, rfl⟩, ⟨h2, k2, hk2, rfl⟩, h3, r, hk3, rfl⟩, rfl⟩

/-! ## Reading the query -/

theorem reads_top : Reads "/KeePassFile/Root/Group".toList true topInstrs :=
  ⟨by decide, _, rfl, Or.inr ⟨_, rfl⟩, rfl⟩

theorem table_path_group (rg : Bool) : ∃ t, (pathXp rg).lookup "group".toList = some t ∧
    ∀ {v fl : Str}, Plain v → (rg = true → Plain fl) →
      Piece (fmt t [v] fl) (.child "Group".toList :: placeInstrs rg fl v (.sub ["Name".toList])) := by
  cases rg with
  | false => exact ⟨_, rfl, fun hv _ => piece_path_ex_group hv _⟩
  | true => exact ⟨_, rfl, fun hv hf => piece_path_re_group hv (hf rfl)⟩

theorem table_path_entry (rg : Bool) : ∃ t, (pathXp rg).lookup "entry".toList = some t ∧
    ∀ {v fl : Str}, Plain v → (rg = true → Plain fl) →
      Piece (fmt t [v] fl) (.child "Entry".toList :: placeInstrs rg fl v (.field "Title".toList)) := by
  cases rg with
  | false => exact ⟨_, rfl, fun hv _ => piece_path_ex_entry hv _⟩
  | true => exact ⟨_, rfl, fun hv hf => piece_path_re_entry hv (hf rfl)⟩

theorem pathGroups_ok {a : FindArgs} (hf : a.regex = true → Plain (flagsStr a.flags)) {gs : List Str}
    (hg : ∀ g ∈ gs, Plain g) {q : Str} {is : List Instr} (h : Reads q true is) :
    ∃ q', pathGroups a gs q = .ok q' ∧ Reads q' true (is ++ groupsInstrs a.regex (flagsStr a.flags) gs) := by
  induction gs generalizing q is with
  | nil => exact ⟨q, rfl, by simpa [groupsInstrs] using h⟩
  | cons g gs ih =>
    obtain ⟨t, ht, hp⟩ := table_path_group a.regex
    obtain ⟨q', e, h'⟩ := ih (fun x hx => hg x (List.mem_cons_of_mem _ hx)) (h.append (hp (hg g (List.mem_cons_self ..)) hf))
    refine ⟨q', ?_, ?_⟩
    · rw [pathGroups, addKey_ok ht]; exact e
    · rw [List.append_assoc] at h'; exact h'

/-- The steps of a path search. -/
def pathInstrs (K : Kind) (a : FindArgs) (p : List Str) : List Instr :=
  topInstrs ++ match K with
    | .entry => groupsInstrs a.regex (flagsStr a.flags) p.dropLast ++
        .child "Entry".toList :: placeInstrs a.regex (flagsStr a.flags) (p.getLastD []) (.field "Title".toList)
    | .group => groupsInstrs a.regex (flagsStr a.flags) (if p.getLastD [] = [] then p.dropLast else p)
    | .attachment => groupsInstrs a.regex (flagsStr a.flags) p.dropLast

theorem preText_entry (r h : Bool) :
    isInfix "Entry".toList (if h then preText .entry r else preText .entry r ++ "[not(ancestor::History)]".toList) = true := by
  cases r <;> cases h <;> decide +kernel

theorem preText_group (r h : Bool) :
    isInfix "Entry".toList (if h then preText .group r else preText .group r ++ "[not(ancestor::History)]".toList) = false ∧
    isInfix "Group".toList (if h then preText .group r else preText .group r ++ "[not(ancestor::History)]".toList) = true := by
  cases r <;> cases h <;> decide +kernel

theorem preText_attachment (r h : Bool) :
    isInfix "Entry".toList (if h then preText .attachment r else preText .attachment r ++ "[not(ancestor::History)]".toList) = false ∧
    isInfix "Group".toList (if h then preText .attachment r else preText .attachment r ++ "[not(ancestor::History)]".toList) = false := by
  cases r <;> cases h <;> decide +kernel

theorem getLastD_mem {p : List Str} (h : p.getLastD [] ≠ []) : p.getLastD [] ∈ p := by
  cases p with
  | nil => exact absurd rfl h
  | cons x l => rw [List.getLastD_eq_getLast?, List.getLast?_eq_some_getLast (List.cons_ne_nil x l)]; exact List.getLast_mem _

theorem plain_nil : Plain [] := by intro c hc; cases hc

theorem path_plain {p : List Str} (hp : ∀ x ∈ p, Plain x) : Plain (p.getLastD []) := by
  by_cases h : p.getLastD [] = []
  · rw [h]; exact plain_nil
  · exact hp _ (getLastD_mem h)

theorem path_split {p : List Str} (h : p.getLastD [] ≠ []) : p = p.dropLast ++ [p.getLastD []] := by
  have hne : p ≠ [] := by rintro rfl; exact h rfl
  rw [List.getLastD_eq_getLast?, List.getLast?_eq_some_getLast hne]
  exact (List.dropLast_concat_getLast hne).symm

theorem path_reads (K : Kind) {a : FindArgs} {p : List Str} (recursive : Bool) (hpath : a.path = some p)
    (hf : a.regex = true → Plain (flagsStr a.flags)) (hp : ∀ x ∈ p, Plain x) :
    ∃ q, buildQuery (preText K recursive) K.xp a = .ok q ∧ Reads q true (pathInstrs K a p) := by
  obtain ⟨q, e, hr⟩ := pathGroups_ok hf (gs := p.dropLast) (fun x hx => hp x (List.dropLast_subset p hx)) reads_top
  unfold buildQuery
  simp only [hpath]
  cases K with
  | entry =>
    obtain ⟨t, ht, hpc⟩ := table_path_entry a.regex
    refine ⟨q ++ fmt t [p.getLastD []] (flagsStr a.flags), ?_, ?_⟩
    · show (pathGroups a p.dropLast _).bind _ = _
      rw [e]
      show (if _ then _ else _) = _
      rw [if_pos (preText_entry recursive a.history), addKey_ok ht]
    · have := hr.append (hpc (path_plain hp) hf)
      rw [List.append_assoc] at this; exact this
  | group =>
    have h1 := preText_group recursive a.history
    by_cases hl : p.getLastD [] = []
    · refine ⟨q, ?_, ?_⟩
      · show (pathGroups a p.dropLast _).bind _ = _
        rw [e]
        show (if _ then _ else _) = _
        rw [if_neg (by rw [h1.1]; decide), if_neg (fun h => h.1 hl)]; rfl
      · unfold pathInstrs; simp only [if_pos hl]; exact hr
    · obtain ⟨t, ht, hpc⟩ := table_path_group a.regex
      refine ⟨q ++ fmt t [p.getLastD []] (flagsStr a.flags), ?_, ?_⟩
      · show (pathGroups a p.dropLast _).bind _ = _
        rw [e]
        show (if _ then _ else _) = _
        rw [if_neg (by rw [h1.1]; decide), if_pos ⟨hl, h1.2⟩, addKey_ok ht]
      · have := hr.append (hpc (path_plain hp) hf)
        unfold pathInstrs
        simp only [if_neg hl]
        rw [List.append_assoc] at this
        have e2 : groupsInstrs a.regex (flagsStr a.flags) p = groupsInstrs a.regex (flagsStr a.flags) p.dropLast ++
            (.child "Group".toList :: placeInstrs a.regex (flagsStr a.flags) (p.getLastD []) (.sub ["Name".toList])) := by
          conv => lhs; rw [path_split hl]
          unfold groupsInstrs
          rw [List.flatMap_append, List.flatMap_singleton]
        rw [e2]; exact this
  | attachment =>
    have h1 := preText_attachment recursive a.history
    refine ⟨q, ?_, hr⟩
    show (pathGroups a p.dropLast _).bind _ = _
    rw [e]
    show (if _ then _ else _) = _
    rw [if_neg (by rw [h1.1]; decide), if_neg (fun h => by rw [h1.2] at h; exact absurd h.2 (by decide))]; rfl

/-- The elements a path names, by kind of search. A search for attachments by path gives a group. -/
def At (K : Kind) (T : Test) (w : Node) (p : List Str) (x : Node) : Prop :=
  match K with
  | .entry => EntryAt T w p x
  | .group => GroupAt T w p x
  | .attachment => ∃ r, TopGroup w r ∧ Follow T p.dropLast r x

theorem path_leads (K : Kind) (re : Regex) (a : FindArgs) (p : List Str) :
    ∃ P, Leads re (pathInstrs K a p) P ∧
      ∀ w, (∀ l, P ⟨docNode w, []⟩ l → At K (testOf re a.regex (flagsStr a.flags)) w p l.node) ∧
        ∀ x, At K (testOf re a.regex (flagsStr a.flags)) w p x → ∃ l, P ⟨docNode w, []⟩ l ∧ l.node = x := by
  cases K with
  | entry =>
    refine ⟨_, (leads_top re).append ((leads_groups re a.regex (flagsStr a.flags) p.dropLast).append
      (leads_entry re a.regex (flagsStr a.flags) (p.getLastD []))), fun w => ⟨?_, ?_⟩⟩
    · rintro l ⟨r, hr, g, hg, ⟨ht, k, hk, rfl⟩, hv⟩
      exact ⟨r.node, g.node, hr.node, hg.node, hk, ht, hv⟩
    · rintro x ⟨r, g, hr, hg, hx, ht, hv⟩
      obtain ⟨lr, h1, rfl⟩ := topGroup_loc hr
      obtain ⟨lg, h2, rfl⟩ := follow_loc hg
      exact ⟨⟨x, lg.node :: lg.anc⟩, ⟨lr, h1, lg, h2, ⟨ht, x, hx, rfl⟩, hv⟩, rfl⟩
  | group =>
    refine ⟨_, (leads_top re).append (leads_groups re a.regex (flagsStr a.flags) _), fun w => ⟨?_, ?_⟩⟩
    · rintro l ⟨r, hr, hg⟩
      exact ⟨r.node, hr.node, hg.node⟩
    · rintro x ⟨r, hr, hg⟩
      obtain ⟨lr, h1, rfl⟩ := topGroup_loc hr
      obtain ⟨lg, h2, rfl⟩ := follow_loc hg
      exact ⟨lg, ⟨lr, h1, h2⟩, rfl⟩
  | attachment =>
    refine ⟨_, (leads_top re).append (leads_groups re a.regex (flagsStr a.flags) _), fun w => ⟨?_, ?_⟩⟩
    · rintro l ⟨r, hr, hg⟩
      exact ⟨r.node, hr.node, hg.node⟩
    · rintro x ⟨r, hr, hg⟩
      obtain ⟨lr, h1, rfl⟩ := topGroup_loc hr
      obtain ⟨lg, h2, rfl⟩ := follow_loc hg
      exact ⟨lg, ⟨lr, h1, h2⟩, rfl⟩

theorem follow_tag {T : Test} {ns : List Str} {r x : Node} (h : Follow T ns r x) (hr : r.tag = "Group".toList) :
    x.tag = "Group".toList := by
  induction ns generalizing r with
  | nil => rw [show x = r from h]; exact hr
  | cons n ns ih =>
    obtain ⟨k, _, ht, _, hf⟩ := h
    exact ih hf ht

theorem topGroup_tag {w r : Node} (h : TopGroup w r) : r.tag = "Group".toList := by
  obtain ⟨l, ⟨x, y, _, _, h3, _⟩, rfl⟩ := topGroup_loc h
  exact h3

theorem at_cast {K : Kind} {T : Test} {w : Node} {p : List Str} {l : Loc} (h : At K T w p l.node) : castOk l = .ok () := by
  unfold castOk
  cases K with
  | entry =>
    obtain ⟨_, _, _, _, _, ht, _⟩ := h
    rw [if_pos ht]
  | group =>
    obtain ⟨r, hr, hf⟩ := h
    have ht := follow_tag hf (topGroup_tag hr)
    rw [if_neg (by rw [ht]; decide), if_pos ht]
  | attachment =>
    obtain ⟨r, hr, hf⟩ := h
    have ht := follow_tag hf (topGroup_tag hr)
    rw [if_neg (by rw [ht]; decide), if_pos ht]

theorem at_tag {K : Kind} {T : Test} {w : Node} {p : List Str} {x : Node} (h : At K T w p x) : x.tag ≠ [] := by
  cases K with
  | entry =>
    obtain ⟨_, _, _, _, _, ht, _⟩ := h
    rw [ht]; decide
  | group =>
    obtain ⟨r, hr, hf⟩ := h
    rw [follow_tag hf (topGroup_tag hr)]; decide
  | attachment =>
    obtain ⟨r, hr, hf⟩ := h
    rw [follow_tag hf (topGroup_tag hr)]; decide

theorem follow_nodes {T : Test} {ns : List Str} {w r x : Node} (h : Follow T ns r x) (hr : r ∈ w.nodes) : x ∈ w.nodes := by
  induction ns generalizing r with
  | nil => rw [show x = r from h]; exact hr
  | cons n ns ih =>
    obtain ⟨k, hk, _, _, hf⟩ := h
    exact ih hf (Node.nodes_trans hr (Node.kid_mem_nodes hk))

theorem topGroup_nodes {w r : Node} (h : TopGroup w r) : r ∈ w.nodes := by
  obtain ⟨d, hd, ht, hr⟩ := h
  obtain ⟨k2, hk2, h2, hr2⟩ := mem_descend_cons.mp hr
  obtain ⟨k3, hk3, h3, hr3⟩ := mem_descend_cons.mp hr2
  have : r = k3 := List.mem_singleton.mp hr3
  subst this
  have hd1 : d ∈ w.kids := List.mem_of_mem_head? hd.symm
  exact Node.nodes_trans (Node.nodes_trans (Node.kid_mem_nodes hd1) (Node.kid_mem_nodes hk2)) (Node.kid_mem_nodes hk3)

theorem at_nodes {K : Kind} {T : Test} {w : Node} {p : List Str} {x : Node} (h : At K T w p x) : x ∈ w.nodes := by
  cases K with
  | entry =>
    obtain ⟨_, _, hr, hf, hx, _⟩ := h
    exact Node.nodes_trans (follow_nodes hf (topGroup_nodes hr)) (Node.kid_mem_nodes hx)
  | group => obtain ⟨r, hr, hf⟩ := h; exact follow_nodes hf (topGroup_nodes hr)
  | attachment => obtain ⟨r, hr, hf⟩ := h; exact follow_nodes hf (topGroup_nodes hr)

/-- A search by path returns the first element in document order that the path names. -/
theorem find_path {K : Kind} {re : Regex} {w : Node} (hw : World w) {a : FindArgs} {p : List Str} {recursive : Bool}
    (hpath : a.path = some p) (hf : a.regex = true → Plain (flagsStr a.flags)) (hp : ∀ x ∈ p, Plain x) {r : Found}
    (hr : find re w (preText K recursive) K.xp a = .ok r) :
    ∃ is : List Nat, r = .one is.head? ∧ is.Sublist w.ids ∧
      ∀ i, i ∈ is ↔ ∃ x ∈ w.nodes, x.id = i ∧ At K (testOf re a.regex (flagsStr a.flags)) w p x := by
  obtain ⟨q, hb, hq⟩ := path_reads K recursive hpath hf hp
  obtain ⟨P, hP, hPw⟩ := path_leads K re a p
  unfold find at hr
  rw [hb] at hr
  have hr : (query re w a.tree q).bind _ = _ := hr
  cases hqr : query re w a.tree q with
  | error e => rw [hqr] at hr; cases hr
  | ok S =>
    rw [hqr] at hr
    have hr : (castAll S).bind _ = _ := hr
    have hev := hqr
    rw [query_eq, hq.parse] at hev
    have hev : (evalInstrs re (pathInstrs K a p) [⟨docNode w, []⟩]).bind _ = .ok S := hev
    cases he : evalInstrs re (pathInstrs K a p) [⟨docNode w, []⟩] with
    | error e => rw [he] at hev; cases hev
    | ok R =>
      obtain ⟨S', hS', hsub, hmS⟩ := query_ok (p := ⟨true, pathInstrs K a p⟩) (ctx := a.tree) hw hq.parse he
      rw [hqr] at hS'
      cases hS'
      have hm := hP _ R he
      refine ⟨S.map fun l => l.node.id, ?_, ?_, fun i => ?_⟩
      · cases hc : castAll S with
        | error e => rw [hc] at hr; cases hr
        | ok u =>
          rw [hc] at hr
          simp only [hpath, Option.isSome_some, Bool.or_true, if_true] at hr
          injection hr with hr
          exact hr.symm
      · rw [← allLocs_ids hw.id]; exact hsub.map _
      · rw [List.mem_map]
        constructor
        · rintro ⟨l, hl, rfl⟩
          obtain ⟨m, hmm, hpl⟩ := (hm l).mp ((hmS l).mp hl).2
          rw [List.mem_singleton.mp hmm] at hpl
          have := (hPw w).1 l hpl
          exact ⟨l.node, at_nodes this, rfl, this⟩
        · rintro ⟨x, _, rfl, hx⟩
          obtain ⟨l, hl, rfl⟩ := (hPw w).2 x hx
          exact ⟨l, (hmS l).mpr ⟨node_pos hw (at_nodes hx) (at_tag hx), (hm l).mpr ⟨_, List.mem_singleton.mpr rfl, hl⟩⟩, rfl⟩

theorem safe_path {K : Kind} {re : Regex} {a : FindArgs} {p : List Str}
    (hc : ∀ v, (v = p.getLastD [] ∨ v ∈ p) → Compiles re a.regex (flagsStr a.flags) v) : Safe re (pathInstrs K a p) := by
  have ht : Safe re topInstrs := by
    intro e he
    simp [topInstrs] at he
  have hg : ∀ ns : List Str, (∀ n ∈ ns, n ∈ p) → Safe re (groupsInstrs a.regex (flagsStr a.flags) ns) := by
    intro ns hns e he
    obtain ⟨n, hn, he⟩ := List.mem_flatMap.mp he
    rcases List.mem_cons.mp he with he | he
    · cases he
    · exact safe_place (hc n (.inr (hns n hn))) _ e he
  cases K with
  | entry =>
    refine ht.append ((hg _ fun n hn => List.dropLast_subset p hn).append ?_)
    intro e he
    rcases List.mem_cons.mp he with he | he
    · cases he
    · exact safe_place (hc _ (.inl rfl)) _ e he
  | group =>
    refine ht.append (hg _ ?_)
    split
    · exact fun n hn => List.dropLast_subset p hn
    · exact fun n hn => hn
  | attachment => exact ht.append (hg _ fun n hn => List.dropLast_subset p hn)

/-- And it returns when the patterns compile. -/
theorem find_path_ok {K : Kind} {re : Regex} {w : Node} (hw : World w) {a : FindArgs} {p : List Str} {recursive : Bool}
    (hpath : a.path = some p) (hf : a.regex = true → Plain (flagsStr a.flags)) (hp : ∀ x ∈ p, Plain x)
    (hc : ∀ v, (v = p.getLastD [] ∨ v ∈ p) → Compiles re a.regex (flagsStr a.flags) v) :
    ∃ r, find re w (preText K recursive) K.xp a = .ok r := by
  obtain ⟨q, hb, hq⟩ := path_reads K recursive hpath hf hp
  obtain ⟨P, hP, hPw⟩ := path_leads K re a p
  obtain ⟨R, hR⟩ := total_of (safe_path (K := K) hc) [⟨docNode w, []⟩]
  obtain ⟨S, hS, _, hmS⟩ := query_ok (p := ⟨true, pathInstrs K a p⟩) (ctx := a.tree) hw hq.parse hR
  unfold find
  rw [hb]
  show ∃ r, (query re w a.tree q).bind _ = _
  rw [hS]
  show ∃ r, (castAll S).bind _ = _
  rw [castAll_ok fun l hl => ?_]
  · exact ⟨_, rfl⟩
  · obtain ⟨m, hmm, hpl⟩ := (hP _ R hR l).mp ((hmS l).mp hl).2
    rw [List.mem_singleton.mp hmm] at hpl
    exact at_cast ((hPw w).1 l hpl)

end Verif.XPath
