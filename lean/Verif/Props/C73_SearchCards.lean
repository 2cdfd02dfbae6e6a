import Verif.Api.VaultFind
import Verif.XPath.PathLemmas
import Verif.Props.C71_Vault
/-!
# C73: searching, said with cards
-/
namespace Verif.Props
open Verif XPath Spec Api

variable {s : Db}

/-! ## Scope -/

theorem older_reach {x y : Nat} (hx : s.heap.tag x = "Entry".toList) (h : (vaultOf s).Older x y) :
    s.heap.tag y = "Entry".toList ∧ Reach s.heap x y ∧ (y = x ∨ InHist s.heap y) := by
  induction h with
  | refl => exact ⟨hx, .refl, .inl rfl⟩
  | @past y z c l _ hc hl hz ih =>
    obtain ⟨_, rfl⟩ := card_inv hc
    have hl : (s.heap.find y "History".toList).map (fun k => s.heap.all k "Entry".toList) = some l := hl
    cases hk : s.heap.find y "History".toList with
    | none => rw [hk] at hl; cases hl
    | some k =>
      rw [hk] at hl
      injection hl with hl
      subst hl
      obtain ⟨z1, z2⟩ := all_kid hz
      obtain ⟨k1, k2⟩ := all_kid (List.mem_of_head? hk)
      refine ⟨z2, .snoc (.snoc ih.2.1 k1) z1, .inr ⟨k, k2, ?_, .snoc .refl z1⟩⟩
      rintro rfl
      rw [k2] at z2
      exact absurd z2 (by decide)

/-- The entries below an element, given which groups are below it. -/
theorem entries_below (hs : Sound s) {a : Nat} (h0 : a ≠ 0) (ha : s.heap.tag a ≠ "Entry".toList) (ha' : s.heap.tag a ≠ "History".toList)
    {G : Nat → Prop} (hG : ∀ y, G y ↔ Reach s.heap a y ∧ s.heap.tag y = "Group".toList) (history : Bool) (x : Nat) :
    (Reach s.heap a x ∧ s.heap.tag x = "Entry".toList ∧ (history = false → ¬ InHist s.heap x)) ↔ (vaultOf s).EntryOf history G x := by
  constructor
  · rintro ⟨h1, h2, h3⟩
    obtain ⟨k, c, e0, k1, k2, k3, k4⟩ := (held hs h0 ha ha' (fun y h4 h5 => (hG y).mpr ⟨h4, h5⟩) h1).1 h2
    refine ⟨k, c, e0, k1, k2, k3, ?_⟩
    cases history with
    | true => exact k4
    | false =>
      obtain ⟨_, rfl⟩ := card_inv k2
      exact (older_reach (all_kid k3).2 k4).2.2.resolve_right (h3 rfl)
  · rintro ⟨k, c, e0, k1, k2, k3, k4⟩
    obtain ⟨_, rfl⟩ := card_inv k2
    obtain ⟨g1, g2⟩ := (hG k).mp k1
    obtain ⟨e1, e2⟩ := all_kid k3
    cases history with
    | true =>
      obtain ⟨o1, o2, _⟩ := older_reach e2 k4
      exact ⟨(Reach.snoc g1 e1).trans o2, o1, nofun⟩
    | false =>
      have k4 : x = e0 := k4
      subst k4
      exact ⟨.snoc g1 e1, e2, fun _ => entry_hist hs.inv hs.shaped g2 k3⟩

theorem current_iff (hs : Sound s) (y : Nat) : (vaultOf s).Current y ↔ InDoc s.heap y ∧ s.heap.tag y = "Group".toList := by
  obtain ⟨d, m, r, hk⟩ := hs.skeleton
  rw [current_under hs, groups_under hs.inv hs.shaped hk.doc hk.tag]

/-- A node of the world below a group. -/
theorem scope_group (hs : Sound s) {g : Nat} (hg : s.heap.tag g = "Group".toList) {x : Node} (hx : x ∈ s.world.nodes) :
    (InScope s.world true (some g) x ↔ x.id ≠ g ∧ Reach s.heap g x.id) ∧ (InScope s.world false (some g) x ↔ x.id ∈ s.heap.kids g) := by
  obtain ⟨n, hn⟩ := get_of_mem (tag_mem (s := s) (i := g) (by rw [hg]; decide))
  obtain ⟨hm, rfl⟩ := Node.get?_some hn
  have uni : ∀ {m : Node}, m ∈ s.world.nodes → m.id = n.id → m = n := by
    intro m h1 h2
    have := Node.get?_mem hs.inv.world.uniq h1
    rw [h2, hn] at this
    injection this with this
    exact this.symm
  constructor
  · constructor
    · rintro ⟨m, h1, h2, h3⟩
      rw [uni h1 h2] at h3
      exact (below_iff hs.inv hm hx).mp h3
    · intro h
      exact ⟨n, hm, rfl, (below_iff hs.inv hm hx).mpr h⟩
  · rw [node_kids hn]
    constructor
    · rintro ⟨m, h1, h2, h3⟩
      rw [uni h1 h2] at h3
      exact List.mem_map.mpr ⟨x, h3, rfl⟩
    · intro h
      obtain ⟨k, k1, k2⟩ := List.mem_map.mp h
      refine ⟨n, hm, rfl, ?_⟩
      have e1 := Node.get?_mem hs.inv.world.uniq (Node.nodes_trans hm (Node.kid_mem_nodes k1))
      have e2 := Node.get?_mem hs.inv.world.uniq hx
      rw [k2, e2] at e1
      injection e1 with e1
      rw [e1]; exact k1

/-- Without `recursive` and without `group` only the document element is looked at, which is no entry and no group. -/
theorem scope_none (hs : Sound s) {x : Node} (hx : x ∈ s.world.nodes) (hc : ¬ NoCard x.tag) : ¬ InScope s.world false none x := by
  intro h
  obtain ⟨d, m, r, hk⟩ := hs.skeleton
  have h0 : s.world.get? 0 = some s.world := by
    rw [← hs.inv.world.id]; exact Node.get?_mem hs.inv.world.uniq (Node.self_mem_nodes _)
  have hd := hk.doc
  unfold docEl at hd
  rw [node_kids h0, List.head?_map] at hd
  have h : some x = s.world.kids.head? := h
  rw [← h] at hd
  injection hd with hd
  have ht := hk.tag
  rw [← hd, node_tag (Node.get?_mem hs.inv.world.uniq hx)] at ht
  rw [ht] at hc
  exact hc (by decide)

theorem entry_scope (hs : Sound s) {group : Option Nat} (hg : ∀ g, group = some g → s.heap.tag g = "Group".toList) (recursive history : Bool)
    {x : Node} (hx : x ∈ s.world.nodes) :
    (InScope s.world recursive group x ∧ x.tag = "Entry".toList ∧ (history = false → ¬ InHistory s.world x)) ↔
      (vaultOf s).EntryScope recursive history group x.id := by
  have ht : s.heap.tag x.id = x.tag := node_tag (Node.get?_mem hs.inv.world.uniq hx)
  rw [hist_iff hs.inv hx, ← ht]
  cases group with
  | none =>
    cases recursive with
    | true =>
      rw [inDoc_scope hs.inv hx]
      obtain ⟨d, m, r, hk⟩ := hs.skeleton
      have hin : ∀ y, InDoc s.heap y ↔ Reach s.heap d y := by
        intro y
        constructor
        · rintro ⟨d', h1, h2⟩
          rw [hk.doc] at h1; injection h1 with h1; subst h1; exact h2
        · exact fun h => ⟨d, hk.doc, h⟩
      rw [hin]
      exact entries_below hs (tag_ne_zero hs.inv (by rw [hk.tag]; decide)) (by rw [hk.tag]; decide) (by rw [hk.tag]; decide)
        (fun y => by rw [current_iff hs, hin]) history x.id
    | false =>
      refine ⟨fun h => ?_, fun h => h.elim⟩
      exact absurd h.1 (scope_none hs hx (by rw [← ht, h.2.1]; decide))
  | some g =>
    have hg := hg g rfl
    cases recursive with
    | true =>
      rw [(scope_group hs hg hx).1]
      refine Iff.trans ?_ (entries_below hs (tag_ne_zero hs.inv (by rw [hg]; decide)) (by rw [hg]; decide) (by rw [hg]; decide)
        (G := (vaultOf s).Below g) (fun y => ?_) history x.id)
      · constructor
        · rintro ⟨⟨_, h1⟩, h2, h3⟩; exact ⟨h1, h2, h3⟩
        · rintro ⟨h1, h2, h3⟩
          refine ⟨⟨?_, h1⟩, h2, h3⟩
          intro e
          rw [e, hg] at h2
          exact absurd h2 (by decide)
      · constructor
        · intro h
          have hy : s.heap.tag y = "Group".toList := by
            cases h with
            | refl => exact hg
            | sub _ hc hy => obtain ⟨_, rfl⟩ := card_inv hc; exact (all_kid hy).2
          exact ⟨(below_reach hs hg hy).mp h, hy⟩
        · rintro ⟨h1, h2⟩; exact (below_reach hs hg h2).mpr h1
    | false =>
      rw [(scope_group hs hg hx).2]
      constructor
      · rintro ⟨h1, h2, _⟩
        exact ⟨_, card_some (by rw [hg]; decide), List.mem_filter.mpr ⟨h1, beq_iff_eq.mpr h2⟩⟩
      · rintro ⟨c, h1, h2⟩
        obtain ⟨_, rfl⟩ := card_inv h1
        obtain ⟨h3, h4⟩ := all_kid h2
        exact ⟨h3, h4, fun _ => entry_hist hs.inv hs.shaped hg h2⟩

theorem group_scope (hs : Sound s) {group : Option Nat} (hg : ∀ g, group = some g → s.heap.tag g = "Group".toList) (recursive history : Bool)
    {x : Node} (hx : x ∈ s.world.nodes) :
    (InScope s.world recursive group x ∧ x.tag = "Group".toList ∧ (history = false → ¬ InHistory s.world x)) ↔
      (vaultOf s).GroupScope recursive group x.id := by
  have ht : s.heap.tag x.id = x.tag := node_tag (Node.get?_mem hs.inv.world.uniq hx)
  rw [hist_iff hs.inv hx, ← ht]
  have hh : s.heap.tag x.id = "Group".toList → ¬ InHist s.heap x.id := fun h => spine_hist hs.inv hs.shaped (by rw [h]; decide)
  cases group with
  | none =>
    cases recursive with
    | true =>
      rw [inDoc_scope hs.inv hx]
      show _ ↔ (vaultOf s).Current x.id
      rw [current_iff hs]
      exact ⟨fun h => ⟨h.1, h.2.1⟩, fun h => ⟨h.1, h.2, fun _ => hh h.2⟩⟩
    | false =>
      refine ⟨fun h => ?_, fun h => h.elim⟩
      exact absurd h.1 (scope_none hs hx (by rw [← ht, h.2.1]; decide))
  | some g =>
    have hg := hg g rfl
    cases recursive with
    | true =>
      rw [(scope_group hs hg hx).1]
      constructor
      · rintro ⟨⟨h0, h1⟩, h2, _⟩
        exact ⟨(below_reach hs hg h2).mpr h1, h0⟩
      · rintro ⟨h1, h2⟩
        have hy : s.heap.tag x.id = "Group".toList := by
          cases h1 with
          | refl => exact hg
          | sub _ hc hy => obtain ⟨_, rfl⟩ := card_inv hc; exact (all_kid hy).2
        exact ⟨⟨h2, (below_reach hs hg hy).mp h1⟩, hy, fun _ => hh hy⟩
    | false =>
      rw [(scope_group hs hg hx).2]
      constructor
      · rintro ⟨h1, h2, _⟩
        exact ⟨_, card_some (by rw [hg]; decide), List.mem_filter.mpr ⟨h1, beq_iff_eq.mpr h2⟩⟩
      · rintro ⟨c, h1, h2⟩
        obtain ⟨_, rfl⟩ := card_inv h1
        obtain ⟨h3, h4⟩ := all_kid h2
        exact ⟨h3, h4, fun _ => hh h4⟩

/-! ## The searches -/

/-- How a search compares: exactly, or with the engine for regular expressions. -/
def compares (re : Regex) (a : FindArgs) : Test :=
  if a.regex then regexTest re ((flagsStr a.flags).any (· == 'i')) else Spec.exact

/-- The arguments a theorem below is about: known names, no double quotes, patterns the engine can run, a group for `group`. -/
structure Fair (s : Db) (re : Regex) (K : Kind) (a : FindArgs) : Prop where
  path : a.path = none
  group : ∀ g, a.tree = some g → (vaultOf s).IsGroup g
  flags : a.regex = true → Plain (flagsStr a.flags)
  args : ∀ k ∈ a.kwargs, KwOk K k
  runs : ∀ k ∈ a.kwargs, KwCompiles re a.regex (flagsStr a.flags) k
  sharp : ∀ k ∈ a.kwargs, Sharp (compares re a) K k

theorem group_tag' {g : Nat} (h : (vaultOf s).IsGroup g) : s.heap.tag g = "Group".toList := by
  obtain ⟨c, h1, h2⟩ := h
  obtain ⟨_, rfl⟩ := card_inv h1
  exact h2

theorem filters_card (hs : Sound s) {re : Regex} {K : Kind} {a : FindArgs} (hf : Fair s re K a) (ha : K ≠ .attachment) {x : Node}
    (hx : x ∈ s.world.nodes) (ht : x.tag = K.tag) :
    (∀ k ∈ a.kwargs, KwHolds K.place (if a.regex then regexTest re ((flagsStr a.flags).any (· == 'i')) else Spec.exact) x k) ↔
      ∃ c, (vaultOf s).card x.id = some c ∧ ∀ k ∈ a.kwargs, c.Holds (compares re a) K k := by
  have htag : s.heap.tag x.id = K.tag := by rw [node_tag (Node.get?_mem hs.inv.world.uniq hx), ht]
  have hc : ¬ NoCard (s.heap.tag x.id) := by
    rw [htag]
    cases K with
    | entry => decide
    | group => decide
    | attachment => exact absurd rfl ha
  constructor
  · intro h
    exact ⟨_, card_some hc, fun k hk => (kw_card hs hx hc K _ k (hf.args k hk) ha (hf.sharp k hk)).mp (h k hk)⟩
  · rintro ⟨c, h1, h2⟩ k hk
    obtain ⟨_, rfl⟩ := card_inv h1
    exact (kw_card hs hx hc K _ k (hf.args k hk) ha (hf.sharp k hk)).mpr (h2 k hk)

/-- `find_entries` returns, in the order of the document and without duplicates, exactly the entries in the groups asked for whose cards satisfy
all arguments. -/
theorem C73_entries (env : Env) (hs : Sound s) {a : FindArgs} (recursive : Bool) (hf : Fair s env.re .entry a) :
    ∃ l, findEntries env.re s.world recursive a = .ok (if a.first then .one l.head? else .list l) ∧ l.Sublist s.world.ids ∧ l.Nodup ∧
      ∀ e, e ∈ l ↔ (vaultOf s).EntryScope recursive a.history a.tree e ∧
        ∃ c, (vaultOf s).card e = some c ∧ ∀ k ∈ a.kwargs, c.Holds (compares env.re a) .entry k := by
  have hg : ∀ g, a.tree = some g → s.heap.tag g = "Group".toList := fun g h => group_tag' (hf.group g h)
  have h0 : a.tree ≠ some 0 := fun h => tag_ne_zero hs.inv (by rw [hg 0 h]; decide) rfl
  obtain ⟨r, hr⟩ := find_ok (K := .entry) (re := env.re) (recursive := recursive) hs.inv.world hf.path h0 hf.flags hf.args hf.runs cast_entry
  obtain ⟨l, rfl, h1, h2⟩ := find_partial hs.inv.world hf.path h0 hf.flags hf.args hr
  refine ⟨l, by rw [findEntries_eq]; exact hr, h1, h1.nodup hs.inv.world.uniq, fun e => ?_⟩
  rw [h2 e]
  constructor
  · rintro ⟨x, hx, rfl, m⟩
    exact ⟨(entry_scope hs hg recursive a.history hx).mp ⟨m.scope, m.tag, m.history⟩, (filters_card hs hf (by decide) hx m.tag).mp m.filters⟩
  · rintro ⟨m1, c, m2, m3⟩
    obtain ⟨hc, _⟩ := card_inv m2
    obtain ⟨x, hgx⟩ := get_of_mem (tag_mem (s := s) (i := e) (fun h => hc (by rw [h]; decide)))
    obtain ⟨hx, rfl⟩ := Node.get?_some hgx
    obtain ⟨k1, k2, k3⟩ := (entry_scope hs hg recursive a.history hx).mpr m1
    exact ⟨x, hx, rfl, ⟨k1, k2, k3, (filters_card hs hf (by decide) hx k2).mpr ⟨c, m2, m3⟩⟩⟩

/-- `find_groups` likewise. -/
theorem C73_groups (env : Env) (hs : Sound s) {a : FindArgs} (recursive : Bool) (hf : Fair s env.re .group a) :
    ∃ l, findGroups env.re s.world recursive a = .ok (if a.first then .one l.head? else .list l) ∧ l.Sublist s.world.ids ∧ l.Nodup ∧
      ∀ g, g ∈ l ↔ (vaultOf s).GroupScope recursive a.tree g ∧
        ∃ c, (vaultOf s).card g = some c ∧ ∀ k ∈ a.kwargs, c.Holds (compares env.re a) .group k := by
  have hg : ∀ g, a.tree = some g → s.heap.tag g = "Group".toList := fun g h => group_tag' (hf.group g h)
  have h0 : a.tree ≠ some 0 := fun h => tag_ne_zero hs.inv (by rw [hg 0 h]; decide) rfl
  obtain ⟨r, hr⟩ := find_ok (K := .group) (re := env.re) (recursive := recursive) hs.inv.world hf.path h0 hf.flags hf.args hf.runs cast_group
  obtain ⟨l, rfl, h1, h2⟩ := find_partial hs.inv.world hf.path h0 hf.flags hf.args hr
  refine ⟨l, by rw [findGroups_eq]; exact hr, h1, h1.nodup hs.inv.world.uniq, fun e => ?_⟩
  rw [h2 e]
  constructor
  · rintro ⟨x, hx, rfl, m⟩
    exact ⟨(group_scope hs hg recursive a.history hx).mp ⟨m.scope, m.tag, m.history⟩, (filters_card hs hf (by decide) hx m.tag).mp m.filters⟩
  · rintro ⟨m1, c, m2, m3⟩
    obtain ⟨hc, _⟩ := card_inv m2
    obtain ⟨x, hgx⟩ := get_of_mem (tag_mem (s := s) (i := e) (fun h => hc (by rw [h]; decide)))
    obtain ⟨hx, rfl⟩ := Node.get?_some hgx
    obtain ⟨k1, k2, k3⟩ := (group_scope hs hg recursive a.history hx).mpr m1
    exact ⟨x, hx, rfl, ⟨k1, k2, k3, (filters_card hs hf (by decide) hx k2).mpr ⟨c, m2, m3⟩⟩⟩

/-- An exact search has no unsharp argument but a list of empty tags. -/
theorem C73_sharp {re : Regex} {a : FindArgs} (h : a.regex = false) (K : Kind) (k : Kw) :
    Sharp (compares re a) K k ↔ ∀ ts, k = .tags ts → ∃ t ∈ ts, t ≠ [] := by
  have hT : ∀ w, ¬ compares re a w none := by
    intro w
    unfold compares
    rw [h]
    exact nofun
  cases k with
  | attr k w =>
    cases w with
    | none => exact ⟨fun _ => nofun, fun _ => trivial⟩
    | some w => exact ⟨fun _ => nofun, fun _ _ => hT w⟩
  | uuid b => exact ⟨fun _ => nofun, fun _ => hT _⟩
  | string d => exact ⟨fun _ => nofun, fun _ => trivial⟩
  | tags ts => exact ⟨fun h _ e => by injection e with e; exact e ▸ h, fun h => h ts rfl⟩

/-! ## Paths -/

theorem name_card (hs : Sound s) {T : Test} {n : Str} (hT : ¬ T n none) {k : Node} (hk : k ∈ s.world.nodes) (ht : k.tag = "Group".toList) :
    HasValue T k (.sub ["Name".toList]) n ↔ ∃ d t, (vaultOf s).card k.id = some d ∧ d.text .name = some t ∧ T n (some t) := by
  have htag : s.heap.tag k.id = "Group".toList := by rw [node_tag (Node.get?_mem hs.inv.world.uniq hk), ht]
  have hc : ¬ NoCard (s.heap.tag k.id) := by rw [htag]; decide
  unfold HasValue
  rw [sub_values hs.inv _ hk, sub_one ((hs.neat _ hc).once _ (by decide)) hT]
  constructor
  · rintro ⟨w, h1, h2⟩; exact ⟨_, w, card_some hc, h1, h2⟩
  · rintro ⟨d, t, h1, h2, h3⟩
    obtain ⟨_, rfl⟩ := card_inv h1
    exact ⟨t, h2, h3⟩

theorem follow_card (hs : Sound s) {T : Test} (ns : List Str) (hT : ∀ n ∈ ns, ¬ T n none) {g : Node} (hg : g ∈ s.world.nodes)
    (ht : g.tag = "Group".toList) (x : Nat) :
    (∃ n, Follow T ns g n ∧ n.id = x) ↔ (vaultOf s).Follow T ns g.id x := by
  induction ns generalizing g with
  | nil =>
    constructor
    · rintro ⟨n, h1, rfl⟩
      have h1 : n = g := h1
      rw [h1]; rfl
    · intro h
      have h : x = g.id := h
      exact ⟨g, rfl, h.symm⟩
  | cons n ns ih =>
    have htag : s.heap.tag g.id = "Group".toList := by rw [node_tag (Node.get?_mem hs.inv.world.uniq hg), ht]
    have kn : ∀ {k : Node}, k ∈ g.kids → k ∈ s.world.nodes := fun h => Node.nodes_trans hg (Node.kid_mem_nodes h)
    constructor
    · rintro ⟨y, ⟨k, h1, h2, h3, h4⟩, rfl⟩
      refine ⟨_, card_some (by rw [htag]; decide), k.id, ?_, (name_card hs (hT n (List.mem_cons_self ..)) (kn h1) h2).mp h3,
        (ih (fun m hm => hT m (List.mem_cons_of_mem _ hm)) (kn h1) h2).mp ⟨y, h4, rfl⟩⟩
      show k.id ∈ s.heap.all g.id "Group".toList
      rw [node_all hs.inv hg]
      exact List.mem_map.mpr ⟨k, List.mem_filter.mpr ⟨h1, beq_iff_eq.mpr h2⟩, rfl⟩
    · rintro ⟨c, h1, k, h2, h3, h4⟩
      obtain ⟨_, rfl⟩ := card_inv h1
      have h2 : k ∈ s.heap.all g.id "Group".toList := h2
      rw [node_all hs.inv hg] at h2
      obtain ⟨k, h5, rfl⟩ := List.mem_map.mp h2
      obtain ⟨h5, h6⟩ := List.mem_filter.mp h5
      have h6 := beq_iff_eq.mp h6
      obtain ⟨y, h7, h8⟩ := (ih (fun m hm => hT m (List.mem_cons_of_mem _ hm)) (kn h5) h6).mpr h4
      exact ⟨y, ⟨k, h5, h6, (name_card hs (hT n (List.mem_cons_self ..)) (kn h5) h6).mpr h3, h7⟩, h8⟩

/-- The groups at the top, as nodes. -/
theorem top_roots (hs : Sound s) (x : Nat) : (∃ r, TopGroup s.world r ∧ r.id = x) ↔ x ∈ (vaultOf s).roots := by
  obtain ⟨d, m, o, hk⟩ := hs.skeleton
  have h0 : s.world.get? 0 = some s.world := by
    rw [← hs.inv.world.id]; exact Node.get?_mem hs.inv.world.uniq (Node.self_mem_nodes _)
  show _ ↔ x ∈ rootsOf s.heap
  rw [roots_of hk]
  have hd := hk.doc
  unfold docEl at hd
  rw [node_kids h0, List.head?_map] at hd
  cases hh : s.world.kids.head? with
  | none => rw [hh] at hd; cases hd
  | some D =>
    rw [hh] at hd
    injection hd with hd
    have hD : D ∈ s.world.nodes := Node.kid_mem_nodes (List.mem_of_head? hh)
    have htag := hk.tag
    rw [← hd, node_tag (Node.get?_mem hs.inv.world.uniq hD)] at htag
    have hr := hk.root
    rw [← hd, node_all hs.inv hD] at hr
    have kn : ∀ {k : Node}, k ∈ D.kids → k ∈ s.world.nodes := fun h => Node.nodes_trans hD (Node.kid_mem_nodes h)
    constructor
    · rintro ⟨r, ⟨D', h1, _, h3⟩, rfl⟩
      rw [hh] at h1
      injection h1 with h1
      subst h1
      obtain ⟨p, p1, p2⟩ := List.mem_flatMap.mp h3
      obtain ⟨q, q1, q2⟩ := List.mem_flatMap.mp p2
      rw [List.mem_singleton.mp q2]
      have : p.id = o := by
        have : p.id ∈ (D'.kids.filter fun k => k.tag == "Root".toList).map Node.id := List.mem_map.mpr ⟨p, p1, rfl⟩
        rw [hr] at this
        exact List.mem_singleton.mp this
      rw [← this, node_all hs.inv (kn (List.mem_filter.mp p1).1)]
      exact List.mem_map.mpr ⟨q, q1, rfl⟩
    · intro h
      have : o ∈ (D.kids.filter fun k => k.tag == "Root".toList).map Node.id := by rw [hr]; exact List.mem_singleton.mpr rfl
      obtain ⟨p, p1, rfl⟩ := List.mem_map.mp this
      rw [node_all hs.inv (kn (List.mem_filter.mp p1).1)] at h
      obtain ⟨q, q1, rfl⟩ := List.mem_map.mp h
      exact ⟨q, ⟨D, hh.symm, htag, List.mem_flatMap.mpr ⟨p, p1, List.mem_flatMap.mpr ⟨q, q1, List.mem_singleton.mpr rfl⟩⟩⟩, rfl⟩

theorem top_node {r : Node} (h : TopGroup s.world r) : r ∈ s.world.nodes ∧ r.tag = "Group".toList := by
  obtain ⟨D, h1, _, h3⟩ := h
  obtain ⟨p, p1, p2⟩ := List.mem_flatMap.mp h3
  obtain ⟨q, q1, q2⟩ := List.mem_flatMap.mp p2
  rw [List.mem_singleton.mp q2]
  obtain ⟨p1, _⟩ := List.mem_filter.mp p1
  obtain ⟨q1, q3⟩ := List.mem_filter.mp q1
  have hD : D ∈ s.world.nodes := Node.kid_mem_nodes (List.mem_of_head? h1.symm)
  exact ⟨Node.nodes_trans (Node.nodes_trans hD (Node.kid_mem_nodes p1)) (Node.kid_mem_nodes q1), beq_iff_eq.mp q3⟩

theorem follow_node {w : Node} {T : Test} (ns : List Str) {g x : Node} (hg : g ∈ w.nodes) (ht : g.tag = "Group".toList) (h : Follow T ns g x) :
    x ∈ w.nodes ∧ x.tag = "Group".toList := by
  induction ns generalizing g with
  | nil =>
    have h : x = g := h
    rw [h]; exact ⟨hg, ht⟩
  | cons n ns ih =>
    obtain ⟨k, h1, h2, _, h4⟩ := h
    exact ih (Node.nodes_trans hg (Node.kid_mem_nodes h1)) h2 h4

/-- The arguments of a search by path. -/
structure FairPath (re : Regex) (a : FindArgs) (p : List Str) : Prop where
  path : a.path = some p
  flags : a.regex = true → Plain (flagsStr a.flags)
  plain : ∀ n ∈ p, Plain n
  runs : ∀ n, (n = p.getLastD [] ∨ n ∈ p) → Compiles re a.regex (flagsStr a.flags) n
  sharp : ∀ n ∈ p, ¬ compares re a n none

/-- `find_groups(path=…)` follows the names from a group at the top; an empty last name changes nothing. Of several groups it returns the first. -/
theorem C73_group_path (env : Env) (hs : Sound s) {a : FindArgs} {p : List Str} (recursive : Bool) (hf : FairPath env.re a p) :
    ∃ l : List Nat, findGroups env.re s.world recursive a = .ok (.one l.head?) ∧ l.Sublist s.world.ids ∧
      ∀ g, g ∈ l ↔ ∃ r ∈ (vaultOf s).roots, (vaultOf s).Follow (compares env.re a) (if p.getLastD [] = [] then p.dropLast else p) r g := by
  obtain ⟨r, hr⟩ := find_path_ok (K := .group) (recursive := recursive) hs.inv.world hf.path hf.flags hf.plain hf.runs
  obtain ⟨l, rfl, h1, h2⟩ := find_path hs.inv.world hf.path hf.flags hf.plain hr
  refine ⟨l, by rw [findGroups_eq]; exact hr, h1, fun g => ?_⟩
  rw [h2 g]
  have hT : ∀ n ∈ (if p.getLastD [] = [] then p.dropLast else p), ¬ compares env.re a n none := by
    intro n hn
    split at hn
    · exact hf.sharp n (List.dropLast_subset _ hn)
    · exact hf.sharp n hn
  constructor
  · rintro ⟨x, hx, rfl, r, hr, hF⟩
    obtain ⟨r1, r2⟩ := top_node hr
    exact ⟨r.id, (top_roots hs _).mp ⟨r, hr, rfl⟩, (follow_card hs _ hT r1 r2 _).mp ⟨x, hF, rfl⟩⟩
  · rintro ⟨r, hr, hF⟩
    obtain ⟨r, hr', rfl⟩ := (top_roots hs _).mpr hr
    obtain ⟨r1, r2⟩ := top_node hr'
    obtain ⟨x, hF', rfl⟩ := (follow_card hs _ hT r1 r2 _).mpr hF
    exact ⟨x, (follow_node _ r1 r2 hF').1, rfl, r, hr', hF'⟩

/-- `find_entries(path=…)` follows all names but the last from a group at the top; the last one is the title. -/
theorem C73_entry_path (env : Env) (hs : Sound s) {a : FindArgs} {p : List Str} (recursive : Bool) (hf : FairPath env.re a p) :
    ∃ l : List Nat, findEntries env.re s.world recursive a = .ok (.one l.head?) ∧ l.Sublist s.world.ids ∧
      ∀ e, e ∈ l ↔ ∃ r ∈ (vaultOf s).roots, ∃ g c, (vaultOf s).Follow (compares env.re a) p.dropLast r g ∧
        (vaultOf s).card g = some c ∧ e ∈ c.entries ∧
        ∃ d t, (vaultOf s).card e = some d ∧ d.field "Title".toList = some t ∧ compares env.re a (p.getLastD []) t := by
  obtain ⟨r, hr⟩ := find_path_ok (K := .entry) (recursive := recursive) hs.inv.world hf.path hf.flags hf.plain hf.runs
  obtain ⟨l, rfl, h1, h2⟩ := find_path hs.inv.world hf.path hf.flags hf.plain hr
  refine ⟨l, by rw [findEntries_eq]; exact hr, h1, fun e => ?_⟩
  rw [h2 e]
  have hT : ∀ n ∈ p.dropLast, ¬ compares env.re a n none := fun n hn => hf.sharp n (List.dropLast_subset _ hn)
  have title : ∀ {x : Node}, x ∈ s.world.nodes → x.tag = "Entry".toList → (HasValue (compares env.re a) x (.field "Title".toList) (p.getLastD []) ↔
      ∃ d t, (vaultOf s).card x.id = some d ∧ d.field "Title".toList = some t ∧ compares env.re a (p.getLastD []) t) := by
    intro x hx ht
    have htag : s.heap.tag x.id = "Entry".toList := by rw [node_tag (Node.get?_mem hs.inv.world.uniq hx), ht]
    have hc : ¬ NoCard (s.heap.tag x.id) := by rw [htag]; decide
    unfold HasValue
    rw [field_values hs.inv hx, field_one (hs.neat _ hc).fields]
    constructor
    · rintro ⟨t, h1, h2⟩
      exact ⟨_, t, card_some hc, Option.mem_toList.mp h1, h2⟩
    · rintro ⟨d, t, h1, h2, h3⟩
      obtain ⟨_, rfl⟩ := card_inv h1
      exact ⟨t, Option.mem_toList.mpr h2, h3⟩
  constructor
  · rintro ⟨x, hx, rfl, r, g, hr, hF, k1, k2, k3⟩
    obtain ⟨r1, r2⟩ := top_node hr
    obtain ⟨g1, g2⟩ := follow_node _ r1 r2 hF
    refine ⟨r.id, (top_roots hs _).mp ⟨r, hr, rfl⟩, g.id, _, (follow_card hs _ hT r1 r2 _).mp ⟨g, hF, rfl⟩,
      card_some (by rw [node_tag (Node.get?_mem hs.inv.world.uniq g1), g2]; decide), ?_, (title hx k2).mp k3⟩
    show x.id ∈ s.heap.all g.id "Entry".toList
    rw [node_all hs.inv g1]
    exact List.mem_map.mpr ⟨x, List.mem_filter.mpr ⟨k1, beq_iff_eq.mpr k2⟩, rfl⟩
  · rintro ⟨r, hr, g, c, hF, hc, k1, k2⟩
    obtain ⟨r, hr', rfl⟩ := (top_roots hs _).mpr hr
    obtain ⟨r1, r2⟩ := top_node hr'
    obtain ⟨g, hF', rfl⟩ := (follow_card hs _ hT r1 r2 _).mpr hF
    obtain ⟨g1, g2⟩ := follow_node _ r1 r2 hF'
    obtain ⟨_, rfl⟩ := card_inv hc
    have k1 : e ∈ s.heap.all g.id "Entry".toList := k1
    rw [node_all hs.inv g1] at k1
    obtain ⟨x, x0, rfl⟩ := List.mem_map.mp k1
    obtain ⟨x1, x2⟩ := List.mem_filter.mp x0
    have hx := Node.nodes_trans g1 (Node.kid_mem_nodes x1)
    exact ⟨x, hx, rfl, r, g, hr', hF', x1, beq_iff_eq.mp x2, (title hx (beq_iff_eq.mp x2)).mpr k2⟩

/-- The hypotheses hold for a search by title in a part of the sample. -/
example :
    let a : FindArgs := { tree := some 93, kwargs := [.attr "title".toList (some "bank".toList), .attr "username".toList none] }
    Fair Sample.db Sample.env.re .entry a ∧ findEntries Sample.env.re Sample.db.world true a = .ok (.list [102]) :=
  ⟨⟨rfl, fun g h => by injection h with h; subst h; exact ⟨_, card_some (by decide +kernel), by decide +kernel⟩, nofun, by decide, fun k _ => kw_compiles_exact k,
    fun k hk => (C73_sharp rfl .entry k).mpr fun ts e => by subst e; exact absurd hk (by simp)⟩, by decide +kernel⟩

/-- With the history there are more. -/
example :
    let a : FindArgs := { history := true }
    Fair Sample.db Sample.env.re .entry a ∧ findEntries Sample.env.re Sample.db.world true a = .ok (.list [23, 56, 76, 102]) ∧
      findEntries Sample.env.re Sample.db.world true {} = .ok (.list [23, 76, 102]) :=
  ⟨⟨rfl, nofun, nofun, nofun, nofun, nofun⟩, by decide +kernel, by decide +kernel⟩

/-- A search for a group by a pattern. -/
example :
    let a : FindArgs := { regex := true, kwargs := [.attr "name".toList (some "Work".toList)] }
    Fair Sample.db Sample.env.re .group a ∧ findGroups Sample.env.re Sample.db.world true a = .ok (.list [93]) := by
  refine ⟨⟨rfl, nofun, fun _ => by decide, by decide, ?_, ?_⟩, by decide +kernel⟩
  · intro k hk
    rw [List.mem_singleton.mp hk]
    exact fun _ => by decide +kernel
  · intro k hk
    rw [List.mem_singleton.mp hk]
    rintro _ ⟨f, h1, h2⟩
    have h3 : (Sample.env.re "Work".toList ((flagsStr none).any (· == 'i'))).map (· []) = some true := by rw [h1]; exact congrArg some h2
    exact absurd h3 (by decide +kernel)

/-- A path. -/
example : FairPath Sample.env.re { path := some ["Work".toList, "bank".toList] } ["Work".toList, "bank".toList] ∧
    findEntries Sample.env.re Sample.db.world true { path := some ["Work".toList, "bank".toList] } = .ok (.one (some 102)) :=
  ⟨⟨rfl, nofun, by decide, fun _ _ => nofun, fun _ _ => nofun⟩, by decide +kernel⟩

end Verif.Props
