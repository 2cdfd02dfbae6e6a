import Verif.XPath.Eval
/-!
# Lemmas about places and evaluation
-/
namespace Verif.XPath
open Verif

/-! ## Places -/

theorem locsL_eq (anc : List Node) (ks : List Node) : locsL anc ks = ks.flatMap (locs anc) := by
  induction ks with
  | nil => rfl
  | cons k ks ih => simp [locsL, ih]

theorem locs_eq (anc : List Node) (n : Node) :
    locs anc n = ⟨n, anc⟩ :: n.kids.flatMap (locs (n :: anc)) := by
  cases n; rw [locs, locsL_eq]; rfl

theorem mem_locs {anc : List Node} {n : Node} {l : Loc} :
    l ∈ locs anc n ↔ l = ⟨n, anc⟩ ∨ ∃ k ∈ n.kids, l ∈ locs (n :: anc) k := by
  rw [locs_eq, List.mem_cons, List.mem_flatMap]

theorem self_mem_locs (anc : List Node) (n : Node) : (⟨n, anc⟩ : Loc) ∈ locs anc n :=
  mem_locs.mpr (Or.inl rfl)

theorem locs_nodes (n : Node) : ∀ anc, (locs anc n).map Loc.node = n.nodes := by
  induction n using Node.ind with
  | h i t a x ks ih =>
    intro anc
    rw [locs_eq, Node.nodes_eq, List.map_cons, List.map_flatMap]
    congr 1
    simp only [Node.kids]
    generalize Node.mk i t a x ks :: anc = anc'
    clear anc
    induction ks with
    | nil => rfl
    | cons k ks ih2 =>
      rw [List.flatMap_cons, List.flatMap_cons, ih k (List.mem_cons_self ..),
        ih2 fun c hc => ih c (List.mem_cons_of_mem _ hc)]

theorem locs_trans {n : Node} : ∀ {anc : List Node} {l m : Loc}, l ∈ locs anc n →
    m ∈ locs l.anc l.node → m ∈ locs anc n := by
  induction n using Node.ind with
  | h i t a x ks ih =>
    intro anc l m hl hm
    rcases mem_locs.mp hl with rfl | ⟨k, hk, hl⟩
    · exact hm
    · exact mem_locs.mpr (Or.inr ⟨k, hk, ih k hk hl hm⟩)

theorem locs_kid {anc : List Node} {n k : Node} {l : Loc} (hl : l ∈ locs anc n)
    (hk : k ∈ l.node.kids) : (⟨k, l.node :: l.anc⟩ : Loc) ∈ locs anc n :=
  locs_trans hl (mem_locs.mpr (Or.inr ⟨k, hk, self_mem_locs _ _⟩))

theorem mem_kids {l m : Loc} : m ∈ l.kids ↔ ∃ k ∈ l.node.kids, m = ⟨k, l.node :: l.anc⟩ := by
  unfold Loc.kids; rw [List.mem_map]
  constructor
  · rintro ⟨k, hk, rfl⟩; exact ⟨k, hk, rfl⟩
  · rintro ⟨k, hk, rfl⟩; exact ⟨k, hk, rfl⟩

theorem parent_some {l m : Loc} : l.parent = some m ↔ l.anc = m.node :: m.anc := by
  obtain ⟨n, anc⟩ := l
  cases anc with
  | nil => simp [Loc.parent]
  | cons p r =>
    obtain ⟨mn, ma⟩ := m
    simp [Loc.parent]

/-- The parent of a place is a place, unless the place is the top. -/
theorem locs_parent {n : Node} : ∀ {anc : List Node} {l : Loc}, l ∈ locs anc n → l = ⟨n, anc⟩ ∨
    ∃ p r, l.anc = p :: r ∧ (⟨p, r⟩ : Loc) ∈ locs anc n ∧ l.node ∈ p.kids := by
  induction n using Node.ind with
  | h i t a x ks ih =>
    intro anc l hl
    rcases mem_locs.mp hl with h | ⟨k, hk, hl'⟩
    · exact Or.inl h
    · right
      rcases ih k hk hl' with rfl | ⟨p, r, e, h1, h2⟩
      · exact ⟨_, _, rfl, self_mem_locs _ _, hk⟩
      · exact ⟨p, r, e, mem_locs.mpr (Or.inr ⟨k, hk, h1⟩), h2⟩

/-- The ancestors of a place. -/
theorem locs_anc {n : Node} : ∀ {anc : List Node} {l : Loc}, l ∈ locs anc n →
    ∃ r, l.anc = r ++ anc ∧ ∀ p ∈ r, p ∈ n.nodes ∧ l.node ∈ p.kids.flatMap Node.nodes := by
  induction n using Node.ind with
  | h i t a x ks ih =>
    intro anc l hl
    rcases mem_locs.mp hl with h | ⟨k, hk, hl'⟩
    · subst h; exact ⟨[], rfl, by simp⟩
    · obtain ⟨r, e, h⟩ := ih k hk hl'
      refine ⟨r ++ [.mk i t a x ks], by simp [e], ?_⟩
      intro p hp
      rcases List.mem_append.mp hp with hp | hp
      · exact ⟨Node.nodes_trans (Node.kid_mem_nodes (n := .mk i t a x ks) hk) (h p hp).1, (h p hp).2⟩
      · rw [List.mem_singleton] at hp
        subst hp
        refine ⟨Node.self_mem_nodes _, List.mem_flatMap.mpr ⟨k, hk, ?_⟩⟩
        rw [← locs_nodes k (.mk i t a x ks :: anc)]
        exact List.mem_map_of_mem hl'

theorem mem_nodes_loc {n x : Node} (anc : List Node) (h : x ∈ n.nodes) :
    ∃ l ∈ locs anc n, l.node = x := by
  rw [← locs_nodes n anc] at h
  exact List.mem_map.mp h

/-- Below a place. -/
theorem locs_below {anc : List Node} {n : Node} {l : Loc} (hl : l ∈ locs anc n) {x : Node}
    (hx : x ∈ l.node.kids.flatMap Node.nodes) :
    ∃ m ∈ locs anc n, m.node = x ∧ l.node ∈ m.anc := by
  obtain ⟨k, hk, hx⟩ := List.mem_flatMap.mp hx
  obtain ⟨m, hm, e⟩ := mem_nodes_loc (l.node :: l.anc) hx
  refine ⟨m, locs_trans (locs_kid hl hk) hm, e, ?_⟩
  obtain ⟨r, er, _⟩ := locs_anc hm
  rw [er]
  exact List.mem_append_right _ (List.mem_cons_self ..)

/-! ## Places of a world -/

/-- Whether a node is a world: the virtual root has id 0 and there is a document element. -/
structure World (w : Node) : Prop where
  id : w.id = 0
  tag : w.tag = []
  uniq : w.Uniq
  doc : w.kids ≠ []

theorem allLocs_ids {w : Node} (h0 : w.id = 0) : (allLocs w).map (fun l => l.node.id) = w.ids := by
  have e : ∀ anc n, (locs anc n).map (fun l => l.node.id) = n.ids := by
    intro anc n
    unfold Node.ids
    rw [← locs_nodes n anc, List.map_map]; rfl
  have e2 : ∀ anc (ks : List Node), (ks.flatMap (locs anc)).map (fun l => l.node.id) = ks.flatMap Node.ids := by
    intro anc ks
    induction ks with
    | nil => rfl
    | cons k ks ih => rw [List.flatMap_cons, List.map_append, e, ih, List.flatMap_cons]
  unfold allLocs
  rw [List.map_append, e, e2, Node.ids_eq, Node.ids_eq w, h0]
  show 0 :: (w.kids.take 1).flatMap Node.ids ++ (w.kids.drop 1).flatMap Node.ids = _
  rw [List.cons_append, ← List.flatMap_append, List.take_append_drop]

theorem allLocs_inj {w : Node} (hw : World w) {l m : Loc} (hl : l ∈ allLocs w) (hm : m ∈ allLocs w)
    (e : l.node.id = m.node.id) : l = m := by
  have h := hw.uniq
  unfold Node.Uniq at h
  rw [← allLocs_ids hw.id] at h
  generalize allLocs w = L at h hl hm
  induction L with
  | nil => cases hl
  | cons a L ih =>
    rw [List.map_cons, List.nodup_cons] at h
    rcases List.mem_cons.mp hl with h1 | h1 <;> rcases List.mem_cons.mp hm with h2 | h2
    · rw [h1, h2]
    · exact absurd (List.mem_map.mpr ⟨m, h2, by rw [← e, h1]⟩) h.1
    · exact absurd (List.mem_map.mpr ⟨l, h1, by rw [e, h2]⟩) h.1
    · exact ih h.2 h1 h2

theorem mem_allLocs {w : Node} {l : Loc} : l ∈ allLocs w ↔
    l ∈ locs [] (docNode w) ∨ ∃ k ∈ w.kids.drop 1, l ∈ locs [] k := by
  unfold allLocs; rw [List.mem_append, List.mem_flatMap]

theorem allLocs_kid {w : Node} {l : Loc} (hl : l ∈ allLocs w) {k : Node} (hk : k ∈ l.node.kids) :
    (⟨k, l.node :: l.anc⟩ : Loc) ∈ allLocs w := by
  rcases mem_allLocs.mp hl with h | ⟨t, ht, h⟩
  · exact mem_allLocs.mpr (Or.inl (locs_kid h hk))
  · exact mem_allLocs.mpr (Or.inr ⟨t, ht, locs_kid h hk⟩)

theorem allLocs_sub {w : Node} {l m : Loc} (hl : l ∈ allLocs w) (hm : m ∈ locs l.anc l.node) :
    m ∈ allLocs w := by
  rcases mem_allLocs.mp hl with h | ⟨t, ht, h⟩
  · exact mem_allLocs.mpr (Or.inl (locs_trans h hm))
  · exact mem_allLocs.mpr (Or.inr ⟨t, ht, locs_trans h hm⟩)

theorem allLocs_parent {w : Node} {l : Loc} (hl : l ∈ allLocs w) {p : Node} {r : List Node}
    (e : l.anc = p :: r) : (⟨p, r⟩ : Loc) ∈ allLocs w ∧ l.node ∈ p.kids := by
  rcases mem_allLocs.mp hl with h | ⟨t, ht, h⟩
  · rcases locs_parent h with rfl | ⟨p', r', e', h1, h2⟩
    · cases e
    · rw [e] at e'; injection e' with e1 e2; subst e1; subst e2
      exact ⟨mem_allLocs.mpr (Or.inl h1), h2⟩
  · rcases locs_parent h with rfl | ⟨p', r', e', h1, h2⟩
    · cases e
    · rw [e] at e'; injection e' with e1 e2; subst e1; subst e2
      exact ⟨mem_allLocs.mpr (Or.inr ⟨t, ht, h1⟩), h2⟩

theorem docNode_mem (w : Node) : (⟨docNode w, []⟩ : Loc) ∈ allLocs w :=
  mem_allLocs.mpr (Or.inl (self_mem_locs _ _))

theorem locOf_some {w : Node} {i : Nat} {l : Loc} (h : locOf w i = some l) :
    l ∈ allLocs w ∧ l.node.id = i := by
  unfold locOf at h
  exact ⟨List.mem_of_find?_eq_some h, by simpa using List.find?_some h⟩

theorem locOf_mem {w : Node} (hw : World w) {l : Loc} (h : l ∈ allLocs w) : locOf w l.node.id = some l := by
  cases e : locOf w l.node.id with
  | none =>
    unfold locOf at e
    exact absurd (by simp) (List.find?_eq_none.mp e l h)
  | some m =>
    obtain ⟨h1, h2⟩ := locOf_some e
    rw [allLocs_inj hw h1 h h2]

theorem allLocs_node {w : Node} {l : Loc} (hl : l ∈ allLocs w) : l.node.id = 0 ∨ l.node ∈ w.nodes := by
  rcases mem_allLocs.mp hl with h | ⟨t, ht, h⟩
  · have := List.mem_map_of_mem (f := Loc.node) h
    rw [locs_nodes, Node.nodes_eq] at this
    rcases List.mem_cons.mp this with h1 | h1
    · left; rw [h1]; rfl
    · right
      rw [Node.nodes_eq]
      obtain ⟨k, hk, h2⟩ := List.mem_flatMap.mp h1
      exact List.mem_cons_of_mem _ (List.mem_flatMap.mpr ⟨k, List.mem_of_mem_take hk, h2⟩)
  · right
    have := List.mem_map_of_mem (f := Loc.node) h
    rw [locs_nodes] at this
    rw [Node.nodes_eq]
    exact List.mem_cons_of_mem _ (List.mem_flatMap.mpr ⟨t, List.mem_of_mem_drop ht, this⟩)

theorem node_allLocs {w x : Node} (hx : x ∈ w.kids.flatMap Node.nodes) : ∃ l ∈ allLocs w, l.node = x := by
  obtain ⟨k, hk, hx⟩ := List.mem_flatMap.mp hx
  rw [← List.take_append_drop 1 w.kids] at hk
  rcases List.mem_append.mp hk with hk | hk
  · obtain ⟨m, hm, e⟩ := mem_nodes_loc [docNode w] hx
    exact ⟨m, mem_allLocs.mpr (Or.inl (mem_locs.mpr (Or.inr ⟨k, hk, hm⟩))), e⟩
  · obtain ⟨m, hm, e⟩ := mem_nodes_loc [] hx
    exact ⟨m, mem_allLocs.mpr (Or.inr ⟨k, hk, hm⟩), e⟩

/-! ## Evaluation -/

theorem evalInstrs_append (re : Regex) (is js : List Instr) (L : List Loc) :
    evalInstrs re (is ++ js) L = (evalInstrs re is L).bind (evalInstrs re js) := by
  induction is generalizing L with
  | nil => rfl
  | cons i is ih =>
    rw [List.cons_append, evalInstrs, evalInstrs]
    cases h : i.eval re L with
    | error e => rfl
    | ok r => exact ih r

theorem filterE_ok {p : Loc → Except PyErr Bool} {q : Loc → Bool} {L : List Loc}
    (h : ∀ l ∈ L, p l = .ok (q l)) : filterE p L = .ok (L.filter q) := by
  induction L with
  | nil => rfl
  | cons l ls ih =>
    rw [filterE, h l (List.mem_cons_self ..), ih fun m hm => h m (List.mem_cons_of_mem _ hm),
      List.filter_cons]
    show Except.ok _ = _
    cases q l <;> rfl

theorem filterE_sub {p : Loc → Except PyErr Bool} {L R : List Loc} (h : filterE p L = .ok R) :
    ∀ l ∈ R, l ∈ L ∧ p l = .ok true := by
  induction L generalizing R with
  | nil => cases h; simp
  | cons a L ih =>
    rw [filterE] at h
    cases hb : p a with
    | error e => rw [hb] at h; cases h
    | ok b =>
      rw [hb] at h
      cases hr : filterE p L with
      | error e => rw [hr] at h; cases h
      | ok r =>
        rw [hr] at h
        injection h with h
        intro l hl
        cases b with
        | false =>
          rw [← h] at hl
          exact ⟨List.mem_cons_of_mem _ (ih hr l hl).1, (ih hr l hl).2⟩
        | true =>
          rw [← h] at hl
          rcases List.mem_cons.mp hl with rfl | hl
          · exact ⟨List.mem_cons_self .., hb⟩
          · exact ⟨List.mem_cons_of_mem _ (ih hr l hl).1, (ih hr l hl).2⟩

/-- Evaluation stays among the places of the world. -/
theorem eval_closed {re : Regex} {w : Node} {is : List Instr} {L R : List Loc}
    (h : evalInstrs re is L = .ok R) (hL : ∀ l ∈ L, l ∈ allLocs w) : ∀ l ∈ R, l ∈ allLocs w := by
  induction is generalizing L with
  | nil => cases h; exact hL
  | cons i is ih =>
    rw [evalInstrs] at h
    cases hi : i.eval re L with
    | error e => rw [hi] at h; cases h
    | ok r =>
      rw [hi] at h
      refine ih h ?_
      intro l hl
      cases i with
      | child n =>
        cases hi
        rw [List.mem_filter, List.mem_flatMap] at hl
        obtain ⟨⟨m, hm, hk⟩, _⟩ := hl
        obtain ⟨k, hk1, rfl⟩ := mem_kids.mp hk
        exact allLocs_kid (hL m hm) hk1
      | desc n =>
        cases hi
        simp only [List.mem_filter, List.mem_flatMap] at hl
        obtain ⟨⟨m, hm, m', hm', hk⟩, _⟩ := hl
        obtain ⟨k, hk1, rfl⟩ := mem_kids.mp hk
        exact allLocs_kid (allLocs_sub (hL m hm) hm') hk1
      | parent =>
        cases hi
        rw [List.mem_filterMap] at hl
        obtain ⟨m, hm, hp⟩ := hl
        exact (allLocs_parent (hL m hm) (parent_some.mp hp)).1
      | filter e =>
        exact hL l (filterE_sub hi l hl).1

/-- The instructions, when they do not fail, keep exactly the places that satisfy the condition. -/
def Selects (re : Regex) (is : List Instr) (c : Loc → Prop) : Prop :=
  ∀ L R, evalInstrs re is L = .ok R → ∀ l, l ∈ R ↔ l ∈ L ∧ c l

/-- The instructions do not fail. -/
def Total (re : Regex) (is : List Instr) : Prop := ∀ L, ∃ R, evalInstrs re is L = .ok R

/-- Instructions do not fail when their predicates do not. -/
theorem total_of {re : Regex} {is : List Instr} (h : ∀ e, Instr.filter e ∈ is → ∀ l, ∃ b, e.eval re l = .ok b) :
    Total re is := by
  induction is with
  | nil => exact fun L => ⟨L, rfl⟩
  | cons i is ih =>
    intro L
    have ih := ih fun e he => h e (List.mem_cons_of_mem _ he)
    rw [evalInstrs]
    have : ∃ r, i.eval re L = .ok r := by
      cases i with
      | child n => exact ⟨_, rfl⟩
      | desc n => exact ⟨_, rfl⟩
      | parent => exact ⟨_, rfl⟩
      | filter e =>
        have he := h e (List.mem_cons_self ..)
        show ∃ r, filterE (e.eval re) L = .ok r
        clear ih
        induction L with
        | nil => exact ⟨[], rfl⟩
        | cons l L ihL =>
          obtain ⟨b, hb⟩ := he l
          obtain ⟨r, hr⟩ := ihL
          exact ⟨if b then l :: r else r, by rw [filterE, hb, hr]; rfl⟩
    obtain ⟨r, hr⟩ := this
    obtain ⟨R, hR⟩ := ih r
    exact ⟨R, by rw [hr]; exact hR⟩

theorem selects_nil (re : Regex) : Selects re [] fun _ => True := fun L R h => by cases h; simp

theorem evalInstrs_append_ok {re : Regex} {is js : List Instr} {L R : List Loc}
    (h : evalInstrs re (is ++ js) L = .ok R) :
    ∃ M, evalInstrs re is L = .ok M ∧ evalInstrs re js M = .ok R := by
  rw [evalInstrs_append] at h
  cases hi : evalInstrs re is L with
  | error e => rw [hi] at h; cases h
  | ok M => rw [hi] at h; exact ⟨M, rfl, h⟩

theorem Selects.append {re : Regex} {is js : List Instr} {c d : Loc → Prop} (h : Selects re is c)
    (h' : Selects re js d) : Selects re (is ++ js) fun l => c l ∧ d l := by
  intro L R hR l
  obtain ⟨M, h1, h2⟩ := evalInstrs_append_ok hR
  rw [h' M R h2, h L M h1, and_assoc]

theorem Selects.congr {re : Regex} {is : List Instr} {c d : Loc → Prop} (h : Selects re is c)
    (e : ∀ l, c l ↔ d l) : Selects re is d := by
  intro L R hR l
  rw [h L R hR, e]

theorem selects_filter {re : Regex} {e : Ex} {q : Loc → Bool} (h : ∀ l b, e.eval re l = .ok b → b = q l) :
    Selects re [.filter e] fun l => q l = true := by
  intro L R hR l
  have hR : (filterE (e.eval re) L).bind (evalInstrs re []) = .ok R := hR
  have hf : filterE (e.eval re) L = .ok R := by
    cases hf : filterE (e.eval re) L with
    | error x => rw [hf] at hR; cases hR
    | ok M => rw [hf] at hR; exact hR
  clear hR
  have hok : ∀ (L R : List Loc), filterE (e.eval re) L = .ok R → ∀ m ∈ L, e.eval re m = .ok (q m) := by
    intro L
    induction L with
    | nil => intro R _ m hm; cases hm
    | cons a L ih =>
      intro R hR m hm
      rw [filterE] at hR
      cases hb : e.eval re a with
      | error x => rw [hb] at hR; cases hR
      | ok b =>
        rw [hb] at hR
        cases hr : filterE (e.eval re) L with
        | error x => rw [hr] at hR; cases hR
        | ok r =>
          rcases List.mem_cons.mp hm with rfl | hm
          · rw [hb, h m b hb]
          · exact ih r hr m hm
  rw [filterE_ok (hok L R hf)] at hf
  cases hf
  rw [List.mem_filter]

/-- Going down to a child, filtering, and back up. -/
theorem Selects.nest {re : Regex} {is : List Instr} {c : Loc → Prop} (h : Selects re is c) (n : Str) :
    Selects re (.child n :: is ++ [.parent])
      fun l => ∃ k ∈ l.node.kids, k.tag = n ∧ c ⟨k, l.node :: l.anc⟩ := by
  intro L R hR l
  obtain ⟨M, h1, h2⟩ := evalInstrs_append_ok hR
  have h1 : evalInstrs re is ((L.flatMap Loc.kids).filter fun l => l.node.tag == n) = .ok M := h1
  have hM := h _ M h1
  have h2 : Except.ok (M.filterMap Loc.parent) = Except.ok (ε := PyErr) R := h2
  injection h2 with h2
  subst h2
  rw [List.mem_filterMap]
  constructor
  · rintro ⟨m, hm, hp⟩
    rw [hM, List.mem_filter, List.mem_flatMap] at hm
    obtain ⟨⟨⟨l', hl', hk⟩, ht⟩, hc⟩ := hm
    obtain ⟨k, hk1, rfl⟩ := mem_kids.mp hk
    have := parent_some.mp hp
    injection this with e1 e2
    obtain ⟨ln, la⟩ := l
    obtain ⟨ln', la'⟩ := l'
    simp only at e1 e2
    subst e1; subst e2
    exact ⟨hl', k, hk1, by simpa using ht, hc⟩
  · rintro ⟨hl, k, hk, ht, hc⟩
    refine ⟨⟨k, l.node :: l.anc⟩, ?_, parent_some.mpr rfl⟩
    rw [hM, List.mem_filter, List.mem_flatMap]
    exact ⟨⟨⟨l, hl, mem_kids.mpr ⟨k, hk, rfl⟩⟩, by simpa using ht⟩, hc⟩

theorem mem_child {re : Regex} {n : Str} {L R : List Loc} (h : Instr.eval re (.child n) L = .ok R) {l : Loc} :
    l ∈ R ↔ ∃ m ∈ L, l.node.tag = n ∧ ∃ k ∈ m.node.kids, l = ⟨k, m.node :: m.anc⟩ := by
  cases h
  rw [List.mem_filter, List.mem_flatMap]
  constructor
  · rintro ⟨⟨m, hm, hk⟩, ht⟩
    exact ⟨m, hm, by simpa using ht, mem_kids.mp hk⟩
  · rintro ⟨m, hm, ht, hk⟩
    exact ⟨⟨m, hm, mem_kids.mpr hk⟩, by simpa using ht⟩

/-- `//n` from places: the strict descendants with that tag. -/
theorem mem_desc {re : Regex} {n : Str} {L R : List Loc} (h : Instr.eval re (.desc n) L = .ok R) {l : Loc} :
    l ∈ R ↔ ∃ m ∈ L, l.node.tag = n ∧ ∃ k ∈ m.node.kids, l ∈ locs (m.node :: m.anc) k := by
  cases h
  rw [List.mem_filter, List.mem_flatMap]
  constructor
  · rintro ⟨⟨m, hm, hk⟩, ht⟩
    refine ⟨m, hm, by simpa using ht, ?_⟩
    obtain ⟨m', hm', hk⟩ := List.mem_flatMap.mp hk
    obtain ⟨k, hk1, rfl⟩ := mem_kids.mp hk
    have h1 : (⟨k, m'.node :: m'.anc⟩ : Loc) ∈ locs m.anc m.node := locs_kid hm' hk1
    rcases mem_locs.mp hm' with rfl | ⟨c, hc, hc2⟩
    · exact ⟨k, hk1, self_mem_locs _ _⟩
    · exact ⟨c, hc, locs_kid hc2 hk1⟩
  · rintro ⟨m, hm, ht, k, hk, hl⟩
    refine ⟨⟨m, hm, ?_⟩, by simpa using ht⟩
    rcases locs_parent hl with rfl | ⟨p, r, e, h1, h2⟩
    · exact List.mem_flatMap.mpr ⟨m, self_mem_locs _ _, mem_kids.mpr ⟨k, hk, rfl⟩⟩
    · refine List.mem_flatMap.mpr ⟨⟨p, r⟩, mem_locs.mpr (Or.inr ⟨k, hk, h1⟩), mem_kids.mpr ⟨l.node, h2, ?_⟩⟩
      obtain ⟨ln, la⟩ := l
      simp only at e
      rw [e]

/-! ## The result of a query -/

/-- Where a path starts. -/
def startLocs (w : Node) (ctx : Option Nat) (abs : Bool) : List Loc :=
  if abs then [⟨docNode w, []⟩]
  else match ctx with
    | some i => (locOf w i).toList
    | none => (⟨docNode w, []⟩ : Loc).kids

theorem startLocs_mem (w : Node) (ctx : Option Nat) (abs : Bool) : ∀ l ∈ startLocs w ctx abs, l ∈ allLocs w := by
  intro l hl
  unfold startLocs at hl
  split at hl
  · rw [List.mem_singleton] at hl; rw [hl]; exact docNode_mem w
  · split at hl
    · rw [Option.mem_toList] at hl; exact (locOf_some hl).1
    · obtain ⟨k, hk, rfl⟩ := mem_kids.mp hl; exact allLocs_kid (docNode_mem w) hk

theorem query_eq (re : Regex) (w : Node) (ctx : Option Nat) (q : Str) : query re w ctx q =
    (parse q).bind fun p => (evalInstrs re p.instrs (startLocs w ctx p.abs)).bind fun r =>
      .ok ((allLocs w).filter fun l => l.node.id != 0 && r.any fun m => m.node.id == l.node.id) := rfl

theorem loc_pos {w : Node} (hw : World w) {l : Loc} (hl : l ∈ allLocs w) (ht : l.node.tag ≠ []) : l.node.id ≠ 0 := by
  intro e
  have : l = ⟨docNode w, []⟩ := allLocs_inj hw hl (docNode_mem w) e
  rw [this] at ht
  exact ht rfl

theorem below_pos {w : Node} (hw : World w) {x : Node} (hx : x ∈ w.kids.flatMap Node.nodes) : x.id ≠ 0 := by
  intro e
  have h := hw.uniq
  unfold Node.Uniq Node.ids at h
  rw [Node.nodes_eq, List.map_cons, List.nodup_cons, hw.id] at h
  exact h.1 (e ▸ List.mem_map_of_mem hx)

theorem node_pos {w : Node} (hw : World w) {x : Node} (hx : x ∈ w.nodes) (ht : x.tag ≠ []) : x.id ≠ 0 := by
  rw [Node.nodes_eq] at hx
  rcases List.mem_cons.mp hx with rfl | hx
  · exact absurd hw.tag ht
  · exact below_pos hw hx

/-- A query returns, in document order and without duplicates, the places its path reaches. -/
theorem query_ok {re : Regex} {w : Node} (hw : World w) {ctx : Option Nat} {q : Str} {p : Path}
    (hp : parse q = .ok p) {R : List Loc}
    (hR : evalInstrs re p.instrs (startLocs w ctx p.abs) = .ok R) :
    ∃ S, query re w ctx q = .ok S ∧ S.Sublist (allLocs w) ∧ ∀ l, l ∈ S ↔ l.node.id ≠ 0 ∧ l ∈ R := by
  refine ⟨_, ?_, List.filter_sublist (p := fun l => l.node.id != 0 && R.any fun m => m.node.id == l.node.id), ?_⟩
  · rw [query_eq, hp]
    show (evalInstrs re p.instrs (startLocs w ctx p.abs)).bind _ = _
    rw [hR]; rfl
  · intro l
    rw [List.mem_filter, Bool.and_eq_true, List.any_eq_true, bne_iff_ne]
    have hc := eval_closed hR (startLocs_mem w ctx p.abs)
    constructor
    · rintro ⟨hl, h0, m, hm, e⟩
      rw [allLocs_inj hw hl (hc m hm) (by simpa using (beq_iff_eq.mp e).symm)]
      refine ⟨?_, hm⟩
      rwa [beq_iff_eq.mp e]
    · rintro ⟨h0, hl⟩
      exact ⟨hc l hl, h0, l, hl, by simp⟩

end Verif.XPath
