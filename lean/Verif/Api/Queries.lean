import Verif.Api.Lemmas
/-!
# The queries of the methods, read as statements about the elements
-/
namespace Verif.Api
open Verif XPath Spec

/-! ## Elements and what they hold -/

theorem node_rec {s : Db} {i : Nat} {n : Node} (h : s.world.get? i = some n) : s.heap i = some n.rec' := by
  unfold Db.heap Node.view; rw [h]; rfl

theorem node_tag {s : Db} {i : Nat} {n : Node} (h : s.world.get? i = some n) : s.heap.tag i = n.tag := by
  unfold Heap.tag; rw [node_rec h]; rfl
theorem node_text {s : Db} {i : Nat} {n : Node} (h : s.world.get? i = some n) : s.heap.text i = n.text := by
  unfold Heap.text; rw [node_rec h]; rfl
theorem node_kids {s : Db} {i : Nat} {n : Node} (h : s.world.get? i = some n) : s.heap.kids i = n.kids.map Node.id := by
  unfold Heap.kids; rw [node_rec h]; rfl
theorem node_attr {s : Db} {i : Nat} {n : Node} (h : s.world.get? i = some n) (k : Str) :
    s.heap.attr i k = n.attr k := by
  unfold Heap.attr; rw [node_rec h]; rfl

theorem kid_get {w n k : Node} (hu : w.Uniq) (hn : n ∈ w.nodes) (hk : k ∈ n.kids) : w.get? k.id = some k :=
  Node.get?_mem hu (Node.nodes_trans hn (Node.kid_mem_nodes hk))

theorem filter_map_ids {ks : List Node} {p : Nat → Bool} {q : Node → Bool} (h : ∀ k ∈ ks, p k.id = q k) :
    (ks.map Node.id).filter p = (ks.filter q).map Node.id := by
  induction ks with
  | nil => rfl
  | cons k ks ih =>
    rw [List.map_cons, List.filter_cons, List.filter_cons, h k (List.mem_cons_self ..),
      ih fun x hx => h x (List.mem_cons_of_mem _ hx)]
    cases q k <;> rfl

theorem flatMap_map_ids {ks : List Node} {f : Nat → List Nat} {g : Node → List Node}
    (h : ∀ k ∈ ks, f k.id = (g k).map Node.id) : (ks.map Node.id).flatMap f = (ks.flatMap g).map Node.id := by
  induction ks with
  | nil => rfl
  | cons k ks ih =>
    rw [List.map_cons, List.flatMap_cons, List.flatMap_cons, List.map_append, h k (List.mem_cons_self ..),
      ih fun x hx => h x (List.mem_cons_of_mem _ hx)]

theorem node_all {s : Db} (hs : Inv s) {n : Node} (h : n ∈ s.world.nodes) (t : Str) :
    s.heap.all n.id t = (n.kids.filter fun k => k.tag == t).map Node.id := by
  unfold Heap.all
  rw [node_kids (Node.get?_mem hs.world.uniq h)]
  exact filter_map_ids fun k hk => by rw [node_tag (kid_get hs.world.uniq h hk)]

theorem node_descend {s : Db} (hs : Inv s) (p : List Str) : ∀ {n : Node}, n ∈ s.world.nodes →
    findDeep.go s.heap p n.id = (descend p n).map Node.id := by
  induction p with
  | nil => intro n _; rfl
  | cons t p ih =>
    intro n h
    rw [findDeep.go, descend, node_all hs h]
    refine flatMap_map_ids fun k hk => ih ?_
    exact Node.nodes_trans h (Node.kid_mem_nodes (List.mem_filter.mp hk).1)

theorem node_hasKey {s : Db} (hs : Inv s) {n : Node} (h : n ∈ s.world.nodes) (key : Str) :
    hasKey s.heap n.id key = n.kids.any fun c => c.tag == "Key".toList && c.text == some key := by
  unfold hasKey
  rw [node_all hs h, List.any_map, List.any_filter]
  rw [Bool.eq_iff_iff, List.any_eq_true, List.any_eq_true]
  have : ∀ c ∈ n.kids, s.heap.text c.id = c.text := fun c hc => node_text (kid_get hs.world.uniq h hc)
  constructor
  · rintro ⟨c, hc, e⟩
    refine ⟨c, hc, ?_⟩
    simpa only [Function.comp, this c hc] using e
  · rintro ⟨c, hc, e⟩
    refine ⟨c, hc, ?_⟩
    simpa only [Function.comp, this c hc] using e

/-- The `String` children with the key. -/
def stringNodes (n : Node) (key : Str) : List Node :=
  n.kids.filter fun s => s.tag == "String".toList && s.kids.any fun c => c.tag == "Key".toList && c.text == some key

theorem node_fieldEls {s : Db} (hs : Inv s) {n : Node} (h : n ∈ s.world.nodes) (key : Str) :
    fieldEls s.heap n.id key = (stringNodes n key).map Node.id := by
  unfold fieldEls stringNodes
  rw [node_all hs h]
  rw [filter_map_ids (q := fun s => s.kids.any fun c => c.tag == "Key".toList && c.text == some key), List.filter_filter]
  · congr 1
    apply List.filter_congr
    intro k _
    rw [Bool.and_comm]
  · intro k hk
    exact node_hasKey hs (Node.nodes_trans h (Node.kid_mem_nodes (List.mem_filter.mp hk).1)) key

theorem node_valueEls {s : Db} (hs : Inv s) {n : Node} (h : n ∈ s.world.nodes) (key : Str) :
    valueEls s.heap n.id key = (fieldNodes n key).map Node.id := by
  unfold valueEls
  rw [node_fieldEls hs h]
  unfold fieldNodes stringNodes
  refine flatMap_map_ids fun k hk => ?_
  exact node_all hs (Node.nodes_trans h (Node.kid_mem_nodes (List.mem_filter.mp hk).1)) _

/-! ## Order -/

theorem sublist_flatMap {f : Node → List Node} {ks : List Node} {k : Node} (hk : k ∈ ks) :
    (f k).Sublist (ks.flatMap f) := by
  induction ks with
  | nil => cases hk
  | cons k' ks ih =>
    rw [List.flatMap_cons]
    rcases List.mem_cons.mp hk with rfl | hk
    · exact List.sublist_append_left ..
    · exact (ih hk).trans (List.sublist_append_right ..)

theorem nodes_sublist {n : Node} : ∀ {x : Node}, x ∈ n.nodes → x.nodes.Sublist n.nodes := by
  induction n using Node.ind with
  | h i t a s ks ih =>
    intro x hx
    rw [Node.nodes_mk] at hx ⊢
    rcases List.mem_cons.mp hx with rfl | hx
    · rw [Node.nodes_mk]; exact List.Sublist.refl _
    · refine List.Sublist.cons _ ?_
      obtain ⟨k, hk, hx⟩ := List.mem_flatMap.mp hx
      refine (ih k hk hx).trans ?_
      exact sublist_flatMap hk

theorem flatMap_sublist {ks : List Node} {f g : Node → List Node} (h : ∀ k ∈ ks, (f k).Sublist (g k)) :
    (ks.flatMap f).Sublist (ks.flatMap g) := by
  induction ks with
  | nil => exact List.Sublist.refl _
  | cons k ks ih =>
    rw [List.flatMap_cons, List.flatMap_cons]
    exact (h k (List.mem_cons_self ..)).append (ih fun x hx => h x (List.mem_cons_of_mem _ hx))

theorem flatMap_filter_sublist {ks : List Node} {p : Node → Bool} {g : Node → List Node} :
    ((ks.filter p).flatMap g).Sublist (ks.flatMap g) := by
  induction ks with
  | nil => exact List.Sublist.refl _
  | cons k ks ih =>
    rw [List.filter_cons]
    split
    · rw [List.flatMap_cons, List.flatMap_cons]; exact (List.Sublist.refl _).append ih
    · rw [List.flatMap_cons]; exact ih.trans (List.sublist_append_right ..)

theorem kids_sublist (n : Node) : n.kids.Sublist n.nodes := by
  rw [Node.nodes_eq]
  refine List.Sublist.cons _ ?_
  generalize n.kids = ks
  induction ks with
  | nil => exact List.Sublist.refl _
  | cons k ks ih =>
    rw [List.flatMap_cons, Node.nodes_eq]
    exact (List.Sublist.refl [k] |>.append (ih.trans (List.sublist_append_right ..)) : ([k] ++ ks).Sublist _)

theorem descend_sublist (p : List Str) : ∀ n : Node, (descend p n).Sublist n.nodes := by
  induction p with
  | nil =>
    intro n
    rw [Node.nodes_eq]
    exact (List.nil_sublist _).cons_cons n
  | cons t p ih =>
    intro n
    rw [descend, Node.nodes_eq]
    exact List.Sublist.cons _ ((flatMap_sublist fun k _ => ih k).trans flatMap_filter_sublist)

theorem fieldNodes_sublist (n : Node) (key : Str) : (fieldNodes n key).Sublist n.nodes := by
  unfold fieldNodes
  rw [Node.nodes_eq]
  refine List.Sublist.cons _ ?_
  exact (flatMap_sublist fun k _ => List.filter_sublist.trans (kids_sublist k)).trans flatMap_filter_sublist

/-! ## Results -/

/-- A query whose path reaches the elements of a list in document order returns that list. -/
theorem query_ids {re : Regex} {w : Node} (hw : World w) {ctx : Option Nat} {q : Str} {p : Path}
    (hp : parse q = .ok p) {R : List Loc} (hR : evalInstrs re p.instrs (startLocs w ctx p.abs) = .ok R)
    {ns : List Node} (hns : ns.Sublist w.nodes) (h0 : ∀ x ∈ ns, x.id ≠ 0) (hm : ∀ x, x ∈ ns ↔ ∃ l ∈ R, l.node = x) :
    ((query re w ctx q).map fun ls => ls.map fun l => l.node.id) = .ok (ns.map Node.id) := by
  obtain ⟨S, hS, hsub, hmem⟩ := query_ok hw hp hR
  rw [hS]
  show Except.ok _ = _
  congr 1
  refine sublist_unique hw.uniq ?_ (hns.map Node.id) fun i => ?_
  · rw [← allLocs_ids hw.id]; exact hsub.map _
  · rw [List.mem_map, List.mem_map]
    constructor
    · rintro ⟨l, hl, rfl⟩
      exact ⟨l.node, (hm _).mpr ⟨l, ((hmem l).mp hl).2, rfl⟩, rfl⟩
    · rintro ⟨x, hx, rfl⟩
      obtain ⟨l, hl, rfl⟩ := (hm x).mp hx
      exact ⟨l, (hmem l).mpr ⟨h0 _ hx, hl⟩, rfl⟩

/-- Where a relative query starts. -/
theorem start_rel {w n : Node} (hw : World w) {e : Nat} (he : e ≠ 0) (h : w.get? e = some n) :
    ∃ l, startLocs w (some e) false = [l] ∧ l.node = n ∧ l ∈ allLocs w := by
  obtain ⟨hn, hid⟩ := Node.get?_some h
  rcases world_nodes hn with rfl | hb
  · exact absurd (hid.symm.trans hw.id) he
  · obtain ⟨l, hl, rfl⟩ := node_allLocs hb
    refine ⟨l, ?_, rfl, hl⟩
    show (locOf w e).toList = _
    rw [← hid, locOf_mem hw hl]
    rfl

/-- Steps to children. -/
theorem eval_children (re : Regex) (p : List Str) : ∀ L : List Loc,
    ∃ R, evalInstrs re (p.map Instr.child) L = .ok R ∧ R.map Loc.node = L.flatMap fun l => descend p l.node := by
  induction p with
  | nil =>
    intro L
    refine ⟨L, rfl, ?_⟩
    induction L with
    | nil => rfl
    | cons l L ih => rw [List.map_cons, List.flatMap_cons, ih]; rfl
  | cons t p ih =>
    intro L
    obtain ⟨R, h1, h2⟩ := ih ((L.flatMap Loc.kids).filter fun l => l.node.tag == t)
    refine ⟨R, h1, ?_⟩
    rw [h2]
    clear h1 h2 ih
    induction L with
    | nil => rfl
    | cons l L ihL =>
      rw [List.flatMap_cons, List.filter_append, List.flatMap_append, ihL, List.flatMap_cons]
      congr 1
      rw [descend]
      unfold Loc.kids
      generalize l.node.kids = ks
      generalize l.node :: l.anc = anc
      induction ks with
      | nil => rfl
      | cons k ks ihk =>
        rw [List.map_cons, List.filter_cons, List.filter_cons]
        show (if (k.tag == t) = true then _ else _ : List Loc).flatMap _ = _
        cases k.tag == t
        · simp only [Bool.false_eq_true, if_false]; exact ihk
        · simp only [if_true, List.flatMap_cons]; rw [ihk]

/-! ## The string fields of an entry -/

/-- The steps of `String/Key[text()="key"]/..`. -/
def fieldInstrs (key : Str) : List Instr :=
  [.child "String".toList, .child "Key".toList, .filter (.eq .text (.lit key)), .parent]

theorem parse_field {key : Str} (h : Plain key) : parse (fieldQuery key) = .ok ⟨false, fieldInstrs key⟩ := by
  have e : fieldQuery key = "String/Key[text()=\"".toList ++ (key ++ "\"]/..".toList) := rfl
  rw [e]
  refine Reads.parse ⟨(by decide : XmlText "String/Key[text()=\"".toList).append (h.xml.append (by decide)),
    ⟨.normal, [.name "String".toList, .slash, .name "Key".toList, .lbr, .name "text".toList, .lpar, .rpar, .eq,
    .lit key, .rbr, .slash, .ddot]⟩, ?_, Or.inl rfl, rfl⟩
  rw [lexRun_value (out := [.name "String".toList, .slash, .name "Key".toList, .lbr, .name "text".toList, .lpar, .rpar, .eq])
    (by decide +kernel) h]
  rfl

theorem parse_value {key : Str} (h : Plain key) :
    parse (valueQuery key) = .ok ⟨false, fieldInstrs key ++ [.child "Value".toList]⟩ := by
  have e : valueQuery key = "String/Key[text()=\"".toList ++ (key ++ "\"]/../Value".toList) := rfl
  rw [e]
  refine Reads.parse ⟨(by decide : XmlText "String/Key[text()=\"".toList).append (h.xml.append (by decide)),
    ⟨.name "Value".toList, [.name "String".toList, .slash, .name "Key".toList, .lbr, .name "text".toList, .lpar, .rpar, .eq,
    .lit key, .rbr, .slash, .ddot, .slash]⟩, ?_, Or.inr ⟨_, rfl⟩, rfl⟩
  rw [lexRun_value (out := [.name "String".toList, .slash, .name "Key".toList, .lbr, .name "text".toList, .lpar, .rpar, .eq])
    (by decide +kernel) h]
  rfl

theorem eval_field (re : Regex) (key : Str) (l : Loc) : ∃ R, evalInstrs re (fieldInstrs key) [l] = .ok R ∧
    ∀ x, x ∈ stringNodes l.node key ↔ ∃ m ∈ R, m.node = x := by
  have hev : ∀ m : Loc, Ex.eval re m (.eq .text (.lit key)) = .ok (m.node.text == some key) := by
    intro m
    show Except.ok ((m.node.text.toList).any fun x => [key].any fun y => x == y) = _
    cases m.node.text with
    | none => rfl
    | some t => simp
  have hsel : Selects re (.child "Key".toList :: [.filter (.eq .text (.lit key))] ++ [.parent]) _ :=
    (selects_filter (re := re) (e := .eq .text (.lit key)) (q := fun m => m.node.text == some key)
      fun m b h => by rw [hev m] at h; injection h with h; exact h.symm).nest "Key".toList
  have htot : Total re (.child "Key".toList :: [.filter (.eq .text (.lit key))] ++ [.parent]) := by
    apply total_of
    intro e he m
    simp only [List.cons_append, List.nil_append, List.mem_cons, List.not_mem_nil, or_false, false_or, reduceCtorEq,
      Instr.filter.injEq] at he
    subst he
    exact ⟨_, hev m⟩
  obtain ⟨R, hR⟩ := htot (([l].flatMap Loc.kids).filter fun m => m.node.tag == "String".toList)
  refine ⟨R, hR, fun x => ?_⟩
  have hm := hsel _ R hR
  unfold stringNodes
  rw [List.mem_filter, Bool.and_eq_true, List.any_eq_true]
  constructor
  · rintro ⟨hx, ht, c, hc, hck⟩
    refine ⟨⟨x, l.node :: l.anc⟩, (hm _).mpr ⟨?_, c, hc, ?_⟩, rfl⟩
    · rw [List.mem_filter]
      refine ⟨?_, ht⟩
      rw [List.flatMap_cons, List.flatMap_nil, List.append_nil]
      exact mem_kids.mpr ⟨x, hx, rfl⟩
    · rw [Bool.and_eq_true] at hck
      exact ⟨by simpa using hck.1, hck.2⟩
  · rintro ⟨m, hmR, rfl⟩
    obtain ⟨h1, c, hc, h2, h3⟩ := (hm m).mp hmR
    rw [List.mem_filter, List.flatMap_cons, List.flatMap_nil, List.append_nil] at h1
    obtain ⟨k, hk, rfl⟩ := mem_kids.mp h1.1
    exact ⟨hk, h1.2, c, hc, by rw [Bool.and_eq_true]; exact ⟨by simpa using h2, h3⟩⟩

theorem xpath_field (env : Env) {s : Db} (hs : Inv s) {e : Nat} (he : e ≠ 0) (hm : e ∈ s.world.ids) {key : Str}
    (hk : Plain key) : xpath env (some e) (fieldQuery key) s = (.ok (fieldEls s.heap e key), s) := by
  obtain ⟨n, hn⟩ := Node.get?_exists hm
  obtain ⟨hn1, hn2⟩ := Node.get?_some hn
  obtain ⟨l, hl, hln, _⟩ := start_rel hs.world he hn
  obtain ⟨R, hR, hRm⟩ := eval_field env.re key l
  unfold xpath
  rw [query_ids hs.world (parse_field hk) (ns := stringNodes n key) (by rw [hl]; exact hR)
    (List.filter_sublist.trans ((kids_sublist n).trans (nodes_sublist hn1)))
    (fun x hx => by
      obtain ⟨h1, h2⟩ := List.mem_filter.mp hx
      refine node_pos hs.world (Node.nodes_trans hn1 (Node.kid_mem_nodes h1)) ?_
      rw [Bool.and_eq_true, beq_iff_eq] at h2
      rw [h2.1]; decide)
    (by rw [← hln]; exact hRm)]
  rw [← node_fieldEls hs hn1, hn2]

theorem xpath_value (env : Env) {s : Db} (hs : Inv s) {e : Nat} (he : e ≠ 0) (hm : e ∈ s.world.ids) {key : Str}
    (hk : Plain key) : xpath env (some e) (valueQuery key) s = (.ok (valueEls s.heap e key), s) := by
  obtain ⟨n, hn⟩ := Node.get?_exists hm
  obtain ⟨hn1, hn2⟩ := Node.get?_some hn
  obtain ⟨l, hl, hln, _⟩ := start_rel hs.world he hn
  obtain ⟨R, hR, hRm⟩ := eval_field env.re key l
  have hR2 : evalInstrs env.re (fieldInstrs key ++ [.child "Value".toList]) [l] =
      .ok ((R.flatMap Loc.kids).filter fun m => m.node.tag == "Value".toList) := by
    rw [evalInstrs_append, hR]; rfl
  unfold xpath
  rw [query_ids hs.world (parse_value hk) (ns := fieldNodes n key) (by rw [hl]; exact hR2)
    ((fieldNodes_sublist n key).trans (nodes_sublist hn1))
    (fun x hx => by
      refine node_pos hs.world (((fieldNodes_sublist n key).trans (nodes_sublist hn1)).subset hx) ?_
      obtain ⟨k, _, h⟩ := List.mem_flatMap.mp hx
      rw [beq_iff_eq.mp (List.mem_filter.mp h).2]; decide) ?_]
  · rw [← node_valueEls hs hn1, hn2]
  · intro x
    have e : fieldNodes n key = (stringNodes n key).flatMap fun s => s.kids.filter fun v => v.tag == "Value".toList := rfl
    rw [e, List.mem_flatMap]
    constructor
    · rintro ⟨t, ht, hx⟩
      rw [List.mem_filter] at hx
      obtain ⟨m, hmR, rfl⟩ := (hRm t).mp (by rw [hln]; exact ht)
      refine ⟨⟨x, m.node :: m.anc⟩, ?_, rfl⟩
      rw [List.mem_filter, List.mem_flatMap]
      exact ⟨⟨m, hmR, mem_kids.mpr ⟨x, hx.1, rfl⟩⟩, hx.2⟩
    · rintro ⟨m, hmf, rfl⟩
      rw [List.mem_filter, List.mem_flatMap] at hmf
      obtain ⟨⟨a, ha, hk2⟩, ht⟩ := hmf
      obtain ⟨k, hk3, rfl⟩ := mem_kids.mp hk2
      refine ⟨a.node, ?_, List.mem_filter.mpr ⟨hk3, ht⟩⟩
      rw [← hln]
      exact (hRm _).mpr ⟨a, ha, rfl⟩

theorem first_field (env : Env) {s : Db} (hs : Inv s) {e : Nat} (he : e ≠ 0) (hm : e ∈ s.world.ids) {key : Str}
    (hk : Plain key) : xpathFirst env (some e) (fieldQuery key) s = (.ok (fieldEls s.heap e key).head?, s) := by
  unfold xpathFirst; rw [bind_of (xpath_field env hs he hm hk)]; rfl

theorem first_value (env : Env) {s : Db} (hs : Inv s) {e : Nat} (he : e ≠ 0) (hm : e ∈ s.world.ids) {key : Str}
    (hk : Plain key) : xpathFirst env (some e) (valueQuery key) s = (.ok (valueEls s.heap e key).head?, s) := by
  unfold xpathFirst; rw [bind_of (xpath_value env hs he hm hk)]; rfl

/-- Reading a field. -/
theorem getField_run (env : Env) {s : Db} (hs : Inv s) {e : Nat} (he : e ≠ 0) (hm : e ∈ s.world.ids) {key : Str}
    (hk : Plain key) : getField env e key s = (.ok (field s.heap e key), s) := by
  unfold getField field
  rw [bind_of (first_value env hs he hm hk)]
  cases (valueEls s.heap e key).head? with
  | none => rfl
  | some v => rfl

/-! ## Settings in `Meta` -/

/-- The elements `/KeePassFile/Meta/name`. -/
def metaEls (h : Heap) (name : Str) : List Nat :=
  ((h.kids 0).take 1).flatMap fun d =>
    if h.tag d = "KeePassFile".toList then (h.all d "Meta".toList).flatMap fun m => h.all m name else []

/-- A query that is an absolute path of tags. -/
theorem xpath_abs (env : Env) {s : Db} (hs : Inv s) {q : Str} {t : Str} {p : List Str}
    (hq : parse q = .ok ⟨true, (t :: p).map Instr.child⟩) (ctx : Option Nat) :
    xpath env ctx q s = (.ok (((s.heap.kids 0).take 1).flatMap fun d =>
      if s.heap.tag d = t then findDeep.go s.heap p d else []), s) := by
  obtain ⟨R, hR, hRn⟩ := eval_children env.re (t :: p) [⟨docNode s.world, []⟩]
  have hRn : R.map Loc.node = descend (t :: p) (docNode s.world) := by
    rw [hRn, List.flatMap_cons, List.flatMap_nil, List.append_nil]
  have hsub : (descend (t :: p) (docNode s.world)).Sublist (s.world.kids.flatMap Node.nodes) := by
    rw [descend]
    refine (flatMap_sublist fun k _ => descend_sublist p k).trans ?_
    refine (flatMap_filter_sublist (ks := (docNode s.world).kids)).trans ?_
    show ((s.world.kids.take 1).flatMap _).Sublist _
    cases s.world.kids with
    | nil => exact List.nil_sublist _
    | cons k ks =>
      rw [List.take_succ_cons, List.take_zero, List.flatMap_cons, List.flatMap_nil, List.append_nil, List.flatMap_cons]
      exact List.sublist_append_left ..
  unfold xpath
  rw [query_ids hs.world hq (ns := descend (t :: p) (docNode s.world)) (R := R) hR
    (by rw [Node.nodes_eq]; exact hsub.cons _) (fun x hx => below_pos hs.world (hsub.subset hx))]
  · congr 2
    have h0 : s.world.get? 0 = some s.world := by
      rw [← hs.world.id]; exact Node.get?_mem hs.world.uniq (Node.self_mem_nodes _)
    rw [node_kids h0, descend]
    show (((s.world.kids.take 1).filter _).flatMap _).map _ = _
    cases hk : s.world.kids with
    | nil => rfl
    | cons k ks =>
      have hkm : k ∈ s.world.kids := by rw [hk]; exact List.mem_cons_self ..
      have hkn : k ∈ s.world.nodes := Node.kid_mem_nodes hkm
      simp only [List.take_succ_cons, List.take_zero, List.map_cons, List.flatMap_cons, List.flatMap_nil, List.append_nil]
      rw [node_tag (kid_get hs.world.uniq (Node.self_mem_nodes _) hkm), List.filter_cons]
      by_cases ht : k.tag = t
      · rw [if_pos (by simpa using ht), if_pos ht, node_descend hs p hkn]
        simp
      · rw [if_neg (by simpa using ht), if_neg ht]
        rfl
  · intro x
    rw [← hRn, List.mem_map]

/-- A name that is read as one token. -/
def TagName (n : Str) : Prop := XmlText (metaQuery n) ∧ lexRun ⟨.normal, []⟩ (metaQuery n) =
  ⟨.name n, [.slash, .name "KeePassFile".toList, .slash, .name "Meta".toList, .slash]⟩

instance (n : Str) : Decidable (TagName n) := by unfold TagName; infer_instance

theorem parse_meta {n : Str} (h : TagName n) : parse (metaQuery n) =
    .ok ⟨true, ["KeePassFile".toList, "Meta".toList, n].map Instr.child⟩ :=
  Reads.parse ⟨h.1, _, h.2, Or.inr ⟨_, rfl⟩, rfl⟩

theorem xpath_meta (env : Env) {s : Db} (hs : Inv s) {n : Str} (h : TagName n) :
    xpath env none (metaQuery n) s = (.ok (metaEls s.heap n), s) := by
  rw [xpath_abs env hs (parse_meta h)]
  unfold metaEls
  have : ∀ (h : Heap) (d : Nat), findDeep.go h ["Meta".toList, n] d = (h.all d "Meta".toList).flatMap fun m => h.all m n := by
    intro h d
    simp only [findDeep.go]
    congr 1
    funext m
    simp
  simp only [this]

theorem metaEl_run (env : Env) {s : Db} (hs : Inv s) {n : Str} (h : TagName n) :
    metaEl env n s = (.ok (metaEls s.heap n).head?, s) := by
  unfold metaEl xpathFirst; rw [bind_of (xpath_meta env hs h)]; rfl

end Verif.Api
