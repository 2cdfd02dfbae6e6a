import Verif.Tree.Node
/-!
# Editing trees

The primitive lxml operations on elements, and what they do to what every element holds (`view`).
-/
namespace Verif
namespace Node

/-- The element with one more child, last. -/
def appendKid (x : Node) (m : Node) : Node := m.setKids (m.kids ++ [x])

/-- The element with one more child at a position; past the end: last. -/
def insertKid (pos : Nat) (x : Node) (m : Node) : Node :=
  m.setKids (m.kids.take pos ++ x :: m.kids.drop pos)

/-- The element without the child with id `x`. -/
def dropKid (x : Nat) (m : Node) : Node := m.setKids (m.kids.filter fun k => k.id != x)

/-- The tree without the element with id `x` and everything below it. -/
def unlink (x : Nat) (w : Node) : Node :=
  match w.parent? x with
  | none => w
  | some p => w.update p.id (dropKid x)

/-- Take element `x` out and put it at the end of the children of `d`. -/
def move (x d : Nat) (w : Node) : Node :=
  match w.get? x with
  | none => w
  | some n => (w.unlink x).update d (appendKid n)

/-- Take element `x` out and put it at position `pos` among the remaining children of `d`. -/
def moveTo (x d pos : Nat) (w : Node) : Node :=
  match w.get? x with
  | none => w
  | some n => (w.unlink x).update d (insertKid pos n)

@[simp] theorem setKids_id (ks) (m : Node) : (m.setKids ks).id = m.id := by cases m; rfl
@[simp] theorem setKids_kids (ks) (m : Node) : (m.setKids ks).kids = ks := by cases m; rfl
@[simp] theorem setText_id (x) (m : Node) : (m.setText x).id = m.id := by cases m; rfl
@[simp] theorem setText_kids (x) (m : Node) : (m.setText x).kids = m.kids := by cases m; rfl
@[simp] theorem setAttr_id (k v) (m : Node) : (m.setAttr k v).id = m.id := by cases m; rfl
@[simp] theorem setAttr_kids (k v) (m : Node) : (m.setAttr k v).kids = m.kids := by cases m; rfl
theorem setKids_rec (ks) (m : Node) : (m.setKids ks).rec' = { m.rec' with kids := ks.map Node.id } := by
  cases m; rfl
theorem setText_rec (x) (m : Node) : (m.setText x).rec' = { m.rec' with text := x } := by cases m; rfl

/-- A list of attributes after `attrib[k] = v`. -/
def putAttr (k v : Str) (a : List (Str × Str)) : List (Str × Str) :=
  if a.any (·.1 == k) then a.map fun p => if p.1 == k then (k, v) else p else a ++ [(k, v)]

theorem setAttr_rec (k v) (m : Node) :
    (m.setAttr k v).rec' = { m.rec' with attrs := putAttr k v m.attrs } := by cases m; rfl

theorem putAttr_lookup (k v : Str) (a : List (Str × Str)) (j : Str) :
    (putAttr k v a).lookup j = if j = k then some v else a.lookup j := by
  unfold putAttr
  split
  · next h =>
    induction a with
    | nil => simp at h
    | cons p a ih =>
      obtain ⟨p1, p2⟩ := p
      rw [List.map_cons]
      by_cases hp : p1 = k
      · subst hp
        simp only [BEq.rfl, if_true, List.lookup]
        by_cases hj : j = p1
        · subst hj; simp
        · rw [if_neg hj]
          rw [show (j == p1) = false by simpa using hj]
          simp only
          clear ih h
          induction a with
          | nil => rfl
          | cons q a ih2 =>
            obtain ⟨q1, q2⟩ := q
            rw [List.map_cons]
            by_cases hq : q1 = p1
            · subst hq
              simp only [BEq.rfl, if_true, List.lookup, show (j == q1) = false by simpa using hj]
              exact ih2
            · simp only [show (q1 == p1) = false by simpa using hq, Bool.false_eq_true, if_false, List.lookup]
              cases j == q1 with
              | true => rfl
              | false => exact ih2
      · have h' : a.any (·.1 == k) = true := by
          rw [List.any_cons] at h
          simpa [hp] using h
        simp only [show (p1 == k) = false by simpa using hp, Bool.false_eq_true, if_false, List.lookup]
        cases hj : j == p1 with
        | true =>
          have : j = p1 := by simpa using hj
          subst this
          rw [if_neg hp]
        | false => exact ih h'
  · next h =>
    induction a with
    | nil =>
      simp only [List.nil_append, List.lookup]
      by_cases hj : j = k
      · subst hj; simp
      · rw [show (j == k) = false by simpa using hj, if_neg hj]
    | cons p a ih =>
      obtain ⟨p1, p2⟩ := p
      rw [List.any_cons] at h
      simp only [Bool.or_eq_true, not_or, beq_iff_eq] at h
      simp only [List.cons_append, List.lookup]
      cases hj : j == p1 with
      | true =>
        have : j = p1 := by simpa using hj
        subst this
        rw [if_neg h.1]
      | false => exact ih h.2

/-! ## Parents -/

theorem parent?_some {w p : Node} {x : Nat} (h : w.parent? x = some p) :
    p ∈ w.nodes ∧ ∃ k ∈ p.kids, k.id = x := by
  unfold parent? at h
  refine ⟨List.mem_of_find?_eq_some h, ?_⟩
  have := List.find?_some h
  simp only [List.any_eq_true, beq_iff_eq] at this
  exact this

theorem kid_of_ids {w : Node} {x : Nat} : x ∈ w.ids → x ≠ w.id → ∃ p ∈ w.nodes, ∃ k ∈ p.kids, k.id = x := by
  induction w using ind with
  | h i t a s ks ih =>
    intro hx hne
    rw [ids_eq] at hx
    rcases List.mem_cons.mp hx with rfl | hx1
    · exact absurd rfl hne
    · obtain ⟨k, hk, hx2⟩ := List.mem_flatMap.mp hx1
      by_cases e : x = k.id
      · exact ⟨_, self_mem_nodes _, k, hk, e.symm⟩
      · obtain ⟨p, hp, c, hc, ec⟩ := ih k hk hx2 e
        exact ⟨p, nodes_trans (kid_mem_nodes (n := mk i t a s ks) hk) hp, c, hc, ec⟩

theorem parent?_exists {w : Node} {x : Nat} (h : x ∈ w.ids) (hne : x ≠ w.id) : ∃ p, w.parent? x = some p := by
  obtain ⟨p, hp, k, hk, e⟩ := kid_of_ids h hne
  cases hq : w.parent? x with
  | some q => exact ⟨q, rfl⟩
  | none =>
    unfold parent? at hq
    refine absurd ?_ (List.find?_eq_none.mp hq p hp)
    simp only [List.any_eq_true, beq_iff_eq]
    exact ⟨k, hk, e⟩

/-- Proper descendants have another id. -/
theorem below_ne {n : Node} (hu : n.Uniq) {x : Node} (hx : x ∈ n.kids.flatMap nodes) : x.id ≠ n.id := by
  intro e
  refine (uniq_kids hu).1 ?_
  obtain ⟨k, hk, hxk⟩ := List.mem_flatMap.mp hx
  exact List.mem_flatMap.mpr ⟨k, hk, e ▸ mem_nodes_ids hxk⟩

/-- Two lists of disjoint subtrees. -/
theorem kids_disjoint {n k c : Node} (hu : n.Uniq) (hk : k ∈ n.kids) (hc : c ∈ n.kids) {i : Nat}
    (h1 : i ∈ k.ids) (h2 : i ∈ c.ids) : k = c := by
  have h := (uniq_kids hu).2
  generalize n.kids = ks at h hk hc
  induction ks with
  | nil => cases hk
  | cons a l ih =>
    rw [List.flatMap_cons, List.nodup_append] at h
    rcases List.mem_cons.mp hk with rfl | hk1 <;> rcases List.mem_cons.mp hc with rfl | hc1
    · rfl
    · exact absurd rfl (h.2.2 i h1 i (List.mem_flatMap.mpr ⟨c, hc1, h2⟩))
    · exact absurd rfl (h.2.2 i h2 i (List.mem_flatMap.mpr ⟨k, hk1, h1⟩))
    · exact ih h.2.1 hk1 hc1

/-- An element has one parent. -/
theorem parent_unique {w : Node} (hu : w.Uniq) {p q k c : Node} (hp : p ∈ w.nodes) (hq : q ∈ w.nodes)
    (hk : k ∈ p.kids) (hc : c ∈ q.kids) (e : k.id = c.id) : p = q := by
  revert p q
  induction w using ind with
  | h i t a s ks ih =>
    intro p q hp hq hk hc
    have hroot : ∀ {q : Node} {c d : Node}, q ∈ (mk i t a s ks).nodes → c ∈ q.kids → d ∈ (mk i t a s ks).kids →
        c.id = d.id → q = mk i t a s ks := by
      intro q c d hq hc hd e
      rw [nodes_mk] at hq
      rcases List.mem_cons.mp hq with rfl | hq1
      · rfl
      · obtain ⟨b, hb, hqb⟩ := List.mem_flatMap.mp hq1
        exfalso
        have hcb : c.id ∈ b.ids := mem_nodes_ids (nodes_trans hqb (kid_mem_nodes hc))
        have : b = d := kids_disjoint hu hb hd hcb (e ▸ id_mem_ids d)
        subst this
        have hub := uniq_sub hu (kid_mem_nodes hd)
        refine below_ne hub (x := c) ?_ e
        rw [nodes_eq] at hqb
        rcases List.mem_cons.mp hqb with rfl | hqb
        · exact List.mem_flatMap.mpr ⟨c, hc, self_mem_nodes c⟩
        · obtain ⟨b2, hb2, hqb2⟩ := List.mem_flatMap.mp hqb
          exact List.mem_flatMap.mpr ⟨b2, hb2, nodes_trans hqb2 (kid_mem_nodes hc)⟩
    have hp0 := hp
    have hq0 := hq
    rw [nodes_mk] at hp hq
    rcases List.mem_cons.mp hp with rfl | hp1
    · exact (hroot hq0 hc hk e.symm).symm
    · rcases List.mem_cons.mp hq with rfl | hq1
      · exact hroot hp0 hk hc e
      · obtain ⟨b, hb, hpb⟩ := List.mem_flatMap.mp hp1
        obtain ⟨b', hb', hqb⟩ := List.mem_flatMap.mp hq1
        have h1 : k.id ∈ b.ids := mem_nodes_ids (nodes_trans hpb (kid_mem_nodes hk))
        have h2 : k.id ∈ b'.ids := e ▸ mem_nodes_ids (nodes_trans hqb (kid_mem_nodes hc))
        have : b = b' := kids_disjoint hu hb hb' h1 h2
        subst this
        exact ih b hb (uniq_sub hu (kid_mem_nodes (n := mk i t a s ks) hb)) hpb hqb hk hc

/-! ## What edits do to views -/

/-- Changing an element but not its children. -/
theorem view_update {w : Node} (hu : w.Uniq) (i : Nat) (f : Node → Node)
    (hid : ∀ m, (f m).id = m.id) (hk : ∀ m, (f m).kids = m.kids) :
    (update i f w).ids = w.ids ∧ (update i f w).Uniq ∧
    ∀ j, (update i f w).view j = if j = i then (w.get? i).map fun m => (f m).rec' else w.view j := by
  cases hg : w.get? i with
  | none =>
    rw [update_not_mem i f w (get?_none.mp hg)]
    refine ⟨rfl, hu, fun j => ?_⟩
    split
    · next h => subst h; exact view_none.mpr (get?_none.mp hg)
    · rfl
  | some x =>
    obtain ⟨hx, hxi⟩ := get?_some hg
    obtain ⟨A, B, e1, e2⟩ := update_recs hu hg f (fun m hm => by rw [hid]; exact hm)
    have e3 : (f x).recs = (i, (f x).rec') :: x.kids.flatMap recs := by
      rw [recs_eq, hid, hk, hxi]
    have e4 : x.recs = (i, x.rec') :: x.kids.flatMap recs := by rw [recs_eq, hxi]
    have hids : (update i f w).ids = w.ids := by
      rw [← recs_ids, ← recs_ids, e1, e2, e3, e4]
      simp
    have hu' : (update i f w).Uniq := by unfold Uniq; rw [hids]; exact hu
    refine ⟨hids, hu', fun j => ?_⟩
    apply Option.ext
    intro r
    rw [view_iff hu', e2, e3]
    split
    · next h =>
      subst h
      have hn : j ∉ (A ++ x.kids.flatMap recs ++ B).map Prod.fst := by
        have hh := hu
        unfold Uniq at hh
        rw [← recs_ids, e1, e4] at hh
        intro hm
        simp only [List.map_append, List.map_cons, List.append_assoc, List.cons_append] at hh hm
        rw [List.nodup_append, List.nodup_cons] at hh
        rcases List.mem_append.mp hm with hm | hm
        · exact hh.2.2 j hm j (List.mem_cons_self ..) rfl
        · exact hh.2.1.1 hm
      constructor
      · intro hm
        have : (j, r) ∈ A ++ x.kids.flatMap recs ++ B ∨ (j, r) = (j, (f x).rec') := by
          simp only [List.mem_append, List.mem_cons] at hm ⊢
          grind
        rcases this with h1 | h1
        · exact absurd (List.mem_map_of_mem (f := Prod.fst) h1) hn
        · injection h1 with _ h1; rw [h1]; rfl
      · intro h
        have h : (f x).rec' = r := by simpa using h
        subst h
        simp
    · next h =>
      rw [view_iff hu, e1, e4]
      simp only [List.mem_append, List.mem_cons, Prod.mk.injEq]
      constructor
      · rintro ((h1 | ⟨h1, _⟩ | h1) | h1)
        · exact .inl (.inl h1)
        · exact absurd h1 h
        · exact .inl (.inr (.inr h1))
        · exact .inr h1
      · rintro ((h1 | ⟨h1, _⟩ | h1) | h1)
        · exact .inl (.inl h1)
        · exact absurd h1 h
        · exact .inl (.inr (.inr h1))
        · exact .inr h1

theorem view_setText {w : Node} (hu : w.Uniq) (i : Nat) (x : Option Str) :
    (update i (setText x) w).ids = w.ids ∧ (update i (setText x) w).Uniq ∧
    ∀ j, (update i (setText x) w).view j =
      (w.view j).map fun r => if j = i then { r with text := x } else r := by
  obtain ⟨h1, h2, h3⟩ := view_update hu i (setText x) (by simp) (by simp)
  refine ⟨h1, h2, fun j => ?_⟩
  rw [h3 j]
  split
  · next h =>
    subst h
    unfold view
    rw [Option.map_map]
    congr 1
    funext m
    exact setText_rec x m
  · simp

theorem view_setAttr {w : Node} (hu : w.Uniq) (i : Nat) (k v : Str) :
    (update i (setAttr k v) w).ids = w.ids ∧ (update i (setAttr k v) w).Uniq ∧
    ∀ j, (update i (setAttr k v) w).view j =
      (w.view j).map fun r => if j = i then { r with attrs := putAttr k v r.attrs } else r := by
  obtain ⟨h1, h2, h3⟩ := view_update hu i (setAttr k v) (by simp) (by simp)
  refine ⟨h1, h2, fun j => ?_⟩
  rw [h3 j]
  split
  · next h =>
    subst h
    unfold view
    rw [Option.map_map]
    congr 1
    funext m
    exact setAttr_rec k v m
  · simp

/-- The children of elements are elements. -/
theorem view_kid {w : Node} (hu : w.Uniq) {j : Nat} {r : Rec} (h : w.view j = some r) {x : Nat}
    (hx : x ∈ r.kids) : ∃ p k, w.get? j = some p ∧ k ∈ p.kids ∧ k.id = x ∧ w.get? x = some k := by
  unfold view at h
  rw [Option.map_eq_some_iff] at h
  obtain ⟨p, hp, rfl⟩ := h
  have hx : x ∈ p.kids.map Node.id := hx
  obtain ⟨k, hk, e⟩ := List.mem_map.mp hx
  refine ⟨p, k, hp, hk, e, ?_⟩
  rw [← e]
  exact get?_mem hu (nodes_trans (get?_some hp).1 (kid_mem_nodes hk))

theorem view_parent_unique {w : Node} (hu : w.Uniq) {i j : Nat} {r s : Rec} (hi : w.view i = some r)
    (hj : w.view j = some s) {x : Nat} (hx : x ∈ r.kids) (hy : x ∈ s.kids) : i = j := by
  obtain ⟨p, k, hp, hk, e, _⟩ := view_kid hu hi hx
  obtain ⟨q, c, hq, hc, e', _⟩ := view_kid hu hj hy
  have := parent_unique hu (get?_some hp).1 (get?_some hq).1 hk hc (e.trans e'.symm)
  rw [← (get?_some hp).2, ← (get?_some hq).2, this]

theorem filter_ne_self {l : List Nat} {x : Nat} (h : x ∉ l) : l.filter (· != x) = l := by
  rw [List.filter_eq_self]
  intro a ha
  simp only [bne_iff_ne, ne_eq]
  rintro rfl; exact h ha

theorem filter_ids (ks : List Node) (x : Nat) :
    (ks.filter fun k => k.id != x).map Node.id = (ks.map Node.id).filter (· != x) := by
  rw [List.filter_map]; rfl

/-- Splitting the elements of the tree at one child. -/
theorem recs_kid {w p k : Node} (hu : w.Uniq) (hp : p ∈ w.nodes) (hk : k ∈ p.kids) :
    ∃ A B C, w.recs = A ++ (p.id, p.rec') :: (B ++ k.recs ++ C) ∧
      (update p.id (dropKid k.id) w).recs =
        A ++ (p.id, { p.rec' with kids := p.rec'.kids.filter (· != k.id) }) :: (B ++ C) := by
  have hg : w.get? p.id = some p := get?_mem hu hp
  obtain ⟨A, B, e1, e2⟩ := update_recs hu hg (dropKid k.id) (fun m hm => by unfold dropKid; rw [setKids_id]; exact hm)
  obtain ⟨l, r, e⟩ := List.append_of_mem hk
  have hnd := kids_ids_nodup (uniq_sub hu hp)
  have hfil : (p.kids.filter fun c => c.id != k.id) = l ++ r := by
    rw [e, List.map_append, List.map_cons, List.nodup_append, List.nodup_cons] at hnd
    rw [e, List.filter_append, List.filter_cons]
    simp only [bne_self_eq_false, Bool.false_eq_true, if_false]
    congr 1
    · rw [List.filter_eq_self]
      intro c hc
      simp only [bne_iff_ne, ne_eq]
      intro hh
      exact hnd.2.2 c.id (List.mem_map_of_mem hc) k.id (List.mem_cons_self ..) hh
    · rw [List.filter_eq_self]
      intro c hc
      simp only [bne_iff_ne, ne_eq]
      intro hh
      exact hnd.2.1.1 (hh ▸ List.mem_map_of_mem hc)
  refine ⟨A, l.flatMap recs, r.flatMap recs ++ B, ?_, ?_⟩
  · rw [e1, recs_eq p, e]
    simp only [List.flatMap_append, List.flatMap_cons, List.append_assoc, List.cons_append]
  · rw [e2]
    have : (dropKid k.id p).recs = (p.id, { p.rec' with kids := p.rec'.kids.filter (· != k.id) }) ::
        (l.flatMap recs ++ r.flatMap recs) := by
      unfold dropKid
      rw [recs_eq, setKids_id, setKids_kids, setKids_rec, filter_ids, hfil, List.flatMap_append]
      rfl
    rw [this]
    simp only [List.append_assoc, List.cons_append]

/-- Taking an element out. -/
theorem view_unlink {w n : Node} (hu : w.Uniq) {x : Nat} (hx : w.get? x = some n) (hr : x ≠ w.id) :
    (w.unlink x).Uniq ∧ (∀ j, j ∈ (w.unlink x).ids ↔ j ∈ w.ids ∧ j ∉ n.ids) ∧
      (w.unlink x).id = w.id ∧
      ∀ j, (w.unlink x).view j = if j ∈ n.ids then none else
        (w.view j).map fun r => { r with kids := r.kids.filter (· != x) } := by
  have hxm : x ∈ w.ids := by obtain ⟨h1, h2⟩ := get?_some hx; rw [← h2]; exact mem_nodes_ids h1
  obtain ⟨p, hp⟩ := parent?_exists hxm hr
  obtain ⟨hpm, k, hk, ek⟩ := parent?_some hp
  have hkn : k = n := by
    have := get?_mem hu (nodes_trans hpm (kid_mem_nodes hk))
    rw [ek, hx] at this
    injection this with this; exact this.symm
  subst hkn
  subst ek
  have eu : w.unlink k.id = update p.id (dropKid k.id) w := by unfold unlink; rw [hp]
  obtain ⟨A, B, C, e1, e2⟩ := recs_kid hu hpm hk
  rw [eu]
  have hnd : (w.recs.map Prod.fst).Nodup := by rw [recs_ids]; exact hu
  have hnd0 := hnd
  rw [e1] at hnd
  simp only [List.map_append, List.map_cons, recs_ids] at hnd
  have hu' : (update p.id (dropKid k.id) w).Uniq := by
    unfold Uniq
    rw [← recs_ids, e2]
    refine hnd.sublist ?_
    simp only [List.map_append, List.map_cons]
    refine List.Sublist.append_left ?_ _
    refine List.Sublist.cons_cons _ ?_
    refine List.Sublist.append ?_ (List.Sublist.refl _)
    exact List.sublist_append_left ..
  have hdisj : ∀ j r, (j, r) ∈ A ++ (p.id, p.rec') :: (B ++ C) → j ∉ k.ids := by
    intro j r hm hj
    rw [List.nodup_append] at hnd
    obtain ⟨_, h2, h3⟩ := hnd
    rw [List.nodup_cons, List.nodup_append, List.nodup_append] at h2
    have hjm : j ∈ (A ++ (p.id, p.rec') :: (B ++ C)).map Prod.fst := List.mem_map_of_mem (f := Prod.fst) hm
    simp only [List.map_append, List.map_cons, List.mem_append, List.mem_cons] at hjm
    rcases hjm with h | h | h | h
    · exact h3 j h j (by simp [hj]) rfl
    · exact h2.1 (by simp [← h, hj])
    · exact h2.2.1.2.2 j h j hj rfl
    · exact h2.2.2.2 j (by simp [hj]) j h rfl
  have hids : ∀ j, j ∈ (update p.id (dropKid k.id) w).ids ↔ j ∈ w.ids ∧ j ∉ k.ids := by
    intro j
    rw [← recs_ids, ← recs_ids, e1, e2]
    simp only [List.map_append, List.map_cons, List.mem_append, List.mem_cons, recs_ids]
    constructor
    · intro h
      have hm : j ∈ (A ++ (p.id, p.rec') :: (B ++ C)).map Prod.fst := by
        simp only [List.map_append, List.map_cons, List.mem_append, List.mem_cons]; exact h
      obtain ⟨⟨j', r⟩, hm', rfl⟩ := List.mem_map.mp hm
      refine ⟨?_, hdisj _ r hm'⟩
      rcases h with h | h | h | h
      · exact .inl h
      · exact .inr (.inl h)
      · exact .inr (.inr (.inl (.inl h)))
      · exact .inr (.inr (.inr h))
    · rintro ⟨h | h | (h | h) | h, hn⟩
      · exact .inl h
      · exact .inr (.inl h)
      · exact .inr (.inr (.inl h))
      · exact absurd h hn
      · exact .inr (.inr (.inr h))
  refine ⟨hu', hids, update_id _ _ (fun m hm => by unfold dropKid; rw [setKids_id]; exact hm) w, fun j => ?_⟩
  by_cases hj : j ∈ k.ids
  · rw [if_pos hj, view_none, hids]
    exact fun h => h.2 hj
  · rw [if_neg hj]
    by_cases hjp : j = p.id
    · subst hjp
      have h1 : (update p.id (dropKid k.id) w).view p.id =
          some { p.rec' with kids := p.rec'.kids.filter (· != k.id) } := by
        rw [view_iff hu', e2]; simp
      have h2 : w.view p.id = some p.rec' := by rw [view_iff hu, e1]; simp
      rw [h1, h2]; rfl
    · apply Option.ext
      intro r
      rw [view_iff hu', e2]
      have key : (j, r) ∈ A ++ (p.id, { p.rec' with kids := p.rec'.kids.filter (· != k.id) }) :: (B ++ C) ↔
          w.view j = some r := by
        rw [view_iff hu, e1]
        simp only [List.mem_append, List.mem_cons, Prod.mk.injEq, hjp, false_and, false_or]
        constructor
        · rintro (h | h | h)
          · exact .inl h
          · exact .inr (.inl (.inl h))
          · exact .inr (.inr h)
        · rintro (h | (h | h) | h)
          · exact .inl h
          · exact .inr (.inl h)
          · exact absurd (recs_ids k ▸ List.mem_map_of_mem (f := Prod.fst) h) hj
          · exact .inr (.inr h)
      rw [key]
      have hself : ∀ s, w.view j = some s → s.kids.filter (· != k.id) = s.kids := by
        intro s hs
        refine filter_ne_self fun hm => hjp ?_
        have hpv : w.view p.id = some p.rec' := by rw [view_iff hu, e1]; simp
        exact view_parent_unique hu hs hpv hm (List.mem_map_of_mem hk)
      cases hv : w.view j with
      | none => simp
      | some s =>
        simp only [Option.map_some, hself s hv]

/-- Putting a new child into an element. -/
theorem view_insert {w x : Node} (hu : w.Uniq) {d : Nat} (hd : d ∈ w.ids) (hxu : x.Uniq)
    (hfresh : ∀ j ∈ x.ids, j ∉ w.ids) (g : List Node → List Node)
    (hg : ∀ ks, ∃ l r, ks = l ++ r ∧ g ks = l ++ x :: r) (gi : List Nat → List Nat)
    (hgi : ∀ ks : List Node, (g ks).map Node.id = gi (ks.map Node.id)) :
    let w' := w.update d fun m => m.setKids (g m.kids)
    w'.Uniq ∧ (∀ j, j ∈ w'.ids ↔ j ∈ w.ids ∨ j ∈ x.ids) ∧ w'.id = w.id ∧
      ∀ j, w'.view j = if j ∈ x.ids then x.view j else
        (w.view j).map fun r => if j = d then { r with kids := gi r.kids } else r := by
  intro w'
  obtain ⟨m, hm⟩ := get?_exists hd
  obtain ⟨hmm, rfl⟩ := get?_some hm
  obtain ⟨A, B, e1, e2⟩ := update_recs hu hm (fun m => m.setKids (g m.kids)) (fun m hm => by simpa using hm)
  obtain ⟨l, r, ek, eg⟩ := hg m.kids
  have f1 : w.recs = A ++ (m.id, m.rec') :: (l.flatMap recs ++ (r.flatMap recs ++ B)) := by
    rw [e1, recs_eq, ek]; simp
  have f2 : w'.recs = A ++ (m.id, { m.rec' with kids := gi m.rec'.kids }) ::
      (l.flatMap recs ++ (x.recs ++ (r.flatMap recs ++ B))) := by
    rw [e2, recs_eq, setKids_id, setKids_kids, setKids_rec, hgi, eg]; simp [rec']
  have hnd : (w.recs.map Prod.fst).Nodup := by rw [recs_ids]; exact hu
  have hids : ∀ j, j ∈ w'.ids ↔ j ∈ w.ids ∨ j ∈ x.ids := by
    intro j
    rw [← recs_ids, ← recs_ids, f1, f2]
    simp only [List.map_append, List.map_cons, List.mem_append, List.mem_cons, recs_ids]
    grind
  have hu' : w'.Uniq := by
    unfold Uniq
    rw [← recs_ids, f2]
    have hperm : (A ++ (m.id, { m.rec' with kids := gi m.rec'.kids }) ::
      (l.flatMap recs ++ (x.recs ++ (r.flatMap recs ++ B)))).map Prod.fst |>.Perm (w.ids ++ x.ids) := by
      rw [← recs_ids w, ← recs_ids x, f1]
      simp only [List.map_append, List.map_cons, List.append_assoc, List.cons_append]
      refine List.Perm.append_left _ ?_
      refine List.Perm.cons _ ?_
      refine List.Perm.append_left _ ?_
      refine List.perm_append_comm.trans ?_
      rw [List.append_assoc]
    rw [hperm.nodup_iff, List.nodup_append]
    exact ⟨hu, hxu, fun a ha b hb e => hfresh b hb (e ▸ ha)⟩
  refine ⟨hu', hids, update_id _ _ (fun m hm => by simpa using hm) w, fun j => ?_⟩
  by_cases hj : j ∈ x.ids
  · rw [if_pos hj]
    obtain ⟨y, hy⟩ := get?_exists hj
    have hv : x.view j = some y.rec' := by unfold view; rw [hy]; rfl
    rw [hv, view_iff hu', f2]
    have : (j, y.rec') ∈ x.recs := (view_iff hxu).mp hv
    simp [this]
  · rw [if_neg hj]
    have hjx : ∀ s, (j, s) ∉ x.recs := fun s hs => hj (recs_ids x ▸ List.mem_map_of_mem (f := Prod.fst) hs)
    by_cases hjd : j = m.id
    · subst hjd
      have h1 : w'.view m.id = some { m.rec' with kids := gi m.rec'.kids } := by
        rw [view_iff hu', f2]; simp
      have h2 : w.view m.id = some m.rec' := by rw [view_iff hu, f1]; simp
      rw [h1, h2]; simp
    · simp only [hjd, if_false]
      rw [Option.map_id']
      apply Option.ext
      intro s
      rw [view_iff hu', view_iff hu, f1, f2]
      simp only [List.mem_append, List.mem_cons, Prod.mk.injEq, hjd, false_and, false_or, hjx, false_or]

/-- Adding a new element last. -/
theorem view_append {w x : Node} (hu : w.Uniq) {d : Nat} (hd : d ∈ w.ids) (hxu : x.Uniq)
    (hfresh : ∀ j ∈ x.ids, j ∉ w.ids) :
    (w.update d (appendKid x)).Uniq ∧ (∀ j, j ∈ (w.update d (appendKid x)).ids ↔ j ∈ w.ids ∨ j ∈ x.ids) ∧
      (w.update d (appendKid x)).id = w.id ∧
      ∀ j, (w.update d (appendKid x)).view j = if j ∈ x.ids then x.view j else
        (w.view j).map fun r => if j = d then { r with kids := r.kids ++ [x.id] } else r :=
  view_insert hu hd hxu hfresh (fun ks => ks ++ [x]) (fun ks => ⟨ks, [], by simp, rfl⟩)
    (fun ks => ks ++ [x.id]) (fun ks => by simp)

/-- Adding a new element at a position. -/
theorem view_insertKid {w x : Node} (hu : w.Uniq) {d pos : Nat} (hd : d ∈ w.ids) (hxu : x.Uniq)
    (hfresh : ∀ j ∈ x.ids, j ∉ w.ids) :
    (w.update d (insertKid pos x)).Uniq ∧ (∀ j, j ∈ (w.update d (insertKid pos x)).ids ↔ j ∈ w.ids ∨ j ∈ x.ids) ∧
      (w.update d (insertKid pos x)).id = w.id ∧
      ∀ j, (w.update d (insertKid pos x)).view j = if j ∈ x.ids then x.view j else
        (w.view j).map fun r => if j = d then { r with kids := r.kids.take pos ++ x.id :: r.kids.drop pos } else r :=
  view_insert hu hd hxu hfresh (fun ks => ks.take pos ++ x :: ks.drop pos)
    (fun ks => ⟨ks.take pos, ks.drop pos, by simp, rfl⟩)
    (fun ks => ks.take pos ++ x.id :: ks.drop pos) (fun ks => by simp [List.map_take, List.map_drop])

/-- The elements of a subtree hold what they hold in the tree. -/
theorem view_sub {w n : Node} (hu : w.Uniq) (hn : n ∈ w.nodes) {j : Nat} (hj : j ∈ n.ids) : n.view j = w.view j := by
  obtain ⟨y, hy⟩ := get?_exists hj
  obtain ⟨h1, h2⟩ := get?_some hy
  unfold view
  rw [hy, ← h2, get?_mem hu (nodes_trans hn h1)]

/-- Nothing below an element has it as a child. -/
theorem kid_not_self {w n : Node} (hu : w.Uniq) (hn : n ∈ w.nodes) {j : Nat} (hj : j ∈ n.ids) {r : Rec}
    (hr : w.view j = some r) : n.id ∉ r.kids := by
  intro hm
  rw [← view_sub hu hn hj] at hr
  have hun := uniq_sub hu hn
  obtain ⟨p, k, hp, hk, e, _⟩ := view_kid hun hr hm
  refine below_ne hun (x := k) ?_ e
  obtain ⟨hpn, _⟩ := get?_some hp
  rw [nodes_eq] at hpn
  rcases List.mem_cons.mp hpn with rfl | hpn
  · exact List.mem_flatMap.mpr ⟨k, hk, self_mem_nodes k⟩
  · obtain ⟨c, hc, hpc⟩ := List.mem_flatMap.mp hpn
    exact List.mem_flatMap.mpr ⟨c, hc, nodes_trans hpc (kid_mem_nodes hk)⟩

/-- Moving an element. -/
theorem view_moveTo {w n : Node} (hu : w.Uniq) {x d : Nat} (hx : w.get? x = some n) (hr : x ≠ w.id)
    (hd : d ∈ w.ids) (hdn : d ∉ n.ids) (f : Node → Node) (gi : List Nat → List Nat)
    (hf : ∀ {w : Node}, w.Uniq → d ∈ w.ids → (∀ j ∈ n.ids, j ∉ w.ids) →
      (w.update d f).Uniq ∧ (∀ j, j ∈ (w.update d f).ids ↔ j ∈ w.ids ∨ j ∈ n.ids) ∧
      (w.update d f).id = w.id ∧
      ∀ j, (w.update d f).view j = if j ∈ n.ids then n.view j else
        (w.view j).map fun r => if j = d then { r with kids := gi r.kids } else r) :
    ((w.unlink x).update d f).Uniq ∧ (∀ j, j ∈ ((w.unlink x).update d f).ids ↔ j ∈ w.ids) ∧
      ((w.unlink x).update d f).id = w.id ∧
      ∀ j, ((w.unlink x).update d f).view j =
        (w.view j).map fun r => 
          { r with kids := if j = d then gi (r.kids.filter (· != x)) else r.kids.filter (· != x) } := by
  obtain ⟨hn, hid⟩ := get?_some hx
  obtain ⟨u1, u2, u3, u4⟩ := view_unlink hu hx hr
  have hd' : d ∈ (w.unlink x).ids := (u2 d).mpr ⟨hd, hdn⟩
  obtain ⟨a1, a2, a3, a4⟩ := hf u1 hd' (fun j hj h => ((u2 j).mp h).2 hj)
  have hsub : ∀ j ∈ n.ids, j ∈ w.ids := by
    intro j hj
    obtain ⟨y, hy, rfl⟩ := List.mem_map.mp hj
    exact mem_nodes_ids (nodes_trans hn hy)
  refine ⟨a1, fun j => ?_, a3.trans u3, fun j => ?_⟩
  · rw [a2, u2]
    constructor
    · rintro (h | h)
      · exact h.1
      · exact hsub j h
    · intro h
      by_cases hj : j ∈ n.ids
      · exact .inr hj
      · exact .inl ⟨h, hj⟩
  · rw [a4, u4]
    by_cases hj : j ∈ n.ids
    · rw [if_pos hj, view_sub hu hn hj]
      have hjd : j ≠ d := fun e => hdn (e ▸ hj)
      simp only [hjd, if_false]
      cases hv : w.view j with
      | none => rfl
      | some r =>
        have := kid_not_self hu hn hj hv
        rw [hid] at this
        simp only [Option.map_some, filter_ne_self this]
    · rw [if_neg hj, if_neg hj, Option.map_map]
      congr 1
      funext r
      simp only [Function.comp_apply]
      by_cases hjd : j = d
      · simp [hjd]
      · simp [hjd]

theorem view_move {w n : Node} (hu : w.Uniq) {x d : Nat} (hx : w.get? x = some n) (hr : x ≠ w.id)
    (hd : d ∈ w.ids) (hdn : d ∉ n.ids) :
    (w.move x d).Uniq ∧ (∀ j, j ∈ (w.move x d).ids ↔ j ∈ w.ids) ∧ (w.move x d).id = w.id ∧
      ∀ j, (w.move x d).view j = (w.view j).map fun r => 
          { r with kids := if j = d then r.kids.filter (· != x) ++ [x] else r.kids.filter (· != x) } := by
  obtain ⟨hn, hid⟩ := get?_some hx
  have hun := uniq_sub hu hn
  have := view_moveTo hu hx hr hd hdn (appendKid n) (fun ks => ks ++ [x])
    (fun h1 h2 h3 => by rw [← hid]; exact view_append h1 h2 hun h3)
  unfold move
  rw [hx]
  exact this

theorem view_moveTo' {w n : Node} (hu : w.Uniq) {x d pos : Nat} (hx : w.get? x = some n) (hr : x ≠ w.id)
    (hd : d ∈ w.ids) (hdn : d ∉ n.ids) :
    (w.moveTo x d pos).Uniq ∧ (∀ j, j ∈ (w.moveTo x d pos).ids ↔ j ∈ w.ids) ∧ (w.moveTo x d pos).id = w.id ∧
      ∀ j, (w.moveTo x d pos).view j = (w.view j).map fun r => 
          { r with kids := if j = d then (r.kids.filter (· != x)).take pos ++ x :: (r.kids.filter (· != x)).drop pos else r.kids.filter (· != x) } := by
  obtain ⟨hn, hid⟩ := get?_some hx
  have hun := uniq_sub hu hn
  have := view_moveTo hu hx hr hd hdn (insertKid pos n) (fun ks => ks.take pos ++ x :: ks.drop pos)
    (fun h1 h2 h3 => by rw [← hid]; exact view_insertKid h1 h2 hun h3)
  unfold moveTo
  rw [hx]
  exact this

end Node
end Verif
