import Verif.Tree.Xml
/-!
# Element trees with identity

lxml elements are mutable objects with identity: two handles to one element see the same changes.
An element is a `Node` with an `id`; handles are ids.  All elements a program can reach form one
tree, the *world*: a virtual root (id 0) whose first child is the document element and whose other
children are the detached elements.  Simplification: elements that no handle refers to any more are
kept in the world.
-/
namespace Verif

/-- An element with identity. Tails, comments and namespaces are not modelled (see `Xml`). -/
inductive Node where
  | mk (id : Nat) (tag : Str) (attrs : List (Str × Str)) (text : Option Str) (kids : List Node)
  deriving Repr

namespace Node

def id : Node → Nat | mk i _ _ _ _ => i
def tag : Node → Str | mk _ t _ _ _ => t
def attrs : Node → List (Str × Str) | mk _ _ a _ _ => a
def text : Node → Option Str | mk _ _ _ x _ => x
def kids : Node → List Node | mk _ _ _ _ k => k

/-- `elem.get(name)`. -/
def attr (n : Node) (name : Str) : Option Str := n.attrs.lookup name

/-- `elem.text = x`. -/
def setText (x : Option Str) : Node → Node | mk i t a _ ks => mk i t a x ks
/-- The same element with other children. -/
def setKids (ks : List Node) : Node → Node | mk i t a x _ => mk i t a x ks
/-- `elem.attrib[k] = v`: replaced in place, or added last. -/
def setAttr (k v : Str) : Node → Node
  | mk i t a x ks =>
    mk i t (if a.any (·.1 == k) then a.map fun p => if p.1 == k then (k, v) else p else a ++ [(k, v)]) x ks

mutual
/-- The elements of a tree in document order. -/
def nodes : Node → List Node
  | mk i t a x ks => mk i t a x ks :: nodesL ks
def nodesL : List Node → List Node
  | [] => []
  | k :: ks => nodes k ++ nodesL ks
end

mutual
/-- Apply `f` to the element with id `i`. -/
def update (i : Nat) (f : Node → Node) : Node → Node
  | mk j t a x ks => if j = i then f (mk j t a x ks) else mk j t a x (updateL i f ks)
def updateL (i : Nat) (f : Node → Node) : List Node → List Node
  | [] => []
  | k :: ks => update i f k :: updateL i f ks
end

mutual
/-- The content of an element, without identities. -/
def xml : Node → Xml
  | mk _ t a x ks => Xml.mk t a x (xmlL ks)
def xmlL : List Node → List Xml
  | [] => []
  | k :: ks => xml k :: xmlL ks
end

mutual
/-- New elements with the given content, numbered from `n`; also the next free number. -/
def ofXml : Nat → Xml → Node × Nat
  | n, .mk t a x ks =>
    let r := ofXmlL (n + 1) ks
    (mk n t a x r.1, r.2)
def ofXmlL : Nat → List Xml → List Node × Nat
  | n, [] => ([], n)
  | n, k :: ks =>
    let r := ofXml n k
    let s := ofXmlL r.2 ks
    (r.1 :: s.1, s.2)
end

/-- The ids of a tree in document order. -/
def ids (n : Node) : List Nat := n.nodes.map Node.id

/-- The element with id `i`. -/
def get? (i : Nat) (n : Node) : Option Node := n.nodes.find? fun x => x.id == i

/-- The element one of whose children has id `i`. -/
def parent? (i : Nat) (n : Node) : Option Node := n.nodes.find? fun p => p.kids.any fun k => k.id == i

/-- What an element holds itself, its children by id. -/
structure Rec where
  tag : Str
  attrs : List (Str × Str)
  text : Option Str
  kids : List Nat
  deriving DecidableEq, Repr

def rec' (n : Node) : Rec := ⟨n.tag, n.attrs, n.text, n.kids.map Node.id⟩

/-- All elements with what they hold, in document order. -/
def recs (n : Node) : List (Nat × Rec) := n.nodes.map fun x => (x.id, x.rec')

/-- What element `i` holds. -/
def view (n : Node) (i : Nat) : Option Rec := (n.get? i).map Node.rec'

/-! ## Basic lemmas -/

/-- Induction on trees. -/
theorem ind {P : Node → Prop} (h : ∀ i t a x ks, (∀ k ∈ ks, P k) → P (mk i t a x ks)) :
    ∀ x, P x := by
  intro x
  refine Node.rec (motive_1 := P) (motive_2 := fun ks => ∀ k ∈ ks, P k) ?_ ?_ ?_ x
  · intro i t a x ks ih; exact h i t a x ks ih
  · intro k hk; cases hk
  · intro k ks hk hks k' hk'
    cases hk' with
    | head => exact hk
    | tail _ h => exact hks k' h

theorem nodesL_eq (ks : List Node) : nodesL ks = ks.flatMap nodes := by
  induction ks with
  | nil => rfl
  | cons k ks ih => simp [nodesL, ih]

theorem updateL_eq (i f) (ks : List Node) : updateL i f ks = ks.map (update i f) := by
  induction ks with
  | nil => rfl
  | cons k ks ih => simp [updateL, ih]

theorem xmlL_eq (ks : List Node) : xmlL ks = ks.map xml := by
  induction ks with
  | nil => rfl
  | cons k ks ih => simp [xmlL, ih]

theorem nodes_mk (i t a x ks) : nodes (mk i t a x ks) = mk i t a x ks :: ks.flatMap nodes := by
  rw [nodes, nodesL_eq]

theorem nodes_eq (n : Node) : n.nodes = n :: n.kids.flatMap nodes := by
  cases n; exact nodes_mk ..

theorem update_mk (i f j t a x ks) : update i f (mk j t a x ks) =
    if j = i then f (mk j t a x ks) else mk j t a x (ks.map (update i f)) := by
  rw [update, updateL_eq]

theorem xml_mk (i t a x ks) : xml (mk i t a x ks) = Xml.mk t a x (ks.map xml) := by
  rw [xml, xmlL_eq]

theorem self_mem_nodes (n : Node) : n ∈ n.nodes := by rw [nodes_eq]; exact List.mem_cons_self ..

theorem ids_eq (n : Node) : n.ids = n.id :: n.kids.flatMap ids := by
  unfold ids
  rw [nodes_eq, List.map_cons, List.map_flatMap]

theorem id_mem_ids (n : Node) : n.id ∈ n.ids := by rw [ids_eq]; exact List.mem_cons_self ..

theorem recs_eq (n : Node) : n.recs = (n.id, n.rec') :: n.kids.flatMap recs := by
  unfold recs
  rw [nodes_eq, List.map_cons, List.map_flatMap]

theorem recs_ids (n : Node) : n.recs.map Prod.fst = n.ids := by
  unfold recs ids; rw [List.map_map]; rfl

theorem mem_nodes_ids {n x : Node} (h : x ∈ n.nodes) : x.id ∈ n.ids := List.mem_map_of_mem h

/-- Elements of elements are elements. -/
theorem nodes_trans {n : Node} : ∀ {x y : Node}, x ∈ n.nodes → y ∈ x.nodes → y ∈ n.nodes := by
  induction n using ind with
  | h i t a x ks ih =>
    intro y z hy hz
    rw [nodes_mk] at hy ⊢
    rcases List.mem_cons.mp hy with rfl | hy
    · rw [nodes_mk] at hz; exact hz
    · obtain ⟨k, hk, hy⟩ := List.mem_flatMap.mp hy
      exact List.mem_cons_of_mem _ (List.mem_flatMap.mpr ⟨k, hk, ih k hk hy hz⟩)

theorem kid_mem_nodes {n k : Node} (h : k ∈ n.kids) : k ∈ n.nodes := by
  rw [nodes_eq]
  exact List.mem_cons_of_mem _ (List.mem_flatMap.mpr ⟨k, h, self_mem_nodes k⟩)

/-! ## Trees with distinct ids -/

/-- No id occurs twice. -/
def Uniq (n : Node) : Prop := n.ids.Nodup

instance (n : Node) : Decidable n.Uniq := by unfold Uniq; infer_instance

theorem uniq_mem {n : Node} (h : n.Uniq) {x y : Node} (hx : x ∈ n.nodes) (hy : y ∈ n.nodes)
    (e : x.id = y.id) : x = y := by
  unfold Uniq ids at h
  generalize n.nodes = l at h hx hy
  induction l with
  | nil => cases hx
  | cons a l ih =>
    rw [List.map_cons, List.nodup_cons] at h
    rcases List.mem_cons.mp hx with hx1 | hx1 <;> rcases List.mem_cons.mp hy with hy1 | hy1
    · rw [hx1, hy1]
    · exact absurd (hx1 ▸ e ▸ List.mem_map_of_mem hy1) h.1
    · exact absurd (hy1 ▸ e ▸ List.mem_map_of_mem hx1) h.1
    · exact ih h.2 hx1 hy1

theorem get?_some {n x : Node} {i : Nat} (h : n.get? i = some x) : x ∈ n.nodes ∧ x.id = i := by
  unfold get? at h
  exact ⟨List.mem_of_find?_eq_some h, by simpa using List.find?_some h⟩

theorem get?_mem {n : Node} (hu : n.Uniq) {x : Node} (h : x ∈ n.nodes) : n.get? x.id = some x := by
  unfold get?
  cases e : n.nodes.find? fun y => y.id == x.id with
  | none => exact absurd (by simp) (List.find?_eq_none.mp e x h)
  | some y =>
    have := get?_some (n := n) (i := x.id) (x := y) e
    rw [uniq_mem hu this.1 h this.2]

theorem get?_iff {n : Node} (hu : n.Uniq) {i : Nat} {x : Node} :
    n.get? i = some x ↔ x ∈ n.nodes ∧ x.id = i :=
  ⟨get?_some, fun ⟨h, e⟩ => e ▸ get?_mem hu h⟩

theorem get?_none {n : Node} {i : Nat} : n.get? i = none ↔ i ∉ n.ids := by
  unfold get? ids
  rw [List.find?_eq_none]
  constructor
  · intro h hm
    obtain ⟨x, hx, e⟩ := List.mem_map.mp hm
    exact absurd e (by simpa using h x hx)
  · intro h x hx e
    exact h (by rw [← (by simpa using e : x.id = i)]; exact List.mem_map_of_mem hx)

theorem get?_exists {n : Node} {i : Nat} (h : i ∈ n.ids) : ∃ x, n.get? i = some x := by
  cases e : n.get? i with
  | none => exact absurd h (get?_none.mp e)
  | some x => exact ⟨x, rfl⟩

theorem uniq_sub {n x : Node} (hu : n.Uniq) (hx : x ∈ n.nodes) : x.Uniq := by
  revert x
  induction n using ind with
  | h i t a s ks ih =>
    intro x hx
    rw [nodes_mk] at hx
    rcases List.mem_cons.mp hx with rfl | hx1
    · exact hu
    · obtain ⟨k, hk, hx2⟩ := List.mem_flatMap.mp hx1
      refine ih k hk ?_ hx2
      unfold Uniq at hu ⊢
      rw [ids_eq, List.nodup_cons] at hu
      have h2 := hu.2
      simp only [kids] at h2
      clear hu ih hx hx1 hx2
      induction ks with
      | nil => cases hk
      | cons c cs ih2 =>
        rw [List.flatMap_cons, List.nodup_append] at h2
        rcases List.mem_cons.mp hk with rfl | hk
        · exact h2.1
        · exact ih2 hk h2.2.1

/-- Children of an element have distinct ids and subtrees. -/
theorem uniq_kids {n : Node} (hu : n.Uniq) : n.id ∉ n.kids.flatMap ids ∧ (n.kids.flatMap ids).Nodup := by
  unfold Uniq at hu
  rw [ids_eq, List.nodup_cons] at hu
  exact hu

theorem kids_ids_nodup {n : Node} (hu : n.Uniq) : (n.kids.map Node.id).Nodup := by
  have h := (uniq_kids hu).2
  generalize n.kids = ks at h
  induction ks with
  | nil => simp
  | cons k ks ih =>
    rw [List.flatMap_cons, List.nodup_append] at h
    rw [List.map_cons, List.nodup_cons]
    refine ⟨?_, ih h.2.1⟩
    intro hm
    obtain ⟨c, hc, e⟩ := List.mem_map.mp hm
    exact h.2.2 k.id (id_mem_ids k) c.id (List.mem_flatMap.mpr ⟨c, hc, id_mem_ids c⟩) e.symm

/-! ## `update` -/

theorem update_not_mem (i : Nat) (f : Node → Node) (n : Node) (h : i ∉ n.ids) : update i f n = n := by
  induction n using ind with
  | h j t a x ks ih =>
    rw [ids_eq] at h
    simp only [List.mem_cons, not_or, id, kids, List.mem_flatMap, not_exists, not_and] at h
    rw [update_mk, if_neg (Ne.symm h.1)]
    congr 1
    conv => rhs; rw [← List.map_id ks]
    exact List.map_congr_left fun k hk => ih k hk (h.2 k hk)

theorem update_id (i : Nat) (f : Node → Node) (hf : ∀ m : Node, m.id = i → (f m).id = i) (n : Node) :
    (update i f n).id = n.id := by
  cases n with
  | mk j t a x ks =>
    rw [update_mk]
    split
    · next h => subst h; exact hf _ rfl
    · rfl

/-- The elements of an updated tree: those of the element are replaced by those of its image. -/
theorem update_recs {n : Node} (hu : n.Uniq) {i : Nat} {x : Node} (hx : n.get? i = some x)
    (f : Node → Node) (hf : ∀ m : Node, m.id = i → (f m).id = i) :
    ∃ A B, n.recs = A ++ x.recs ++ B ∧ (update i f n).recs = A ++ (f x).recs ++ B := by
  obtain ⟨hx', hi⟩ := get?_some hx
  clear hx
  revert x
  induction n using ind with
  | h j t a s ks ih =>
    intro x hx hi
    rw [update_mk]
    by_cases hj : j = i
    · rw [if_pos hj]
      have : x = mk j t a s ks := uniq_mem hu hx (self_mem_nodes _) (by rw [hi]; exact hj.symm)
      subst this
      exact ⟨[], [], by simp, by simp⟩
    · rw [if_neg hj]
      rw [nodes_mk] at hx
      rcases List.mem_cons.mp hx with rfl | hx
      · exact absurd hi hj
      · obtain ⟨k, hk, hx2⟩ := List.mem_flatMap.mp hx
        obtain ⟨l, r, rfl⟩ := List.append_of_mem hk
        have huk := uniq_kids hu
        simp only [kids] at huk
        have hknot : ∀ c ∈ l ++ r, i ∉ c.ids := by
          intro c hc hm
          have hik : i ∈ k.ids := hi ▸ mem_nodes_ids hx2
          have hn := huk.2
          rw [List.flatMap_append, List.flatMap_cons] at hn
          rw [List.nodup_append] at hn
          obtain ⟨h1, h2, h3⟩ := hn
          rw [List.nodup_append] at h2
          rcases List.mem_append.mp hc with hc | hc
          · exact h3 i (List.mem_flatMap.mpr ⟨c, hc, hm⟩) i (List.mem_append_left _ hik) rfl
          · exact h2.2.2 i hik i (List.mem_flatMap.mpr ⟨c, hc, hm⟩) rfl
        obtain ⟨A, B, e1, e2⟩ := ih k hk (uniq_sub hu (kid_mem_nodes (n := mk j t a s (l ++ k :: r)) hk)) hx2 hi
        have el : l.map (update i f) = l := by
          conv => rhs; rw [← List.map_id l]
          exact List.map_congr_left fun c hc => update_not_mem i f c (hknot c (List.mem_append_left _ hc))
        have er : r.map (update i f) = r := by
          conv => rhs; rw [← List.map_id r]
          exact List.map_congr_left fun c hc => update_not_mem i f c (hknot c (List.mem_append_right _ hc))
        have eid : (update i f k).id = k.id := update_id i f hf k
        refine ⟨(j, ⟨t, a, s, (l ++ k :: r).map Node.id⟩) :: (l.flatMap recs ++ A), B ++ r.flatMap recs, ?_, ?_⟩
        · rw [recs_eq]
          simp only [kids, List.flatMap_append, List.flatMap_cons, e1, List.append_assoc, List.cons_append]
          rfl
        · rw [recs_eq]
          simp only [kids, List.map_append, List.map_cons, el, er, List.flatMap_append,
            List.flatMap_cons, e2, List.append_assoc, List.cons_append]
          congr 1
          show (j, (⟨t, a, s, (l ++ update i f k :: r).map Node.id⟩ : Rec)) = _
          rw [List.map_append, List.map_cons, eid]

/-! ## Views and lookups -/

theorem lookup_nodup {κ ν} [BEq κ] [LawfulBEq κ] {l : List (κ × ν)} (h : (l.map Prod.fst).Nodup)
    {k : κ} {v : ν} : l.lookup k = some v ↔ (k, v) ∈ l := by
  induction l with
  | nil => simp
  | cons p l ih =>
    obtain ⟨k', v'⟩ := p
    rw [List.map_cons, List.nodup_cons] at h
    by_cases e : k = k'
    · subst e
      simp only [List.lookup, BEq.rfl, List.mem_cons, Prod.mk.injEq, true_and]
      constructor
      · intro h'; injection h' with h'; exact Or.inl h'.symm
      · rintro (rfl | hm)
        · rfl
        · exact absurd (List.mem_map_of_mem (f := Prod.fst) hm) h.1
    · rw [List.lookup, show (k == k') = false by simpa using e, ih h.2]
      simp [e]

theorem view_iff {n : Node} (hu : n.Uniq) {i : Nat} {r : Rec} : n.view i = some r ↔ (i, r) ∈ n.recs := by
  unfold view recs
  rw [Option.map_eq_some_iff, List.mem_map]
  constructor
  · rintro ⟨x, hx, rfl⟩
    obtain ⟨h1, h2⟩ := get?_some hx
    exact ⟨x, h1, by rw [h2]⟩
  · rintro ⟨x, hx, e⟩
    injection e with e1 e2
    exact ⟨x, (get?_iff hu).mpr ⟨hx, e1⟩, e2⟩

theorem view_none {n : Node} {i : Nat} : n.view i = none ↔ i ∉ n.ids := by
  unfold view; rw [Option.map_eq_none_iff]; exact get?_none

/-- Two trees with the same elements in the same order are the same tree. -/
theorem recs_inj : ∀ {n m : Node}, n.recs = m.recs → n = m := by
  have hlen : ∀ n : Node, 0 < n.recs.length := fun n => by rw [recs_eq]; simp
  have key : ∀ (n : Node) (m : Node) (A B : List (Nat × Rec)), n.recs ++ A = m.recs ++ B → n = m ∧ A = B := by
    intro n
    induction n using ind with
    | h i t a x ks ih =>
      intro m A B h
      cases m with
      | mk i' t' a' x' ks' =>
        rw [recs_eq, recs_eq] at h
        simp only [id, kids, List.cons_append, List.cons.injEq] at h
        obtain ⟨h1, h2⟩ := h
        injection h1 with h11 h12
        have h13 : (⟨t, a, x, ks.map Node.id⟩ : Rec) = ⟨t', a', x', ks'.map Node.id⟩ := h12
        injection h13 with e1 e2 e3 e4
        have hl : ks.length = ks'.length := by
          have := congrArg List.length e4
          simpa using this
        have hk : ks = ks' ∧ A = B := by
          clear h11 h12 e4
          revert ks'
          induction ks with
          | nil =>
            intro ks' h2 hl
            cases ks' with
            | nil => exact ⟨rfl, h2⟩
            | cons => cases hl
          | cons k ks ih2 =>
            intro ks' h2 hl
            cases ks' with
            | nil => cases hl
            | cons k' ks' =>
              simp only [List.flatMap_cons, List.append_assoc] at h2
              obtain ⟨g1, g2⟩ := ih k (List.mem_cons_self ..) k' _ _ h2
              obtain ⟨g3, g4⟩ := ih2 (fun c hc => ih c (List.mem_cons_of_mem _ hc)) ks' g2
                (by simpa using hl)
              exact ⟨by rw [g1, g3], g4⟩
        rw [h11, e1, e2, e3, hk.1]
        exact ⟨rfl, hk.2⟩
  intro n m h
  exact (key n m [] [] (by rw [List.append_nil, List.append_nil, h])).1

end Node
end Verif
