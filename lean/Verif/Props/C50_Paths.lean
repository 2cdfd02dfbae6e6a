import Verif.Api.NamedLemmas
import Verif.Props.C30_Path
import Verif.Props.C40_Duplicates
/-!
# C50: paths of groups and entries
-/
namespace Verif.Props
open Verif XPath Spec Api

variable {s : Db}

/-- The path of a root group is empty. -/
theorem C50_root_path (hs : Inv s) {r : Nat} (hr : IsRoot s.heap r) : groupPath r s = (.ok [], s) := by
  obtain ⟨d, q, _, _, hq, hx⟩ := hr
  have hq0 : q ≠ 0 := tag_ne_zero hs (by rw [(all_kid hq).2]; decide)
  obtain ⟨l, h1, h2, rfl⟩ := place_run hs (kid_mem hs (all_kid hx).1).1
  obtain ⟨m, _, h4, rfl⟩ := place_run hs (kid_mem hs (all_kid hx).1).2
  obtain ⟨h5, _⟩ := place_kid hs h4 hq0 h2 (all_kid hx).1
  have hqt := (all_kid hq).2
  rw [node_tag (place_get hs h4 hq0)] at hqt
  have hi : isRootIn l.anc = .ok true := by
    rw [h5]
    unfold isRootIn parentIn
    simp only [if_neg hq0]
    rw [hqt]
    rfl
  unfold groupPath
  rw [bind_of h1, hi]
  rfl

/-- The path of a group: the names of the groups above it, below the root group, and its own name, if any. -/
theorem C50_group_path (hs : Inv s) {r p g : Nat} {ns : List Str} (hr : IsRoot s.heap r) (hp : Named s.heap r ns p)
    (hg : g ∈ s.heap.all p "Group".toList) : groupPath g s = (.ok (ns.map some ++ [sub s.heap g "Name".toList]), s) := by
  obtain ⟨m, h1, rfl, h3⟩ := named_loop hs hr hp
  have hpt := named_tag hr hp
  have hp0 : m.node.id ≠ 0 := tag_ne_zero hs (by rw [hpt]; decide)
  rw [node_tag (place_get hs h1 hp0)] at hpt
  obtain ⟨l, h4, h5, rfl⟩ := place_run hs (kid_mem hs (all_kid hg).1).1
  have hl0 : l.node.id ≠ 0 := tag_ne_zero hs (by rw [(all_kid hg).2]; decide)
  obtain ⟨h6, _⟩ := place_kid hs h1 hp0 h5 (all_kid hg).1
  have hi : isRootIn l.anc = .ok false := by
    rw [h6]
    unfold isRootIn parentIn
    simp only [if_neg hp0]
    rw [hpt]
    rfl
  unfold groupPath
  rw [bind_of h4, hi, h6, List.find?_cons_of_pos (by rw [hpt]; decide), nameIn_eq hs (Node.get?_some (place_get hs h5 hl0)).1]
  show lift (pathLoop (m.node :: m.anc) _) s = _
  rw [h3]
  rfl

/-- The path of an entry: the names of the groups above it, below the root group, and its title, if any. -/
theorem C50_entry_path (env : Env) (hs : Inv s) {r p e : Nat} {ns : List Str} (hr : IsRoot s.heap r) (hp : Named s.heap r ns p)
    (he : e ∈ s.heap.all p "Entry".toList) :
    entryPath env e s = (.ok (some (ns.map some ++ [field s.heap e "Title".toList])), s) := by
  obtain ⟨m, h1, rfl, h3⟩ := named_loop hs hr hp
  have hpt := named_tag hr hp
  have hp0 : m.node.id ≠ 0 := tag_ne_zero hs (by rw [hpt]; decide)
  rw [node_tag (place_get hs h1 hp0)] at hpt
  have hmem := (kid_mem hs (all_kid he).1).1
  have he0 : e ≠ 0 := tag_ne_zero hs (by rw [(all_kid he).2]; decide)
  have hg : getStd env e .title s = (.ok (field s.heap e "Title".toList), s) := getField_run env hs he0 hmem (by decide)
  obtain ⟨l, h4, h5, rfl⟩ := place_run hs hmem
  obtain ⟨h6, _⟩ := place_kid hs h1 hp0 h5 (all_kid he).1
  unfold entryPath
  rw [bind_of h4, h6, List.find?_cons_of_pos (by rw [hpt]; decide)]
  show (getStd env l.node.id .title >>= _) s = _
  rw [bind_of hg, h3]
  rfl

/-- The first of those with a property. -/
theorem first_some {w : Node} {P : Node → Prop} {r : Found} (h : FirstSuch w P r) {x : Node} (hx : x ∈ w.nodes) (hp : P x) :
    ∃ y ∈ w.nodes, P y ∧ r = .one (some y.id) := by
  obtain ⟨is, rfl, _, h2⟩ := h
  cases is with
  | nil => exact absurd ((h2 x.id).mpr ⟨x, hx, rfl, hp⟩) (by simp)
  | cons i is =>
    obtain ⟨y, hy, rfl, hP⟩ := (h2 i).mp (List.mem_cons_self ..)
    exact ⟨y, hy, hP, rfl⟩

/-- Searching for the path of a group finds a group with this path; the group itself when siblings have different names. -/
theorem C50_find_group (env : Env) (hs : Inv s) (ho : OneName s.heap) {r g : Nat} {ns : List Str} (hr : IsRoot s.heap r)
    (hg : Named s.heap r ns g) (hp : ∀ n ∈ ns, Plain n) (hl : ns.getLastD [] ≠ []) (recursive : Bool) :
    ∃ g' r', findGroup env recursive { path := some ns } s = (.ok (some g'), s) ∧
      IsRoot s.heap r' ∧ Named s.heap r' ns g' ∧ groupPath g' s = (.ok (ns.map some), s) ∧ groupPath g s = (.ok (ns.map some), s) ∧
      (OwnNames s.heap → g' = g) := by
  have own : ∀ {r g}, IsRoot s.heap r → Named s.heap r ns g → groupPath g s = (.ok (ns.map some), s) := by
    intro r g hr hg
    cases hg with
    | root => exact C50_root_path hs hr
    | sub h1 h2 h3 =>
      rw [C50_group_path hs hr h1 h2, h3]
      simp
  obtain ⟨rn, hrn, rfl⟩ : ∃ x ∈ s.world.nodes, x.id = r := by
    have := tag_mem (s := s) (i := r) (by rw [root_tag hr]; decide)
    exact List.mem_map.mp this
  obtain ⟨x, hx, rfl, hf⟩ := named_follow hs ho hrn hg
  obtain ⟨res, h1, h2⟩ := C30_groups (re := env.re) hs.world (a := { path := some ns }) recursive rfl rfl hp
  obtain ⟨y, hy, ⟨q, hq, hfy⟩, rfl⟩ := first_some h2 hx ⟨rn, (isRoot_node hs hrn).mp hr, by rw [if_neg hl]; exact hf⟩
  rw [if_neg hl] at hfy
  have hqm := topGroup_nodes hq
  have hqr := (isRoot_node hs hqm).mpr hq
  have hny := follow_named hs ho hqm .root hfy
  refine ⟨y.id, q.id, ?_, hqr, hny, own hqr hny, own hr hg, fun hu => ?_⟩
  · unfold findGroup
    rw [h1]
    rfl
  · have := hu.root _ _ hqr hr
    rw [this] at hny
    exact (named_unique hu hg hny).symm

/-- Searching for the path of an entry finds an entry with this path; the entry itself when sibling groups have different
names and the entries beside it different titles. -/
theorem C50_find_entry (env : Env) (hs : Inv s) (ho : OneName s.heap) {r p e : Nat} {ns : List Str} {t : Str} (hr : IsRoot s.heap r)
    (hp : Named s.heap r ns p) (he : e ∈ s.heap.all p "Entry".toList) (ht : field s.heap e "Title".toList = some t)
    (hpl : ∀ n ∈ ns ++ [t], Plain n) (recursive : Bool) :
    ∃ e' r' p', findEntry env recursive { path := some (ns ++ [t]) } s = (.ok (some e'), s) ∧
      IsRoot s.heap r' ∧ Named s.heap r' ns p' ∧ e' ∈ s.heap.all p' "Entry".toList ∧ field s.heap e' "Title".toList = some t ∧
      entryPath env e' s = (.ok (some ((ns ++ [t]).map some)), s) ∧ entryPath env e s = (.ok (some ((ns ++ [t]).map some)), s) ∧
      (OwnNames s.heap → OwnTitles s.heap p → e' = e) := by
  have own : ∀ {r p e}, IsRoot s.heap r → Named s.heap r ns p → e ∈ s.heap.all p "Entry".toList →
      field s.heap e "Title".toList = some t → entryPath env e s = (.ok (some ((ns ++ [t]).map some)), s) := by
    intro r p e hr hp he ht
    rw [C50_entry_path env hs hr hp he, ht]
    simp
  obtain ⟨rn, hrn, rfl⟩ : ∃ x ∈ s.world.nodes, x.id = r := by
    have := tag_mem (s := s) (i := r) (by rw [root_tag hr]; decide)
    exact List.mem_map.mp this
  obtain ⟨x, hx, rfl, hf⟩ := named_follow hs ho hrn hp
  obtain ⟨k, hk1, rfl, hk2, hk3⟩ := kid_node hs hx he
  have hdl : (ns ++ [t]).dropLast = ns := by simp
  have hgl : (ns ++ [t]).getLastD [] = t := by simp
  obtain ⟨res, h1, h2⟩ := C30_entries (re := env.re) hs.world (a := { path := some (ns ++ [t]) }) recursive rfl rfl hpl
  obtain ⟨y, hy, ⟨q, z, hq, hfz, hyk, hyt, hyv⟩, rfl⟩ := first_some h2 hk3
    ⟨rn, x, (isRoot_node hs hrn).mp hr, by rw [hdl]; exact hf, hk1, hk2, by
      rw [hgl]; exact (title_tested hs hk3 (ho.entry _ (all_kid he).2) t).mpr ht⟩
  rw [hdl] at hfz
  rw [hgl] at hyv
  have hqm := topGroup_nodes hq
  have hzm := follow_nodes hfz hqm
  have hqr := (isRoot_node hs hqm).mpr hq
  have hnz := follow_named hs ho hqm .root hfz
  have hye : y.id ∈ s.heap.all z.id "Entry".toList := by
    rw [node_all hs hzm]
    exact List.mem_map_of_mem (List.mem_filter.mpr ⟨hyk, beq_iff_eq.mpr hyt⟩)
  have hyf := (title_tested hs hy (ho.entry _ (all_kid hye).2) t).mp hyv
  refine ⟨y.id, q.id, z.id, ?_, hqr, hnz, hye, hyf, own hqr hnz hye hyf, own hr hp he ht, fun hu hut => ?_⟩
  · unfold findEntry
    rw [h1]
    rfl
  · have := hu.root _ _ hqr hr
    rw [this] at hnz
    have := named_unique hu hp hnz
    rw [← this] at hye
    exact hut _ _ _ hye he hyf ht

/-! ## The sample -/

theorem sample_oneName : OneName Sample.db.heap := by
  have h : Sample.db.world.ids.all (fun g =>
      (Sample.db.heap.tag g != "Group".toList || decide ((Sample.db.heap.all g "Name".toList).length ≤ 1)) &&
      (Sample.db.heap.tag g != "Entry".toList || decide ((valueEls Sample.db.heap g "Title".toList).length ≤ 1))) = true := by
    decide +kernel
  rw [List.all_eq_true] at h
  constructor
  · intro g hg
    have := h g (tag_mem (by rw [hg]; decide))
    rw [hg] at this
    simpa using this
  · intro g hg
    have := h g (tag_mem (by rw [hg]; decide))
    rw [hg] at this
    simpa using this

theorem sample_rootEls : rootEls Sample.db.heap = [14] := by decide +kernel

theorem sample_ownNames : OwnNames Sample.db.heap := by
  have h : Sample.db.world.ids.all (fun p => (Sample.db.heap.all p "Group".toList).all fun a =>
      (Sample.db.heap.all p "Group".toList).all fun b =>
        sub Sample.db.heap a "Name".toList != sub Sample.db.heap b "Name".toList || a == b) = true := by
    decide +kernel
  simp only [List.all_eq_true] at h
  constructor
  · intro a b ha hb
    rw [← mem_rootEls, sample_rootEls] at ha hb
    rw [List.mem_singleton.mp ha, List.mem_singleton.mp hb]
  · intro p a b n ha hb h1 h2
    have := h p (kid_mem Sample.db_inv (all_kid ha).1).2 a ha b hb
    rw [h1, h2] at this
    simpa using this

theorem sample_root : IsRoot Sample.db.heap 14 := by
  rw [← mem_rootEls, sample_rootEls]; decide

theorem sample_work : Named Sample.db.heap 14 ["Work".toList] 93 :=
  .sub (ns := []) .root (by decide +kernel) (by decide +kernel)

theorem sample_deep : Named Sample.db.heap 14 ["Work".toList, "Deep".toList] 122 :=
  .sub (ns := ["Work".toList]) sample_work (by decide +kernel) (by decide +kernel)

example : ∃ g, findGroup Sample.env true { path := some ["Work".toList, "Deep".toList] } Sample.db = (.ok (some g), Sample.db) ∧
    g = 122 := by
  obtain ⟨g, _, h, _, _, _, _, hu⟩ := C50_find_group Sample.env Sample.db_inv sample_oneName sample_root sample_deep
    (by decide) (by decide) true
  exact ⟨g, h, hu sample_ownNames⟩

example : entryPath Sample.env 102 Sample.db = (.ok (some [some "Work".toList, some "bank".toList]), Sample.db) := by
  have ht : field Sample.db.heap 102 "Title".toList = some "bank".toList := by decide +kernel
  obtain ⟨_, _, _, _, _, _, _, _, _, h, _⟩ := C50_find_entry Sample.env Sample.db_inv sample_oneName sample_root sample_work
    (e := 102) (by decide +kernel) ht (by decide) true
  exact h

/-! ## Without a name -/

/-- Setting the name of the group `Work` to nothing is refused but takes its name away. -/
def unnamed : Db := (setName 93 none Sample.db).2

/-- Finding: a group without a name is left out of the paths below it: the entry `bank` is in that group, its path is
`bank`, and there is no entry with that path. -/
theorem C50_unnamed : 102 ∈ unnamed.heap.all 93 "Entry".toList ∧ 93 ∈ unnamed.heap.all 14 "Group".toList ∧
    (entryPath Sample.env 102 unnamed).1 = .ok (some [some "bank".toList]) ∧
    (findEntry Sample.env true { path := some ["bank".toList] } unnamed).1 = .ok none :=
  ⟨by decide +kernel, by decide +kernel, by decide +kernel, by decide +kernel⟩

end Verif.Props
