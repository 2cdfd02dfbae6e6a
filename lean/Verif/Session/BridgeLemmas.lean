import Verif.Session.Bridge
import Verif.Api.ContentLemmas
import Verif.Props.C02_Kdbx3RoundTrip
import Verif.Props.C01_Kdbx4RoundTrip
/-!
# Lemmas on loading and storing
-/
namespace Verif
open Api Spec

theorem start_ok {n : Node} {m : Nat} (hid : n.id = 1) (hu : n.Uniq) (hmem : ∀ j, j ∈ n.ids ↔ 1 ≤ j ∧ j < m) (v bs t u) :
    Inv (Db.start (n, m) v bs t u) ∧ docEl (Db.start (n, m) v bs t u).heap = some 1 ∧ content (Db.start (n, m) v bs t u) 1 = some n.xml := by
  have hids : (Node.mk 0 [] [] none [n]).ids = 0 :: n.ids := by rw [Node.ids_eq]; simp [Node.kids, Node.id]
  have hw : (Node.mk 0 [] [] none [n]).Uniq := by
    unfold Node.Uniq
    rw [hids, List.nodup_cons]
    exact ⟨fun h0 => by have := ((hmem 0).mp h0).1; omega, hu⟩
  refine ⟨⟨⟨rfl, rfl, hw, nofun⟩, ?_⟩, ?_, ?_⟩
  · intro i hi
    replace hi : i ∈ (Node.mk 0 [] [] none [n]).ids := hi
    rw [hids, List.mem_cons] at hi
    rcases hi with rfl | hi
    · have := (hmem 1).mp (hid ▸ Node.id_mem_ids n)
      show 0 < m
      omega
    · exact ((hmem i).mp hi).2
  · have hg : (Node.mk 0 [] [] none [n]).get? 0 = some (Node.mk 0 [] [] none [n]) := Node.get?_mem hw (Node.self_mem_nodes _)
    have hk : (Db.start (n, m) v bs t u).heap.kids 0 = [n.id] := by
      unfold Heap.kids Db.heap Node.view Db.start
      simp only [hg]
      rfl
    unfold docEl
    rw [hk, hid]
    rfl
  · have hm : n ∈ (Node.mk 0 [] [] none [n]).nodes := Node.kid_mem_nodes (List.mem_singleton.mpr rfl)
    have := Node.get?_mem hw hm
    rw [hid] at this
    unfold content Db.start
    simp only [this, Option.map_some]

/-- What is loaded is well-formed, and its document element holds the tree of the file. -/
theorem load_ok {k : Kdbx} {x : Xml} (h : k.tree = .ok x) (t u : Nat) : ∃ s, k.load t u = .ok s ∧ Inv s ∧ docEl s.heap = some 1 ∧
    content s 1 = some x ∧ s.version = k.version ∧ s.binaries = k.innerBinaries ∧ s.ticks = t ∧ s.uuids = u := by
  refine ⟨Db.start (Node.ofXml 1 x) k.version k.innerBinaries t u, by unfold Kdbx.load; rw [h]; rfl, ?_⟩
  obtain ⟨h1, h2, h3⟩ := start_ok (Node.ofXml_id x 1) (Node.ofXml_uniq x 1) (fun j => Node.ofXml_mem) k.version k.innerBinaries t u
  rw [Node.ofXml_xml] at h3
  exact ⟨h1, h2, h3, rfl, rfl, rfl, rfl⟩

/-- Every element that was loaded is part of the document. -/
theorem load_reach {k : Kdbx} {a b : Nat} {s : Db} (h : k.load a b = .ok s) (hs : Inv s) {j : Nat} (hj : j ∈ s.world.ids) (h0 : j ≠ 0) :
    Reach s.heap 1 j := by
  unfold Kdbx.load at h
  cases hk : k.tree with
  | error e => rw [hk] at h; cases h
  | ok x =>
    rw [hk] at h
    injection h with h
    subst h
    have hm : (Node.ofXml 1 x).1 ∈ (Node.mk 0 [] [] none [(Node.ofXml 1 x).1]).nodes := Node.kid_mem_nodes (List.mem_singleton.mpr rfl)
    have hg := Node.get?_mem hs.world.uniq hm
    rw [Node.ofXml_id] at hg
    refine (reach_iff hs hg j).mpr ?_
    replace hj : j ∈ (Node.mk 0 [] [] none [(Node.ofXml 1 x).1]).ids := hj
    have hids : (Node.mk 0 [] [] none [(Node.ofXml 1 x).1]).ids = 0 :: (Node.ofXml 1 x).1.ids := by rw [Node.ids_eq]; simp [Node.kids, Node.id]
    rw [hids, List.mem_cons] at hj
    exact hj.resolve_left h0

/-- What is stored: the tree below the document element, and the binaries. -/
theorem store_eq {s : Db} (hs : Inv s) {d : Nat} {x : Xml} (hd : docEl s.heap = some d) (hx : content s d = some x) (k : Kdbx) :
    k.store s = { k with body := k.body.map fun b => b.store x s.binaries } := by
  have hg : s.world.get? 0 = some s.world := by
    rw [← hs.world.id]; exact Node.get?_mem hs.world.uniq (Node.self_mem_nodes _)
  unfold Kdbx.store
  cases hk : s.world.kids with
  | nil => exact absurd hk hs.world.doc
  | cons n l =>
    have h1 : s.heap.kids 0 = s.world.kids.map Node.id := by
      unfold Heap.kids Db.heap Node.view
      rw [hg]
      rfl
    unfold docEl at hd
    rw [h1, hk, List.map_cons, List.head?_cons] at hd
    injection hd with hd
    subst hd
    have h2 : s.world.get? n.id = some n := Node.get?_mem hs.world.uniq (Node.kid_mem_nodes (by rw [hk]; exact List.mem_cons_self ..))
    unfold content at hx
    rw [h2, Option.map_some] at hx
    injection hx with hx
    subst hx
    rfl

theorem store_edited4 {s : Db} (hs : Inv s) {d : Nat} {x : Xml} (hd : docEl s.heap = some d) (hx : content s d = some x) {k : Kdbx}
    {b : Body} {p : Payload} {ih : InnerHeader} (hb : k.body = some b) (hp : b.payload = some p) (hi : p.inner = some ih) :
    Props.Edited4 k (k.store s) s.binaries x := by
  refine ⟨b, p, ih, hb, hp, hi, ?_⟩
  rw [store_eq hs hd hx, hb]
  unfold Body.store Payload.store
  simp only [Option.map_some, hp, hi]

theorem store_edited3 {s : Db} (hs : Inv s) {d : Nat} {x : Xml} (hd : docEl s.heap = some d) (hx : content s d = some x) {k : Kdbx}
    {b : Body} {p : Payload} (hb : k.body = some b) (hp : b.payload = some p) (hi : p.inner = none) : Props.Edited3 k (k.store s) x := by
  refine ⟨b, p, hb, hp, ?_⟩
  rw [store_eq hs hd hx, hb]
  unfold Body.store Payload.store
  simp only [Option.map_some, hp, hi, Option.map_none]

end Verif
