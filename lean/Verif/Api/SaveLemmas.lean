import Verif.Api.Save
import Verif.Api.HistoryLemmas
import Verif.Api.ContentLemmas
/-!
# Lemmas on writing the tree
-/
namespace Verif
namespace Node

mutual
/-- The same tree with other texts. -/
def mapText (σ : Nat → Option Str → Option Str) : Node → Node
  | mk i t a x ks => mk i t a (σ i x) (mapTextL σ ks)
def mapTextL (σ : Nat → Option Str → Option Str) : List Node → List Node
  | [] => []
  | k :: ks => mapText σ k :: mapTextL σ ks
end

theorem mapTextL_eq (σ) (ks : List Node) : mapTextL σ ks = ks.map (mapText σ) := by
  induction ks with
  | nil => rfl
  | cons k ks ih => unfold mapTextL; rw [ih]; rfl

theorem mapText_mk (σ i t a x ks) : mapText σ (mk i t a x ks) = mk i t a (σ i x) (ks.map (mapText σ)) := by
  unfold mapText; rw [mapTextL_eq]

theorem mapText_id (σ) (n : Node) : (mapText σ n).id = n.id := by
  cases n; rw [mapText_mk]; rfl

theorem mapText_recs (σ : Nat → Option Str → Option Str) (n : Node) :
    (mapText σ n).recs = n.recs.map fun p => (p.1, { p.2 with text := σ p.1 p.2.text }) := by
  induction n using Node.ind with
  | h i t a x ks ih =>
    rw [mapText_mk, recs_eq, recs_eq (mk i t a x ks), List.map_cons]
    have h1 : (ks.map (mapText σ)).flatMap recs = (ks.flatMap recs).map fun p => (p.1, { p.2 with text := σ p.1 p.2.text }) := by
      induction ks with
      | nil => rfl
      | cons k ks ih2 =>
        rw [List.map_cons, List.flatMap_cons, List.flatMap_cons, List.map_append, ih k (List.mem_cons_self ..),
          ih2 fun m hm => ih m (List.mem_cons_of_mem _ hm)]
    have h2 : (ks.map (mapText σ)).map Node.id = ks.map Node.id := by
      rw [List.map_map]; exact List.map_congr_left fun k _ => mapText_id σ k
    show (_, _) :: (ks.map (mapText σ)).flatMap recs = (_, _) :: (ks.flatMap recs).map _
    rw [h1]
    unfold rec'
    simp only [Node.id, Node.tag, Node.attrs, Node.text, Node.kids, h2]

theorem mapText_ids (σ) (n : Node) : (mapText σ n).ids = n.ids := by
  rw [← recs_ids, ← recs_ids, mapText_recs, List.map_map]
  rfl

theorem mapText_uniq (σ) {n : Node} (h : n.Uniq) : (mapText σ n).Uniq := by
  unfold Uniq at *; rw [mapText_ids]; exact h

theorem mapText_view (σ : Nat → Option Str → Option Str) {n : Node} (h : n.Uniq) (j : Nat) :
    (mapText σ n).view j = (n.view j).map fun r => { r with text := σ j r.text } := by
  cases hv : n.view j with
  | none =>
    rw [Option.map_none, view_none, mapText_ids]
    exact view_none.mp hv
  | some r =>
    rw [Option.map_some, view_iff (mapText_uniq σ h), mapText_recs]
    exact List.mem_map.mpr ⟨(j, r), (view_iff h).mp hv, rfl⟩

end Node

namespace Api
open Verif Spec

/-- The texts of the listed elements are what going through the list with `f` gives. -/
def Agrees (σ : Nat → Option Str → Option Str) (f : Nat → Option Str → Option Str × Nat) : Nat → List Node → Nat → Prop
  | o, [], o' => o = o'
  | o, m :: l, o' =>
    if Verif.isProtected m.tag m.attrs then σ m.id m.text = (f o m.text).1 ∧ Agrees σ f (f o m.text).2 l o'
    else σ m.id m.text = m.text ∧ Agrees σ f o l o'

theorem Agrees.split {σ f} : ∀ {a b : List Node} {o o' : Nat}, Agrees σ f o (a ++ b) o' → ∃ p, Agrees σ f o a p ∧ Agrees σ f p b o' := by
  intro a
  induction a with
  | nil => intro b o o' h; exact ⟨o, rfl, h⟩
  | cons m a ih =>
    intro b o o' h
    rw [List.cons_append] at h
    unfold Agrees at h
    suffices hh : ∃ p, (if Verif.isProtected m.tag m.attrs then σ m.id m.text = (f o m.text).1 ∧ Agrees σ f (f o m.text).2 a p
        else σ m.id m.text = m.text ∧ Agrees σ f o a p) ∧ Agrees σ f p b o' from hh
    split
    · next hp =>
      rw [if_pos hp] at h
      obtain ⟨p, h1, h2⟩ := ih h.2
      exact ⟨p, ⟨h.1, h1⟩, h2⟩
    · next hp =>
      rw [if_neg hp] at h
      obtain ⟨p, h1, h2⟩ := ih h.2
      exact ⟨p, ⟨h.1, h1⟩, h2⟩

theorem Agrees.congr {σ σ' f} : ∀ {l : List Node} {o o' : Nat}, Agrees σ f o l o' → (∀ m ∈ l, σ' m.id m.text = σ m.id m.text) →
    Agrees σ' f o l o' := by
  intro l
  induction l with
  | nil => intro o o' h _; exact h
  | cons m l ih =>
    intro o o' h hc
    unfold Agrees at h ⊢
    have h1 := hc m (List.mem_cons_self ..)
    have h2 := fun k hk => hc k (List.mem_cons_of_mem _ hk)
    split
    · next hp => rw [if_pos hp] at h; exact ⟨h1.trans h.1, ih h.2 h2⟩
    · next hp => rw [if_neg hp] at h; exact ⟨h1.trans h.1, ih h.2 h2⟩

/-- Going through the elements in document order is the walk of `mapProtected`. -/
theorem agrees_xml {σ f} (n : Node) : ∀ {o o' : Nat}, Agrees σ f o n.nodes o' → mapProtected f o n.xml = ((n.mapText σ).xml, o') := by
  induction n using Node.ind with
  | h i t a x ks ih =>
    intro o o' h
    have hL : ∀ {o o' : Nat}, Agrees σ f o (ks.flatMap Node.nodes) o' →
        mapProtectedList f o (ks.map Node.xml) = ((ks.map (Node.mapText σ)).map Node.xml, o') := by
      clear h
      induction ks with
      | nil => intro o o' h; replace h : o = o' := h; subst h; rfl
      | cons k ks ih2 =>
        intro o o' h
        rw [List.flatMap_cons] at h
        obtain ⟨p, h1, h2⟩ := h.split
        have e1 := ih k (List.mem_cons_self ..) h1
        have e2 := ih2 (fun m hm => ih m (List.mem_cons_of_mem _ hm)) h2
        rw [List.map_cons]
        unfold mapProtectedList
        simp only [e1, e2, List.map_cons]
    rw [Node.nodes_mk] at h
    unfold Agrees at h
    rw [Node.xml_mk, Node.mapText_mk, Node.xml_mk]
    unfold mapProtected
    replace h : if Verif.isProtected t a then σ i x = (f o x).1 ∧ Agrees σ f (f o x).2 (ks.flatMap Node.nodes) o'
        else σ i x = x ∧ Agrees σ f o (ks.flatMap Node.nodes) o' := h
    by_cases hp : Verif.isProtected t a = true
    · rw [if_pos hp] at h
      simp only [hp, if_true, hL h.2, h.1]
    · rw [if_neg hp] at h
      simp only [if_neg hp, hL h.2, h.1]

/-- The loop: only texts change, as the walk says. -/
theorem protectLoop_ok (ks : Nat → UInt8) : ∀ (l : List Node) (o : Nat) {s : Db}, Inv s → (l.map Node.id).Nodup →
    (∀ m ∈ l, s.heap.text m.id = m.text) →
    ∃ s' σ o', protectLoop ks o ((l.filter fun m => Verif.isProtected m.tag m.attrs).map Node.id) s = (.ok (), s') ∧ Inv s' ∧
      s' = { s with world := s'.world } ∧ (∀ j, s'.heap j = (s.heap j).map fun r => { r with text := σ j r.text }) ∧
      (∀ j, j ∉ l.map Node.id → ∀ x, σ j x = x) ∧ Agrees σ (protectText ks) o l o' := by
  intro l
  induction l with
  | nil =>
    intro o s hs _ _
    refine ⟨s, fun _ x => x, o, rfl, hs, rfl, fun j => ?_, fun _ _ _ => rfl, rfl⟩
    cases s.heap j <;> rfl
  | cons m l ih =>
    intro o s hs hn ht
    rw [List.map_cons, List.nodup_cons] at hn
    have htl := fun k hk => ht k (List.mem_cons_of_mem _ hk)
    have hne : ∀ k ∈ l, k.id ≠ m.id := fun k hk e => hn.1 (e ▸ List.mem_map_of_mem hk)
    rw [List.filter_cons]
    by_cases hp : Verif.isProtected m.tag m.attrs = true
    · rw [if_pos hp, List.map_cons]
      cases hx : m.text with
      | none =>
        obtain ⟨s', σ, o', h1, h2, h3, h4, h5, h6⟩ := ih o hs hn.2 htl
        refine ⟨s', σ, o', ?_, h2, h3, h4, fun j hj => h5 j fun hm => hj (List.mem_cons_of_mem _ hm), ?_⟩
        · unfold protectLoop
          rw [bind_of (textOf_run _ _), ht m (List.mem_cons_self ..), hx]
          exact h1
        · unfold Agrees
          rw [if_pos hp, hx]
          exact ⟨h5 m.id hn.1 _, h6⟩
      | some t =>
        obtain ⟨s1, e1, i1, w1, q1⟩ := setText_ok hs m.id (some (b64encode (ksXor ks o (utf8Enc t))))
          (fun u hu => by injection hu with hu; rw [← hu]; exact xmlText_b64encode _)
        have ht1 : ∀ k ∈ l, s1.heap.text k.id = k.text := by
          intro k hk
          rw [← htl k hk]
          unfold Heap.text
          rw [q1 k.id]
          simp only [if_neg (hne k hk)]
          cases s.heap k.id <;> rfl
        obtain ⟨s', σ, o', h1, h2, h3, h4, h5, h6⟩ := ih (o + (utf8Enc t).length) i1 hn.2 ht1
        refine ⟨s', fun j x => if j = m.id then some (b64encode (ksXor ks o (utf8Enc t))) else σ j x, o', ?_, h2, ?_, ?_, ?_, ?_⟩
        · unfold protectLoop
          rw [bind_of (textOf_run _ _), ht m (List.mem_cons_self ..), hx]
          show (setText m.id _ >>= fun _ => _) s = _
          rw [bind_of e1]
          exact h1
        · rw [h3, w1]
        · intro j
          rw [h4 j, q1 j]
          cases s.heap j with
          | none => rfl
          | some r =>
            simp only [Option.map_some]
            by_cases hj : j = m.id
            · subst hj
              simp only [if_pos, h5 m.id hn.1]
            · simp only [if_neg hj]
        · intro j hj x
          rw [List.map_cons, List.mem_cons, not_or] at hj
          show (if j = m.id then _ else σ j x) = x
          rw [if_neg hj.1]
          exact h5 j hj.2 x
        · unfold Agrees
          rw [if_pos hp, hx]
          refine ⟨if_pos rfl, h6.congr fun k hk => if_neg (hne k hk)⟩
    · rw [if_neg hp]
      obtain ⟨s', σ, o', h1, h2, h3, h4, h5, h6⟩ := ih o hs hn.2 htl
      refine ⟨s', σ, o', h1, h2, h3, h4, fun j hj => h5 j fun hm => hj (List.mem_cons_of_mem _ hm), ?_⟩
      unfold Agrees
      rw [if_neg hp]
      exact ⟨h5 m.id hn.1 _, h6⟩

end Api
end Verif
