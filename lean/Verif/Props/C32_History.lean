import Verif.XPath.PathLemmas
import Verif.XPath.Sample
/-!
# C32: history entries are hidden unless requested
-/
namespace Verif.Props
open Verif XPath Spec

/-- The ids in a result. -/
def idsOf : Found → List Nat
  | .list l => l
  | .one o => o.toList

theorem idsOf_sub {f : Bool} {is : List Nat} {i : Nat} (h : i ∈ idsOf (if f then .one is.head? else .list is)) : i ∈ is := by
  cases f with
  | false => exact h
  | true =>
    cases is with
    | nil => cases h
    | cons x l =>
      have h : i ∈ [x] := h
      rw [List.mem_singleton.mp h]; exact List.mem_cons_self ..

/-- Without `history=True`, no search for entries, groups or attachments returns an element below a
`History` element. -/
theorem C32_hidden {K : Kind} {re : Regex} {w : Node} (hw : World w) {a : FindArgs} {recursive : Bool}
    (hp : a.path = none) (h0 : a.tree ≠ some 0) (hf : a.regex = true → Plain (flagsStr a.flags))
    (hk : ∀ k ∈ a.kwargs, KwOk K k) (hh : a.history = false) {r : Found}
    (hr : (match K with
      | .entry => findEntries re w recursive a
      | .group => findGroups re w recursive a
      | .attachment => findAttachments re w recursive a) = .ok r) :
    ∀ i ∈ idsOf r, ∀ h ∈ w.nodes, h.tag = "History".toList → ∀ x ∈ w.nodes, x.id = i → ¬ Below h x := by
  have hr' : find re w (preText K recursive) K.xp a = .ok r := by
    cases K with
    | entry => rw [← findEntries_eq]; exact hr
    | group => rw [← findGroups_eq]; exact hr
    | attachment => rw [← findAttachments_eq]; exact hr
  obtain ⟨is, rfl, _, hm⟩ := find_partial hw hp h0 hf hk hr'
  intro i hi h hhn ht x hx hxi hb
  obtain ⟨y, hy, hyi, hM⟩ := (hm i).mp (idsOf_sub hi)
  have : y = x := Node.uniq_mem hw.uniq hy hx (hyi.trans hxi.symm)
  subst this
  exact hM.history hh ⟨h, hhn, ht, hb⟩

/-- `history=True` adds exactly the elements below `History` elements that satisfy the other
conditions, and keeps the order. -/
theorem C32_added {K : Kind} {re : Regex} {w : Node} (hw : World w) {a : FindArgs} {recursive : Bool}
    (hp : a.path = none) (h0 : a.tree ≠ some 0) (hf : a.regex = true → Plain (flagsStr a.flags))
    (hk : ∀ k ∈ a.kwargs, KwOk K k) {r r' : Found}
    (hr : find re w (preText K recursive) K.xp { a with history := false, first := false } = .ok r)
    (hr' : find re w (preText K recursive) K.xp { a with history := true, first := false } = .ok r') :
    ∃ is js, r = .list is ∧ r' = .list js ∧ is.Sublist js ∧
      ∀ i, i ∈ js ↔ i ∈ is ∨
        ∃ x ∈ w.nodes, x.id = i ∧ InHistory w x ∧ Matches K.tag K.place re w recursive { a with history := true } x := by
  obtain ⟨is, e, hs, hm⟩ := find_partial hw (a := { a with history := false, first := false }) hp h0 hf hk hr
  obtain ⟨js, e', hs', hm'⟩ := find_partial hw (a := { a with history := true, first := false }) hp h0 hf hk hr'
  have key : ∀ i, i ∈ js ↔ i ∈ is ∨
        ∃ x ∈ w.nodes, x.id = i ∧ InHistory w x ∧ Matches K.tag K.place re w recursive { a with history := true } x := by
    intro i
    rw [hm, hm']
    constructor
    · rintro ⟨x, hx, rfl, h⟩
      by_cases hin : InHistory w x
      · exact .inr ⟨x, hx, rfl, hin, h.scope, h.tag, h.history, h.filters⟩
      · exact .inl ⟨x, hx, rfl, h.scope, h.tag, fun _ => hin, h.filters⟩
    · rintro (⟨x, hx, rfl, h⟩ | ⟨x, hx, rfl, _, h⟩)
      · exact ⟨x, hx, rfl, h.scope, h.tag, (fun h => by cases h), h.filters⟩
      · exact ⟨x, hx, rfl, h.scope, h.tag, h.history, h.filters⟩
  refine ⟨is, js, e, e', ?_, key⟩
  rw [sublist_filter hw.uniq hs' (as := is) hs fun i hi => (key i).mpr (.inl hi)]
  exact List.filter_sublist

/-- Searching by path never leads into history, whatever `history` says. -/
theorem C32_path_hidden {K : Kind} {T : Test} {w : Node} (hw : World w) {p : List Str} {x : Node} (h : At K T w p x) :
    ¬ InHistory w x := by
  have hdown : ∀ {n : Str} {m l : Loc}, Down n m l → n ≠ "History".toList →
      (m.node.tag ≠ "History".toList ∧ ∀ a ∈ m.anc, a.tag ≠ "History".toList) →
      (l.node.tag ≠ "History".toList ∧ ∀ a ∈ l.anc, a.tag ≠ "History".toList) := by
    rintro n m l ⟨ht, k, _, rfl⟩ hn ⟨h1, h2⟩
    refine ⟨by rw [ht]; exact hn, fun a ha => ?_⟩
    rcases List.mem_cons.mp ha with rfl | ha
    · exact h1
    · exact h2 a ha
  have hmem : ∀ {n : Str} {m l : Loc}, Down n m l → m ∈ allLocs w → l ∈ allLocs w := by
    rintro n m l ⟨_, k, hk, rfl⟩ hm
    exact allLocs_kid hm hk
  have htop : ∀ {l : Loc}, TopL ⟨docNode w, []⟩ l → l ∈ allLocs w ∧
      (l.node.tag ≠ "History".toList ∧ ∀ a ∈ l.anc, a.tag ≠ "History".toList) := by
    rintro l ⟨y, z, h1, h2, h3⟩
    exact ⟨hmem h3 (hmem h2 (hmem h1 (docNode_mem w))),
      hdown h3 (by decide) (hdown h2 (by decide) (hdown h1 (by decide) ⟨by simp [docNode, Node.tag], fun a ha => by cases ha⟩))⟩
  have hfol : ∀ {ns : List Str} {m l : Loc}, FollowL T ns m l → m ∈ allLocs w →
      (m.node.tag ≠ "History".toList ∧ ∀ a ∈ m.anc, a.tag ≠ "History".toList) → l ∈ allLocs w ∧
      (l.node.tag ≠ "History".toList ∧ ∀ a ∈ l.anc, a.tag ≠ "History".toList) := by
    intro ns
    induction ns with
    | nil => rintro m l e hm h; rw [show l = m from e]; exact ⟨hm, h⟩
    | cons n ns ih =>
      rintro m l ⟨y, ⟨hd, _⟩, hf⟩ hm h
      exact ih hf (hmem hd hm) (hdown hd (by decide) h)
  have hend : ∀ {l : Loc}, l ∈ allLocs w → (l.node.tag ≠ "History".toList ∧ ∀ a ∈ l.anc, a.tag ≠ "History".toList) →
      ¬ InHistory w l.node := by
    intro l hl h
    rw [← history_iff hw hl, List.all_eq_true]
    exact fun a ha => by simpa using h.2 a ha
  cases K with
  | entry =>
    obtain ⟨r, g, hr, hf, hx, ht, _⟩ := h
    obtain ⟨lr, h1, rfl⟩ := topGroup_loc hr
    obtain ⟨lg, h2, rfl⟩ := follow_loc hf
    obtain ⟨h3, h4⟩ := htop h1
    obtain ⟨h5, h6⟩ := hfol h2 h3 h4
    have hd : Down "Entry".toList lg ⟨x, lg.node :: lg.anc⟩ := ⟨ht, x, hx, rfl⟩
    exact hend (hmem hd h5) (hdown hd (by decide) h6)
  | group =>
    obtain ⟨r, hr, hf⟩ := h
    obtain ⟨lr, h1, rfl⟩ := topGroup_loc hr
    obtain ⟨lg, h2, rfl⟩ := follow_loc hf
    obtain ⟨h3, h4⟩ := htop h1
    obtain ⟨h5, h6⟩ := hfol h2 h3 h4
    exact hend h5 h6
  | attachment =>
    obtain ⟨r, hr, hf⟩ := h
    obtain ⟨lr, h1, rfl⟩ := topGroup_loc hr
    obtain ⟨lg, h2, rfl⟩ := follow_loc hf
    obtain ⟨h3, h4⟩ := htop h1
    obtain ⟨h5, h6⟩ := hfol h2 h3 h4
    exact hend h5 h6

/-- `attachments`, `/repo/pykeepass/pykeepass.py:766-768`, hides attachments in history too. -/
example : World Sample.world ∧
    findEntries Sample.engine Sample.world true { kwargs := [.attr "title".toList (some "mail".toList)] } = .ok (.list [9, 58]) ∧
    findEntries Sample.engine Sample.world true { history := true, kwargs := [.attr "title".toList (some "mail".toList)] } = .ok (.list [9, 25, 58]) ∧
    findAttachments Sample.engine Sample.world true { regex := true, kwargs := [.attr "filename".toList (some ".*".toList)] } = .ok (.list [21]) :=
  ⟨Sample.world_ok, by decide +kernel, by decide +kernel, by decide +kernel⟩

end Verif.Props
