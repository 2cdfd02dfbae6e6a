import Verif.Api.WholeSteps
import Verif.Props.C48_DeleteBinary
/-!
# Deleting data
-/
namespace Verif.Props
open Verif XPath Spec Api

section
variable {s s' : Db}

/-- Entries of the database and those of their histories are the entries of the document. -/
theorem kept_iff (hs : Sound s) (e : Nat) : (vaultOf s).Kept e ↔ InDoc s.heap e ∧ s.heap.tag e = "Entry".toList := by
  constructor
  · intro h
    have hc : ¬ NoCard (s.heap.tag e) := by
      obtain ⟨k, c, e0, h1, h2, h3, h4⟩ := h
      obtain ⟨_, rfl⟩ := card_inv h2
      have h0 : ¬ NoCard (s.heap.tag e0) := by rw [(all_sub h3).2]; decide
      have h4 : (vaultOf s).Older e0 e := h4
      cases h4 with
      | refl => exact h0
      | past _ k1 k2 k3 =>
        obtain ⟨_, rfl⟩ := card_inv k1
        obtain ⟨y, _, hy⟩ := Option.map_eq_some_iff.mp k2
        rw [← hy] at k3
        rw [(all_sub k3).2]; decide
    obtain ⟨x, hgx⟩ := get_of_mem (card_mem hc)
    obtain ⟨hx, rfl⟩ := Node.get?_some hgx
    obtain ⟨k1, k2, _⟩ := (entry_scope hs (group := none) nofun true true hx).mpr h
    exact ⟨(inDoc_scope hs.inv hx).mp k1, by rw [node_tag hgx]; exact k2⟩
  · rintro ⟨h1, h2⟩
    obtain ⟨x, hgx⟩ := get_of_mem (inDoc_mem hs.inv h1).1
    obtain ⟨hx, rfl⟩ := Node.get?_some hgx
    exact (entry_scope hs (group := none) nofun true true hx).mp ⟨(inDoc_scope hs.inv hx).mpr h1, by rw [← node_tag hgx]; exact h2, nofun⟩

theorem listing_iff (hs : Sound s) {e : Nat} (he : (vaultOf s).Kept e) : (vaultOf s).Listing e ↔ ¬ InHist s.heap e := by
  obtain ⟨h1, h2⟩ := (kept_iff hs e).mp he
  obtain ⟨x, hgx⟩ := get_of_mem (inDoc_mem hs.inv h1).1
  obtain ⟨hx, rfl⟩ := Node.get?_some hgx
  have := entry_scope hs (group := none) nofun true false hx
  rw [hist_iff hs.inv hx] at this
  constructor
  · intro h; exact (this.mpr h).2.2 rfl
  · intro h; exact this.mp ⟨(inDoc_scope hs.inv hx).mpr h1, by rw [← node_tag hgx]; exact h2, fun _ => h⟩

/-- Every attachment on a card has a number. -/
def Numbered (v : Vault) : Prop := ∀ e c, v.Kept e → v.card e = some c → ∀ f ∈ c.files, ∃ k, f.RefersTo k

theorem refers_iff {h : Heap} {b k : Nat} (h1 : (h.all b "Value".toList).length ≤ 1) : (fileOf h b).RefersTo k ↔ RefNo h b k := by
  show (h.find b "Value".toList).map (fun v => h.attr v "Ref".toList) = some (some (natStr k)) ↔ _
  unfold RefNo Heap.find
  cases hl : h.all b "Value".toList with
  | nil => exact ⟨nofun, nofun⟩
  | cons a l =>
    rw [hl] at h1
    have hn : l = [] := by cases l with
      | nil => rfl
      | cons b l => simp at h1
    subst hn
    constructor
    · intro h; injection h with h; exact ⟨a, rfl, h⟩
    · rintro ⟨v, hv, h⟩
      injection hv with hv
      subst hv
      exact congrArg some h

theorem doc_parent (hs : Sound s) {b : Nat} (h : InDoc s.heap b) (ht : s.heap.tag b ≠ "KeePassFile".toList) :
    ∃ p, p ≠ 0 ∧ InDoc s.heap p ∧ b ∈ s.heap.kids p := by
  obtain ⟨d, m, r, hk⟩ := hs.skeleton
  obtain ⟨d', h1, h2⟩ := h
  rw [hk.doc] at h1
  injection h1 with h1
  subst h1
  cases h2 with
  | refl => exact absurd hk.tag ht
  | @snoc p _ hp hb => exact ⟨p, (inDoc_mem hs.inv ⟨d, hk.doc, hp⟩).2, ⟨d, hk.doc, hp⟩, hb⟩

theorem atts_of (hs : Sound s) (hf : Filed s.heap) (hn : Numbered (vaultOf s)) : Atts s.heap := by
  have parent : ∀ b, IsAtt s.heap b → ∃ p, InDoc s.heap p ∧ b ∈ s.heap.kids p ∧ s.heap.tag p = "Entry".toList := by
    intro b hb
    obtain ⟨p, p0, p1, p2⟩ := doc_parent hs hb.1 (by rw [hb.2.1]; decide)
    have := hs.shaped p b p0 p2 ["Entry".toList, "Binaries".toList] (by rw [hb.2.1]; decide)
    rcases List.mem_cons.mp this with e | e
    · exact ⟨p, p1, p2, e⟩
    · refine absurd ?_ hb.2.2
      unfold Heap.all
      rw [(hf.shelf p (List.mem_singleton.mp e) b p2).2]
      rfl
  have mem : ∀ {b p}, IsAtt s.heap b → b ∈ s.heap.kids p → b ∈ s.heap.all p "Binary".toList := fun hb hp =>
    List.mem_filter.mpr ⟨hp, by rw [beq_iff_eq]; exact hb.2.1⟩
  refine ⟨fun b hb => ?_, fun b hb => ?_, fun b hb => ?_⟩
  · obtain ⟨p, _, h1, h2⟩ := parent b hb
    exact ⟨p, h1, h2⟩
  · obtain ⟨p, p1, p2, p3⟩ := parent b hb
    have hc : ¬ NoCard (s.heap.tag p) := by rw [p3]; decide
    obtain ⟨k, hk⟩ := hn p _ ((kept_iff hs p).mpr ⟨p1, p3⟩) (card_some hc) (fileOf s.heap b) (List.mem_map_of_mem (mem hb p2))
    exact ⟨k, (refers_iff (hf.once p b p3 (mem hb p2) _ (by decide))).mp hk⟩
  · obtain ⟨p, p1, p2, p3⟩ := parent b hb
    exact hf.leaf p b p3 (mem hb p2)

/-- The second part: references are removed and lowered. -/
theorem refs_did (hs : Sound s) (ha : Atts s.heap) (hn : Numbered (vaultOf s)) {n : Nat} {D : List Nat}
    (hst : s' = { s with world := s'.world }) (hD : ∀ b, b ∈ D ↔ Gone s.heap n b) (h : RefsDeleted s.heap s'.heap D n) (hdoc : docEl s'.heap = docEl s.heap) :
    vaultOf s' = (vaultOf s).renumber n ∧ deskOf s' = deskOf s ∧ ∀ y, ¬ NoCard (s'.heap.tag y) → Neat s'.heap y := by
  obtain ⟨d, m, r, hk⟩ := hs.skeleton
  -- what is in an attachment, and what holds one that goes
  have hpar : ∀ {b p}, IsAtt s.heap b → b ∈ s.heap.kids p → s.heap.tag p = "Entry".toList := by
    intro b p hb hp
    obtain ⟨q, q1, q2⟩ := ha.parent b hb
    rw [parent_eq hs.inv hp q1]
    exact q2
  have hDpar : ∀ {j k}, k ∈ s.heap.kids j → k ∈ D → s.heap.tag j = "Entry".toList := fun hj hk => hpar ((hD _).mp hk).1 hj
  have htD : ∀ d ∈ D, s.heap.tag d = "Binary".toList := fun d hd => ((hD d).mp hd).1.2.1
  have hall : ∀ j, j ≠ 0 → ∀ t, s'.heap.all j t = (s.heap.all j t).filter fun k => !D.contains k := by
    intro j hj t
    unfold Heap.all
    rw [h.kids j hj, List.filter_filter, List.filter_filter]
    exact List.filter_congr fun k _ => by rw [h.tag, Bool.and_comm]
  have hother : ∀ j, j ≠ 0 → ∀ t, t ≠ "Binary".toList → s'.heap.all j t = s.heap.all j t := by
    intro j hj t ht
    rw [hall j hj]
    refine filter_all_true fun k hk => ?_
    rw [Bool.not_eq_true', List.contains_eq_mem, decide_eq_false_iff_not]
    intro hd
    exact ht ((all_sub hk).2.symm.trans (htD k hd))
  -- an element that belongs to a card and not to an attachment
  have hpart : ∀ {y : Nat}, ¬ NoCard (s.heap.tag y) → ∀ t, t ≠ "Binary".toList → NoCard t → ∀ k ∈ s.heap.all y t, ∀ j, Part s.heap k j →
      NoCard (s.heap.tag j) ∧ ∀ b, IsAtt s.heap b → j ∉ s.heap.all b "Value".toList := by
    intro y hy t ht hnt k hk j hj
    obtain ⟨k1, k2⟩ := all_sub hk
    have hno : ∀ i, Part s.heap k i → NoCard (s.heap.tag i) := by
      intro i hi
      cases hi with
      | self => rw [k2]; exact hnt
      | kid _ _ h => exact h
    refine ⟨hno j hj, fun b hb hv => ?_⟩
    have hv := (all_sub hv).1
    cases hj with
    | self =>
      rw [parent_eq hs.inv k1 hv, hb.2.1] at hy
      exact hy (by decide)
    | @kid p _ hp hc _ =>
      rw [parent_eq hs.inv hc hv] at hp
      cases hp with
      | self => exact ht (k2.symm.trans hb.2.1)
      | @kid q _ hq hqb _ =>
        have := hno q hq
        rw [hpar hb hqb] at this
        exact absurd this (by decide)
  have sm : ∀ {y : Nat}, ¬ NoCard (s.heap.tag y) → ∀ t, t ≠ "Binary".toList → SameAt s.heap s'.heap y t := by
    intro y hy t ht
    refine ⟨hother y (card_pos hs.inv hy) t ht, fun hnt k hk j hj => ⟨?_, fun c _ => h.tag c⟩⟩
    obtain ⟨h1, h2⟩ := hpart hy t ht hnt k hk j hj
    obtain ⟨k1, k2⟩ := all_sub hk
    have hj0 : j ≠ 0 := by
      cases hj with
      | self => exact kid_ne_zero hs.inv k1
      | kid _ h _ => exact kid_ne_zero hs.inv h
    refine h.other j hj0 (fun c hc hd => ?_) h2
    rw [hDpar hc hd] at h1
    exact absurd h1 (by decide)
  -- the attachments of a card
  have hval : ∀ b, b ≠ 0 → s'.heap.all b "Value".toList = s.heap.all b "Value".toList := fun b hb => hother b hb _ (by decide)
  have hfile : ∀ {y b}, ¬ NoCard (s.heap.tag y) → b ∈ s.heap.all y "Binary".toList → ¬ IsAtt s.heap b → fileOf s'.heap b = fileOf s.heap b := by
    intro y b hy hb hna
    have hb0 := kid_ne_zero hs.inv (all_sub hb).1
    refine File.ext rfl ?_ ?_
    · show ((s'.heap.all b "Key".toList).head?).map _ = ((s.heap.all b "Key".toList).head?).map _
      rw [hother b hb0 _ (by decide)]
      cases (s.heap.all b "Key".toList).head? with
      | none => rfl
      | some k => exact congrArg some (h.text k)
    · show ((s'.heap.all b "Value".toList).head?).map _ = ((s.heap.all b "Value".toList).head?).map _
      rw [hval b hb0]
      cases hh : (s.heap.all b "Value".toList).head? with
      | none => rfl
      | some k =>
        refine congrArg some (h.attr k _ fun _ c hc hkc => ?_)
        have hkb := (all_sub (List.mem_of_mem_head? hh)).1
        rw [parent_eq hs.inv hkb (all_sub hkc).1] at hna
        exact hna hc
  have hlow : ∀ {b k}, IsAtt s.heap b → b ∉ D → RefNo s.heap b k → fileOf s'.heap b = (fileOf s.heap b).lower n := by
    intro b k hb hbD hr
    have hb0 := att_ne_zero hs.inv hb
    obtain ⟨v, v1, v2⟩ := hr
    obtain ⟨w, w1, w2⟩ := h.ref b hb hbD k ⟨v, v1, v2⟩
    rw [hval b hb0, v1] at w1
    injection w1 with w1
    subst w1
    have e : (fileOf s.heap b).number = some (some (natStr k)) := by
      show (s.heap.find b _).map _ = _
      rw [refNo_find v1]
      exact congrArg some v2
    have hi : (fileOf s.heap b).index = .ok (k : Int) := by
      unfold File.index
      rw [e]
      exact pyInt_natStr k
    have hnum : ((fileOf s.heap b).lower n).number = some (some (natStr (if n < k then k - 1 else k))) ∧
        ((fileOf s.heap b).lower n).handle = b ∧ ((fileOf s.heap b).lower n).name = (fileOf s.heap b).name := by
      unfold File.lower
      rw [hi]
      simp only []
      by_cases hnk : n < k
      · rw [if_pos (by omega), if_pos hnk]
        refine ⟨congrArg (fun t => some (some t)) ?_, rfl, rfl⟩
        have : (k : Int) - 1 = ((k - 1 : Nat) : Int) := by omega
        rw [this]
        rfl
      · rw [if_neg (by omega), if_neg hnk]
        exact ⟨e, rfl, rfl⟩
    refine File.ext hnum.2.1.symm ?_ ?_
    · rw [hnum.2.2]
      show ((s'.heap.all b "Key".toList).head?).map _ = ((s.heap.all b "Key".toList).head?).map _
      rw [hother b hb0 _ (by decide)]
      cases (s.heap.all b "Key".toList).head? with
      | none => rfl
      | some k => exact congrArg some (h.text k)
    · rw [hnum.1]
      show (s'.heap.find b _).map _ = _
      rw [refNo_find (by rw [hval b hb0]; exact v1)]
      exact congrArg some w2
  -- the cards
  have hcard : ∀ y, ¬ NoCard (s.heap.tag y) → cardOf s'.heap y = (vaultOf s).renumbered n y (cardOf s.heap y) := by
    intro y hy
    have hy0 := card_pos hs.inv hy
    have key : (s'.heap.all y "Binary".toList).map (fileOf s'.heap) = ((vaultOf s).renumbered n y (cardOf s.heap y)).files := by
      unfold Vault.renumbered
      by_cases hkept : (vaultOf s).Kept y
      · rw [if_pos hkept, hall y hy0]
        obtain ⟨hyd, hyt⟩ := (kept_iff hs y).mp hkept
        show _ = (((s.heap.all y "Binary".toList).map (fileOf s.heap)).filter _).map (File.lower n)
        have each : ∀ b ∈ s.heap.all y "Binary".toList, ∃ k, IsAtt s.heap b ∧ RefNo s.heap b k ∧ (fileOf s.heap b).RefersTo k := by
          intro b hb
          obtain ⟨k, hk⟩ := hn y _ hkept (card_some hy) (fileOf s.heap b) (List.mem_map_of_mem hb)
          obtain ⟨b1, b2⟩ := all_sub hb
          have hatt : IsAtt s.heap b := by
            refine ⟨?_, b2, fun h0 => ?_⟩
            · obtain ⟨d', h1, h2⟩ := hyd
              exact ⟨d', h1, .snoc h2 b1⟩
            · have hk : (s.heap.find b "Value".toList).map _ = some _ := hk
              unfold Heap.find at hk
              rw [h0] at hk
              cases hk
          obtain ⟨k', hk'⟩ := ha.ref b hatt
          have hone : (s.heap.all b "Value".toList).length ≤ 1 := by
            obtain ⟨v, hv, _⟩ := hk'
            rw [hv]; simp
          exact ⟨k, hatt, (refers_iff hone).mp hk, hk⟩
        have hgone : ∀ b ∈ s.heap.all y "Binary".toList, (b ∈ D ↔ (vaultOf s).Listing y ∧ (fileOf s.heap b).RefersTo n) := by
          intro b hb
          obtain ⟨k, b1, b2, b3⟩ := each b hb
          obtain ⟨b4, b5⟩ := all_sub hb
          have hone : (s.heap.all b "Value".toList).length ≤ 1 := by
            obtain ⟨v, hv, _⟩ := b2
            rw [hv]; simp
          rw [hD b, listing_iff hs hkept, refers_iff hone]
          have hhist : InHist s.heap b ↔ InHist s.heap y := by
            constructor
            · rintro ⟨x, x1, x2, x3⟩
              cases x3 with
              | refl => exact absurd rfl x2
              | @snoc q _ hq hqb =>
                rw [parent_eq hs.inv hqb b4] at hq
                refine ⟨x, x1, ?_, hq⟩
                rintro rfl
                rw [hyt] at x1
                exact absurd x1 (by decide)
            · rintro ⟨x, x1, x2, x3⟩
              refine ⟨x, x1, ?_, .snoc x3 b4⟩
              rintro rfl
              rw [b5] at x1
              exact absurd x1 (by decide)
          constructor
          · rintro ⟨_, g2, g3⟩; exact ⟨fun hh => g3 (hhist.mpr hh), g2⟩
          · rintro ⟨g3, g2⟩; exact ⟨b1, g2, fun hh => g3 (hhist.mp hh)⟩
        have : ∀ l : List Nat, (∀ b ∈ l, b ∈ s.heap.all y "Binary".toList) →
            (l.filter fun k => !D.contains k).map (fileOf s'.heap) =
            ((l.map (fileOf s.heap)).filter fun f => !@decide ((vaultOf s).Listing y ∧ f.RefersTo n) (Classical.propDecidable _)).map (File.lower n) := by
          intro l
          induction l with
          | nil => intro _; rfl
          | cons b l ih =>
            intro hl
            have hb := hl b (List.mem_cons_self ..)
            have ih := ih fun c hc => hl c (List.mem_cons_of_mem _ hc)
            rw [List.map_cons, List.filter_cons, List.filter_cons]
            by_cases hbD : b ∈ D
            · have e2 : @decide ((vaultOf s).Listing y ∧ (fileOf s.heap b).RefersTo n) (Classical.propDecidable _) = true :=
                (@decide_eq_true_iff _ (Classical.propDecidable _)).mpr ((hgone b hb).mp hbD)
              rw [if_neg (by simp [hbD]), e2, if_neg (by decide), ih]
            · have e2 : @decide ((vaultOf s).Listing y ∧ (fileOf s.heap b).RefersTo n) (Classical.propDecidable _) = false :=
                (@decide_eq_false_iff_not _ (Classical.propDecidable _)).mpr fun hh => hbD ((hgone b hb).mpr hh)
              rw [if_pos (by simp [hbD]), e2, if_pos (by decide), List.map_cons, List.map_cons, ih]
              obtain ⟨k, b1, b2, _⟩ := each b hb
              rw [hlow b1 hbD b2]
        refine (this _ fun b hb => hb).trans ?_
        congr 1
        apply List.filter_congr
        intro f _
        congr 1
        exact decide_eq_decide.mpr Iff.rfl
      · rw [if_neg hkept, hall y hy0]
        show _ = (s.heap.all y "Binary".toList).map (fileOf s.heap)
        have hna : ∀ b ∈ s.heap.all y "Binary".toList, ¬ IsAtt s.heap b := by
          intro b hb hatt
          refine hkept ((kept_iff hs y).mpr ⟨?_, hpar hatt (all_sub hb).1⟩)
          obtain ⟨p, _, p1, p2⟩ := doc_parent hs hatt.1 (by rw [hatt.2.1]; decide)
          rw [parent_eq hs.inv (all_sub hb).1 p2]
          exact p1
        rw [filter_all_true fun b hb => by
          rw [Bool.not_eq_true', List.contains_eq_mem, decide_eq_false_iff_not]
          exact fun hd => hna b hb ((hD b).mp hd).1]
        exact List.map_congr_left fun b hb => hfile hy hb (hna b hb)
    rw [card_files (h.tag y) (sm hy) key]
    unfold Vault.renumbered
    split <;> rfl
  refine ⟨Vault.ext ?_ ?_ (by rw [hst]; rfl) (by rw [hst]; rfl) (by rw [hst]; rfl), ?_, ?_⟩
  · funext y
    show (if NoCard (s'.heap.tag y) then none else some (cardOf s'.heap y)) = (if NoCard (s.heap.tag y) then none else some (cardOf s.heap y)).map _
    rw [h.tag]
    by_cases hy : NoCard (s.heap.tag y)
    · rw [if_pos hy, if_pos hy]; rfl
    · rw [if_neg hy, if_neg hy, hcard y hy]; rfl
  · have hr : r ∈ s.heap.kids d ∧ s.heap.tag r = "Root".toList := all_sub (by rw [hk.root]; exact List.mem_singleton.mpr rfl)
    have hd : d ∈ s.heap.kids 0 := List.mem_of_mem_head? hk.doc
    show rootsOf s'.heap = rootsOf s.heap
    rw [roots_of hk, roots_eq (hdoc.trans hk.doc) (by rw [hother d (kid_ne_zero hs.inv hd) _ (by decide)]; exact hk.root)]
    exact hother r (kid_ne_zero hs.inv hr.1) _ (by decide)
  · have hd : d ∈ s.heap.kids 0 := List.mem_of_mem_head? hk.doc
    have hd0 := kid_ne_zero hs.inv hd
    have hk' : Skeleton s'.heap d m r := ⟨hdoc.trans hk.doc, (h.tag d).trans hk.tag, by rw [hother d hd0 _ (by decide)]; exact hk.info,
      by rw [hother d hd0 _ (by decide)]; exact hk.root⟩
    refine desk_same hk hk' (fun i hi => ?_) (by rw [hst]; exact ⟨rfl, rfl, rfl⟩)
    have hi0 : i ≠ 0 := by
      rintro rfl
      exact zero_not_reach hs.inv (kid_ne_zero hs.inv (meta_mem hk).1) hi
    refine h.other i hi0 (fun c hc hd => ?_) fun b hb hv => ?_
    · exact meta_tags hs hk hi (by rw [hDpar hc hd]; decide)
    · obtain ⟨p, p1, p2⟩ := ha.parent b hb
      have hv := (all_sub hv)
      cases hi with
      | refl =>
        have := hv.2
        rw [(meta_mem hk).2] at this
        exact absurd this (by decide)
      | @snoc q _ hq hqi =>
        rw [parent_eq hs.inv hqi hv.1] at hq
        cases hq with
        | refl =>
          have := hb.2.1
          rw [(meta_mem hk).2] at this
          exact absurd this (by decide)
        | @snoc q' _ hq' hqb =>
          rw [parent_eq hs.inv hqb p1] at hq'
          exact meta_tags hs hk hq' (by rw [p2]; decide)
  · intro y hy
    rw [h.tag] at hy
    refine ⟨fun t ht => ?_, (sm hy _ (by decide)).fields (hs.neat y hy).fields⟩
    rw [(sm hy t (by revert t; decide)).all]
    exact (hs.neat y hy).once t ht

/-- The first part: the data themselves. -/
theorem pop_did (env : Env) (hs : Sound s) (hf : Filed s.heap) (n : Nat) :
    (∃ e, (officeOf s).remove n = .error e ∧ popBinary env n s = (.error e, s)) ∨
    ∃ k s1, (officeOf s).remove n = .ok k ∧ popBinary env n s = (.ok (), s1) ∧ vaultOf s1 = vaultOf s ∧ deskOf s1 = k ∧ Sound s1 ∧
      (Atts s.heap → Atts s1.heap) := by
  have hpy : ∀ l : Nat, pyIndex l n = if n < l then some n else none := by
    intro l
    unfold pyIndex
    rw [if_pos (by omega)]
    by_cases h : n < l
    · rw [if_pos (by omega), if_pos h]; rfl
    · rw [if_neg (by omega), if_neg h]
  unfold popBinary Office.remove
  rw [bind_of (reads_run _ s)]
  show (∃ e, (if versionGe4 s.version = true then if n < s.binaries.length then _ else _ else _) = _ ∧ _) ∨ ∃ k s1, (if versionGe4 s.version = true then if n < s.binaries.length then _ else _ else _) = _ ∧ _
  by_cases h4 : versionGe4 s.version = true
  · rw [if_pos h4, if_pos h4, bind_of (reads_run _ s), hpy]
    by_cases hn : n < s.binaries.length
    · rw [if_pos hn, if_pos hn]
      exact .inr ⟨_, _, rfl, rfl, rfl, rfl, sound_creds hs s.ticks s.password s.keyfile (s.binaries.eraseIdx n), id⟩
    · rw [if_neg hn, if_neg hn]
      exact .inl ⟨_, rfl, rfl⟩
  · rw [if_neg h4, if_neg h4]
    have hx : xpathFirst env none (metaQuery "Binaries".toList) s = (.ok (metaEls s.heap "Binaries".toList).head?, s) :=
      metaEl_run env hs.inv (n := "Binaries".toList) (by decide +kernel)
    rw [bind_of hx]
    cases hl : metaEls s.heap "Binaries".toList with
    | nil =>
      refine .inl ⟨.attribute, ?_, rfl⟩
      rw [show (officeOf s).desk.shelves = [] by show (metaEls s.heap _).map _ = _; rw [hl]; rfl]
    | cons el l =>
      obtain ⟨d, m, r, hk⟩ := hs.skeleton
      have hl2 : s.heap.all m "Binaries".toList = el :: l := by rw [← metaEls_skel hk, hl]
      have hel : el ∈ s.heap.all m "Binaries".toList := by rw [hl2]; exact List.mem_cons_self ..
      obtain ⟨e1, e2⟩ := all_sub hel
      have hem := (kid_mem hs.inv e1).1
      have hel0 := kid_ne_zero hs.inv e1
      have hall : s.heap.all el "Binary".toList = s.heap.kids el := filter_all_true fun k hk => by rw [beq_iff_eq]; exact (hf.shelf el e2 k hk).1
      rw [show (officeOf s).desk.shelves = (s.heap.kids el).map (storedOf s.heap) :: l.map (fun i => (s.heap.all i "Binary".toList).map (storedOf s.heap)) by
        show (metaEls s.heap _).map _ = _; rw [hl, List.map_cons, hall]]
      have hrun : ∀ k : Nat → M Unit, (orAttr (some el) >>= k) s = k el s := fun k => by rw [bind_of (orAttr_some el s)]
      show (∃ e, (if n < ((s.heap.kids el).map (storedOf s.heap)).length then _ else _) = _ ∧ (orAttr (some el) >>= _) s = _) ∨
        ∃ k s1, (if n < ((s.heap.kids el).map (storedOf s.heap)).length then _ else _) = _ ∧ (orAttr (some el) >>= _) s = _ ∧ _
      rw [hrun, bind_of (childrenOf_run el s), hpy, List.length_map]
      by_cases hn : n < (s.heap.kids el).length
      · rw [if_pos hn, if_pos hn]
        obtain ⟨c, hc⟩ : ∃ c, (s.heap.kids el)[n]? = some c := ⟨_, List.getElem?_eq_getElem hn⟩
        have hck := List.mem_of_getElem? hc
        obtain ⟨hct, hcl⟩ := hf.shelf el e2 c hck
        obtain ⟨s1, r1, r2, r3, r4⟩ := removeKid_ok hs.inv hel0 hck
        have r5 : Spec.Dropped s.heap s1.heap [c] := dropped_one hs.inv hel0 hck r4
        have htc : ∀ d ∈ [c], s.heap.tag d = "Binary".toList := fun d hd => by rw [List.mem_singleton.mp hd]; exact hct
        have hrem : Removable s [c] := by
          intro d hd
          rw [List.mem_singleton] at hd
          subst hd
          exact ⟨hct, ⟨el, hel0, hck⟩, by rw [hcl]; intro k hk; cases hk⟩
        have hoth : ∀ j, j ≠ 0 → j ≠ el → s1.heap j = s.heap j := by
          intro j h0 hj
          rw [r5 j]
          cases hr : s.heap j with
          | none => rfl
          | some r =>
            simp only [Option.map_some, if_neg h0]
            have : r.kids.filter (fun k => ![c].contains k) = r.kids := filter_all_true fun k hkr => by
              rw [Bool.not_eq_true', List.contains_eq_mem, decide_eq_false_iff_not, List.mem_singleton]
              rintro rfl
              exact hj (parent_eq hs.inv (show k ∈ s.heap.kids j by unfold Heap.kids; rw [hr]; exact hkr) hck)
            rw [this]
        have a : Aside s s1 m el := ⟨r2, .kid e1, dropped_tag r5 el, fun j _ h0 hj => hoth j h0 hj,
          fun j hj => by rw [dropped_tag r5, not_mem_tag hj]; exact bodyNil, dropped_doc hs.inv r5, by rw [r3]⟩
        have hd0 := kid_ne_zero hs.inv (List.mem_of_mem_head? hk.doc)
        have hao : ∀ j, j ≠ 0 → ∀ t, t ≠ "Binary".toList → s1.heap.all j t = s.heap.all j t := fun j hj t ht =>
          dropped_all_other r5 hj fun d hd => by rw [htc d hd]; exact fun e => ht e.symm
        have hsk : Skeleton s1.heap d m r := ⟨(dropped_doc hs.inv r5).trans hk.doc, (dropped_tag r5 d).trans hk.tag,
          by rw [hao d hd0 _ (by decide)]; exact hk.info, by rw [hao d hd0 _ (by decide)]; exact hk.root⟩
        have hsnd : Sound s1 := by
          refine ⟨r2, ⟨d, m, r, hsk⟩, fun p k hp hk l hl => ?_, a.neat hs hk⟩
          rw [dropped_tag r5] at hl ⊢
          rw [dropped_kids r5 hp] at hk
          exact hs.shaped p k hp (List.mem_filter.mp hk).1 l hl
        refine .inr ⟨_, s1, rfl, ?_, (a.vault hs hk).trans (by rw [r3]; rfl), ?_, hsnd, fun ha => dropped_atts hs.inv ha r5 hrem⟩
        · show (match (some n).bind ((s.heap.kids el)[·]?) with | none => fail .binary | some c => removeKid el c) s = _
          rw [show (some n).bind ((s.heap.kids el)[·]?) = some c from hc]
          exact r1
        · refine Desk.ext ?_ ?_ (by rw [r3]; rfl) (by rw [r3]; rfl) (by rw [r3]; rfl)
          · funext t
            show (metaEls s1.heap t).map _ = (metaEls s.heap t).map _
            rw [metaEls_skel hsk, metaEls_skel hk]
            have hm0 := kid_ne_zero hs.inv (meta_mem hk).1
            have : s1.heap m = s.heap m := hoth m hm0 (by rintro rfl; exact no_cycle hs.inv e1 .refl)
            have : s1.heap.all m t = s.heap.all m t := by
              unfold Heap.all
              rw [kids_congr this]
              exact List.filter_congr fun k _ => by rw [dropped_tag r5]
            rw [this]
            exact List.map_congr_left fun k _ => dropped_text r5 k
          · show (metaEls s1.heap _).map _ = _
            have hm0 := kid_ne_zero hs.inv (meta_mem hk).1
            have hst : ∀ b, storedOf s1.heap b = storedOf s.heap b := fun b => by
              unfold storedOf; rw [dropped_attr r5, dropped_attr r5, dropped_text r5]
            rw [metaEls_skel hsk, hao m hm0 _ (by decide), hl2, List.map_cons, ← map_eraseIdx]
            refine congr (congrArg List.cons ?_) ?_
            · rw [dropped_all r5 hel0, hall, erase_filter ((kids_ordered s el).nodup hs.inv.world.uniq) hc]
              exact List.map_congr_left fun b _ => hst b
            · refine List.map_congr_left fun i hi => ?_
              have hii : i ∈ s.heap.all m "Binaries".toList := by rw [hl2]; exact List.mem_cons_of_mem _ hi
              have hne : i ≠ el := by
                rintro rfl
                have := all_nodup hs.inv m "Binaries".toList
                rw [hl2] at this
                exact (List.nodup_cons.mp this).1 hi
              have hrec := hoth i (kid_ne_zero hs.inv (all_sub hii).1) hne
              have : s1.heap.all i "Binary".toList = s.heap.all i "Binary".toList := by
                unfold Heap.all
                rw [kids_congr hrec]
                exact List.filter_congr fun k _ => by rw [dropped_tag r5]
              rw [this]
              exact List.map_congr_left fun b _ => hst b
      · rw [if_neg hn, if_neg hn]
        exact .inl ⟨_, rfl, rfl⟩

/-- `delete_binary` on offices. -/
theorem deleteData_run (env : Env) (hs : Sound s) (hf : Filed s.heap) (n : Nat) (ha : (Task.deleteData n).Ask env (officeOf s)) :
    ∃ q s', deleteBinary env n s = (q, s') ∧ (Task.deleteData n).Step env (officeOf s) (q.map fun _ => .done) (officeOf s') ∧ Sound s' := by
  have hn : Numbered (vaultOf s) := ha
  show ∃ q s', _ ∧ (match (officeOf s).remove n with | .error e => _ | .ok k => _) ∧ _
  rcases pop_did env hs hf n with ⟨e, h1, h2⟩ | ⟨k, s1, h1, h2, h3, h4, h5, h6⟩
  · rw [h1]
    exact ⟨.error e, s, bind_err h2, ⟨rfl, rfl⟩, hs⟩
  · rw [h1]
    have hat := h6 (atts_of hs hf hn)
    obtain ⟨s', D, r1, r2, r3, r4, r5, _, _⟩ := refs_deleted env h5.inv hat n
    have hrun : deleteBinary env n s = (.ok (), s') := by
      unfold deleteBinary
      rw [bind_of h2]
      exact r1
    have hcall : (Call.deleteBinary n).run env s = (.ok (), s') := hrun
    obtain ⟨g1, g2, g3⟩ := refs_did h5 hat (by rw [h3]; exact hn) r3 r4 r5 r5.first
    have hsnd := sound_step env hs (c := .deleteBinary n) trivial (by rw [hcall]; exact g3)
    rw [hcall] at hsnd
    refine ⟨.ok (), s', hrun, ⟨rfl, ?_⟩, hsnd⟩
    exact Office.ext (by rw [show (officeOf s).vault = vaultOf s1 from h3.symm]; exact g1) (g2.trans h4)

end
end Verif.Props
