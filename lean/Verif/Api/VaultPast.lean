import Verif.Api.VaultNew
import Verif.Api.AttrEffects
import Verif.Props.C46_DeleteHistory
import Verif.Props.C52_Structure
import Verif.Props.C68_Lists
/-!
# Steps of the vault: history, times, deleting and moving
-/
namespace Verif.Api
open Verif XPath Spec

section
variable {s s' : Db} {x : Nat}

theorem sound_doc (hs : Sound s) : Props.DocOk s.heap := by
  obtain ⟨d, m, r, hk⟩ := hs.skeleton
  intro d' hd
  rw [hk.doc] at hd
  injection hd with hd
  exact hd ▸ hk.tag

theorem typed_step (env : Env) (hs : Sound s) {c : Call} (hc : c.Typed s.heap) : Inv (c.run env s).2 ∧ Shaped (c.run env s).2.heap := by
  have hg : Good Props.shapeFrame s := ⟨hs.inv, fun _ h => h.elim, fun h => h, fun _ _ _ _ _ _ h => h, nofun, fun _ => hs.shaped, nofun⟩
  have hG : Guard Props.shapeFrame s := ⟨fun _ h => h, fun _ _ h => h.elim, sound_doc hs⟩
  have hk := (Props.call_keeps env hG hg c hc (fun _ _ _ _ h => h) (fun h => h.elim (fun h => nomatch h) fun h => nomatch h) (fun _ _ _ h => h)
    (fun _ _ _ _ _ h => h) hg).1
  exact ⟨hk.good.inv, hk.good.shape rfl⟩

/-- The state after a call is sound if its entries and groups are neat. -/
theorem sound_step (env : Env) (hs : Sound s) {c : Call} (hc : c.Typed s.heap)
    (hn : ∀ y, ¬ NoCard ((c.run env s).2.heap.tag y) → Neat (c.run env s).2.heap y) : Sound (c.run env s).2 := by
  obtain ⟨d, m, r, hk⟩ := hs.skeleton
  obtain ⟨h1, h2⟩ := typed_step env hs hc
  exact ⟨h1, ⟨d, m, r, (Props.C52_structure env hs.inv hk (.step c (.refl s) hc)).2⟩, h2, hn⟩

/-! ## What is in an entry -/

/-- The tags that cannot be in an entry without a history. -/
def outer : List Str := ["Entry".toList, "Group".toList, "History".toList, "Root".toList, "KeePassFile".toList]

theorem home_history {p : Str} (h : Home p "History".toList) : p = "Entry".toList := by
  have := h _ (by decide : homes.lookup "History".toList = some ["Entry".toList])
  simpa using this

theorem home_outer {p t : Str} (h : Home p t) (hp : p ∉ outer) : t ∉ outer := by
  intro ht
  simp only [outer, List.mem_cons, List.not_mem_nil, or_false] at ht
  rcases ht with rfl | rfl | rfl | rfl | rfl
  · rcases home_entry h with e | e <;> rw [e] at hp <;> exact hp (by decide)
  · rcases home_group h with e | e <;> rw [e] at hp <;> exact hp (by decide)
  · rw [home_history h] at hp; exact hp (by decide)
  · rw [home_root h] at hp; exact hp (by decide)
  · exact home_doc h

theorem home_in_entry {t : Str} (h : Home "Entry".toList t) (hh : t ≠ "History".toList) : t ∉ outer := by
  intro ht
  simp only [outer, List.mem_cons, List.not_mem_nil, or_false] at ht
  rcases ht with rfl | rfl | rfl | rfl | rfl
  · exact absurd h (by decide)
  · exact absurd h (by decide)
  · exact hh rfl
  · exact absurd h (by decide)
  · exact absurd h (by decide)

theorem under_plain (hs : Inv s) (hsh : Shaped s.heap) {n : Nat} (hn : s.heap.tag n = "Entry".toList)
    (hh : s.heap.all n "History".toList = []) {j : Nat} (hj : Reach s.heap n j) : j = n ∨ s.heap.tag j ∉ outer := by
  have hn0 : n ≠ 0 := tag_ne_zero hs (by rw [hn]; decide)
  induction hj with
  | refl => exact .inl rfl
  | @snoc b c hb hc ih =>
    right
    have hb0 : b ≠ 0 := by rintro rfl; exact hn0 (reach_zero hs hb)
    have hhome := hsh b c hb0 hc
    rcases ih with rfl | h
    · rw [hn] at hhome
      refine home_in_entry hhome fun e => ?_
      have : c ∈ s.heap.all b "History".toList := List.mem_filter.mpr ⟨hc, beq_iff_eq.mpr e⟩
      rw [hh] at this
      cases this
    · exact home_outer hhome h

theorem outer_body {t : Str} (h : t ∉ outer) : NoCard t := by
  refine ⟨?_, ?_⟩ <;> · rintro rfl; exact h (by decide)

/-- An entry is never above a group. -/
theorem entry_no_group (hs : Sound s) (hx : s.heap.tag x = "Entry".toList) {g : Nat} (hg : s.heap.tag g = "Group".toList) : ¬ Reach s.heap x g := by
  have hx0 : x ≠ 0 := tag_ne_zero hs.inv (by rw [hx]; decide)
  have key : ∀ j, Reach s.heap x j → s.heap.tag j ≠ "Group".toList ∧ s.heap.tag j ≠ "Root".toList ∧ s.heap.tag j ≠ "KeePassFile".toList := by
    intro j hj
    induction hj with
    | refl => rw [hx]; decide
    | @snoc b c hb hc ih =>
      have hb0 : b ≠ 0 := by rintro rfl; exact hx0 (reach_zero hs.inv hb)
      have hhome := hs.shaped b c hb0 hc
      refine ⟨fun e => ?_, fun e => ?_, fun e => ?_⟩ <;> rw [e] at hhome
      · rcases home_group hhome with h | h
        · exact ih.2.1 h
        · exact ih.1 h
      · exact ih.2.2 (home_root hhome)
      · exact home_doc hhome
  exact fun h => (key g h).1 hg

theorem entry_lists (hs : Inv s) (hsh : Shaped s.heap) {n : Nat} (hn : s.heap.tag n = "Entry".toList) :
    s.heap.all n "Entry".toList = [] ∧ s.heap.all n "Group".toList = [] := by
  have hn0 : n ≠ 0 := tag_ne_zero hs (by rw [hn]; decide)
  constructor <;>
  · unfold Heap.all
    rw [List.filter_eq_nil_iff]
    intro k hk hkt
    have h := hsh n k hn0 hk
    rw [beq_iff_eq.mp hkt, hn] at h
    exact absurd h (by decide)

/-! ## Snapshots -/

theorem xcard_same {x y : Xml} (ht : y.tag = x.tag) (ha : ∀ t, t ≠ "History".toList → xall y t = xall x t) : xcard y = xcard x := by
  have hv : ∀ k, xvalues y k = xvalues x k := fun k => by unfold xvalues; rw [ha _ (by decide)]
  refine Card.ext ht ?_ ?_ ?_ ?_ ?_ ?_ ?_ rfl rfl rfl
  · funext p
    show xsub y p.tag = xsub x p.tag
    unfold xsub; rw [ha _ (by cases p <;> decide)]
  · funext p
    show ((xall y "Times".toList).head?.bind fun t => (xall t p.tag).head?).map Xml.text = ((xall x "Times".toList).head?.bind fun t => (xall t p.tag).head?).map Xml.text
    rw [ha _ (by decide)]
  · unfold xcard; rw [ha "Times".toList (by decide), ha "String".toList (by decide)]
  · unfold xcard; simp only [hv]
  · unfold xcard; simp only [hv]
  · unfold xcard; rw [ha "Binary".toList (by decide)]
  · funext p
    show (xels p.path y).map _ = (xels p.path x).map _
    have key : ∀ q : List Str, xels ("AutoType".toList :: q) y = xels ("AutoType".toList :: q) x := fun q => by
      show (xall y _).flatMap _ = (xall x _).flatMap _
      rw [ha _ (by decide)]
    cases p <;> exact congrArg _ (key _)

theorem xneat_same {x y : Xml} (ha : ∀ t, t ≠ "History".toList → xall y t = xall x t) (hh : xall y "History".toList = []) (h : XNeat x) : XNeat y := by
  have hs := ha "String".toList (by decide)
  refine ⟨fun t ht => ?_, ?_, ?_, ?_⟩
  · by_cases e : t = "History".toList
    · rw [e, hh]; exact Nat.zero_le _
    · rw [ha t e]; exact h.once t ht
  · rw [hs]; exact h.key
  · rw [hs]; exact h.value
  · rw [hs]; exact h.uniq

theorem snapshot_card (hs : Sound s) {e : Nat} (he : s.heap.tag e = "Entry".toList) {x : Xml} (hx : content s e = some x) (hs' : Inv s')
    (hsh : Shaped s'.heap) {n : Nat} {y : Xml} (hy : content s' n = some y) (ht : y.tag = x.tag)
    (ha : ∀ t, t ≠ "History".toList → xall y t = xall x t) (hh : xall y "History".toList = []) :
    cardOf s'.heap n = { cardOf s.heap e with past := none, files := (cardOf s'.heap n).files } ∧
      (cardOf s'.heap n).files.map File.content = (cardOf s.heap e).files.map File.content ∧ Neat s'.heap n ∧ s'.heap.tag n = "Entry".toList ∧
      s'.heap.all n "History".toList = [] := by
  have htn : s'.heap.tag n = "Entry".toList := by rw [content_tag hy, ht, ← content_tag hx]; exact he
  have hno : s'.heap.all n "History".toList = [] := by
    have := (content_all hs' hy "History".toList).2
    rw [hh] at this
    exact List.map_eq_nil_iff.mp this
  obtain ⟨a1, a2⟩ := entry_lists hs' hsh htn
  obtain ⟨b1, b2⟩ := entry_lists hs.inv hs.shaped he
  refine ⟨?_, ?_, (content_neat hs' hy).mpr (xneat_same ha hh ((content_neat hs.inv hx).mp (hs.neat e (by rw [he]; decide)))), htn, hno⟩
  · have h1 := content_card hs' hy
    have h2 := content_card hs.inv hx
    rw [xcard_same ht ha] at h1
    refine Card.ext ((congrArg Card.kind h1).trans (congrArg Card.kind h2).symm) ((congrArg Card.text h1).trans (congrArg Card.text h2).symm)
      ((congrArg Card.time h1).trans (congrArg Card.time h2).symm) ((congrArg Card.keys h1).trans (congrArg Card.keys h2).symm)
      ((congrArg Card.field h1).trans (congrArg Card.field h2).symm) ((congrArg Card.mark h1).trans (congrArg Card.mark h2).symm) rfl
      ((congrArg Card.auto h1).trans (congrArg Card.auto h2).symm) ?_ (a1.trans b1.symm) (a2.trans b2.symm)
    show (s'.heap.find n "History".toList).map _ = none
    unfold Heap.find
    rw [hno]; rfl
  · rw [content_files hs' hy, content_files hs.inv hx, xcard_same ht ha]

theorem one_all {h : Heap} {e : Nat} {t : Str} (h1 : (h.all e t).length ≤ 1) {k : Nat} (hf : h.find e t = some k) : h.all e t = [k] := by
  unfold Heap.find at hf
  match hl : h.all e t with
  | [] => rw [hl] at hf; cases hf
  | [a] => rw [hl] at hf; injection hf with hf; rw [hf]
  | a :: b :: l => rw [hl] at h1; simp at h1

theorem reach_first {h : Heap} {a j : Nat} (hj : Reach h a j) : j = a ∨ ∃ c ∈ h.kids a, Reach h c j := by
  induction hj with
  | refl => exact .inl rfl
  | snoc _ hc ih =>
    rcases ih with rfl | ⟨c, h1, h2⟩
    · exact .inr ⟨_, hc, .refl⟩
    · exact .inr ⟨c, h1, .snoc h2 hc⟩

theorem files_handles (s : Db) (n : Nat) : (cardOf s.heap n).files.map File.handle = s.heap.all n "Binary".toList := by
  show ((s.heap.all n "Binary".toList).map (fileOf s.heap)).map _ = _
  rw [List.map_map]
  exact List.map_id' _

theorem files_nodup {s : Db} (hs : Inv s) (n : Nat) : ((cardOf s.heap n).files.map File.handle).Nodup := by
  rw [files_handles]; exact all_nodup hs n _

theorem files_free {s s' : Db} (hs : Inv s) (hs' : Inv s') {n : Nat} (h : ∀ j ∈ s'.heap.kids n, s.next ≤ j) :
    ∀ f ∈ (cardOf s'.heap n).files, (vaultOf s).Free f.handle ∧ f.handle ≠ n := by
  intro f hf
  have : f.handle ∈ s'.heap.all n "Binary".toList := by rw [← files_handles]; exact List.mem_map_of_mem hf
  have hk := (all_sub this).1
  refine ⟨free_new hs (h _ hk), fun e => ?_⟩
  rw [e] at hk
  exact no_cycle hs' hk .refl

theorem saveHistory_did (env : Env) (hs : Sound s) {e : Nat} (he : s.heap.tag e = "Entry".toList) :
    ∃ s' n fs, saveHistory e s = (.ok (), s') ∧ (vaultOf s).Free n ∧ fs.map File.content = (cardOf s.heap e).files.map File.content ∧
      (fs.map File.handle).Nodup ∧ (∀ f ∈ fs, (vaultOf s).Free f.handle ∧ f.handle ≠ n) ∧
      Did s' (((vaultOf s).change e fun c => { c with past := some (c.past.getD [] ++ [n]) }).put n { cardOf s.heap e with past := none, files := fs }) := by
  have hb : ¬ NoCard (s.heap.tag e) := by rw [he]; decide
  have hem := card_mem hb
  have he0 := card_pos hs.inv hb
  have hel := hs.inv.bound e hem
  obtain ⟨x, hx⟩ := content_some hem
  have hone := (hs.neat e hb).once "History".toList (by decide)
  obtain ⟨s', h1, h2, h3, h4⟩ := saveHistory_ok hs.inv hem hx
  have hsh : Shaped s'.heap := by
    have := (typed_step env hs (c := .saveHistory e) he).2
    rw [show (Call.saveHistory e).run env s = saveHistory e s from rfl, h1] at this
    exact this
  have hver : s'.version = s.version := by rw [h3]
  have hti : s'.ticks = s.ticks := by rw [h3]
  have huu : s'.uuids = s.uuids := by rw [h3]
  cases hf : s.heap.find e "History".toList with
  | some k =>
    rw [hf] at h4
    obtain ⟨h4, h5⟩ := h4
    obtain ⟨k1, k2⟩ := find_kid hf
    have hkm := (kid_mem hs.inv k1).1
    have hk0 := kid_ne_zero hs.inv k1
    have hke : e ≠ k := by rintro rfl; exact no_cycle hs.inv k1 .refl
    have hq : ∀ j ∈ s.world.ids, j ≠ 0 → j ≠ k → s'.heap j = s.heap j := fun j hj _ hne => h4.other j hne (hs.inv.bound j hj)
    have htag : ∀ j ∈ s.world.ids, s'.heap.tag j = s.heap.tag j := fun j hj => added_tag hs.inv h4 (hs.inv.bound j hj)
    have hlen : (x.kids.filter fun k => k.tag == "History".toList).length ≤ 1 := by
      have := content_len hs.inv hx "History".toList
      unfold xall at this
      rw [← this]; exact hone
    have hd := dropFirst_one hlen
    rw [hd] at h5
    obtain ⟨c1, cf, c2, c3, c4⟩ := snapshot_card hs he hx h2 hsh h5 rfl
      (by
        intro t ht
        show (x.kids.filter _).filter _ = x.kids.filter _
        rw [List.filter_filter]
        refine List.filter_congr fun k _ => ?_
        by_cases ek : k.tag = t
        · rw [ek, bne_iff_ne.mpr ht, Bool.and_true]
        · rw [beq_eq_false_iff_ne.mpr ek, Bool.false_and])
      (by
        show (x.kids.filter _).filter _ = []
        rw [List.filter_filter, List.filter_eq_nil_iff]
        intro k _
        simp)
    have hne : s.next ≠ e := by omega
    have l : Local s s' e (some s.next) := by
      refine ⟨h2, hb, ⟨k, .kid .self k1 (by rw [k2]; decide), htag k hkm, hq⟩, fun j hj hn => ?_, added_doc hs.inv h2 h4 hk0, hver⟩
      refine fresh_of (P := fun j => j ≠ s.next) hs.inv h2 (fun j h0 hj hlt => h4.other j (fun e => hj (e ▸ hkm)) hlt)
        (fun j j1 j2 j3 => ?_) hj fun e => hn (congrArg some e)
      exact outer_body ((under_plain h2 hsh c3 c4 ((h4.below j).mpr ⟨j1, j2⟩)).resolve_left j3)
    have hall : ∀ t, s'.heap.all e t = s.heap.all e t := fun t => added_all_other hs.inv h4 hem fun h => absurd h hke
    have a : ∀ t, t ≠ "History".toList → SameAt s.heap s'.heap e t := fun t ht =>
      Local.other hs.inv hq htag (.inr ⟨k, k1, k2, .refl⟩) ht (hall t)
    have hlist : s'.heap.all k "Entry".toList = s.heap.all k "Entry".toList ++ [s.next] := by
      rw [added_all hs.inv h4 (hs.inv.bound k hkm), if_pos ⟨rfl, c3⟩]
    have hpast : (cardOf s.heap e).past = some (s.heap.all k "Entry".toList) := by
      show (s.heap.find e "History".toList).map _ = _
      rw [hf]; rfl
    have hcard : cardOf s'.heap e = { cardOf s.heap e with past := some ((cardOf s.heap e).past.getD [] ++ [s.next]) } := by
      refine card_past (htag e hem) a ?_
      have : s'.heap.find e "History".toList = some k := by unfold Heap.find at hf ⊢; rw [hall]; exact hf
      rw [this, hpast]
      show some (s'.heap.all k "Entry".toList) = some _
      rw [hlist]; rfl
    refine ⟨s', s.next, _, h1, free_new hs.inv (Nat.le_refl _), cf, files_nodup h2 _,
      files_free hs.inv h2 fun j hj => ((h4.below j).mp (.kid hj)).1, ?_, l.all_neat_new hs ⟨fun t ht => ?_, (a _ (by decide)).fields (hs.neat e hb).fields⟩ c2⟩
    · rw [l.vault_new hs (f := fun c => { c with past := some (c.past.getD [] ++ [s.next]) }) hcard hne (by rw [c3]; decide), c1]
      exact put_state hti huu
    · rw [hall]; exact (hs.neat e hb).once t ht
  | none =>
    rw [hf] at h4
    obtain ⟨h4, h5⟩ := h4
    have hnil : s.heap.all e "History".toList = [] := by
      unfold Heap.find at hf
      exact List.head?_eq_none_iff.mp hf
    have hxt : x.tag = "Entry".toList := by rw [← content_tag hx]; exact he
    have hxh : xall x "History".toList = [] := by
      have := content_len hs.inv hx "History".toList
      rw [hnil] at this
      exact List.length_eq_zero_iff.mp this.symm
    obtain ⟨m, m1, m2⟩ := content_one (t := "Entry".toList) (y := x) h2 h5 (by
      show [x].filter _ = [x]
      rw [List.filter_cons_of_pos (by rw [beq_iff_eq]; exact hxt)]; rfl)
    obtain ⟨m3, m4⟩ := all_sub (h := s'.heap) (i := s.next) (c := m) (t := "Entry".toList) (by rw [m1]; exact List.mem_singleton.mpr rfl)
    obtain ⟨c1, cf, c2, c3, c4⟩ := snapshot_card hs he hx h2 hsh m2 rfl (fun _ _ => rfl) hxh
    have htn : s'.heap.tag s.next = "History".toList := content_tag h5
    have honly : ∀ c ∈ s'.heap.kids s.next, c = m := by
      intro c hc
      have hcm : c ∈ s'.heap.all s.next (s'.heap.tag c) := List.mem_filter.mpr ⟨hc, beq_self_eq_true _⟩
      obtain ⟨y, y1, y2⟩ := content_under h2 h5 hcm
      have y3 : y ∈ [x] := (List.mem_filter.mp y1).1
      rw [List.mem_singleton.mp y3] at y2
      have : s'.heap.tag c = "Entry".toList := (content_tag y2).trans hxt
      rw [this, m1] at hcm
      exact List.mem_singleton.mp hcm
    have hmr := (h4.below m).mp (.snoc .refl m3)
    have hq : ∀ j ∈ s.world.ids, j ≠ 0 → j ≠ e → s'.heap j = s.heap j := fun j hj _ hne => h4.other j hne (hs.inv.bound j hj)
    have htag : ∀ j ∈ s.world.ids, s'.heap.tag j = s.heap.tag j := fun j hj => added_tag hs.inv h4 (hs.inv.bound j hj)
    have hne : m ≠ e := by omega
    have l : Local s s' e (some m) := by
      refine ⟨h2, hb, ⟨e, .self, htag e hem, hq⟩, fun j hj hn => ?_, added_doc hs.inv h2 h4 he0, hver⟩
      refine fresh_of (P := fun j => j ≠ m) hs.inv h2 (fun j h0 hj hlt => h4.other j (fun e => hj (e ▸ hem)) hlt)
        (fun j j1 j2 j3 => ?_) hj fun e => hn (congrArg some e)
      rcases reach_first ((h4.below j).mpr ⟨j1, j2⟩) with rfl | ⟨c, r1, r2⟩
      · rw [htn]; decide
      · rw [honly c r1] at r2
        exact outer_body ((under_plain h2 hsh c3 c4 r2).resolve_left j3)
    have hall : ∀ t, t ≠ "History".toList → s'.heap.all e t = s.heap.all e t := fun t ht =>
      added_all_other hs.inv h4 hem fun _ => by rw [htn]; exact ht.symm
    have hallh : s'.heap.all e "History".toList = [s.next] := by
      rw [added_all hs.inv h4 hel, if_pos ⟨rfl, htn⟩, hnil]; rfl
    have a : ∀ t, t ≠ "History".toList → SameAt s.heap s'.heap e t := fun t ht =>
      Local.other hs.inv hq htag (.inl rfl) ht (hall t ht)
    have hpast : (cardOf s.heap e).past = none := by
      show (s.heap.find e "History".toList).map _ = _
      rw [hf]; rfl
    have hcard : cardOf s'.heap e = { cardOf s.heap e with past := some ((cardOf s.heap e).past.getD [] ++ [m]) } := by
      refine card_past (htag e hem) a ?_
      have : s'.heap.find e "History".toList = some s.next := by unfold Heap.find; rw [hallh]; rfl
      rw [this, hpast]
      show some (s'.heap.all s.next "Entry".toList) = some _
      rw [m1]; rfl
    refine ⟨s', m, _, h1, free_new hs.inv hmr.1, cf, files_nodup h2 _,
      files_free hs.inv h2 fun j hj => ((h4.below j).mp (.snoc (.snoc .refl m3) hj)).1, ?_, l.all_neat_new hs ⟨fun t ht => ?_, (a _ (by decide)).fields (hs.neat e hb).fields⟩ c2⟩
    · rw [l.vault_new hs (f := fun c => { c with past := some (c.past.getD [] ++ [m]) }) hcard hne (by rw [c3]; decide), c1]
      exact put_state hti huu
    · by_cases et : t = "History".toList
      · rw [et, hallh]; exact Nat.le_refl _
      · rw [hall t et]; exact (hs.neat e hb).once t ht

/-! ## Deleting from the history -/

theorem clear_did (hs : Sound s) {e : Nat} (he : s.heap.tag e = "Entry".toList) {k : Nat} (hf : s.heap.find e "History".toList = some k) :
    ∃ s', deleteHistory e none true s = (.ok (), s') ∧ Inv s' ∧ Did s' ((vaultOf s).change e fun c => { c with past := none }) := by
  have hb : ¬ NoCard (s.heap.tag e) := by rw [he]; decide
  have hem := card_mem hb
  have he0 := card_pos hs.inv hb
  have hall := one_all ((hs.neat e hb).once _ (by decide)) hf
  obtain ⟨k1, k2⟩ := find_kid hf
  obtain ⟨s', h1, h2, h3, h4⟩ := removeKid_ok hs.inv he0 k1
  have hm : Moved s.heap s'.heap k 0 := h4
  have hq : ∀ j ∈ s.world.ids, j ≠ 0 → j ≠ e → s'.heap j = s.heap j := fun j _ h0 hne =>
    moved_same hm h0 fun hc => hne (parent_eq hs.inv hc k1)
  have hdoc : docEl s.heap ≠ some k := by
    obtain ⟨d, m, r, hk⟩ := hs.skeleton
    rw [hk.doc]
    intro h
    injection h with h
    have := hk.tag
    rw [h, k2] at this
    exact absurd this (by decide)
  have l : Local s s' e none := by
    refine ⟨h2, hb, ⟨e, .self, moved_tag hm e, hq⟩, fun j hj _ => ?_, moved_doc hs.inv hm hdoc, by rw [h3]⟩
    rw [moved_tag hm, not_mem_tag hj]; exact bodyNil
  have hlist : ∀ t, s'.heap.all e t = (s.heap.all e t).filter (· != k) := fun t => Props.moved_all hm he0 hem t
  have hother : ∀ t, t ≠ "History".toList → s'.heap.all e t = s.heap.all e t := by
    intro t ht
    rw [hlist]
    refine List.filter_eq_self.mpr fun j hj => bne_iff_ne.mpr ?_
    rintro rfl
    exact ht ((all_sub hj).2.symm.trans k2)
  have hnil : s'.heap.all e "History".toList = [] := by rw [hlist, hall]; simp [bne]
  have a : ∀ t, t ≠ "History".toList → SameAt s.heap s'.heap e t := fun t ht =>
    Local.other hs.inv hq (fun j _ => moved_tag hm j) (.inl rfl) ht (hother t ht)
  refine ⟨s', ?_, h2, ?_, l.all_neat hs ⟨fun t ht => ?_, (a _ (by decide)).fields (hs.neat e hb).fields⟩⟩
  · show (findKid e _ >>= _) s = _
    rw [bind_of (findKid_run e _ s), hf]
    exact h1
  · rw [l.vault hs (f := fun c => { c with past := none }) (card_past (moved_tag hm e) a (by unfold Heap.find; rw [hnil]; rfl))]
    exact change_state (by rw [h3]; rfl) (by rw [h3]; rfl)
  · by_cases et : t = "History".toList
    · rw [et, hnil]; exact Nat.zero_le _
    · rw [hother t et]; exact (hs.neat e hb).once t ht

/-- A card that is listed is in an element. -/
theorem listed_kid (hs : Sound s) (h : (vaultOf s).Listed x) : ∃ p, p ≠ 0 ∧ x ∈ s.heap.kids p := by
  obtain ⟨d, m, r, hk⟩ := hs.skeleton
  rcases h with h | ⟨j, c, hc, h⟩
  · have : x ∈ rootsOf s.heap := h
    rw [roots_of hk] at this
    have hr : s.heap.tag r = "Root".toList := (all_sub (h := s.heap) (i := d) (by rw [hk.root]; exact List.mem_singleton.mpr rfl)).2
    exact ⟨r, tag_ne_zero hs.inv (by rw [hr]; decide), (all_sub this).1⟩
  · obtain ⟨hj, rfl⟩ := card_inv hc
    rcases h with h | h | ⟨l, h1, h2⟩
    · exact ⟨j, card_pos hs.inv hj, (all_sub h).1⟩
    · exact ⟨j, card_pos hs.inv hj, (all_sub h).1⟩
    · replace h1 : (s.heap.find j "History".toList).map (fun k => s.heap.all k "Entry".toList) = some l := h1
      cases hf : s.heap.find j "History".toList with
      | none => rw [hf] at h1; cases h1
      | some k =>
        rw [hf] at h1
        injection h1 with h1
        rw [← h1] at h2
        exact ⟨k, kid_ne_zero hs.inv (find_kid hf).1, (all_sub h2).1⟩

theorem delete_did (hs : Sound s) (hx : ¬ NoCard (s.heap.tag x)) (h : (vaultOf s).Listed x) :
    ∃ s', delete x s = (.ok (), s') ∧ Inv s' ∧ Did s' ((vaultOf s).unlink x) := by
  obtain ⟨p, hp, hk⟩ := listed_kid hs h
  obtain ⟨s', h1, h2, h3, h4⟩ := delete_ok hs.inv hp hk
  exact ⟨s', h1, h2, moved_out hs hx h4 h3⟩

theorem deleteOne_did (hs : Sound s) {e k : Nat} {l : List Nat} (hp : (cardOf s.heap e).past = some l) (hk : k ∈ l) :
    ∃ s', deleteHistory e (some k) false s = (.ok (), s') ∧ Inv s' ∧ Did s' ((vaultOf s).unlink k) := by
  replace hp : (s.heap.find e "History".toList).map (fun k => s.heap.all k "Entry".toList) = some l := hp
  cases hf : s.heap.find e "History".toList with
  | none => rw [hf] at hp; cases hp
  | some h =>
    rw [hf] at hp
    injection hp with hp
    rw [← hp] at hk
    obtain ⟨k1, k2⟩ := all_sub hk
    obtain ⟨s', a1, a2, a3, a4⟩ := removeKid_ok hs.inv (kid_ne_zero hs.inv (find_kid hf).1) k1
    refine ⟨s', ?_, a2, moved_out hs (by rw [k2]; decide) a4 a3⟩
    show (findKid e _ >>= _) s = _
    rw [bind_of (findKid_run e _ s), hf, bind_of (orAttr_some h s), bind_of (orAttr_some k s)]
    exact a1

theorem move_did (hs : Sound s) {g : Nat} (hx : ¬ NoCard (s.heap.tag x)) (hg : s.heap.tag g = "Group".toList) (hr : ¬ Reach s.heap x g) :
    ∃ s', appendEl g x s = (.ok (), s') ∧ Inv s' ∧ (s.heap.tag x = "Entry".toList → Did s' (((vaultOf s).unlink x).addEntry g x)) ∧
      (s.heap.tag x = "Group".toList → Did s' (((vaultOf s).unlink x).addGroup g x)) := by
  have hdoc : docEl s.heap ≠ some x := by
    obtain ⟨d, m, r, hk⟩ := hs.skeleton
    rw [hk.doc]
    intro h
    injection h with h
    have := hk.tag
    rw [h] at this
    rw [this] at hx
    exact hx (by decide)
  obtain ⟨s', h1, h2, h3, h4⟩ := append_ok hs.inv (card_mem hx) (card_pos hs.inv hx) (tag_mem (by rw [hg]; decide)) hr hdoc
  exact ⟨s', h1, h2, moved_in hs hx hg h4 h3⟩

/-! ## Times -/

theorem vault_setTime_none {p : TimeProp} (hq : timeEl s.heap x p.tag = none) (w : Str) : (vaultOf s).setTime x p w = vaultOf s := by
  unfold Vault.setTime
  refine change_id fun c hc => ?_
  obtain ⟨_, rfl⟩ := card_inv hc
  rw [if_pos]
  show (timeEl s.heap x p.tag).map s.heap.text = none
  rw [hq]; rfl

theorem did_same (hs : Sound s) : Did s (vaultOf s) := ⟨rfl, hs.neat⟩

theorem time_card (p : TimeProp) : (cardOf s.heap x).time p = none ↔ timeEl s.heap x p.tag = none := by
  show (timeEl s.heap x p.tag).map s.heap.text = none ↔ _
  exact Option.map_eq_none_iff

/-- Setting a time that can be written. -/
theorem setTime_did (hs : Sound s) (hx : ¬ NoCard (s.heap.tag x)) (p : TimeProp) {v : DateTime} {w : Str} (hw : encodeTime s.version v = .ok w) :
    ∃ s', setTime x p.tag v s = (.ok (), s') ∧ Inv s' ∧ Did s' ((vaultOf s).setTime x p w) := by
  obtain ⟨h1, h2⟩ := setTime_run hs.inv x p.tag v
  cases hq : timeEl s.heap x p.tag with
  | none =>
    refine ⟨s, h1 hq, hs.inv, ?_⟩
    rw [vault_setTime_none hq]; exact did_same hs
  | some q =>
    obtain ⟨s', h3, h4⟩ := (h2 q hq).2 w hw
    exact ⟨s', h3, h4.inv, changed_did hs hx hq h4⟩

theorem setExpires_did (hs : Sound s) (hx : ¬ NoCard (s.heap.tag x)) (b : Bool) {q : Nat} (hq : timeEl s.heap x "Expires".toList = some q) :
    ∃ s', setExpires x b s = (.ok (), s') ∧ Inv s' ∧ Did s' ((vaultOf s).setTime x .expires (pyBool b)) := by
  obtain ⟨m1, _⟩ := timeEl_mem hs.inv hq
  rw [setExpires_run, hq]
  obtain ⟨s', h3, h4, h5, h6⟩ := setText_ok hs.inv q (some (pyBool b)) (by cases b <;> exact fun t h => by cases h; decide)
  exact ⟨s', h3, h4, changed_did (p := .expires) hs hx hq ⟨h4, h5, h6⟩⟩

end

end Verif.Api
