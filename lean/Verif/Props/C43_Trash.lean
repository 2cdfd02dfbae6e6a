import Verif.Api.TrashLemmas
import Verif.Api.Sample
import Verif.Props.C40_Duplicates
import Verif.Props.C52_Structure
/-!
# C43: trashing moves to one recycle bin
-/
namespace Verif.Props
open Verif XPath Spec Api

/-- The uuid of an element as the `uuid` property reads it. -/
def UuidIs (h : Heap) (x : Nat) (u : Bytes) : Prop := sub h x "UUID".toList = some (b64encode u) ∧ u.length = 16

theorem uuid_run {s : Db} {x : Nat} {u : Bytes} (h : UuidIs s.heap x u) : getUuid x s = (.ok u, s) := by
  unfold getUuid
  rw [bind_of (getSub_run x _ s), h.1, uuid_text_ok h.2]
  rfl

theorem eqOpt_run {s : Db} {x g : Nat} {u v : Bytes} (hx : UuidIs s.heap x u) (hg : UuidIs s.heap g v) :
    eqOpt x (some g) s = (.ok (u == v), s) := by
  show (getUuid x >>= _) s = _
  rw [bind_of (uuid_run hx), bind_of (uuid_run hg)]
  rfl

/-- What may be moved to the bin: what has neither the uuid of the root group nor that of the bin. -/
theorem can_run {env : Env} {s : Db} (hs : Inv s) {d m r g el x : Nat} {u ux ug : Bytes} (hk : Settled s.heap d m r g el u)
    (hx : UuidIs s.heap x ux) (hg : UuidIs s.heap g ug) :
    ∃ v, canBeTrashed env x s = (.ok v, s) ∧ (v = true ↔ ux ≠ ug ∧ ∀ b, IsBin s.heap u b → ¬ HasUuid s.heap b (b64encode ux)) := by
  obtain ⟨o, ho, hob⟩ := recycleBin_run env hs hk
  have hroot : rootGroup env s = (.ok (some g), s) := by
    rw [rootGroup_run env hs, rootEls_skel hk.skel hk.root]
    rfl
  unfold canBeTrashed
  rw [bind_of hroot, bind_of (eqOpt_run hx hg)]
  by_cases e : ux = ug
  · subst e
    exact ⟨false, by rw [beq_self_eq_true]; rfl, by simp⟩
  · rw [beq_false_of_ne e]
    show ∃ v, (recycleBin env >>= _) s = (.ok v, s) ∧ _
    rw [bind_of ho]
    cases o with
    | none =>
      refine ⟨true, rfl, ?_⟩
      simp only [true_iff]
      exact ⟨e, fun b hb => by cases (hob b).mpr hb⟩
    | some b =>
      have hb := (hob b).mp rfl
      obtain ⟨hbm, hb0⟩ := inDoc_mem hs hb.doc
      obtain ⟨w, hw, hwi⟩ := first_uuid env hs hb0 hbm (b64_plain ux)
      refine ⟨w.isNone, ?_, ?_⟩
      · show (getUuid x >>= _) s = _
        rw [bind_of (uuid_run hx)]
        show (xpathFirst env (some b) (uuidQuery (b64encode ux)) >>= _) s = _
        rw [bind_of hw]
        rfl
      · rw [hwi]
        constructor
        · intro h
          refine ⟨e, fun c hc => ?_⟩
          rw [hk.one c b hc.tag hb.tag hc.uuid hb.uuid]
          exact h
        · exact fun h => h.2 b hb

/-! ## Single calls -/

/-- An entry or group whose uuid is neither that of the root group nor that of the bin, and which does not have the bin
below it, is moved to the end of the children of the bin. `Moved` says that nothing else changed. -/
theorem C43_trash {env : Env} {s : Db} (hs : Inv s) {d m r g el x b : Nat} {u ux ug : Bytes} (hk : Settled s.heap d m r g el u)
    (hb : IsBin s.heap u b) (hx : IsElem s.heap x) (hux : UuidIs s.heap x ux) (hug : UuidIs s.heap g ug) (hg : ux ≠ ug)
    (hbu : ¬ HasUuid s.heap b (b64encode ux)) (hcyc : ¬ Reach s.heap x b) :
    ∃ s', trash env x s = (.ok (), s') ∧ s' = { s with world := s'.world } ∧ Moved s.heap s'.heap x b ∧
      s'.heap.kids b = (s.heap.kids b).filter (· != x) ++ [x] := by
  obtain ⟨v, hv, hvi⟩ := can_run (env := env) hs hk hux hug
  have ht : v = true := hvi.mpr ⟨hg, fun c hc => by rw [hk.one c b hc.tag hb.tag hc.uuid hb.uuid]; exact hbu⟩
  subst ht
  obtain ⟨o, ho, hob⟩ := recycleBin_run env hs hk
  obtain rfl := (hob b).mpr hb
  have hbm := (inDoc_mem hs hb.doc).1
  obtain ⟨s', h1, h2, h3, h4⟩ := append_ok hs (elem_mem hx) (elem_zero hs hx) hbm hcyc (elem_not_doc hk.skel hx)
  refine ⟨s', ?_, h3, h4, ?_⟩
  · unfold trash
    rw [bind_of hv]
    show (binGroup env >>= fun bin => groupAppend bin x) s = _
    rw [bind_of (show binGroup env s = (.ok b, s) by unfold binGroup; rw [bind_of ho]; rfl)]
    exact h1
  · rw [moved_kids h4 b (heap_some.mpr hbm), if_pos rfl]

/-- Without a bin, one is made first: a new group "Recycle Bin" at the end of the root group, named by the setting. Then
the element is moved into it. -/
theorem C43_create {env : Env} {s : Db} (hs : Inv s) {d m r g el x : Nat} {u ux ug : Bytes} {now : Str}
    (hk : Settled s.heap d m r g el u) (hno : ∀ b, ¬ IsBin s.heap u b) (hf : FreshUuids env s) (hx : IsElem s.heap x)
    (hux : UuidIs s.heap x ux) (hug : UuidIs s.heap g ug) (hg : ux ≠ ug)
    (hnow : encodeTime s.version (env.now s.ticks) = .ok now) :
    ∃ s1 s', trash env x s = (.ok (), s') ∧ NewBin s.heap s1.heap g el s.next (env.uuid1 s.uuids) ∧
      content s1 s.next = some (binXml (env.uuid1 s.uuids) now) ∧ Moved s1.heap s'.heap x s.next ∧
      s'.heap.kids s.next = s1.heap.kids s.next ++ [x] ∧ Settled s'.heap d m r g el (env.uuid1 s.uuids) ∧
      IsBin s'.heap (env.uuid1 s.uuids) s.next := by
  obtain ⟨v, hv, hvi⟩ := can_run (env := env) hs hk hux hug
  have ht : v = true := hvi.mpr ⟨hg, fun c hc => absurd hc (hno c)⟩
  subst ht
  rcases trash_new env hs hk hno hf hx hv with ⟨e, h0, _⟩ | ⟨s1, s', now', h0, h1, h2, h3, h4, h5, h6, h7, _, h9, h10, h11, h12, h13⟩
  · rw [hnow] at h0; cases h0
  · rw [hnow] at h0
    injection h0 with h0
    subst h0
    refine ⟨s1, s', h1, h4, h5, h9, ?_, moved_settled h2 h9 h12 h11 h7.tag h6, moved_bin h2 h9 h12 h10 h6.skel h7⟩
    have hmem := (inDoc_mem h2 h7.doc).1
    rw [moved_kids h9 s.next (heap_some.mpr hmem), if_pos rfl]
    congr 1
    refine filter_all_true (p := (· != x)) fun c hc => ?_
    rw [bne_iff_ne]
    rintro rfl
    rcases content_kid h2 h5 hc with ⟨y, hy, hcy⟩
    have ht := content_tag hcy
    simp only [binXml, Xml.kids, List.mem_cons, List.not_mem_nil, or_false] at hy
    rcases hy with rfl | rfl | rfl <;> simp only [Xml.tag] at ht <;> exact elem_tag h12 (by decide) (by decide) ht

/-- The root group is refused with no change. -/
theorem C43_refuse_root {env : Env} {s : Db} (hs : Inv s) {d m r g el : Nat} {u ug : Bytes} (hk : Settled s.heap d m r g el u)
    (hug : UuidIs s.heap g ug) : trash env g s = (.error .unableToRecycle, s) := by
  obtain ⟨v, hv, hvi⟩ := can_run (env := env) hs hk hug hug
  cases v with
  | true => exact absurd rfl (hvi.mp rfl).1
  | false =>
    unfold trash
    rw [bind_of hv]
    rfl

/-- The bin is refused with no change. -/
theorem C43_refuse_bin {env : Env} {s : Db} (hs : Inv s) {d m r g el b : Nat} {u ug : Bytes} (hk : Settled s.heap d m r g el u)
    (hb : IsBin s.heap u b) (hub : UuidIs s.heap b u) (hug : UuidIs s.heap g ug) :
    trash env b s = (.error .unableToRecycle, s) := by
  obtain ⟨v, hv, hvi⟩ := can_run (env := env) hs hk hub hug
  cases v with
  | true => exact absurd hb.uuid ((hvi.mp rfl).2 b hb)
  | false =>
    unfold trash
    rw [bind_of hv]
    rfl

/-- A group with the bin below it is refused with no change, with whatever exception. -/
theorem C43_refuse_above {env : Env} {s : Db} (hs : Inv s) {d m r g el b x : Nat} {u : Bytes} (hk : Settled s.heap d m r g el u)
    (hb : IsBin s.heap u b) (hx : IsElem s.heap x) (hr : Reach s.heap x b) : ∃ e, trash env x s = (.error e, s) := by
  rcases trash_some env hs hk hb hx with h | ⟨_, _, _, _, _, h, _⟩
  · exact h
  · exact absurd hr h

/-! ## Histories -/

theorem fresh_world {env : Env} {s t : Db} (hf : FreshUuids env s) (hw : t.world = s.world) (hu : s.uuids ≤ t.uuids) : FreshUuids env t := by
  have hh : t.heap = s.heap := by unfold Db.heap; rw [hw]
  refine ⟨fun k hk => hf.len k (Nat.le_trans hu hk), fun k hk g => ?_⟩
  rw [hh]
  exact hf.new k (Nat.le_trans hu hk) g

theorem inBin_moved {h : Heap} {t t' : Db} (ht : Inv t) {L : List Nat} {d m r el b x : Nat} (hin : InBin h t.heap L el b)
    (hk : Skeleton t.heap d m r) (hx : IsElem t.heap x) (hb : InDoc t.heap b) (hm : Moved t.heap t'.heap x b)
    (hcyc : ¬ Reach t.heap x b) : InBin h t'.heap (x :: L) el b := by
  have hbm := (inDoc_mem ht hb).1
  have hbr := heap_some.mpr hbm
  refine ⟨?_, ?_, ?_, ?_, ?_, ?_⟩
  · intro i q hq
    obtain ⟨q', h1, h2, h3, h4⟩ := hin.kept i q hq
    have e := hm i
    rw [h1] at e
    exact ⟨_, e, h2, h3, h4⟩
  · intro i hi
    rw [moved_inDoc ht hm hbm hcyc (elem_not_doc hk hx)]
    by_cases hr : Reach t.heap x i
    · exact .inr ⟨hb, hr⟩
    · exact .inl ⟨hin.doc i hi, hr⟩
  · intro y hy
    rcases List.mem_cons.mp hy with rfl | hy
    · exact ⟨fun e => hcyc (e ▸ .refl), (moved_kids_mem hm hbr b y).mpr (.inr ⟨rfl, rfl⟩)⟩
    · obtain ⟨h1, h2⟩ := hin.inside y hy
      refine ⟨h1, (moved_kids_mem hm hbr b y).mpr ?_⟩
      by_cases e : y = x
      · exact .inr ⟨e, rfl⟩
      · exact .inl ⟨e, h2⟩
  · intro p c hc hp
    simp only [List.mem_cons, not_or] at hc
    exact (moved_kids_mem hm hbr p c).mpr (.inl ⟨hc.1, hin.stay p c hc.2 hp⟩)
  · intro p q hq hp
    obtain ⟨l, h1, h2⟩ := hin.order p q hq hp
    obtain ⟨q', h3, _⟩ := hin.kept p q hq
    refine ⟨l, ?_, h2⟩
    rw [moved_kids hm p ⟨q', h3⟩, if_neg hp, h1, List.filter_append, List.filter_filter]
    congr 1
    · apply List.filter_congr
      intro c _
      rw [List.contains_cons]
      by_cases e : c = x <;> simp [bne, e]
    · refine filter_all_true (p := (· != x)) fun c hc => ?_
      rw [bne_iff_ne, h2 c hc]
      exact fun e => hcyc (e ▸ .refl)
  · intro i hi he
    refine hin.new i hi ?_
    rcases he with he | he
    · left; show _ = _; rw [← moved_tag hm]; exact he
    · right; show _ = _; rw [← moved_tag hm]; exact he

theorem inBin_start (h : Heap) (el b : Nat) : InBin h h [] el b := by
  refine ⟨fun i r hr => ⟨r, hr, rfl, rfl, fun _ => rfl⟩, fun _ h => h, ?_, fun _ _ _ h => h, ?_, ?_⟩
  · intro x hx; cases hx
  · intro p r hr _
    refine ⟨[], ?_, ?_⟩
    · rw [List.append_nil, filter_all_true (p := fun c => !([] : List Nat).contains c) (fun _ _ => rfl)]
      unfold Heap.kids
      rw [hr]
      rfl
    · intro c hc; cases hc
  · intro i hi he
    exfalso
    refine elem_tag he (t := []) (by decide) (by decide) ?_
    unfold Heap.tag
    rw [hi]
    rfl

theorem inBin_new {h h' : Heap} {g el n : Nat} {u : Bytes} (hn : NewBin h h' g el n u) (hdoc : ∀ i, InDoc h i → InDoc h' i) :
    InBin h h' [] el n := by
  refine ⟨?_, hdoc, ?_, ?_, ?_, fun i hi he => hn.none i hi he⟩
  · intro i q hq
    refine ⟨_, hn.old i q hq, ?_, ?_, ?_⟩
    · split
      · rfl
      · split <;> rfl
    · split
      · rfl
      · split <;> rfl
    · intro hi
      rw [if_neg hi]
      split <;> rfl
  · intro x hx; cases hx
  · intro p c _ hp
    unfold Heap.kids at hp ⊢
    cases hq : h p with
    | none => rw [hq] at hp; cases hp
    | some q =>
      rw [hq] at hp
      rw [hn.old p q hq]
      show c ∈ (if p = g then _ else if p = el then _ else q : Node.Rec).kids
      replace hp : c ∈ q.kids := hp
      split
      · exact List.mem_append_left _ hp
      · split <;> exact hp
  · intro p q hq _
    refine ⟨if p = g then [n] else [], ?_, ?_⟩
    · rw [filter_all_true (p := fun c => !([] : List Nat).contains c) (fun _ _ => rfl)]
      unfold Heap.kids
      rw [hn.old p q hq]
      show (if p = g then _ else if p = el then _ else q : Node.Rec).kids = _
      split
      · rfl
      · split <;> rw [List.append_nil]
    · intro c hc
      split at hc
      · exact List.mem_singleton.mp hc
      · cases hc

/-- Any number of calls of `trash_entry` and `trash_group`, on any entries and groups. As long as all were refused the database
is as it was. After that there is one bin `b` for all of them: the bin that the database had, or, when it had
none, a new one. What was moved is in it, nothing else changed its place, nothing is lost from the database, no field
of any element changed, and no other entry or group was made. -/
theorem C43_history {env : Env} {s : Db} (hs : Inv s) {d m r g el : Nat} {u : Bytes} (hk : Settled s.heap d m r g el u)
    (hf : FreshUuids env s) {L : List Nat} {t : Db} (hL : Trashing env s L t) :
    (L = [] ∧ t.world = s.world) ∨
    ∃ b v, Settled t.heap d m r g el v ∧ IsBin t.heap v b ∧ InBin s.heap t.heap L el b ∧
      ((IsBin s.heap u b ∧ v = u) ∨ ((∀ a, ¬ IsBin s.heap u a) ∧ s.heap b = none)) := by
  suffices key : Inv t ∧ ((L = [] ∧ t.world = s.world ∧ s.uuids ≤ t.uuids ∧ (∀ a, ¬ IsBin s.heap u a)) ∨
      ∃ b v, Settled t.heap d m r g el v ∧ IsBin t.heap v b ∧ InBin s.heap t.heap L el b ∧
        ((IsBin s.heap u b ∧ v = u) ∨ ((∀ a, ¬ IsBin s.heap u a) ∧ s.heap b = none))) by
    rcases key.2 with ⟨h1, h2, _⟩ | h
    · exact .inl ⟨h1, h2⟩
    · exact .inr h
  have hone : ∀ {t : Db} {L : List Nat} {x : Nat} {q : Except PyErr Unit} {t' : Db}, Inv t →
      ((L = [] ∧ t.world = s.world ∧ s.uuids ≤ t.uuids ∧ (∀ a, ¬ IsBin s.heap u a)) ∨
        ∃ b v, Settled t.heap d m r g el v ∧ IsBin t.heap v b ∧ InBin s.heap t.heap L el b ∧
          ((IsBin s.heap u b ∧ v = u) ∨ ((∀ a, ¬ IsBin s.heap u a) ∧ s.heap b = none))) →
      IsElem t.heap x → trash env x t = (q, t') → Inv t' ∧
      (((q = .ok () → False) ∧ ((L = [] ∧ t'.world = s.world ∧ s.uuids ≤ t'.uuids ∧ (∀ a, ¬ IsBin s.heap u a)) ∨
        ∃ b v, Settled t'.heap d m r g el v ∧ IsBin t'.heap v b ∧ InBin s.heap t'.heap L el b ∧
          ((IsBin s.heap u b ∧ v = u) ∨ ((∀ a, ¬ IsBin s.heap u a) ∧ s.heap b = none)))) ∨
       (q = .ok () ∧ ∃ b v, Settled t'.heap d m r g el v ∧ IsBin t'.heap v b ∧ InBin s.heap t'.heap (x :: L) el b ∧
          ((IsBin s.heap u b ∧ v = u) ∨ ((∀ a, ¬ IsBin s.heap u a) ∧ s.heap b = none)))) := by
    intro t L x q t' ht hP hx hr
    rcases hP with ⟨rfl, hw, hu, hno⟩ | ⟨b, v, h1, h2, h3, h4⟩
    · have hh : t.heap = s.heap := by unfold Db.heap; rw [hw]
      have hk' : Settled t.heap d m r g el u := by rw [hh]; exact hk
      have hno' : ∀ a, ¬ IsBin t.heap u a := by rw [hh]; exact hno
      rcases trash_cases env x t with ⟨e, he⟩ | hc
      · rw [he] at hr
        injection hr with h1 h2
        subst h1 h2
        exact ⟨ht, .inl ⟨(fun h => nomatch h), .inl ⟨rfl, hw, hu, hno⟩⟩⟩
      · rcases trash_new env ht hk' hno' (fresh_world hf hw hu) hx hc with
          ⟨e, _, he⟩ | ⟨s1, s', now, _, m1, m2, m3, m4, _, m6, m7, m8, m9, m10, m11, m12, _⟩
        · rw [he] at hr
          injection hr with h1 h2
          subst h1 h2
          exact ⟨⟨ht.world, ht.bound⟩, .inl ⟨(fun h => nomatch h), .inl ⟨rfl, hw, Nat.le_succ_of_le hu, hno⟩⟩⟩
        · rw [m1] at hr
          injection hr with h1 h2
          subst h1 h2
          rw [hh] at m4 m8
          refine ⟨m3, .inr ⟨rfl, t.next, env.uuid1 t.uuids, moved_settled m2 m9 m12 m11 m7.tag m6,
            moved_bin m2 m9 m12 m10 m6.skel m7, ?_, .inr ⟨hno, m4.fresh⟩⟩⟩
          exact inBin_moved m2 (inBin_new m4 m8) m6.skel m12 m7.doc m9 m10
    · rcases trash_some env ht h1 h2 hx with ⟨e, he⟩ | ⟨s', m1, m2, _, m4, m5, m6⟩
      · rw [he] at hr
        injection hr with e1 e2
        subst e1 e2
        exact ⟨ht, .inl ⟨(fun h => nomatch h), .inr ⟨b, v, h1, h2, h3, h4⟩⟩⟩
      · rw [m1] at hr
        injection hr with e1 e2
        subst e1 e2
        exact ⟨m2, .inr ⟨rfl, b, v, moved_settled ht m4 hx m6 h2.tag h1, moved_bin ht m4 hx m5 h1.skel h2,
          inBin_moved ht h3 h1.skel hx h2.doc m4 m5, h4⟩⟩
  induction hL with
  | start =>
    refine ⟨hs, ?_⟩
    by_cases hb : ∃ b, IsBin s.heap u b
    · obtain ⟨b, hb⟩ := hb
      exact .inr ⟨b, u, hk, hb, inBin_start s.heap el b, .inl ⟨hb, rfl⟩⟩
    · exact .inl ⟨rfl, rfl, Nat.le_refl _, fun a ha => hb ⟨a, ha⟩⟩
  | moved _ hx hr ih =>
    obtain ⟨h1, h2⟩ := hone ih.1 ih.2 hx hr
    rcases h2 with ⟨h2, _⟩ | ⟨_, h2⟩
    · exact (h2 rfl).elim
    · exact ⟨h1, .inr h2⟩
  | refused _ hx hr ih =>
    obtain ⟨h1, h2⟩ := hone ih.1 ih.2 hx hr
    rcases h2 with ⟨_, h2⟩ | ⟨h2, _⟩
    · exact ⟨h1, h2⟩
    · cases h2

/-! ## A database without a bin; trashing an entry, then another one, then the root group and the bin -/

def zeros : Bytes := List.replicate 16 0

theorem sample_uuids : (Sample.db.world.ids.all fun i => Sample.db.heap.tag i != "Group".toList ||
    (Sample.db.heap.all i "UUID".toList).all fun k => match Sample.db.heap.text k with
      | none => false
      | some t => match b64decode t with
        | .ok v => v.take 15 == List.replicate 15 0 && v != zeros
        | .error _ => false) = true := by decide +kernel

theorem sample_group {g : Nat} (hg : IsGroup Sample.db.heap g) {v : Bytes} (hv : HasUuid Sample.db.heap g (b64encode v)) :
    v.take 15 = List.replicate 15 0 ∧ v ≠ zeros := by
  obtain ⟨k, h1, h2⟩ := hv
  have h3 := List.all_eq_true.mp sample_uuids g (tag_mem (by rw [show Sample.db.heap.tag g = _ from hg]; decide))
  rw [show Sample.db.heap.tag g = _ from hg, bne_self_eq_false, Bool.false_or] at h3
  have h4 := List.all_eq_true.mp h3 k h1
  simp only [h2, b64decode_b64encode, Bool.and_eq_true, beq_iff_eq, bne_iff_ne] at h4
  exact h4

theorem sample_settled : Settled Sample.db.heap 1 2 13 14 9 zeros := by
  refine ⟨sample_skeleton, by decide +kernel, by decide +kernel, by decide +kernel, rfl, ?_⟩
  intro a b h1 _ h3 _
  exact absurd rfl (sample_group h1 h3).2

theorem sample_noBin (b : Nat) : ¬ IsBin Sample.db.heap zeros b := fun h => (sample_group h.tag h.uuid).2 rfl

theorem sample_fresh : FreshUuids Sample.env Sample.db := by
  refine ⟨fun k _ => by simp [Sample.env], ?_⟩
  intro k _ g h1 h2
  have h3 := (sample_group h1 h2).1
  have h4 : (Sample.env.uuid1 k).take 15 = List.replicate 15 1 := by
    show (List.replicate 15 1 ++ [UInt8.ofNat k]).take 15 = _
    rw [List.take_append_of_le_length (by simp)]
    decide
  rw [h4] at h3
  exact absurd h3 (by decide)

theorem sample_next : Sample.db.next = 148 := by decide +kernel
theorem sample_count : Sample.db.uuids = 0 := by decide +kernel

def binned : Db := (trash Sample.env 23 Sample.db).2
def binned2 : Db := (trash Sample.env 76 binned).2

example : ∃ s1 s', trash Sample.env 23 Sample.db = (.ok (), s') ∧ content s1 148 = some (binXml (Sample.env.uuid1 0) ((encodeTime (4, 0) (Sample.env.now 0)).toOption.getD [])) ∧
    Moved s1.heap s'.heap 23 148 := by
  obtain ⟨s1, s', h1, _, h3, h4, _⟩ := C43_create (env := Sample.env) (now := (encodeTime (4, 0) (Sample.env.now 0)).toOption.getD [])
    (ux := List.replicate 15 0 ++ [1]) (ug := List.replicate 15 0 ++ [16])
    Sample.db_inv sample_settled sample_noBin sample_fresh (x := 23) (.inl (show _ = _ by decide +kernel))
    ⟨by decide +kernel, rfl⟩ ⟨by decide +kernel, rfl⟩ (by decide) (by decide +kernel)
  rw [sample_next, sample_count] at h3
  rw [sample_next] at h4
  exact ⟨s1, s', h1, h3, h4⟩

theorem binned_settled : Api.Inv binned ∧ Settled binned.heap 1 2 13 14 9 (Sample.env.uuid1 0) ∧ IsBin binned.heap (Sample.env.uuid1 0) 148 := by
  have hc : canBeTrashed Sample.env 23 Sample.db = (.ok true, Sample.db) := by
    obtain ⟨v, hv, hvi⟩ := can_run (env := Sample.env) (x := 23) (ux := List.replicate 15 0 ++ [1]) (ug := List.replicate 15 0 ++ [16])
      Sample.db_inv sample_settled ⟨by decide +kernel, rfl⟩ ⟨by decide +kernel, rfl⟩
    rw [hv, hvi.mpr ⟨by decide, fun b hb => absurd hb (sample_noBin b)⟩]
  rcases trash_new Sample.env Sample.db_inv sample_settled sample_noBin sample_fresh (x := 23) (.inl (show _ = _ by decide +kernel)) hc with
    ⟨e, h0, _⟩ | ⟨s1, s', now, _, h1, h2, h3, h4, h5, h6, h7, _, h9, h10, h11, h12, _⟩
  · have : (encodeTime Sample.db.version (Sample.env.now Sample.db.ticks)).isOk = true := by decide +kernel
    rw [h0] at this
    cases this
  · have e : binned = s' := by unfold binned; rw [h1]
    rw [sample_next] at h7 h9 h10
    rw [sample_count] at h6 h7
    rw [e]
    exact ⟨h3, moved_settled h2 h9 h12 h11 h7.tag h6, moved_bin h2 h9 h12 h10 h6.skel h7⟩

example : ∃ s', trash Sample.env 76 binned = (.ok (), s') ∧ Moved binned.heap s'.heap 76 148 := by
  obtain ⟨s', h1, _, h3, _⟩ := C43_trash (env := Sample.env) (x := 76) (b := 148) (ux := List.replicate 15 0 ++ [3])
    (ug := List.replicate 15 0 ++ [16]) binned_settled.1 binned_settled.2.1 binned_settled.2.2 (.inl (show _ = _ by decide +kernel))
    ⟨by decide +kernel, rfl⟩ ⟨by decide +kernel, rfl⟩ (by decide) (by
      rintro ⟨k, h1, h2⟩
      have e : ((binned.heap.all 148 "UUID".toList).all fun k => binned.heap.text k != some (b64encode (List.replicate 15 0 ++ [3]))) = true := by
        decide +kernel
      exact bne_iff_ne.mp (List.all_eq_true.mp e k h1) h2) (by
      intro h
      have h4 : ∀ j, Reach binned.heap 76 j → (binned.world.get? 76).map (fun n => n.ids.contains j) = some true := by
        intro j hj
        obtain ⟨n, hn⟩ := get_of_mem (s := binned) (x := 76) (by decide +kernel)
        rw [hn]
        exact congrArg some (List.contains_iff_mem.mpr ((reach_iff binned_settled.1 hn j).mp hj))
      exact absurd (h4 148 h) (by decide +kernel))
  exact ⟨s', h1, h3⟩

example : trash Sample.env 14 binned = (.error .unableToRecycle, binned) :=
  C43_refuse_root (ug := List.replicate 15 0 ++ [16]) binned_settled.1 binned_settled.2.1 ⟨by decide +kernel, rfl⟩

example : trash Sample.env 148 binned = (.error .unableToRecycle, binned) :=
  C43_refuse_bin (ug := List.replicate 15 0 ++ [16]) binned_settled.1 binned_settled.2.1 binned_settled.2.2 ⟨by decide +kernel, rfl⟩
    ⟨by decide +kernel, rfl⟩

/-- Both entries are in the one bin. -/
example : Trashing Sample.env Sample.db [76, 23] binned2 ∧ binned2.heap.kids 148 = (binned2.heap.kids 148).take 3 ++ [23, 76] := by
  refine ⟨.moved (.moved .start (x := 23) (t' := binned) ?_ ?_) (t' := binned2) ?_ ?_, by decide +kernel⟩
  · exact .inl (show _ = _ by decide +kernel)
  · exact run_pair (by decide +kernel)
  · exact .inl (show _ = _ by decide +kernel)
  · exact run_pair (by decide +kernel)

end Verif.Props
