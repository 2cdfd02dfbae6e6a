import Verif.Spec.Identity
import Verif.Props.C43_Trash
/-!
# C53: identity of entries and groups
-/
namespace Verif.Props
open Verif XPath Spec Api

/-! ## Equality -/

theorem hash_run (H : Hashes) {s : Db} {o : Obj} {k : Ident} (h : IdentIs s o k) : hashOf H o s = (.ok (k.hash H), s) := by
  have hu : getUuid o.el s = (.ok k.uuid, s) := Prod.ext h.uuid ((still_getUuid o.el).eq s)
  have hm := h.mtime
  unfold hashOf
  rw [bind_of hu]
  cases hh : o.history with
  | false =>
    rw [hh] at hm
    rw [if_neg (by decide)] at hm ⊢
    unfold Ident.hash
    rw [hm]
    rfl
  | true =>
    rw [hh] at hm
    rw [if_pos rfl] at hm ⊢
    obtain ⟨t, h1, h2⟩ := hm
    have ht : getTime o.el "LastModificationTime".toList s = (.ok t, s) := Prod.ext h1 ((still_getTime o.el _).eq s)
    rw [bind_of ht]
    unfold Ident.hash
    rw [h2]
    rfl

theorem eq_run (H : Hashes) {s : Db} {a b : Obj} {k l : Ident} (ha : IdentIs s a k) (hb : IdentIs s b l) :
    eqObj H a b s = (.ok (k.hash H == l.hash H), s) := by
  unfold eqObj
  rw [bind_of (hash_run H ha), bind_of (hash_run H hb)]
  rfl

/-- Objects with the same identity are equal. -/
theorem C53_same (H : Hashes) {s : Db} {a b : Obj} {k : Ident} (ha : IdentIs s a k) (hb : IdentIs s b k) :
    eqObj H a b s = (.ok true, s) := by rw [eq_run H ha hb, beq_self_eq_true]

/-- Unless their hashes collide, objects are equal just if they have the same uuid and are both or neither history entries,
and then have the same modification time. -/
theorem C53_equal (H : Hashes) {s : Db} {a b : Obj} {k l : Ident} (ha : IdentIs s a k) (hb : IdentIs s b l)
    (hn : k.hash H = l.hash H → k = l) :
    ∃ v, eqObj H a b s = (.ok v, s) ∧ (v = true ↔ k.uuid = l.uuid ∧ a.history = b.history ∧ k.mtime = l.mtime) := by
  refine ⟨_, eq_run H ha hb, ?_⟩
  rw [beq_iff_eq]
  constructor
  · intro h
    have e := hn h
    subst e
    refine ⟨rfl, ?_, rfl⟩
    have h1 := ha.mtime
    have h2 := hb.mtime
    cases hx : a.history <;> cases hy : b.history
    · rfl
    · rw [hx, if_neg (by decide)] at h1
      rw [hy, if_pos rfl] at h2
      obtain ⟨t, _, e⟩ := h2
      rw [h1] at e; cases e
    · rw [hx, if_pos rfl] at h1
      rw [hy, if_neg (by decide)] at h2
      obtain ⟨t, _, e⟩ := h1
      rw [h2] at e; cases e
    · rfl
  · rintro ⟨h1, _, h3⟩
    unfold Ident.hash
    rw [h1, h3]

/-- The hash of a uuid has 61 bits: uuids that differ by a multiple of `2 ^ 61 - 1` as numbers make entries equal. -/
theorem C53_collision (H : Hashes) {s : Db} {a b : Obj} {u v : Bytes} (ha : IdentIs s a ⟨u, none⟩) (hb : IdentIs s b ⟨v, none⟩)
    (h : uuidInt u % (2 ^ 61 - 1) = uuidInt v % (2 ^ 61 - 1)) : eqObj H a b s = (.ok true, s) := by
  rw [eq_run H ha hb]
  unfold Ident.hash
  show (Except.ok (H.tuple [uuidHash u] == H.tuple [uuidHash v]), s) = _
  rw [show uuidHash u = uuidHash v from h, beq_self_eq_true]

/-! ## Setting -/

/-- A uuid set reads back, and no other element's uuid changes. -/
theorem C53_set {s : Db} (hs : Inv s) {e : Nat} (he : IsElem s.heap e) {u : Bytes} (hu : u.length = 16)
    (hone : (s.heap.all e "UUID".toList).length ≤ 1) :
    ∃ s', setUuid e u s = (.ok (), s') ∧ getUuid e s' = (.ok u, s') ∧
      ∀ x, x ≠ e → IsElem s.heap x → (getUuid x s').1 = (getUuid x s).1 := by
  have hm := elem_mem he
  have h0 := elem_zero hs he
  obtain ⟨s', h1, h2⟩ := setSub_ok hs h0 hm "UUID".toList (b64_xml u)
  refine ⟨s', h1, uuid_run ⟨?_, hu⟩, fun x hx hxe => ?_⟩
  · exact h2.sub_new hs hone
  · have hxm := elem_mem hxe
    have hxo : s'.heap x = s.heap x := h2.other x (elem_zero hs hxe) hx (hs.bound x hxm)
    have key : ∀ k ∈ s.heap.kids x, s.heap.tag k = "UUID".toList → s'.heap k = s.heap k := by
      intro k hk ht
      obtain ⟨a1, _, a3⟩ := kid_facts hs hk
      exact h2.other k a1 (by rintro rfl; exact elem_tag he (by decide) (by decide) ht) a3
    have hall : s'.heap.all x "UUID".toList = s.heap.all x "UUID".toList := by
      have hk : s'.heap.kids x = s.heap.kids x := by unfold Heap.kids; rw [hxo]
      unfold Heap.all
      rw [hk]
      refine List.filter_congr fun k hk => ?_
      by_cases e : k = e
      · subst e
        rw [beq_false_of_ne (elem_tag he (by decide) (by decide)), beq_false_of_ne]
        obtain ⟨r, q1, q2⟩ := h2.here
        unfold Heap.tag
        rw [q2]
        have := elem_tag he (t := "UUID".toList) (by decide) (by decide)
        unfold Heap.tag at this
        rw [q1] at this
        exact this
      · obtain ⟨a1, _, a3⟩ := kid_facts hs hk
        unfold Heap.tag
        rw [h2.other k a1 e a3]
    unfold getUuid
    rw [bind_of (getSub_run x _ s'), bind_of (getSub_run x _ s)]
    have : sub s'.heap x "UUID".toList = sub s.heap x "UUID".toList := by
      unfold sub Heap.find
      rw [hall]
      cases hk : (s.heap.all x "UUID".toList).head? with
      | none => rfl
      | some k =>
        obtain ⟨q1, q2⟩ := all_sub (List.mem_of_mem_head? hk)
        show s'.heap.text k = s.heap.text k
        unfold Heap.text
        rw [key k q1 q2]
    rw [this]
    rfl

/-! ## Histories -/

/-- What keeps the uuid of an element. -/
def uuidFrame (o : Option Nat) : Frame where
  F _ := False
  P p t := o = some p ∧ t = "UUID".toList
  uuid := true

/-- The document element is the one that KeePass files have. -/
def DocOk (h : Heap) : Prop := ∀ d, docEl h = some d → h.tag d = "KeePassFile".toList

theorem good_uuid {s : Db} (hs : Inv s) (o : Option Nat) : Good (uuidFrame o) s :=
  ⟨hs, fun _ h => h.elim, fun h => h, fun _ _ _ _ _ _ h => h, nofun, nofun, nofun⟩

theorem guard_uuid {s : Db} {o : Option Nat} (ho : ∀ e, o = some e → IsElem s.heap e) (hd : DocOk s.heap) : Guard (uuidFrame o) s := by
  refine ⟨fun _ h => h, ?_, hd⟩
  rintro p t ⟨rfl, rfl⟩
  have := ho p rfl
  refine ⟨elem_mem this, .inr ⟨?_, rfl, rfl⟩⟩
  rcases this with h | h
  · rw [show s.heap.tag p = _ from h]; decide
  · rw [show s.heap.tag p = _ from h]; decide

theorem moved_cast {h : Heap} {c : Call} (hL : c.Typed h) {x : Nat} (hx : x ∈ c.moved) : h.tag x ∈ castTags := by
  cases c with
  | delete y => rw [List.mem_singleton.mp hx]; exact elem_cast hL
  | append g ys => exact elem_cast (hL.2 x hx)
  | moveGroup y g => rw [List.mem_singleton.mp hx]; exact group_cast hL.1
  | moveEntry y g => rw [List.mem_singleton.mp hx]; exact entry_cast hL.1
  | _ => cases hx

theorem call_uuid (env : Env) {t : Db} (hs : Inv t) (hd : DocOk t.heap) {o : Option Nat} (ho : ∀ e, o = some e → IsElem t.heap e)
    {c : Call} (hT : c.Typed t.heap) (hP : c.Public) (hU : ∀ x u, c = .setUuid x u → o ≠ some x) :
    Kept (uuidFrame o) t (c.run env t).2 := by
  have noP : ∀ x, t.heap.tag x ∈ castTags → ∀ p, ¬ (uuidFrame o).P p (t.heap.tag x) := by
    rintro x hx p ⟨_, e⟩
    rw [e] at hx
    exact absurd hx (by decide)
  refine (call_keeps env (guard_uuid ho hd) (good_uuid hs o) c hT (fun x hx p _ => noP x (moved_cast hT hx) p) (fun _ => hP)
    (fun x u e h => hU x u e h.1) ?_ (good_uuid hs o)).1
  rintro x rfl _ p _
  exact noP x (elem_cast hT) p

theorem kept_docOk {f : Frame} {s t : Db} (h : Kept f s t) (hd : DocOk s.heap) : DocOk t.heap := by
  intro d e
  rw [h.doc] at e
  rw [h.tag d (tag_mem (by rw [hd d e]; decide))]
  exact hd d e

theorem kept_elem {f : Frame} {s t : Db} (h : Kept f s t) {e : Nat} (he : IsElem s.heap e) : IsElem t.heap e := by
  unfold IsElem IsEntry IsGroup
  rw [h.tag e (elem_mem he)]
  exact he

theorem kept_sub {s t : Db} (hs : Inv s) {e : Nat} (he : IsElem s.heap e) (h : Kept (uuidFrame (some e)) s t) :
    sub t.heap e "UUID".toList = sub s.heap e "UUID".toList := by
  unfold sub Heap.find
  rw [h.all e (elem_mem he) (elem_zero hs he) _ ⟨rfl, rfl⟩]
  cases hk : (s.heap.all e "UUID".toList).head? with
  | none => rfl
  | some k =>
    obtain ⟨q1, q2⟩ := all_sub (List.mem_of_mem_head? hk)
    exact h.text rfl k (tag_mem (by rw [q2]; decide)) q2

theorem getUuid_sub {s t : Db} {e : Nat} (h : sub t.heap e "UUID".toList = sub s.heap e "UUID".toList) : (getUuid e t).1 = (getUuid e s).1 := by
  unfold getUuid
  rw [bind_of (getSub_run e _ t), bind_of (getSub_run e _ s), h]
  rfl

/-- Whatever methods are called in whatever order, an entry or group keeps its uuid, unless it is set. -/
theorem C53_stable (env : Env) {s t : Db} (hs : Inv s) (hd : DocOk s.heap) {e : Nat} (he : IsElem s.heap e)
    (h : Exec env (fun h c => c.Typed h ∧ c.Public ∧ ∀ u, c ≠ .setUuid e u) s t) :
    IsElem t.heap e ∧ (getUuid e t).1 = (getUuid e s).1 := by
  suffices key : Kept (uuidFrame (some e)) s t from ⟨kept_elem key he, getUuid_sub (kept_sub hs he key)⟩
  induction h with
  | refl => exact kept_refl (good_uuid hs _)
  | @step t c _ hL ih =>
    refine ih.trans (call_uuid env ih.good.inv (kept_docOk ih hd) ?_ hL.1 hL.2.1 ?_)
    · intro x hx
      injection hx with hx
      subst hx
      exact kept_elem ih he
    · rintro x u hc hx
      injection hx with hx
      subst hx
      exact hL.2.2 u hc

/-! ## Creation -/

/-- A new element with the next uuid of the source. -/
structure NewUuid (env : Env) (t t' : Db) (i : Nat) : Prop where
  inv : Inv t'
  new : i ∉ t.world.ids
  elem : IsElem t'.heap i
  uuid : sub t'.heap i "UUID".toList = some (b64encode (env.uuid1 t.uuids))
  count : t'.uuids = t.uuids + 1

theorem group_first (u : Bytes) (icon : Option Str) (now exp : Str) (b : Bool) (l : List Xml) :
    xsub (Xml.mk "Group".toList [] none (baseX u icon now exp b ++ l)) "UUID".toList = some (b64encode u) := by
  unfold xsub xall baseX
  show ((List.filter (fun k => k.tag == "UUID".toList) (leafX "UUID" (b64encode u) :: _)).head?).bind Xml.text = _
  rw [List.filter_cons_of_pos (by rfl)]
  rfl

theorem newGroup_uuid {env : Env} {s s' : Db} {a b c : Option Str} {x : Xml} (h : newGroup env a b c s = (.ok x, s')) :
    s' = { s with ticks := s.ticks + 1, uuids := s.uuids + 1 } ∧ x.tag = "Group".toList ∧
      xsub x "UUID".toList = some (b64encode (env.uuid1 s.uuids)) := by
  unfold newGroup at h
  obtain ⟨base, s1, h1, q1⟩ := bind_inv h
  obtain ⟨now, exp, _, _, rfl, rfl⟩ := baseKids_inv h1
  obtain ⟨n, s2, h2, q2⟩ := bind_inv q1
  obtain ⟨_, rfl⟩ := lift_inv h2
  obtain ⟨m, s3, h3, q3⟩ := bind_inv q2
  obtain ⟨_, rfl⟩ := lift_inv h3
  obtain ⟨rfl, rfl⟩ := pure_inv q3
  refine ⟨rfl, rfl, ?_⟩
  rw [List.append_assoc]
  exact group_first ..

theorem make_uuid {env : Env} {s s1 s' : Db} (hs : Inv s) {p i : Nat} {x : Xml} (hp : p ∈ s.world.ids)
    (h1 : s1 = { s with ticks := s.ticks + 1, uuids := s.uuids + 1 }) (hx : x.tag = "Group".toList ∨ x.tag = "Entry".toList)
    (hu : xsub x "UUID".toList = some (b64encode (env.uuid1 s.uuids))) (h : make p x s1 = (.ok i, s')) : NewUuid env s s' i := by
  obtain ⟨s2, g1, g2, g3, g4, g5⟩ := add_ok (s := s1) (p := p) (by rw [h1]; exact inv_quiet hs _ _) (by rw [h1]; exact hp) x
  rw [g1] at h
  injection h with e1 e2
  injection e1 with e1
  subst e2
  have en : s1.next = s.next := by rw [h1]
  rw [en] at e1 g5
  subst e1
  refine ⟨g2, fun hm => absurd (hs.bound _ hm) (Nat.lt_irrefl _), ?_, by rw [content_sub g2 g5]; exact hu, by rw [g3, h1]⟩
  rcases hx with hx | hx
  · exact .inr (show _ = _ by rw [content_tag g5]; exact hx)
  · exact .inl (show _ = _ by rw [content_tag g5]; exact hx)

theorem addGroup_uuid {env : Env} {s s' : Db} (hs : Inv s) {g i : Nat} {a b c : Option Str} (hg : IsGroup s.heap g)
    (h : addGroup env g a b c s = (.ok i, s')) : NewUuid env s s' i := by
  unfold addGroup at h
  obtain ⟨x, s1, h1, h2⟩ := bind_inv h
  obtain ⟨q1, q2, q3⟩ := newGroup_uuid h1
  exact make_uuid hs (elem_mem (.inr hg)) q1 (.inl q2) q3 h2

theorem addEntry_uuid {env : Env} {s s' : Db} (hs : Inv s) {g i : Nat} {a : EntryArgs} {force : Bool} (hg : IsGroup s.heap g)
    (h : addEntry env g a force s = (.ok i, s')) : NewUuid env s s' i := by
  obtain ⟨o, now, exp, t, n, p, _, _, _, _, _, _, _, h6⟩ := addEntry_inv h
  exact make_uuid hs (elem_mem (.inr hg)) rfl (.inr rfl) (entry_first ..).1 h6

theorem still_inv {α} {m : M α} (hm : Still m) {s s' : Db} {a : α} (h : m s = (.ok a, s')) : s' = s := by
  have := hm.eq s
  rw [h] at this
  exact this

theorem orAttr_inv {α} {o : Option α} {s s' : Db} {a : α} (h : orAttr o s = (.ok a, s')) : o = some a ∧ s' = s := by
  cases o with
  | none => cases h
  | some b =>
    injection h with e1 e2
    injection e1 with e1
    exact ⟨by rw [e1], e2.symm⟩

theorem binGroup_uuid {env : Env} {s s' : Db} (hs : Inv s) {b : Nat} (h : binGroup env s = (.ok b, s')) (hb : s.heap b = none) :
    NewUuid env s s' b := by
  have hbm : b ∉ s.world.ids := fun hm => by
    obtain ⟨r, hr⟩ := heap_some.mpr hm
    rw [hb] at hr; cases hr
  unfold binGroup at h
  obtain ⟨o, s1, h1, q1⟩ := bind_inv h
  have hrec := run_recycleBin (f := uuidFrame none) env (good_uuid hs none)
  rw [h1] at hrec
  obtain ⟨hq, hrec⟩ := hrec.2 o rfl
  replace hq : s1 = s := hq
  subst hq
  cases o with
  | some g =>
    obtain ⟨rfl, _⟩ := pure_inv q1
    exact absurd (hrec b rfl).2.1 hbm
  | none =>
    obtain ⟨root, s2, h2, q2⟩ := bind_inv q1
    have hrun : Run (uuidFrame none) s1 (rootGroup env) fun o u => u = s1 ∧ ∀ i, o = some i → i ≠ 0 ∧ i ∈ s1.world.ids ∧ s1.heap.tag i ∈ castTags :=
      run_findGroup env true _
    have hroot := hrun (good_uuid hs none)
    rw [h2] at hroot
    obtain ⟨hq, hroot⟩ := hroot.2 root rfl
    replace hq : s2 = s1 := hq
    subst hq
    obtain ⟨x, s3, h3, q3⟩ := bind_inv q2
    obtain ⟨x1, x2, x3⟩ := newGroup_uuid h3
    obtain ⟨r, s4, h4, q4⟩ := bind_inv q3
    obtain ⟨rfl, rfl⟩ := orAttr_inv h4
    obtain ⟨g, s5, h5, q5⟩ := bind_inv q4
    have hnew := make_uuid hs (hroot r rfl).2.1 x1 (.inl x2) x3 h5
    obtain ⟨oe, s6, h6, q6⟩ := bind_inv q5
    obtain ⟨el, s7, h7, q7⟩ := bind_inv q6
    obtain ⟨rfl, rfl⟩ := orAttr_inv h7
    have hmeta := run_metaEl (f := uuidFrame none) env (n := "RecycleBinUUID".toList) (by decide) (good_uuid hnew.inv none)
    rw [h6] at hmeta
    obtain ⟨hq, hmeta⟩ := hmeta.2 _ rfl
    replace hq : _ = s5 := hq
    subst hq
    obtain ⟨u, s8, h8, q8⟩ := bind_inv q7
    obtain rfl := still_inv (still_getUuid g) h8
    obtain ⟨_, s9, h9, q9⟩ := bind_inv q8
    obtain ⟨rfl, rfl⟩ := pure_inv q9
    obtain ⟨s10, k1, k2, k3, k4⟩ := setText_ok hnew.inv el (some (b64encode u)) (fun t ht => by injection ht with ht; subst ht; exact b64_xml u)
    rw [k1] at h9
    injection h9 with _ h9
    subst h9
    have hk := (keeps_setText (f := uuidFrame (some b)) (s := s8) el (some (b64encode u)) (fun h => h)
      (fun _ => by rw [(hmeta el rfl).2.2.1]; decide) (fun h => nomatch h) (good_uuid hnew.inv _)).1
    rw [k1] at hk
    exact ⟨k2, hbm, kept_elem hk hnew.elem, (kept_sub hnew.inv hnew.elem hk).trans hnew.uuid, by rw [k3]; exact hnew.count⟩

theorem trash_uuid {env : Env} {s s1 s' : Db} (hs : Inv s) (hd : DocOk s.heap) {x b : Nat} (hx : IsElem s.heap x)
    (h : trash env x s = (.ok (), s')) (h1 : binGroup env s = (.ok b, s1)) (hb : s.heap b = none) : NewUuid env s s' b := by
  have hn := binGroup_uuid hs h1 hb
  have hrun := run_binGroup env (guard_uuid (o := none) (fun _ h => nomatch h) hd) (good_uuid hs none)
  rw [h1] at hrun
  obtain ⟨hk, hr⟩ := hrun
  obtain ⟨b1, b2, b3⟩ := hr b rfl
  replace hk : Kept (uuidFrame none) s s1 := hk
  replace b2 : b ∈ s1.world.ids := b2
  have hc : canBeTrashed env x s = (.ok true, s) := by
    rcases trash_cases env x s with ⟨e, he⟩ | hc
    · rw [he] at h; cases h
    · exact hc
  have happ : groupAppend b x s1 = (.ok (), s') := by
    unfold trash at h
    rw [bind_of hc] at h
    have h' : (binGroup env >>= fun bin => groupAppend bin x) s = (.ok (), s') := h
    rw [bind_of h1] at h'
    exact h'
  have hx1 := kept_elem hk hx
  have hg : Guard (uuidFrame (some b)) s1 := guard_uuid (fun e he => by injection he with he; subst he; exact hn.elem) (kept_docOk hk hd)
  have noP : ∀ p, ¬ (uuidFrame (some b)).P p (s1.heap.tag x) := by
    rintro p ⟨_, e⟩
    exact elem_tag hx1 (by decide) (by decide) e
  have hkeep : Keeps (uuidFrame (some b)) s1 (groupAppend b x) :=
    (keeps_appendEl (hg.movable (elem_cast hx1) (good_uuid hn.inv _) fun p _ => noP p) b2 (fun h => h) (fun _ => noP b) (fun _ h => h) (fun h => nomatch h) fun h => nomatch h).keeps
  have hk2 := (hkeep (good_uuid hn.inv _)).1
  have hcount : s'.uuids = s1.uuids := by
    have happ' : appendEl b x s1 = (.ok (), s') := happ
    unfold appendEl at happ'
    split at happ'
    · cases happ'
    · split at happ'
      · cases happ'
      · injection happ' with _ e
        rw [← e]
  rw [happ] at hk2
  exact ⟨hk2.good.inv, hn.new, kept_elem hk2 hn.elem, (kept_sub hn.inv hn.elem hk2).trans hn.uuid, by rw [hcount]; exact hn.count⟩

theorem creating_step (env : Env) {s t t' : Db} {L : List Nat} {i : Nat} (ih : Inv t ∧ DocOk t.heap ∧ s.uuids ≤ t.uuids ∧ ∃ k : Nat → Nat,
      L.Pairwise (fun i j => k j < k i) ∧ ∀ i ∈ L, IsElem t.heap i ∧ s.uuids ≤ k i ∧ k i < t.uuids ∧
        sub t.heap i "UUID".toList = some (b64encode (env.uuid1 (k i))))
    (hn : NewUuid env t t' i) {c : Call} (hT : c.Typed t.heap) (hP : c.Public) (hc : t' = (c.run env t).2) (hU : ∀ x u, c ≠ .setUuid x u) :
    Inv t' ∧ DocOk t'.heap ∧ s.uuids ≤ t'.uuids ∧ ∃ k : Nat → Nat, (i :: L).Pairwise (fun i j => k j < k i) ∧
      ∀ j ∈ i :: L, IsElem t'.heap j ∧ s.uuids ≤ k j ∧ k j < t'.uuids ∧ sub t'.heap j "UUID".toList = some (b64encode (env.uuid1 (k j))) := by
  obtain ⟨i1, i2, i3, k, i4, i5⟩ := ih
  have h0 := call_uuid env i1 i2 (o := none) (fun _ h => nomatch h) hT hP (fun _ _ _ h => nomatch h)
  rw [← hc] at h0
  have hne : ∀ j ∈ L, j ≠ i := by
    rintro j hj rfl
    exact hn.new (elem_mem (i5 j hj).1)
  refine ⟨hn.inv, kept_docOk h0 i2, Nat.le_trans i3 h0.uuids, fun j => if j = i then t.uuids else k j, ?_, ?_⟩
  · refine List.pairwise_cons.mpr ⟨fun j hj => ?_, i4.imp_of_mem fun {a b} ha hb hab => ?_⟩
    · dsimp only; rw [if_neg (hne j hj), if_pos rfl]
      exact (i5 j hj).2.2.1
    · dsimp only; rw [if_neg (hne a ha), if_neg (hne b hb)]
      exact hab
  · intro j hj
    rcases List.mem_cons.mp hj with rfl | hj
    · dsimp only; rw [if_pos rfl]
      exact ⟨hn.elem, i3, by rw [hn.count]; exact Nat.lt_succ_self _, hn.uuid⟩
    · dsimp only; rw [if_neg (hne j hj)]
      obtain ⟨a1, a2, a3, a4⟩ := i5 j hj
      have h1 := call_uuid env i1 i2 (o := some j) (fun e he => by injection he with he; subst he; exact a1) hT hP
        (fun x u e _ => hU x u e)
      rw [← hc] at h1
      exact ⟨kept_elem h1 a1, a2, Nat.lt_of_lt_of_le a3 h1.uuids, (kept_sub i1 a1 h1).trans a4⟩

/-- The uuids of the created elements, by the number of the uuid in the source. -/
theorem creating_numbers (env : Env) {s t : Db} {L : List Nat} (hs : Inv s) (hd : DocOk s.heap) (h : Creating env s L t) :
    Inv t ∧ DocOk t.heap ∧ s.uuids ≤ t.uuids ∧ ∃ k : Nat → Nat, L.Pairwise (fun i j => k j < k i) ∧
      ∀ i ∈ L, IsElem t.heap i ∧ s.uuids ≤ k i ∧ k i < t.uuids ∧ sub t.heap i "UUID".toList = some (b64encode (env.uuid1 (k i))) := by
  induction h with
  | start => exact ⟨hs, hd, Nat.le_refl _, fun _ => 0, .nil, fun i hi => nomatch hi⟩
  | @call L t c _ hT hP hU ih =>
    obtain ⟨i1, i2, i3, k, i4, i5⟩ := ih
    have h0 := call_uuid env i1 i2 (o := none) (fun _ h => nomatch h) hT hP (fun _ _ _ h => nomatch h)
    refine ⟨h0.good.inv, kept_docOk h0 i2, Nat.le_trans i3 h0.uuids, k, i4, fun i hi => ?_⟩
    obtain ⟨a1, a2, a3, a4⟩ := i5 i hi
    have h1 := call_uuid env i1 i2 (o := some i) (fun e he => by injection he with he; subst he; exact a1) hT hP
      (fun x u e h => by injection h with h; subst h; exact hU _ u e hi)
    exact ⟨kept_elem h1 a1, a2, Nat.lt_of_lt_of_le a3 h1.uuids, (kept_sub i1 a1 h1).trans a4⟩
  | @entry L t t' g a force i _ hg he ih =>
    exact creating_step env ih (addEntry_uuid ih.1 hg he) (c := .addEntry g a force) hg trivial (by
      show t' = (void (addEntry env g a force) t).2
      unfold void
      rw [bind_of he]; rfl) (fun _ _ h => nomatch h)
  | @group L t t' g a b c i _ hg he ih =>
    exact creating_step env ih (addGroup_uuid ih.1 hg he) (c := .addGroup g a b c) hg trivial (by
      show t' = (void (addGroup env g a b c) t).2
      unfold void
      rw [bind_of he]; rfl) (fun _ _ h => nomatch h)
  | @bin L t t1 t' x b _ hx ht hb hn ih =>
    exact creating_step env ih (trash_uuid ih.1 ih.2.1 hx ht hb hn) (c := .trash x) hx trivial (by
      show t' = (trash env x t).2
      rw [ht]) (fun _ _ h => nomatch h)

/-- Entries and groups created in one database, by `add_entry`, `add_group` or for the recycle bin, keep different uuids whatever
else is called, if the source does not repeat a uuid. -/
theorem C53_created (env : Env) {s t : Db} {L : List Nat} (hs : Inv s) (hd : DocOk s.heap) (h : Creating env s L t)
    (hlen : ∀ k, s.uuids ≤ k → k < t.uuids → (env.uuid1 k).length = 16)
    (hinj : ∀ j k, s.uuids ≤ j → j < k → k < t.uuids → env.uuid1 j ≠ env.uuid1 k) :
    (∀ i ∈ L, ∃ u, getUuid i t = (.ok u, t)) ∧ L.Pairwise fun i j => i ≠ j ∧ (getUuid i t).1 ≠ (getUuid j t).1 := by
  obtain ⟨_, _, _, k, h1, h2⟩ := creating_numbers env hs hd h
  have key : ∀ i ∈ L, getUuid i t = (.ok (env.uuid1 (k i)), t) := fun i hi => by
    obtain ⟨_, a2, a3, a4⟩ := h2 i hi
    exact uuid_run ⟨a4, hlen _ a2 a3⟩
  refine ⟨fun i hi => ⟨_, key i hi⟩, ?_⟩
  refine h1.imp_of_mem fun {i j} hi hj hij => ?_
  have : (getUuid i t).1 ≠ (getUuid j t).1 := by
    rw [key i hi, key j hj]
    intro e
    injection e with e
    exact hinj (k j) (k i) (h2 j hj).2.1 hij (h2 i hi).2.2.1 e.symm
  exact ⟨by rintro rfl; exact this rfl, this⟩

/-! ## Cases -/

theorem sample_docOk : DocOk Sample.db.heap := by
  intro d hd
  have h := sample_skeleton
  rw [h.doc] at hd
  injection hd with hd
  rw [← hd]
  exact h.tag

/-- Two entries of the sample with their identities. -/
example : IdentIs Sample.db ⟨23, false⟩ ⟨List.replicate 15 0 ++ [1], none⟩ ∧ IdentIs Sample.db ⟨76, false⟩ ⟨List.replicate 15 0 ++ [3], none⟩ :=
  ⟨⟨by decide +kernel, rfl⟩, ⟨by decide +kernel, rfl⟩⟩

/-- An entry and its history entry are different unless hashes collide. -/
example : ∃ t, IdentIs Sample.db ⟨56, true⟩ ⟨List.replicate 15 0 ++ [1], some t⟩ := by
  obtain ⟨t, ht⟩ := ok_of_isOk (x := (getTime 56 "LastModificationTime".toList Sample.db).1) (by decide +kernel)
  have hu : (getUuid 56 Sample.db).1 = .ok (List.replicate 15 0 ++ [1]) := by decide +kernel
  exact ⟨t, hu, t, ht, rfl⟩

/-- Uuids that collide. -/
def zero16 : Bytes := List.replicate 16 0
def collide16 : Bytes := List.replicate 8 0 ++ [0x1f, 0xff, 0xff, 0xff, 0xff, 0xff, 0xff, 0xff]
def collided : Db := (setUuid 76 collide16 (setUuid 23 zero16 Sample.db).2).2

/-- Two entries with different uuids that are equal. -/
theorem C53_collision_case (H : Hashes) : (getUuid 23 collided).1 ≠ (getUuid 76 collided).1 ∧
    eqObj H ⟨23, false⟩ ⟨76, false⟩ collided = (.ok true, collided) := by
  have h1 : (getUuid 23 collided).1 = .ok zero16 := by decide +kernel
  have h2 : (getUuid 76 collided).1 = .ok collide16 := by decide +kernel
  refine ⟨fun e => absurd (h1.symm.trans (e.trans h2)) (by decide +kernel), ?_⟩
  have i1 : IdentIs collided ⟨23, false⟩ ⟨zero16, none⟩ := ⟨h1, rfl⟩
  have i2 : IdentIs collided ⟨76, false⟩ ⟨collide16, none⟩ := ⟨h2, rfl⟩
  exact C53_collision H i1 i2 (by decide +kernel)

example : IsElem Sample.db.heap 23 ∧ (Sample.db.heap.all 23 "UUID".toList).length ≤ 1 :=
  ⟨.inl (show _ = _ by decide +kernel), by decide +kernel⟩

/-- A history that adds a group, an entry in it, renames the group, and trashes an entry, which makes the bin. -/
def made1 : Db := (addGroup Sample.env 14 (some "New".toList) none none Sample.db).2
def made2 : Db := (addEntry Sample.env 148 { title := some "a".toList, username := some "b".toList, password := some "c".toList } false made1).2
def made3 : Db := ((Call.setName 148 (some "Old".toList)).run Sample.env made2).2
def made4 : Db := (trash Sample.env 23 made3).2

def bin4 : Db := (binGroup Sample.env made3).2

example : Creating Sample.env Sample.db [186, 159, 148] made4 ∧
    (∀ k, k < 3 → (Sample.env.uuid1 k).length = 16) ∧ (∀ k, k < 3 → ∀ j, j < k → Sample.env.uuid1 j ≠ Sample.env.uuid1 k) ∧ made4.uuids = 3 := by
  refine ⟨?_, by decide +kernel, by decide +kernel, by decide +kernel⟩
  have g1 : addGroup Sample.env 14 (some "New".toList) none none Sample.db = (.ok 148, made1) := run_pair (by decide +kernel)
  have g2 : addEntry Sample.env 148 { title := some "a".toList, username := some "b".toList, password := some "c".toList } false made1 = (.ok 159, made2) :=
    run_pair (by decide +kernel)
  have g4 : trash Sample.env 23 made3 = (.ok (), made4) := run_pair (by decide +kernel)
  have g5 : binGroup Sample.env made3 = (.ok 186, bin4) := run_pair (by decide +kernel)
  have c1 : Creating Sample.env Sample.db [148] made1 := .group .start (show _ = _ by decide +kernel) g1
  have c2 : Creating Sample.env Sample.db [159, 148] made2 := .entry c1 (show _ = _ by decide +kernel) g2
  have c3 : Creating Sample.env Sample.db [159, 148] made3 :=
    .call (.setName 148 (some "Old".toList)) c2 (show _ = _ by decide +kernel) trivial (fun _ _ h => nomatch h)
  exact .bin c3 (.inl (show _ = _ by decide +kernel)) g4 g5 (by decide +kernel)

end Verif.Props
