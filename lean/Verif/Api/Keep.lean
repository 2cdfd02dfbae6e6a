import Verif.Api.AttachLemmas
import Verif.Api.TidyLemmas
import Verif.Api.FiledLemmas
/-!
# What sequences of method calls leave alone

A small logic for statements that hold whatever the methods are called with and whether or not they raise.
-/
namespace Verif.Api
open Verif XPath Spec

/-- What is to be left alone: the elements `F` as a whole, the children with tag `t` of element `p`
where `P p t`, and if `uuid` the texts of the elements `UUID`. If `fine`, all elements are to stay tidy;
if `shape`, all elements are to be where they may be, and if `files` too, attachments and lists of data are to stay filed. `F` is entered only through the document element if `doc`, and
otherwise only through histories. -/
structure Frame where
  F : Nat → Prop
  P : Nat → Str → Prop
  uuid : Bool := false
  fine : Bool := false
  shape : Bool := false
  files : Bool := false
  doc : Bool := false

/-- The tag of the elements through which `F` is entered. -/
def Frame.gate (f : Frame) : Str := if f.doc then "KeePassFile".toList else "History".toList

/-- The state is sound, the elements in `F` exist, and `F` is entered only through its gate. -/
structure Good (f : Frame) (s : Db) : Prop where
  inv : Inv s
  mem : ∀ i, f.F i → i ∈ s.world.ids
  zero : ¬ f.F 0
  own : ∀ p c, ¬ f.F p → p ≠ 0 → s.heap.tag p ≠ f.gate → c ∈ s.heap.kids p → ¬ f.F c
  tidy : f.fine = true → TidyHeap s.heap
  shape : f.shape = true → Shaped s.heap
  filed : f.shape = true → f.files = true → Filed s.heap

/-- The second state comes from the first without touching what is to be left alone. -/
structure Kept (f : Frame) (s s' : Db) : Prop where
  good : Good f s'
  doc : docEl s'.heap = docEl s.heap
  ids : ∀ i ∈ s.world.ids, i ∈ s'.world.ids
  tag : ∀ i ∈ s.world.ids, s'.heap.tag i = s.heap.tag i
  frozen : ∀ i, f.F i → s'.heap i = s.heap i
  all : ∀ i ∈ s.world.ids, i ≠ 0 → ∀ t, f.P i t → s'.heap.all i t = s.heap.all i t
  entered : ∀ p c, c ∈ s.world.ids → p ≠ 0 → c ∈ s'.heap.kids p → f.P p (s'.heap.tag c) → c ∈ s.heap.kids p
  version : s'.version = s.version
  text : f.uuid = true → ∀ i ∈ s.world.ids, s.heap.tag i = "UUID".toList → s'.heap.text i = s.heap.text i
  uuids : s.uuids ≤ s'.uuids

theorem kept_refl {f : Frame} {s : Db} (h : Good f s) : Kept f s s :=
  ⟨h, rfl, fun _ h => h, fun _ _ => rfl, fun _ _ => rfl, fun _ _ _ _ _ => rfl, fun _ _ _ _ h _ => h, rfl, fun _ _ _ _ => rfl, Nat.le_refl _⟩

theorem Kept.trans {f : Frame} {s t u : Db} (h1 : Kept f s t) (h2 : Kept f t u) : Kept f s u where
  good := h2.good
  doc := h2.doc.trans h1.doc
  ids i hi := h2.ids i (h1.ids i hi)
  tag i hi := (h2.tag i (h1.ids i hi)).trans (h1.tag i hi)
  frozen i hi := (h2.frozen i hi).trans (h1.frozen i hi)
  all i hi h0 t ht := (h2.all i (h1.ids i hi) h0 t ht).trans (h1.all i hi h0 t ht)
  entered p c hc hp hk hP := by
    have hk' := h2.entered p c (h1.ids c hc) hp hk hP
    refine h1.entered p c hc hp hk' ?_
    rw [h2.tag c (h1.ids c hc)] at hP
    exact hP
  version := h2.version.trans h1.version
  text hu i hi ht := (h2.text hu i (h1.ids i hi) (by rw [h1.tag i hi]; exact ht)).trans (h1.text hu i hi ht)
  uuids := Nat.le_trans h1.uuids h2.uuids

/-! ## Calls -/

/-- The call leaves alone what is to be left alone, and its result satisfies `Q`. -/
def Run {α} (f : Frame) (s : Db) (m : M α) (Q : α → Db → Prop) : Prop :=
  Good f s → Kept f s (m s).2 ∧ ∀ a, (m s).1 = .ok a → Q a (m s).2

abbrev Keeps {α} (f : Frame) (s : Db) (m : M α) : Prop := Run f s m fun _ _ => True

variable {f : Frame} {s : Db} {α β : Type}

theorem Run.bind {m : M α} {k : α → M β} {Q : α → Db → Prop} {R : β → Db → Prop} (h1 : Run f s m Q)
    (h2 : ∀ a t, Kept f s t → Q a t → Run f t (k a) R) : Run f s (m >>= k) R := by
  intro hg
  obtain ⟨a1, a2⟩ := h1 hg
  have e : (m >>= k) s = match m s with | (.ok a, s') => k a s' | (.error e, s') => (.error e, s') := rfl
  rw [e]
  generalize m s = r at a1 a2
  obtain ⟨r, t⟩ := r
  cases r with
  | error e => exact ⟨a1, by intro a ha; cases ha⟩
  | ok a =>
    obtain ⟨b1, b2⟩ := h2 a t a1 (a2 a rfl) a1.good
    exact ⟨a1.trans b1, b2⟩

theorem Run.mono {m : M α} {Q R : α → Db → Prop} (h : Run f s m Q) (hQ : ∀ a t, Kept f s t → Q a t → R a t) : Run f s m R :=
  fun hg => ⟨(h hg).1, fun a ha => hQ a _ (h hg).1 ((h hg).2 a ha)⟩

theorem Run.keeps {m : M α} {Q : α → Db → Prop} (h : Run f s m Q) : Keeps f s m := h.mono fun _ _ _ _ => trivial

theorem Run.of_good {m : M α} {Q : α → Db → Prop} (h : Good f s → Run f s m Q) : Run f s m Q := fun hg => h hg hg

theorem Run.result {m : M α} {Q : α → Db → Prop} (h : Run f s m Q) : Run f s m fun a t => Q a t ∧ m s = (.ok a, t) :=
  fun hg => ⟨(h hg).1, fun a ha => ⟨(h hg).2 a ha, Prod.ext ha rfl⟩⟩

/-- A call that changes nothing. -/
theorem run_still {m : M α} (h : (m s).2 = s) : Run f s m fun a t => t = s ∧ m s = (.ok a, s) := by
  intro hg
  refine ⟨by rw [h]; exact kept_refl hg, fun a ha => ⟨h, ?_⟩⟩
  exact Prod.ext ha h

theorem run_pure (a : α) : Run f s (pure a) fun b t => t = s ∧ b = a :=
  fun hg => ⟨kept_refl hg, fun b hb => ⟨rfl, by injection hb with hb; exact hb.symm⟩⟩

theorem keeps_pure (a : α) : Keeps f s (pure a) := (run_pure a).keeps
theorem run_fail (e : PyErr) {Q : α → Db → Prop} : Run f s (fail e : M α) Q :=
  fun hg => ⟨kept_refl hg, fun _ hb => by cases hb⟩
theorem run_lift (x : Except PyErr α) : Run f s (lift x) fun a t => t = s ∧ x = .ok a :=
  fun hg => ⟨kept_refl hg, fun _ hb => ⟨rfl, hb⟩⟩
theorem run_orAttr (o : Option α) : Run f s (orAttr o) fun a t => t = s ∧ o = some a := by
  cases o with
  | none => exact run_fail _
  | some a => exact (run_pure a).mono fun b t _ h => ⟨h.1, by rw [h.2]⟩
theorem run_reads (g : Db → α) : Run f s (reads g) fun a t => t = s ∧ a = g s :=
  fun hg => ⟨kept_refl hg, fun _ hb => ⟨rfl, by injection hb with hb; exact hb.symm⟩⟩
theorem run_findKid (e : Nat) (t : Str) : Run f s (findKid e t) fun o u => u = s ∧
    ∀ i, o = some i → i ∈ s.heap.kids e ∧ s.heap.tag i = t :=
  (run_reads _).mono fun o u _ h => ⟨h.1, fun i hi => by
    rw [h.2] at hi
    have := List.mem_of_mem_head? hi
    obtain ⟨h1, h2⟩ := List.mem_filter.mp this
    exact ⟨h1, beq_iff_eq.mp h2⟩⟩

/-- The world of elements is the same. -/
theorem kept_world {t : Db} (h : Good f s) (hw : t.world = s.world) (hn : s.next ≤ t.next) (hv : t.version = s.version)
    (hu : s.uuids ≤ t.uuids) : Kept f s t := by
  have hh : t.heap = s.heap := by unfold Db.heap; rw [hw]
  refine ⟨⟨⟨by rw [hw]; exact h.inv.world, fun i hi => ?_⟩, fun i hi => by rw [hw]; exact h.mem i hi, h.zero, ?_, fun h1 => by rw [hh]; exact h.tidy h1, fun h1 => by rw [hh]; exact h.shape h1, fun h1 h2 => by rw [hh]; exact h.filed h1 h2⟩, by rw [hh],
    fun i hi => by rw [hw]; exact hi, fun i _ => by rw [hh], fun i _ => by rw [hh], fun i _ _ _ _ => by rw [hh],
    fun p c _ _ hk _ => by rw [hh] at hk; exact hk, hv, fun _ i _ _ => by rw [hh], hu⟩
  · rw [hw] at hi
    have := h.inv.bound i hi
    omega
  · rw [hh]; exact h.own

theorem run_change {g : Db → Db} (hw : (g s).world = s.world) (hn : s.next ≤ (g s).next) (hv : (g s).version = s.version)
    (hu : s.uuids ≤ (g s).uuids) : Keeps f s (change g) := fun h => ⟨kept_world h hw hn hv hu, fun _ _ => trivial⟩

theorem run_now (env : Env) : Keeps f s (nowUtc env) := fun h => ⟨kept_world h rfl (Nat.le_refl _) rfl (Nat.le_refl _), fun _ _ => trivial⟩
theorem run_newUuid (env : Env) : Keeps f s (newUuid env) := fun h => ⟨kept_world h rfl (Nat.le_refl _) rfl (Nat.le_succ _), fun _ _ => trivial⟩

/-! ## Elements that may be changed -/

/-- The element may be changed, and so may what is directly below it. -/
structure Own (f : Frame) (s : Db) (e : Nat) : Prop where
  mem : e ∈ s.world.ids
  ne : e ≠ 0
  free : ¬ f.F e
  hist : s.heap.tag e ≠ f.gate

theorem Own.kept {t : Db} {e : Nat} (h : Own f s e) (hk : Kept f s t) : Own f t e :=
  ⟨hk.ids e h.mem, h.ne, h.free, by rw [hk.tag e h.mem]; exact h.hist⟩

theorem Own.kid {e c : Nat} (h : Own f s e) (hg : Good f s) (hc : c ∈ s.heap.kids e) : c ∈ s.world.ids ∧ c ≠ 0 ∧ ¬ f.F c :=
  ⟨(kid_mem hg.inv hc).1, kid_ne_zero hg.inv hc, hg.own e c h.free h.ne h.hist hc⟩

theorem gate_ne {t : Str} (h1 : t ≠ "History".toList) (h2 : t ≠ "KeePassFile".toList) : t ≠ f.gate := by
  unfold Frame.gate
  split
  · exact h2
  · exact h1

theorem Own.sub {e c : Nat} (h : Own f s e) (hg : Good f s) (hc : c ∈ s.heap.kids e) (ht : s.heap.tag c ≠ f.gate) : Own f s c :=
  have := h.kid hg hc
  ⟨this.1, this.2.1, this.2.2, ht⟩

theorem Kept.tag_of {t : Db} {e : Nat} {x : Str} (hk : Kept f s t) (h : s.heap.tag e = x) (hx : x ≠ []) : t.heap.tag e = x := by
  rw [hk.tag e (tag_mem (by rw [h]; exact hx))]; exact h

/-! ## The primitive operations -/

/-- An operation that changes no children. -/
theorem kept_same {t : Db} (hg : Good f s) (hi : Inv t) (hv : t.version = s.version) {i : Nat} (hF : ¬ f.F i)
    (hh : ∀ j, j ≠ i → t.heap j = s.heap j) (ht : t.heap.tag i = s.heap.tag i) (hk : t.heap.kids i = s.heap.kids i)
    (hm : i ∈ s.world.ids → i ∈ t.world.ids) (hx : f.uuid = true → s.heap.tag i = "UUID".toList → t.heap.text i = s.heap.text i)
    (hu : t.uuids = s.uuids)
    (hfn : f.fine = true → ∀ r, i ≠ 0 → t.heap i = some r → Fine r.tag r.attrs r.text r.kids.isEmpty) : Kept f s t := by
  have htag : ∀ j, t.heap.tag j = s.heap.tag j := fun j => by
    by_cases e : j = i
    · rw [e]; exact ht
    · unfold Heap.tag; rw [hh j e]
  have hkids : ∀ j, t.heap.kids j = s.heap.kids j := fun j => by
    by_cases e : j = i
    · rw [e]; exact hk
    · unfold Heap.kids; rw [hh j e]
  have hmem : ∀ j ∈ s.world.ids, j ∈ t.world.ids := fun j hj => by
    by_cases e : j = i
    · rw [e]; exact hm (e ▸ hj)
    · rw [← heap_some, hh j e, heap_some]; exact hj
  refine ⟨⟨hi, fun j hj => hmem j (hg.mem j hj), hg.zero, fun p c h1 h2 h3 h4 => ?_, fun h1 j r h0 hr => ?_, fun h1 p c h0 hk => ?_, fun h1 h2 => filed_same (hg.filed h1 h2) htag hkids⟩, ?_, hmem, fun j _ => htag j, ?_, ?_, ?_, hv,
    fun h1 j _ h2 => ?_, by rw [hu]; exact Nat.le_refl _⟩
  · rw [htag] at h3
    rw [hkids] at h4
    exact hg.own p c h1 h2 h3 h4
  · by_cases e : j = i
    · rw [e] at h0 hr; exact hfn h1 r h0 hr
    · rw [hh j e] at hr; exact hg.tidy h1 j r h0 hr
  · rw [htag, htag]; rw [hkids] at hk; exact hg.shape h1 p c h0 hk
  · unfold docEl; rw [hkids]
  · intro j hj
    exact hh j fun e => hF (e ▸ hj)
  · intro j _ _ t' _
    unfold Heap.all
    rw [hkids]
    exact List.filter_congr fun k _ => by rw [htag]
  · intro p c _ _ h _
    rw [hkids] at h; exact h
  · by_cases e : j = i
    · rw [e] at h2 ⊢; exact hx h1 h2
    · unfold Heap.text; rw [hh j e]

theorem keeps_setText (i : Nat) (v : Option Str) (hF : ¬ f.F i) (hU : f.uuid = true → s.heap.tag i ≠ "UUID".toList)
    (hL : f.fine = true → s.heap.tag i ∈ leafTags) : Keeps f s (setText i v) := by
  intro hg
  by_cases hv : ∀ t, v = some t → XmlText t
  · obtain ⟨t, h1, h2, h3, h4⟩ := setText_ok hg.inv i v hv
    rw [h1]
    refine ⟨kept_same hg h2 (by rw [h3]) hF (fun j hj => ?_) ?_ ?_ ?_ (fun a b => absurd b (hU a)) (by rw [h3]) fun h1 r h0 hr => ?_, fun _ _ => trivial⟩
    · rw [h4]; simp [hj]
    · unfold Heap.tag; rw [h4]; cases s.heap i <;> simp
    · unfold Heap.kids; rw [h4]; cases s.heap i <;> simp
    · rw [← heap_some, ← heap_some]
      rintro ⟨r, hr⟩
      exact ⟨_, by rw [h4, hr]; rfl⟩
    · have ht := hL h1
      rw [h4] at hr
      unfold Heap.tag at ht
      cases hq : s.heap i with
      | none => rw [hq] at hr; cases hr
      | some q =>
        rw [hq] at hr ht
        rw [Option.map_some, if_pos rfl] at hr
        injection hr with hr
        rw [← hr]
        exact fine_text (hg.tidy h1 i q h0 hq) ht hv
  · cases v with
    | none => exact absurd (fun t h => by cases h) hv
    | some x =>
      have : ¬ XmlText x := fun h => hv fun t ht => by injection ht with ht; rw [← ht]; exact h
      have e : setText i (some x) s = (.error .value, s) := if_neg this
      rw [e]
      exact ⟨kept_refl hg, fun _ _ => trivial⟩

theorem keeps_setAttr (i : Nat) (k v : Str) (hF : ¬ f.F i) (hn : Xml.isName k = true) : Keeps f s (setAttr i k v) := by
  intro hg
  by_cases hv : XmlText v
  · obtain ⟨t, h1, h2, h3, h4⟩ := setAttr_ok hg.inv i k v hv
    rw [h1]
    refine ⟨kept_same hg h2 (by rw [h3]) hF (fun j hj => ?_) ?_ ?_ ?_ (fun _ _ => ?_) (by rw [h3]) fun h1 r h0 hr => ?_, fun _ _ => trivial⟩
    · rw [h4]; simp [hj]
    · unfold Heap.tag; rw [h4]; cases s.heap i <;> simp
    · unfold Heap.kids; rw [h4]; cases s.heap i <;> simp
    · rw [← heap_some, ← heap_some]
      rintro ⟨r, hr⟩
      exact ⟨_, by rw [h4, hr]; rfl⟩
    · unfold Heap.text; rw [h4]; cases s.heap i <;> simp
    · rw [h4] at hr
      cases hq : s.heap i with
      | none => rw [hq] at hr; cases hr
      | some q =>
        rw [hq] at hr
        rw [Option.map_some, if_pos rfl] at hr
        injection hr with hr
        rw [← hr]
        exact fine_attr (hg.tidy h1 i q h0 hq) hn hv
  · unfold setAttr
    rw [if_neg hv]
    exact ⟨kept_refl hg, fun _ _ => trivial⟩

/-- The element may be taken from where it is. -/
structure Movable (f : Frame) (s : Db) (c : Nat) : Prop where
  mem : c ∈ s.world.ids
  ne : c ≠ 0
  doc : docEl s.heap ≠ some c
  out : ∀ p, c ∈ s.heap.kids p → ¬ f.F p ∧ (p ≠ 0 → ¬ f.P p (s.heap.tag c))

theorem parent_mem {p c : Nat} (h : c ∈ s.heap.kids p) : p ∈ s.world.ids := by
  rw [← heap_some]
  unfold Heap.kids at h
  cases hp : s.heap p with
  | none => rw [hp] at h; cases h
  | some r => exact ⟨r, rfl⟩

theorem Movable.kept {t : Db} {c : Nat} (h : Movable f s c) (hk : Kept f s t) : Movable f t c := by
  refine ⟨hk.ids c h.mem, h.ne, by rw [hk.doc]; exact h.doc, fun p hp => ⟨fun hF => ?_, fun h0 hP => ?_⟩⟩
  · have : c ∈ s.heap.kids p := by unfold Heap.kids at hp ⊢; rw [hk.frozen p hF] at hp; exact hp
    exact (h.out p this).1 hF
  · have := hk.entered p c h.mem h0 hp hP
    rw [hk.tag c h.mem] at hP
    exact (h.out p this).2 h0 hP

/-- `c` is taken from where it is and put somewhere among the children of `d`. -/
theorem kept_moved {t : Db} (hg : Good f s) (hi : Inv t) (hv : t.version = s.version ∧ t.uuids = s.uuids) {c d : Nat} (hc : Movable f s c)
    (hd : ¬ f.F d) (hP : d ≠ 0 → ¬ f.P d (s.heap.tag c)) (hF : d ≠ 0 → ¬ f.F c)
    (hdoc : docEl t.heap = docEl s.heap) {g : List Nat → List Nat}
    (hgs : ∀ ks : List Nat, ∃ l r, ks.filter (· != c) = l ++ r ∧ g ks = l ++ c :: r)
    (hh : ∀ j, t.heap j = (s.heap j).map fun r => { r with kids := if j = d then g r.kids else r.kids.filter (· != c) })
    (hB : f.fine = true → d ≠ 0 → s.heap.tag d ∈ boxTags) (hS : f.shape = true → d ≠ 0 → Home (s.heap.tag d) (s.heap.tag c))
    (hX : f.shape = true → f.files = true → d ≠ 0 → s.heap.tag c = "Entry".toList ∨ s.heap.tag c = "Group".toList) : Kept f s t := by
  have htag : ∀ j, t.heap.tag j = s.heap.tag j := fun j => by
    unfold Heap.tag; rw [hh]; cases s.heap j <;> rfl
  have hkids : ∀ j ≠ d, t.heap.kids j = (s.heap.kids j).filter (· != c) := fun j hj => by
    unfold Heap.kids; rw [hh]; cases s.heap j <;> simp [hj]
  have hkd : t.heap.kids d = if d ∈ s.world.ids then g (s.heap.kids d) else [] := by
    unfold Heap.kids
    rw [hh]
    cases e : s.heap d with
    | none => rw [if_neg (heap_none.mp e)]; rfl
    | some r => rw [if_pos (heap_some.mp ⟨r, e⟩)]; simp
  have hmem : ∀ j, j ∈ t.world.ids ↔ j ∈ s.world.ids := fun j => by
    rw [← heap_some, ← heap_some, hh]
    cases s.heap j <;> simp
  have hin : ∀ p k, k ∈ t.heap.kids p → k ≠ c → k ∈ s.heap.kids p := by
    intro p k hk hkc
    by_cases e : p = d
    · rw [e, hkd] at hk
      split at hk
      · obtain ⟨l, r, h1, h2⟩ := hgs (s.heap.kids d)
        rw [h2] at hk
        have : k ∈ l ++ r := by
          rcases List.mem_append.mp hk with h | h
          · exact List.mem_append_left _ h
          · rcases List.mem_cons.mp h with h | h
            · exact absurd h hkc
            · exact List.mem_append_right _ h
        rw [← h1] at this
        rw [e]
        exact (List.mem_filter.mp this).1
      · cases hk
    · rw [hkids p e] at hk
      exact (List.mem_filter.mp hk).1
  have hinc : ∀ p, c ∈ t.heap.kids p → p = d := by
    intro p hk
    refine Classical.byContradiction fun e => ?_
    rw [hkids p e] at hk
    simpa using (List.mem_filter.mp hk).2
  refine ⟨⟨hi, fun j hj => (hmem j).mpr (hg.mem j hj), hg.zero, fun p k h1 h2 h3 h4 => ?_, fun h1 j r h0 hr => ?_, fun h1 p k h0 hk => ?_,
    fun h1 h2 => filed_moved hg.inv (hg.shape h1) (hg.filed h1 h2) htag hkids fun h0 => ⟨hS h1 h0, hX h1 h2 h0⟩⟩, hdoc, fun j hj => (hmem j).mpr hj,
    fun j _ => htag j, ?_, ?_, ?_, hv.1, fun _ j _ _ => ?_, by rw [hv.2]; exact Nat.le_refl _⟩
  · by_cases e : k = c
    · rw [e] at h4 ⊢
      exact hF (by rw [← hinc p h4]; exact h2)
    · rw [htag] at h3
      exact hg.own p k h1 h2 h3 (hin p k h4 e)
  · rw [hh] at hr
    cases hq : s.heap j with
    | none => rw [hq] at hr; cases hr
    | some q =>
      rw [hq, Option.map_some] at hr
      injection hr with hr
      rw [← hr]
      refine fine_kids (hg.tidy h1 j q h0 hq) fun hk => ?_
      by_cases e : j = d
      · right
        have := hB h1 (e ▸ h0)
        unfold Heap.tag at this
        rw [← e, hq] at this
        exact this
      · left
        replace hk : (if j = d then g q.kids else q.kids.filter (· != c)).isEmpty = false := hk
        rw [if_neg e] at hk
        cases hkk : q.kids with
        | nil => rw [hkk] at hk; cases hk
        | cons => rfl
  · rw [htag, htag]
    by_cases e : k = c
    · rw [e] at hk ⊢
      rw [hinc p hk] at h0 ⊢
      exact hS h1 h0
    · exact hg.shape h1 p k h0 (hin p k hk e)
  · intro j hj
    have hjd : j ≠ d := fun e => hd (e ▸ hj)
    rw [hh]
    cases e : s.heap j with
    | none => rfl
    | some r =>
      have : c ∉ r.kids := fun hk => (hc.out j (by unfold Heap.kids; rw [e]; exact hk)).1 hj
      simp only [hjd, if_false, Option.map_some, Node.filter_ne_self this]
  · intro j hj h0 x hx
    unfold Heap.all
    by_cases e : j = d
    · have hxc : x ≠ s.heap.tag c := fun ex => hP (e ▸ h0) (by rw [← e, ← ex]; exact hx)
      have hxc' : (t.heap.tag c == x) = false := by
        rw [htag]; exact beq_eq_false_iff_ne.mpr fun h => hxc h.symm
      rw [e, hkd, if_pos (e ▸ hj)]
      obtain ⟨l, r, h1, h2⟩ := hgs (s.heap.kids d)
      rw [h2, List.filter_append, List.filter_cons, if_neg (by rw [hxc']; decide), ← List.filter_append, ← h1, List.filter_filter]
      apply List.filter_congr
      intro k _
      rw [htag]
      by_cases ek : k = c
      · rw [ek]; rw [htag] at hxc'; rw [hxc']; rfl
      · simp [ek]
    · rw [hkids j e, List.filter_filter]
      apply List.filter_congr
      intro k hk
      rw [htag]
      by_cases ek : k = c
      · have : (s.heap.tag c == x) = false := beq_eq_false_iff_ne.mpr fun h => (hc.out j (ek ▸ hk)).2 h0 (by rw [h]; exact hx)
        rw [ek, this]; rfl
      · simp [ek]
  · intro p k hk h0 hkp hkP
    by_cases e : k = c
    · rw [e] at hkp hkP ⊢
      have := hinc p hkp
      rw [this] at h0 hkP
      rw [htag] at hkP
      exact absurd hkP (hP h0)
    · exact hin p k hkp e
  · unfold Heap.text; rw [hh]; cases s.heap j <;> rfl

theorem kid_movable {p c : Nat} (hg : Good f s) (hp : p ≠ 0) (hF : ¬ f.F p) (hP : ¬ f.P p (s.heap.tag c))
    (hk : c ∈ s.heap.kids p) : Movable f s c := by
  refine ⟨(kid_mem hg.inv hk).1, kid_ne_zero hg.inv hk, kid_not_doc hg.inv hp hk, fun q hq => ?_⟩
  rw [parent_eq hg.inv hq hk]
  exact ⟨hF, fun _ => hP⟩

theorem keeps_removeKid {p c : Nat} (hp : p ≠ 0) (hF : ¬ f.F p) (hP : c ∈ s.heap.kids p → ¬ f.P p (s.heap.tag c)) :
    Run f s (removeKid p c) fun _ t => Inv t ∧ Moved s.heap t.heap c 0 := by
  intro hg
  by_cases hk : c ∈ s.heap.kids p
  · obtain ⟨t, h1, h2, h3, h4⟩ := removeKid_ok hg.inv hp hk
    have hm : Moved s.heap t.heap c 0 := h4
    have hc := kid_movable hg hp hF (hP hk) hk
    rw [h1]
    refine ⟨kept_moved hg h2 (by rw [h3]; exact ⟨rfl, rfl⟩) hc hg.zero (fun h => absurd rfl h) (fun h => absurd rfl h) (moved_doc hg.inv hm hc.doc)
      (g := fun ks => ks.filter (· != c) ++ [c]) (fun ks => ⟨ks.filter (· != c), [], by simp, rfl⟩) h4 (fun _ h => absurd rfl h) (fun _ h => absurd rfl h) fun _ _ h => absurd rfl h, fun _ _ => ⟨h2, hm⟩⟩
  · unfold removeKid
    rw [if_neg hk]
    exact ⟨kept_refl hg, fun a ha => by cases ha⟩

theorem keeps_removeOld {p : Nat} {o : Option Nat} (hp : p ≠ 0) (hF : ¬ f.F p)
    (hP : ∀ c, o = some c → c ∈ s.heap.kids p → ¬ f.P p (s.heap.tag c)) : Keeps f s (removeOld p o) := by
  cases o with
  | none => exact keeps_pure ()
  | some c => exact (keeps_removeKid hp hF (hP c rfl)).keeps

theorem keeps_appendEl {d c : Nat} (hc : Movable f s c) (hd : d ∈ s.world.ids) (hF : ¬ f.F d) (hP : d ≠ 0 → ¬ f.P d (s.heap.tag c))
    (hFc : d ≠ 0 → ¬ f.F c) (hB : f.fine = true → s.heap.tag d ∈ boxTags)
    (hS : f.shape = true → Home (s.heap.tag d) (s.heap.tag c))
    (hX : f.shape = true → f.files = true → s.heap.tag c = "Entry".toList ∨ s.heap.tag c = "Group".toList := by nofun) :
    Run f s (appendEl d c) fun _ t => Inv t ∧ Moved s.heap t.heap c d := by
  intro hg
  obtain ⟨n, hn⟩ := get_of_mem hc.mem
  by_cases hdn : d ∈ n.ids
  · rw [appendEl_cycle hn hdn]
    exact ⟨kept_refl hg, fun a ha => by cases ha⟩
  · obtain ⟨t, h1, h2, h3, h4⟩ := appendEl_ok hg.inv hn hc.ne hd hdn hc.doc
    have hm : Moved s.heap t.heap c d := h4
    rw [h1]
    exact ⟨kept_moved hg h2 (by rw [h3]; exact ⟨rfl, rfl⟩) hc hF hP hFc (moved_doc hg.inv hm hc.doc)
      (g := fun ks => ks.filter (· != c) ++ [c]) (fun ks => ⟨ks.filter (· != c), [], by simp, rfl⟩) h4 (fun h _ => hB h) (fun h _ => hS h) fun h h' _ => hX h h', fun _ _ => ⟨h2, hm⟩⟩

/-- The children after `insert`. -/
def insertedKids (x d k j : Nat) (ks : List Nat) : List Nat :=
  if j = d then (ks.filter (· != x)).take k ++ x :: (ks.filter (· != x)).drop k else ks.filter (· != x)

/-- The position meant by an argument of `insert`. -/
def insertPos (len : Nat) (pos : Int) : Nat :=
  if 0 ≤ pos then pos.toNat else if 0 ≤ pos + len then (pos + len).toNat else len

theorem insertEl_ok (hs : Inv s) {d x : Nat} {n : Node} (hx : s.world.get? x = some n) (h0 : x ≠ 0) (hd0 : d ≠ 0)
    (hd : d ∈ s.world.ids) (hdn : d ∉ n.ids) (hdoc : docEl s.heap ≠ some x) (pos : Int) :
    ∃ s', insertEl d pos x s = (.ok (), s') ∧ Inv s' ∧ s' = { s with world := s'.world } ∧ docEl s'.heap = docEl s.heap ∧
      ∀ j, s'.heap j = (s.heap j).map fun r => { r with kids := insertedKids x d (insertPos (s.heap.kids d).length pos) j r.kids } := by
  obtain ⟨h1, h2, h3, h4⟩ := Node.view_moveTo' (pos := insertPos (s.heap.kids d).length pos) hs.world.uniq hx
    (by rw [hs.world.id]; exact h0) hd hdn
  have hheap : ∀ j, (s.world.moveTo x d (insertPos (s.heap.kids d).length pos)).view j = (s.heap j).map fun r =>
      { r with kids := insertedKids x d (insertPos (s.heap.kids d).length pos) j r.kids } := h4
  obtain ⟨r, hr, ht, hk⟩ := hs.root
  have e0 : insertedKids x d (insertPos (s.heap.kids d).length pos) 0 r.kids = r.kids.filter (· != x) := by
    unfold insertedKids; rw [if_neg (fun h => hd0 h.symm)]
  have hhead : (r.kids.filter (· != x)).head? = r.kids.head? := by
    have : r.kids.head? ≠ some x := by
      unfold docEl Heap.kids at hdoc
      rw [hr] at hdoc
      exact hdoc
    cases hkk : r.kids with
    | nil => rfl
    | cons a l =>
      rw [hkk] at this
      have : a ≠ x := fun e => this (by rw [e]; rfl)
      rw [List.filter_cons, if_pos (by simpa using this)]
      rfl
  refine ⟨{ s with world := s.world.moveTo x d (insertPos (s.heap.kids d).length pos) }, ?_, ?_, rfl, ?_, hheap⟩
  · unfold insertEl
    rw [hx]
    simp only
    rw [if_neg hdn]
    rfl
  · refine inv_view hs h1 h3 (r := { r with kids := r.kids.filter (· != x) }) ?_ ht ?_ ?_
    · rw [hheap 0, hr, Option.map_some, e0]
    · intro e
      have : (r.kids.filter (· != x)).head? = none := by
        have e : r.kids.filter (· != x) = [] := e
        rw [e]; rfl
      rw [hhead] at this
      exact hk (List.head?_eq_none_iff.mp this)
    · intro i hi
      exact hs.bound i ((h2 i).mp hi)
  · unfold docEl
    have e1 : ({ s with world := s.world.moveTo x d (insertPos (s.heap.kids d).length pos) } : Db).heap.kids 0 = r.kids.filter (· != x) := by
      have : ({ s with world := s.world.moveTo x d (insertPos (s.heap.kids d).length pos) } : Db).heap 0 = _ := hheap 0
      rw [hr, Option.map_some, e0] at this
      show (Option.map Node.Rec.kids (({ s with world := s.world.moveTo x d (insertPos (s.heap.kids d).length pos) } : Db).heap 0)).getD [] = _
      rw [this]
      rfl
    have e2 : s.heap.kids 0 = r.kids := by unfold Heap.kids; rw [hr]; rfl
    rw [e1, e2, hhead]

theorem keeps_insertEl {d c : Nat} {pos : Int} (hc : Movable f s c) (hd : d ∈ s.world.ids) (hd0 : d ≠ 0) (hF : ¬ f.F d)
    (hP : ¬ f.P d (s.heap.tag c)) (hFc : ¬ f.F c) (hB : f.fine = true → s.heap.tag d ∈ boxTags)
    (hS : f.shape = true → Home (s.heap.tag d) (s.heap.tag c))
    (hX : f.shape = true → f.files = true → s.heap.tag c = "Entry".toList ∨ s.heap.tag c = "Group".toList := by nofun) :
    Keeps f s (insertEl d pos c) := by
  intro hg
  obtain ⟨n, hn⟩ := get_of_mem hc.mem
  by_cases hdn : d ∈ n.ids
  · have : insertEl d pos c s = (.error .value, s) := by
      unfold insertEl
      rw [hn]
      simp only
      rw [if_pos hdn]
    rw [this]
    exact ⟨kept_refl hg, fun _ _ => trivial⟩
  · obtain ⟨t, h1, h2, h3, h4, h5⟩ := insertEl_ok hg.inv hn hc.ne hd0 hd hdn hc.doc pos
    rw [h1]
    exact ⟨kept_moved hg h2 (by rw [h3]; exact ⟨rfl, rfl⟩) hc hF (fun _ => hP) (fun _ => hFc) h4
      (g := fun ks => (ks.filter (· != c)).take (insertPos (s.heap.kids d).length pos) ++ c :: (ks.filter (· != c)).drop (insertPos (s.heap.kids d).length pos))
      (fun ks => ⟨_, _, (List.take_append_drop _ _).symm, rfl⟩) h5 (fun h _ => hB h) (fun h _ => hS h) fun h h' _ => hX h h', fun _ _ => trivial⟩

/-- A new element. -/
theorem run_make {p : Nat} {x : Xml} (hp : p ∈ s.world.ids) (hp0 : p ≠ 0) (hF : ¬ f.F p) (hP : ¬ f.P p x.tag)
    (hB : f.fine = true → s.heap.tag p ∈ boxTags ∧ TidyXml x) (hS : f.shape = true → Home (s.heap.tag p) x.tag ∧ ShapedXml x)
    (hX : f.shape = true → f.files = true → Takes s.heap p x := by nofun) :
    Run f s (make p x) fun a t => a ∈ t.world.ids ∧ a ≠ 0 ∧ ¬ f.F a ∧ t.heap.tag a = x.tag ∧ a ∈ t.heap.kids p := by
  intro hg
  obtain ⟨t, h1, h2, h3, hA, hc⟩ := add_ok hg.inv hp x
  have hs := hg.inv
  have hlt : ∀ {j}, j ∈ s.world.ids → j < s.next := fun hj => hs.bound _ hj
  have hmem : ∀ j ∈ s.world.ids, j ∈ t.world.ids := by
    intro j hj
    by_cases e : j = p
    · obtain ⟨r, _, hr⟩ := hA.here
      exact heap_some.mp ⟨_, by rw [e]; exact hr⟩
    · rw [← heap_some, hA.other j e (hlt hj), heap_some]; exact hj
  have hn := added_n hs hA
  have hnm := (kid_mem h2 hn).1
  have htag : t.heap.tag s.next = x.tag := content_tag hc
  rw [h1]
  refine ⟨⟨⟨h2, fun j hj => hmem j (hg.mem j hj), hg.zero, fun q c g1 g2 g3 g4 hFc => ?_,
    fun h4 => tidy_added h2 (hg.tidy h4) hA (hB h4).2 hc (hB h4).1,
    fun h4 => shaped_added hs h2 (hg.shape h4) hA (hS h4).2 hc (hS h4).1,
    fun h4 h5 => filed_added hs h2 (hg.shape h4) (hg.filed h4 h5) hA hc (hX h4 h5)⟩, added_doc hs h2 hA hp0, hmem,
    fun j hj => added_tag hs hA (hlt hj), ?_, ?_, ?_, by rw [h3], fun _ j hj _ => added_text hs hA (hlt hj),
    by rw [h3]; exact Nat.le_refl _⟩, ?_⟩
  · have hcl := hlt (hg.mem c hFc)
    have hql : q < s.next := Nat.lt_of_not_le fun hle => by
      have := added_new_kid hs h2 hA rfl hle g4
      omega
    rcases added_old_kid hs hA hql g4 with h | ⟨rfl, _⟩
    · rw [added_tag hs hA hql] at g3
      exact hg.own q c g1 g2 g3 h hFc
    · exact Nat.lt_irrefl _ hcl
  · intro j hj
    exact hA.other j (fun e => hF (e ▸ hj)) (hlt (hg.mem j hj))
  · intro j hj h0 b hb
    unfold Heap.all
    rw [added_kids hs hA (hlt hj)]
    split
    · next e =>
      have : (t.heap.tag s.next == b) = false := by
        rw [htag]; exact beq_eq_false_iff_ne.mpr fun eb => hP (by rw [eb, ← e]; exact hb)
      rw [List.filter_append, List.filter_cons, if_neg (by rw [this]; decide), List.filter_nil, List.append_nil]
      exact List.filter_congr fun k hk => by rw [added_tag hs hA (hlt (kid_mem hs hk).1)]
    · exact List.filter_congr fun k hk => by rw [added_tag hs hA (hlt (kid_mem hs hk).1)]
  · intro q c hc' hq0 hk hPc
    have hcl := hlt hc'
    have hql : q < s.next := Nat.lt_of_not_le fun hle => by
      have := added_new_kid hs h2 hA rfl hle hk
      omega
    rcases added_old_kid hs hA hql hk with h | ⟨rfl, _⟩
    · exact h
    · exact absurd hcl (Nat.lt_irrefl _)
  · intro a ha
    injection ha with ha
    subst ha
    exact ⟨hnm, kid_ne_zero h2 hn, fun h => Nat.lt_irrefl _ (hlt (hg.mem _ h)), htag, hn⟩

end Verif.Api
