import Verif.Api.Replace
/-!
# Lemmas about string fields
-/
namespace Verif.Api
open Verif XPath Spec

theorem field_eq (h : Heap) (e : Nat) (key : Str) : field h e key = (prop h e key).join := by
  unfold field prop
  cases (valueEls h e key).head? <;> rfl

/-- With well-formed fields there is at most one element for a key. -/
theorem fieldEls_cases {h : Heap} {e : Nat} (hf : Fields h e) (key : Str) :
    (fieldEls h e key = [] ∧ valueEls h e key = []) ∨ ∃ f v, fieldEls h e key = [f] ∧ h.all f "Value".toList = [v] ∧
      valueEls h e key = [v] := by
  have hu := hf.uniq key
  cases hl : fieldEls h e key with
  | nil => left; exact ⟨rfl, by unfold valueEls; rw [hl]; rfl⟩
  | cons f l =>
    rw [hl] at hu
    have : l = [] := List.length_eq_zero_iff.mp (by simp only [List.length_cons] at hu; omega)
    subst this
    have hfm : f ∈ h.all e "String".toList := by
      have : f ∈ fieldEls h e key := by rw [hl]; exact List.mem_cons_self ..
      exact (List.mem_filter.mp this).1
    obtain ⟨v, hv⟩ := hf.value f hfm
    refine Or.inr ⟨f, v, rfl, hv, ?_⟩
    unfold valueEls
    rw [hl, List.flatMap_cons, List.flatMap_nil, List.append_nil, hv]

/-- A field has one key only. -/
theorem hasKey_unique {h : Heap} {e : Nat} (hf : Fields h e) {s : Nat} (hs : s ∈ h.all e "String".toList) {k k' : Str}
    (h1 : hasKey h s k = true) (h2 : hasKey h s k' = true) : k = k' := by
  obtain ⟨c, t, hc, ht⟩ := hf.key s hs
  unfold hasKey at h1 h2
  rw [hc] at h1 h2
  simp only [List.any_cons, List.any_nil, Bool.or_false, beq_iff_eq] at h1 h2
  rw [h1] at h2
  injection h2

theorem filter_contains_head {α} [BEq α] [LawfulBEq α] (l : List α) (o : Option α) :
    (l.filter fun k => !(o.toList).contains k) = l.filter fun k => some k != o := by
  apply List.filter_congr
  intro k _
  cases o with
  | none => simp
  | some a =>
    rw [Bool.eq_iff_iff]
    simp

/-- What setting a field does. -/
structure FieldSet (s s' : Db) (e : Nat) (key value : Str) (p : Option Str) : Prop where
  inv : Inv s'
  state : s' = { s with world := s'.world, next := s.next + 3 }
  fields : Fields s'.heap e
  replaced : FieldReplaced s.heap s'.heap s.next e key
  prop : ∀ k, prop s'.heap e k = if k = key then some (some value) else prop s.heap e k
  mark : ∀ k, mark s'.heap e k = if k = key then p else mark s.heap e k
  keys : ∃ l, keysOf s'.heap e = l ++ [some key] ∧ l = (keysOf s.heap e).filter fun k => k != some key
  tag : s'.heap.tag e = s.heap.tag e
  newTag : s'.heap.tag s.next = "String".toList

theorem keysOf_spec {h : Heap} {e : Nat} (hf : Fields h e) {s : Nat} (hs : s ∈ h.all e "String".toList) (key : Str) :
    hasKey h s key = ((h.find s "Key".toList).bind h.text == some key) := by
  obtain ⟨c, t, hc, ht⟩ := hf.key s hs
  unfold hasKey Heap.find
  rw [hc]
  simp

theorem replaced_field {s s' : Db} (hs : Inv s) {e : Nat} (hf : Fields s.heap e) {key value : Str} {p : Option Str}
    (h : Replaced s s' e (fieldEls s.heap e key).head? (stringXml key value p)) : FieldSet s s' e key value p := by
  obtain ⟨n1, n2, n3, n4, n5, n6⟩ := stringXml_key h
  obtain ⟨_, _, _, hnext⟩ := stringXml_heap h
  -- the old element is the only one with the key
  have hold : (fieldEls s.heap e key) = (fieldEls s.heap e key).head?.toList := by
    rcases fieldEls_cases hf key with ⟨h1, _⟩ | ⟨f, v, h1, _⟩ <;> rw [h1] <;> rfl
  have hkeep : ∀ k, k ≠ key → (fieldEls s.heap e k).filter (fun j => some j != (fieldEls s.heap e key).head?) = fieldEls s.heap e k := by
    intro k hk
    rw [List.filter_eq_self]
    intro j hj
    rw [bne_iff_ne]
    intro hc
    have hj2 : j ∈ fieldEls s.heap e key := List.mem_of_mem_head? hc.symm
    obtain ⟨a1, a2⟩ := List.mem_filter.mp hj
    obtain ⟨b1, b2⟩ := List.mem_filter.mp hj2
    exact hk (hasKey_unique hf a1 a2 b2)
  have hgone : (fieldEls s.heap e key).filter (fun j => some j != (fieldEls s.heap e key).head?) = [] := by
    rcases fieldEls_cases hf key with ⟨h1, _⟩ | ⟨f, v, h1, _⟩
    · rw [h1]; rfl
    · rw [h1, List.filter_cons]; simp
  have hfe : ∀ k, fieldEls s'.heap e k = if k = key then [s.next] else fieldEls s.heap e k := by
    intro k
    rw [h.fieldEls_eq hs, n3]
    have ht : (stringXml key value p).tag = "String".toList := rfl
    by_cases hk : k = key
    · subst hk
      rw [hgone]
      simp [ht]
    · rw [hkeep k hk]
      simp [hk]
  have hve : ∀ k, valueEls s'.heap e k = if k = key then [s.next + 2] else valueEls s.heap e k := by
    intro k
    rw [h.valueEls_eq hs, n3, n2]
    have ht : (stringXml key value p).tag = "String".toList := rfl
    by_cases hk : k = key
    · subst hk
      rw [hgone]
      simp [ht]
    · rw [hkeep k hk]
      simp only [hk, if_false]
      simp [hk, valueEls]
  have hvtext : ∀ k, ∀ v ∈ (valueEls s.heap e k), s'.heap v = s.heap v := by
    intro k v hv
    obtain ⟨f, hf1, hf2⟩ := List.mem_flatMap.mp hv
    exact h.grandkid hs (all_sub (List.mem_filter.mp hf1).1).1 (all_sub hf2).1
  have hall : ∀ t, s'.heap.all e t = (s.heap.all e t).filter (fun k => some k != (fieldEls s.heap e key).head?) ++
      if t = "String".toList then [s.next] else [] := by
    intro t
    rw [h.all_eq hs]
    have ht : (stringXml key value p).tag = "String".toList := rfl
    rw [ht]
    congr 1
    by_cases hx : t = "String".toList
    · rw [if_pos hx.symm, if_pos hx]
    · rw [if_neg (Ne.symm hx), if_neg hx]
  have hstr : ∀ j ∈ s'.heap.all e "String".toList, (j ∈ s.heap.all e "String".toList ∧ some j ≠ (fieldEls s.heap e key).head?) ∨ j = s.next := by
    intro j hj
    rw [hall, if_pos rfl, List.mem_append, List.mem_singleton, List.mem_filter] at hj
    rcases hj with ⟨hj, hj2⟩ | hj
    · exact Or.inl ⟨hj, by simpa using hj2⟩
    · exact Or.inr hj
  have hsame : ∀ j ∈ s.heap.all e "String".toList, ∀ t, s'.heap.all j t = s.heap.all j t := by
    intro j hj t
    have hk := (all_sub hj).1
    exact all_congr (h.kid hs hk) (fun c hc => h.grandkid hs hk hc) t
  refine ⟨h.inv, ?_, ⟨?_, ?_, ?_⟩, ⟨h.other, ?_, ?_⟩, ?_, ?_, ?_, h.tag_eq, ?_⟩
  · have h1 := h.state
    have h2 : (Node.ofXml s.next (stringXml key value p)).2 = s.next + 3 := by
      have : s'.next = (Node.ofXml s.next (stringXml key value p)).2 := by rw [h1]
      rw [← this, hnext]
    rw [h2] at h1
    exact h1
  · intro j hj
    rcases hstr j hj with ⟨hj, _⟩ | rfl
    · obtain ⟨c, t, hc, ht⟩ := hf.key j hj
      refine ⟨c, t, by rw [hsame j hj, hc], ?_⟩
      have hcm : c ∈ s.heap.all j "Key".toList := by rw [hc]; exact List.mem_cons_self ..
      rw [text_congr (h.grandkid hs (all_sub hj).1 (all_sub hcm).1), ht]
    · exact ⟨_, key, n1, n4⟩
  · intro j hj
    rcases hstr j hj with ⟨hj, _⟩ | rfl
    · obtain ⟨v, hv⟩ := hf.value j hj
      exact ⟨v, by rw [hsame j hj, hv]⟩
    · exact ⟨_, n2⟩
  · intro k
    rw [hfe]
    split
    · simp
    · exact hf.uniq k
  · obtain ⟨r, h1, h2⟩ := h.here
    refine ⟨r, h1, ?_⟩
    rw [h2, hold, filter_contains_head]
    rcases fieldEls_cases hf key with ⟨g1, _⟩ | ⟨f, v, g1, _⟩ <;> rw [g1] <;> rfl
  · obtain ⟨r, h1, h2⟩ := h.root
    unfold Heap.kids
    rw [h1, h2]
    obtain ⟨r', g1, _, g3⟩ := hs.root
    rw [h1] at g1
    injection g1 with g1
    subst g1
    cases hr : r.kids with
    | nil => exact absurd hr g3
    | cons a l => simp [hr]
  · intro k
    unfold Spec.prop
    rw [hve]
    by_cases hk : k = key
    · simp only [hk, if_true, List.head?_cons, Option.map_some, n5]
    · simp only [hk, if_false]
      cases hh : (valueEls s.heap e k).head? with
      | none => rfl
      | some v => simp only [Option.map_some]; rw [text_congr (hvtext k v (List.mem_of_mem_head? hh))]
  · intro k
    unfold Spec.mark
    rw [hve]
    by_cases hk : k = key
    · simp only [hk, if_true, List.head?_cons, Option.bind_some, n6]
    · simp only [hk, if_false]
      cases hh : (valueEls s.heap e k).head? with
      | none => rfl
      | some v => simp only [Option.bind_some]; rw [attr_congr (hvtext k v (List.mem_of_mem_head? hh))]
  · refine ⟨_, ?_, rfl⟩
    unfold keysOf
    rw [hall, if_pos rfl, List.map_append, List.map_singleton]
    have hnew : (s'.heap.find s.next "Key".toList).bind s'.heap.text = some key := by
      unfold Heap.find; rw [n1]; exact n4
    rw [hnew]
    congr 1
    have hfk : ∀ j ∈ s.heap.all e "String".toList, (s'.heap.find j "Key".toList).bind s'.heap.text =
        (s.heap.find j "Key".toList).bind s.heap.text := by
      intro j hj
      unfold Heap.find
      rw [hsame j hj]
      obtain ⟨c, t, hc, ht⟩ := hf.key j hj
      have hcm : c ∈ s.heap.all j "Key".toList := by rw [hc]; exact List.mem_cons_self ..
      rw [hc]
      exact text_congr (h.grandkid hs (all_sub hj).1 (all_sub hcm).1)
    have hflt : ∀ j ∈ s.heap.all e "String".toList, (some j != (fieldEls s.heap e key).head?) =
        ((s.heap.find j "Key".toList).bind s.heap.text != some key) := by
      intro j hj
      have hiff : some j = (fieldEls s.heap e key).head? ↔ hasKey s.heap j key = true := by
        constructor
        · intro hc
          exact (List.mem_filter.mp (List.mem_of_mem_head? hc.symm)).2
        · intro hk
          have hjm : j ∈ fieldEls s.heap e key := List.mem_filter.mpr ⟨hj, hk⟩
          rw [hold] at hjm
          exact (Option.mem_toList.mp hjm).symm
      rw [keysOf_spec hf hj, beq_iff_eq] at hiff
      rw [Bool.eq_iff_iff, bne_iff_ne, bne_iff_ne]
      exact not_congr hiff
    generalize s.heap.all e "String".toList = L at hfk hflt
    induction L with
    | nil => rfl
    | cons j L ih =>
      rw [List.filter_cons, List.map_cons, List.filter_cons, hflt j (List.mem_cons_self ..)]
      have ih := ih (fun x hx => hfk x (List.mem_cons_of_mem _ hx)) (fun x hx => hflt x (List.mem_cons_of_mem _ hx))
      by_cases hc : ((s.heap.find j "Key".toList).bind s.heap.text != some key) = true
      · rw [if_pos hc, if_pos hc, List.map_cons, hfk j (List.mem_cons_self ..), ih]
      · rw [if_neg hc, if_neg hc, ih]
  · unfold Heap.tag; rw [h.new]; rfl

/-- The protection mark given to a new value. -/
def newMark (h : Heap) (e : Nat) (key : Str) : Option Bool → Option Str
  | some b => some (pyBool b)
  | none => mark h e key

theorem markFor_run (env : Env) {s : Db} (hs : Inv s) {e : Nat} (he : e ≠ 0) (hm : e ∈ s.world.ids) {key : Str}
    (hk : Plain key) (prot : Option Bool) : markFor env e key prot s = (.ok (newMark s.heap e key prot), s) := by
  cases prot with
  | some b => rfl
  | none =>
    show (xpathFirst env (some e) (valueQuery key) >>= _) s = (.ok (mark s.heap e key), s)
    unfold mark
    rw [bind_of (first_value env hs he hm hk)]
    cases (valueEls s.heap e key).head? <;> rfl

/-- `_set_string_field` on an entry with well-formed fields. -/
theorem setField_ok (env : Env) {s : Db} (hs : Inv s) {e : Nat} (he : e ≠ 0) (hm : e ∈ s.world.ids)
    (hf : Fields s.heap e) {key value : Str} (hk : Plain key) (hkx : XmlText key) (hv : XmlText value)
    (prot : Option Bool) :
    ∃ s', setField env e key (some value) prot s = (.ok (), s') ∧
      FieldSet s s' e key value (newMark s.heap e key prot) := by
  have hold : ∀ f, (fieldEls s.heap e key).head? = some f → f ∈ s.heap.kids e := by
    intro f hf
    exact (all_sub (List.mem_filter.mp (List.mem_of_mem_head? hf)).1).1
  obtain ⟨s', h1, h2⟩ := replace_ok hs he hm (fieldEls s.heap e key).head? hold
    (stringXml key value (newMark s.heap e key prot))
  refine ⟨s', ?_, replaced_field hs hf h2⟩
  unfold setField
  rw [bind_of (first_field env hs he hm hk), bind_of (markFor_run env hs he hm hk prot)]
  obtain ⟨u, s1, a1, a2⟩ := bind_inv h1
  rw [bind_of a1, stringEl_ok hkx hv]
  show (make e _ >>= fun _ => pure ()) s1 = _
  rw [bind_of a2]
  rfl

end Verif.Api

namespace Verif.Api
open Verif XPath Spec

/-! ## Checking well-formed fields -/

/-- A computable test for `Fields`. -/
def fieldsOk (h : Heap) (e : Nat) : Bool :=
  (h.all e "String".toList).all (fun s => (h.all s "Key".toList).length == 1 && (h.all s "Value".toList).length == 1 &&
    ((h.find s "Key".toList).bind h.text).isSome) && decide (keysOf h e).Nodup

theorem filter_nodup_le {L : List Nat} {f : Nat → Option Str} (h : (L.map f).Nodup) (a : Option Str) :
    (L.filter fun x => f x == a).length ≤ 1 := by
  induction L with
  | nil => simp
  | cons x L ih =>
    rw [List.map_cons, List.nodup_cons] at h
    rw [List.filter_cons]
    split
    · next hx =>
      have : (L.filter fun x => f x == a) = [] := by
        rw [List.filter_eq_nil_iff]
        intro y hy hc
        rw [beq_iff_eq] at hx hc
        exact h.1 (List.mem_map.mpr ⟨y, hy, by rw [hc, hx]⟩)
      rw [this]; simp
    · exact ih h.2

theorem fields_of_ok {h : Heap} {e : Nat} (hk : fieldsOk h e = true) : Fields h e := by
  unfold fieldsOk at hk
  rw [Bool.and_eq_true, List.all_eq_true, decide_eq_true_eq] at hk
  obtain ⟨h1, h2⟩ := hk
  have key : ∀ s ∈ h.all e "String".toList, ∃ c t, h.all s "Key".toList = [c] ∧ h.text c = some t := by
    intro s hs
    have := h1 s hs
    rw [Bool.and_eq_true, Bool.and_eq_true, beq_iff_eq, beq_iff_eq] at this
    obtain ⟨⟨a, _⟩, b⟩ := this
    obtain ⟨c, hc⟩ := List.length_eq_one_iff.mp a
    unfold Heap.find at b
    rw [hc] at b
    obtain ⟨t, ht⟩ := Option.isSome_iff_exists.mp b
    exact ⟨c, t, hc, ht⟩
  refine ⟨key, ?_, ?_⟩
  · intro s hs
    have := h1 s hs
    rw [Bool.and_eq_true, Bool.and_eq_true, beq_iff_eq, beq_iff_eq] at this
    exact List.length_eq_one_iff.mp this.1.2
  · intro k
    have : fieldEls h e k = (h.all e "String".toList).filter fun s => (h.find s "Key".toList).bind h.text == some k := by
      unfold fieldEls
      apply List.filter_congr
      intro s hs
      obtain ⟨c, t, hc, ht⟩ := key s hs
      unfold hasKey Heap.find
      rw [hc]
      simp
    rw [this]
    exact filter_nodup_le h2 _

theorem keys_nodup {h : Heap} {e : Nat} (hf : Fields h e) (hn : (h.all e "String".toList).Nodup) : (keysOf h e).Nodup := by
  unfold keysOf
  have hu : ∀ k, ((h.all e "String".toList).filter fun s => hasKey h s k).length ≤ 1 := hf.uniq
  have hk : ∀ s ∈ h.all e "String".toList, ∃ t, (h.find s "Key".toList).bind h.text = some t := by
    intro s hs
    obtain ⟨c, t, hc, ht⟩ := hf.key s hs
    exact ⟨t, by unfold Heap.find; rw [hc]; exact ht⟩
  have hs := fun s hs => keysOf_spec hf (s := s) hs
  generalize h.all e "String".toList = L at hu hk hs hn
  induction L with
  | nil => simp
  | cons a L ih =>
    rw [List.nodup_cons] at hn
    rw [List.map_cons, List.nodup_cons]
    refine ⟨?_, ih (fun k => ?_) (fun s hs => hk s (List.mem_cons_of_mem _ hs)) (fun s h' => hs s (List.mem_cons_of_mem _ h')) hn.2⟩
    · intro hm
      obtain ⟨b, hb, he⟩ := List.mem_map.mp hm
      obtain ⟨t, ht⟩ := hk a (List.mem_cons_self ..)
      have h1 : hasKey h a t = true := by rw [hs a (List.mem_cons_self ..), ht, beq_iff_eq]
      have h2 : hasKey h b t = true := by rw [hs b (List.mem_cons_of_mem _ hb), he, ht, beq_iff_eq]
      have := hu t
      rw [List.filter_cons, if_pos h1] at this
      have hbm : b ∈ L.filter fun s => hasKey h s t := List.mem_filter.mpr ⟨hb, h2⟩
      have : 0 < (L.filter fun s => hasKey h s t).length := List.length_pos_of_mem hbm
      simp only [List.length_cons] at *
      omega
    · have := hu k
      rw [List.filter_cons] at this
      split at this
      · simp only [List.length_cons] at this; omega
      · exact this

theorem all_nodup {s : Db} (hs : Inv s) (e : Nat) (t : Str) : (s.heap.all e t).Nodup := by
  unfold Heap.all
  refine List.Nodup.sublist List.filter_sublist ?_
  unfold Heap.kids
  cases h : s.heap e with
  | none => exact List.nodup_nil
  | some r => exact kids_nodup hs h

/-! ## Removing a child -/

/-- Child `c` of `e` was detached. -/
structure Detached (s s' : Db) (e c : Nat) : Prop where
  inv : Inv s'
  state : s' = { s with world := s'.world }
  here : ∃ r, s.heap e = some r ∧ s'.heap e = some { r with kids := r.kids.filter (· != c) }
  root : ∃ r, s.heap 0 = some r ∧ s'.heap 0 = some { r with kids := r.kids ++ [c] }
  other : ∀ j, j ≠ 0 → j ≠ e → s'.heap j = s.heap j

theorem detach_ok {s : Db} (h : Inv s) {e c : Nat} (he : e ≠ 0) (hc : c ∈ s.heap.kids e) :
    ∃ s', removeKid e c s = (.ok (), s') ∧ Detached s s' e c := by
  obtain ⟨s', a1, a2, a3, a4⟩ := removeKid_ok h he hc
  obtain ⟨r0, hr0, _, _⟩ := h.root
  have hr : ∃ r, s.heap e = some r := by
    unfold Heap.kids at hc
    cases hh : s.heap e with
    | none => rw [hh] at hc; cases hc
    | some r => exact ⟨r, rfl⟩
  obtain ⟨r, hr⟩ := hr
  refine ⟨s', a1, a2, a3, ⟨r, hr, ?_⟩, ⟨r0, hr0, ?_⟩, ?_⟩
  · rw [a4 e, hr]
    simp only [Option.map_some, movedKids, if_neg he]
  · rw [a4 0, hr0]
    simp only [Option.map_some, movedKids, if_true, Node.filter_ne_self (not_kid_elsewhere h hc hr0 (Ne.symm he))]
  · intro j h0 hje
    rw [a4 j]
    cases hj : s.heap j with
    | none => rfl
    | some rj =>
      simp only [Option.map_some, movedKids, if_neg h0, Node.filter_ne_self (not_kid_elsewhere h hc hj hje)]

namespace Detached

variable {s s' : Db} {e c : Nat}

theorem kid (h : Detached s s' e c) (hs : Inv s) {k : Nat} (hk : k ∈ s.heap.kids e) : s'.heap k = s.heap k :=
  let f := kid_facts hs hk
  h.other k f.1 f.2.1

theorem grandkid (h : Detached s s' e c) (hs : Inv s) {k d : Nat} (hk : k ∈ s.heap.kids e)
    (hc : d ∈ s.heap.kids k) : s'.heap d = s.heap d :=
  let f := grandkid_facts hs hk hc
  h.other d f.1 f.2.1

theorem kids_eq (h : Detached s s' e c) : s'.heap.kids e = (s.heap.kids e).filter (· != c) := by
  obtain ⟨r, h1, h2⟩ := h.here
  unfold Heap.kids
  rw [h1, h2]
  rfl

theorem tag_eq (h : Detached s s' e c) : s'.heap.tag e = s.heap.tag e := by
  obtain ⟨r, h1, h2⟩ := h.here
  unfold Heap.tag
  rw [h1, h2]
  rfl

theorem all_eq (h : Detached s s' e c) (hs : Inv s) (t : Str) : s'.heap.all e t = (s.heap.all e t).filter (· != c) := by
  unfold Heap.all
  rw [h.kids_eq, List.filter_filter, List.filter_filter]
  apply List.filter_congr
  intro k hk
  rw [tag_congr (h.kid hs hk), Bool.and_comm]

theorem sub_all (h : Detached s s' e c) (hs : Inv s) {k : Nat} (hk : k ∈ s.heap.kids e) (t : Str) :
    s'.heap.all k t = s.heap.all k t := all_congr (h.kid hs hk) (fun _ hc => h.grandkid hs hk hc) t

theorem fieldEls_eq (h : Detached s s' e c) (hs : Inv s) (key : Str) :
    fieldEls s'.heap e key = (fieldEls s.heap e key).filter (· != c) := by
  unfold fieldEls
  rw [h.all_eq hs, List.filter_filter, List.filter_filter]
  apply List.filter_congr
  intro k hk
  have hk := (all_sub hk).1
  rw [hasKey_congr (h.kid hs hk) fun d hd => h.grandkid hs hk hd, Bool.and_comm]

theorem document (h : Detached s s' e c) (hs : Inv s) : (s'.heap.kids 0).head? = (s.heap.kids 0).head? := by
  obtain ⟨r, h1, h2⟩ := h.root
  obtain ⟨r', g1, _, g3⟩ := hs.root
  rw [h1] at g1
  injection g1 with g1
  subst g1
  unfold Heap.kids
  rw [h1, h2]
  cases hr : r.kids with
  | nil => exact absurd hr g3
  | cons a l => simp [hr]

end Detached

/-- What deleting a field does. -/
structure FieldDeleted (s s' : Db) (e : Nat) (key : Str) : Prop where
  inv : Inv s'
  state : s' = { s with world := s'.world }
  fields : Fields s'.heap e
  other : ∀ j, j ≠ 0 → j ≠ e → s'.heap j = s.heap j
  here : ∃ r, s.heap e = some r ∧
    s'.heap e = some { r with kids := r.kids.filter fun k => !(fieldEls s.heap e key).contains k }
  document : (s'.heap.kids 0).head? = (s.heap.kids 0).head?
  prop : ∀ k, prop s'.heap e k = if k = key then none else prop s.heap e k
  mark : ∀ k, mark s'.heap e k = if k = key then none else mark s.heap e k
  keys : keysOf s'.heap e = (keysOf s.heap e).filter fun k => k != some key
  tag : s'.heap.tag e = s.heap.tag e

theorem deleted_field {s s' : Db} (hs : Inv s) {e : Nat} (hf : Fields s.heap e) {key : Str} {f : Nat}
    (hfe : fieldEls s.heap e key = [f]) (h : Detached s s' e f) : FieldDeleted s s' e key := by
  have hfm : f ∈ fieldEls s.heap e key := by rw [hfe]; exact List.mem_cons_self ..
  obtain ⟨hf1, hf2⟩ := List.mem_filter.mp hfm
  have hother : ∀ k, k ≠ key → (fieldEls s.heap e k).filter (· != f) = fieldEls s.heap e k := by
    intro k hk
    rw [List.filter_eq_self]
    intro j hj
    rw [bne_iff_ne]
    rintro rfl
    obtain ⟨a1, a2⟩ := List.mem_filter.mp hj
    exact hk (hasKey_unique hf a1 a2 hf2)
  have hels : ∀ k, fieldEls s'.heap e k = if k = key then [] else fieldEls s.heap e k := by
    intro k
    rw [h.fieldEls_eq hs]
    by_cases hk : k = key
    · rw [hk, hfe, if_pos rfl]; simp
    · rw [hother k hk, if_neg hk]
  have hve : ∀ k, valueEls s'.heap e k = if k = key then [] else valueEls s.heap e k := by
    intro k
    unfold valueEls
    rw [hels]
    by_cases hk : k = key
    · rw [if_pos hk, if_pos hk]; rfl
    · rw [if_neg hk, if_neg hk]
      have : ∀ l : List Nat, (∀ j ∈ l, j ∈ s.heap.kids e) → l.flatMap (fun j => s'.heap.all j "Value".toList) =
          l.flatMap fun j => s.heap.all j "Value".toList := by
        intro l hl
        induction l with
        | nil => rfl
        | cons j l ih =>
          rw [List.flatMap_cons, List.flatMap_cons, ih fun i hi => hl i (List.mem_cons_of_mem _ hi),
            h.sub_all hs (hl j (List.mem_cons_self ..))]
      exact this _ fun j hj => (all_sub (List.mem_filter.mp hj).1).1
  have hvh : ∀ k, ∀ v ∈ valueEls s.heap e k, s'.heap v = s.heap v := by
    intro k v hv
    obtain ⟨g, hg1, hg2⟩ := List.mem_flatMap.mp hv
    exact h.grandkid hs (all_sub (List.mem_filter.mp hg1).1).1 (all_sub hg2).1
  have hsub : ∀ j ∈ s'.heap.all e "String".toList, j ∈ s.heap.all e "String".toList := by
    intro j hj
    rw [h.all_eq hs] at hj
    exact (List.mem_filter.mp hj).1
  refine ⟨h.inv, h.state, ⟨?_, ?_, ?_⟩, h.other, ?_, h.document hs, ?_, ?_, ?_, h.tag_eq⟩
  · intro j hj
    have hj := hsub j hj
    obtain ⟨d, t, hd, ht⟩ := hf.key j hj
    refine ⟨d, t, by rw [h.sub_all hs (all_sub hj).1, hd], ?_⟩
    have hdm : d ∈ s.heap.all j "Key".toList := by rw [hd]; exact List.mem_cons_self ..
    rw [text_congr (h.grandkid hs (all_sub hj).1 (all_sub hdm).1), ht]
  · intro j hj
    have hj := hsub j hj
    obtain ⟨v, hv⟩ := hf.value j hj
    exact ⟨v, by rw [h.sub_all hs (all_sub hj).1, hv]⟩
  · intro k
    rw [hels]
    split
    · simp
    · exact hf.uniq k
  · obtain ⟨r, h1, h2⟩ := h.here
    refine ⟨r, h1, ?_⟩
    rw [h2, hfe]
    congr 2
    apply List.filter_congr
    intro k _
    rw [Bool.eq_iff_iff]
    simp
  · intro k
    unfold Spec.prop
    rw [hve]
    by_cases hk : k = key
    · simp [hk]
    · simp only [hk, if_false]
      cases hh : (valueEls s.heap e k).head? with
      | none => rfl
      | some v => simp only [Option.map_some]; rw [text_congr (hvh k v (List.mem_of_mem_head? hh))]
  · intro k
    unfold Spec.mark
    rw [hve]
    by_cases hk : k = key
    · simp [hk]
    · simp only [hk, if_false]
      cases hh : (valueEls s.heap e k).head? with
      | none => rfl
      | some v => simp only [Option.bind_some]; rw [attr_congr (hvh k v (List.mem_of_mem_head? hh))]
  · unfold keysOf
    rw [h.all_eq hs]
    have hfk : ∀ j ∈ s.heap.all e "String".toList, (s'.heap.find j "Key".toList).bind s'.heap.text =
        (s.heap.find j "Key".toList).bind s.heap.text := by
      intro j hj
      unfold Heap.find
      rw [h.sub_all hs (all_sub hj).1]
      obtain ⟨d, t, hd, ht⟩ := hf.key j hj
      have hdm : d ∈ s.heap.all j "Key".toList := by rw [hd]; exact List.mem_cons_self ..
      rw [hd]
      exact text_congr (h.grandkid hs (all_sub hj).1 (all_sub hdm).1)
    have hflt : ∀ j ∈ s.heap.all e "String".toList, (j != f) = ((s.heap.find j "Key".toList).bind s.heap.text != some key) := by
      intro j hj
      have hiff : j = f ↔ hasKey s.heap j key = true := by
        constructor
        · rintro rfl; exact hf2
        · intro hk
          have hjm : j ∈ fieldEls s.heap e key := List.mem_filter.mpr ⟨hj, hk⟩
          rw [hfe] at hjm
          exact List.mem_singleton.mp hjm
      rw [keysOf_spec hf hj, beq_iff_eq] at hiff
      rw [Bool.eq_iff_iff, bne_iff_ne, bne_iff_ne]
      exact not_congr hiff
    generalize s.heap.all e "String".toList = L at hfk hflt
    induction L with
    | nil => rfl
    | cons j L ih =>
      rw [List.filter_cons, List.map_cons, List.filter_cons, hflt j (List.mem_cons_self ..)]
      have ih := ih (fun x hx => hfk x (List.mem_cons_of_mem _ hx)) (fun x hx => hflt x (List.mem_cons_of_mem _ hx))
      by_cases hc : ((s.heap.find j "Key".toList).bind s.heap.text != some key) = true
      · rw [if_pos hc, if_pos hc, List.map_cons, hfk j (List.mem_cons_self ..), ih]
      · rw [if_neg hc, if_neg hc, ih]

/-! ## Keys -/

theorem keyTexts_run {s : Db} {L : List Nat} (h : ∀ x ∈ L, (s.heap.find x "Key".toList).isSome) :
    keyTexts L s = (.ok (L.map fun x => (s.heap.find x "Key".toList).bind s.heap.text), s) := by
  induction L with
  | nil => rfl
  | cons x L ih =>
    obtain ⟨k, hk⟩ := Option.isSome_iff_exists.mp (h x (List.mem_cons_self ..))
    unfold keyTexts
    rw [bind_of (findKid_run x _ s), hk]
    rw [bind_of (orAttr_some k s), bind_of (textOf_run k s), bind_of (ih fun y hy => h y (List.mem_cons_of_mem _ hy))]
    rw [List.map_cons, hk]
    rfl

/-- Names that `custom_properties` does not list. -/
def isReserved (k : Option Str) : Bool := reservedKeys.any fun r => k == some r

theorem isReserved_iff (k : Str) : isReserved (some k) = true ↔ k ∈ reservedKeys := by
  unfold isReserved
  rw [List.any_eq_true]
  constructor
  · rintro ⟨r, hr, e⟩
    rw [beq_iff_eq] at e
    injection e with e
    exact e ▸ hr
  · intro h; exact ⟨k, h, by simp⟩

theorem fieldKeys_run {s : Db} {e : Nat} (hf : Fields s.heap e) :
    fieldKeys e true s = (.ok ((keysOf s.heap e).filter fun k => !isReserved k), s) := by
  unfold fieldKeys
  rw [bind_of (findKids_run e _ s), bind_of (keyTexts_run ?_)]
  · rfl
  · intro x hx
    obtain ⟨c, t, hc, _⟩ := hf.key x hx
    unfold Heap.find
    rw [hc]; rfl

/-- A key is listed iff the field exists. -/
theorem mem_keysOf {h : Heap} {e : Nat} (hf : Fields h e) (key : Str) : some key ∈ keysOf h e ↔ prop h e key ≠ none := by
  have h1 : some key ∈ keysOf h e ↔ fieldEls h e key ≠ [] := by
    unfold keysOf fieldEls
    rw [List.mem_map, ne_eq, List.filter_eq_nil_iff]
    constructor
    · rintro ⟨x, hx, he⟩ hc
      refine hc x hx ?_
      rw [keysOf_spec hf hx, he]
      simp
    · intro hc
      apply Decidable.byContradiction
      intro hn
      apply hc
      intro x hx hk
      rw [keysOf_spec hf hx, beq_iff_eq] at hk
      exact hn ⟨x, hx, hk⟩
  rw [h1]
  unfold prop
  rcases fieldEls_cases hf key with ⟨a, b⟩ | ⟨f, v, a, _, b⟩
  · rw [a, b]; simp
  · rw [a, b]; simp

theorem keysOf_some {h : Heap} {e : Nat} (hf : Fields h e) : ∀ k ∈ keysOf h e, ∃ t, k = some t := by
  intro k hk
  unfold keysOf at hk
  obtain ⟨x, hx, rfl⟩ := List.mem_map.mp hk
  obtain ⟨c, t, hc, ht⟩ := hf.key x hx
  exact ⟨t, by unfold Heap.find; rw [hc]; exact ht⟩

/-- `delete_custom_property`. -/
theorem deleteCustom_ok (env : Env) {s : Db} (hs : Inv s) {e : Nat} (he : e ≠ 0) (hm : e ∈ s.world.ids)
    (hf : Fields s.heap e) {key : Str} (hk : Plain key) :
    (key ∉ reservedKeys ∧ prop s.heap e key ≠ none ∧
      ∃ s', deleteCustom env e key s = (.ok (), s') ∧ FieldDeleted s s' e key) ∨
    ((key ∈ reservedKeys ∨ prop s.heap e key = none) ∧ deleteCustom env e key s = (.error .attribute, s)) := by
  unfold deleteCustom
  rw [bind_of (fieldKeys_run hf)]
  by_cases hmem : some key ∈ (keysOf s.heap e).filter fun k => !isReserved k
  · rw [if_pos hmem]
    left
    obtain ⟨h1, h2⟩ := List.mem_filter.mp hmem
    have hr : key ∉ reservedKeys := by
      rw [← isReserved_iff]
      simpa using h2
    have hp := (mem_keysOf hf key).mp h1
    refine ⟨hr, hp, ?_⟩
    rw [bind_of (first_field env hs he hm hk)]
    rcases fieldEls_cases hf key with ⟨a, b⟩ | ⟨f, v, a, _, b⟩
    · exact absurd (by unfold prop; rw [b]; rfl) hp
    · rw [a]
      have hfk : f ∈ s.heap.kids e := by
        have : f ∈ fieldEls s.heap e key := by rw [a]; exact List.mem_cons_self ..
        exact (all_sub (List.mem_filter.mp this).1).1
      obtain ⟨s', g1, g2⟩ := detach_ok hs he hfk
      exact ⟨s', g1, deleted_field hs hf a g2⟩
  · rw [if_neg hmem]
    right
    refine ⟨?_, rfl⟩
    apply Decidable.byContradiction
    intro hc
    rw [not_or] at hc
    refine hmem (List.mem_filter.mpr ⟨(mem_keysOf hf key).mpr hc.2, ?_⟩)
    have := (not_congr (isReserved_iff key)).mpr hc.1
    simpa using this

end Verif.Api
