import Verif.Api.FieldLemmas
/-!
# Assigning string fields
-/
namespace Verif.Api
open Verif XPath Spec

theorem plain_std (f : Field) : Plain f.key := by cases f <;> decide
theorem xml_std (f : Field) : XmlText f.key := by cases f <;> decide
theorem std_reserved (f : Field) : f.key ∈ reservedKeys := by cases f <;> decide

/-- The method call behind an assignment: the property setters and `set_custom_property`. -/
def runSet (env : Env) (e : Nat) : SetOp → M Unit
  | .std f v => setStd env e f (some v)
  | .custom k v p => setCustom env e k (some v) p

/-- One after the other; an exception ends the sequence. -/
def runSets (env : Env) (e : Nat) : List SetOp → M Unit
  | [] => pure ()
  | o :: os => do runSet env e o; runSets env e os

theorem runSet_ok (env : Env) {s : Db} (hs : Inv s) {e : Nat} (he : e ≠ 0) (hm : e ∈ s.world.ids)
    (hf : Fields s.heap e) {o : SetOp} (ho : o.Ok) :
    ∃ s', runSet env e o s = (.ok (), s') ∧
      FieldSet s s' e o.key o.value (o.newMark (field s.heap e o.key) (mark s.heap e o.key)) := by
  cases o with
  | custom k v p =>
    obtain ⟨h1, h2, h3, h4⟩ := ho
    obtain ⟨s', a, b⟩ := setField_ok env hs he hm hf h2 h3 h4 (some p)
    refine ⟨s', ?_, ?_⟩
    · show (if k ∈ reservedKeys then (fail .assertion : M Unit) else setField env e k (some v) (some p)) s = _
      rw [if_neg h1]; exact a
    · have : newMark s.heap e k (some p) = some (if p then "True".toList else "False".toList) := by cases p <;> rfl
      rw [this] at b; exact b
  | std f v =>
    replace ho : XmlText v := ho
    have none_case : ∀ (p : Option Bool), ∃ s', setField env e f.key (some v) p s = (.ok (), s') ∧
        FieldSet s s' e f.key v (newMark s.heap e f.key p) := fun p => setField_ok env hs he hm hf (plain_std f) (xml_std f) ho p
    have prot : ∀ g : Field, g = f → (g = .password ∨ g = .otp) →
        ∃ s', runSet env e (.std f v) s = (.ok (), s') ∧ FieldSet s s' e f.key v
          (if field s.heap e f.key = none ∨ field s.heap e f.key = some [] then some "True".toList else mark s.heap e f.key) := by
      intro g hg hp
      have hrun : runSet env e (.std f v) s = (if (field s.heap e f.key).getD [] ≠ [] then setField env e f.key (some v)
          else setField env e f.key (some v) (some true)) s := by
        have : runSet env e (.std f v) = (getField env e f.key >>= fun old =>
            if old.getD [] ≠ [] then setField env e f.key (some v) else setField env e f.key (some v) (some true)) := by
          subst hg
          rcases hp with rfl | rfl <;> rfl
        rw [this, bind_of (getField_run env hs he hm (plain_std f))]
      rw [hrun]
      by_cases hc : (field s.heap e f.key).getD [] = []
      · have : field s.heap e f.key = none ∨ field s.heap e f.key = some [] := by
          cases hh : field s.heap e f.key with
          | none => exact .inl rfl
          | some x => rw [hh] at hc; exact .inr (by rw [show x = [] from hc])
        rw [if_neg (by simpa using hc), if_pos this]
        exact none_case (some true)
      · have : ¬ (field s.heap e f.key = none ∨ field s.heap e f.key = some []) := by
          rintro (h | h) <;> rw [h] at hc <;> exact hc rfl
        rw [if_pos hc, if_neg this]
        exact none_case none
    cases f with
    | password => exact prot _ rfl (.inl rfl)
    | otp => exact prot _ rfl (.inr rfl)
    | title => exact none_case none
    | username => exact none_case none
    | url => exact none_case none
    | notes => exact none_case none

theorem FieldSet.field_eq {s s' : Db} {e : Nat} {key value : Str} {p : Option Str} (h : FieldSet s s' e key value p) (k : Str) :
    field s'.heap e k = if k = key then some value else field s.heap e k := by
  rw [Api.field_eq, Api.field_eq, h.prop k]
  split <;> rfl

/-- The parts of the database that assignments to fields of `e` leave alone. -/
structure OnlyFields (s s' : Db) (e : Nat) : Prop where
  inv : Inv s'
  mono : s.next ≤ s'.next
  state : s' = { s with world := s'.world, next := s'.next }
  other : ∀ j, j ≠ 0 → j ≠ e → j < s.next → s'.heap j = s.heap j
  here : ∃ r r', s.heap e = some r ∧ s'.heap e = some r' ∧ r'.tag = r.tag ∧ r'.attrs = r.attrs ∧ r'.text = r.text
  kids : otherKids s'.heap e = otherKids s.heap e
  document : (s'.heap.kids 0).head? = (s.heap.kids 0).head?
  mem : e ∈ s'.world.ids

theorem mem_of_heap {s : Db} {e : Nat} {r : Node.Rec} (h : s.heap e = some r) : e ∈ s.world.ids := heap_some.mp ⟨r, h⟩

theorem filter_filter_swap {α} (p q : α → Bool) (l : List α) : (l.filter p).filter q = (l.filter q).filter p := by
  rw [List.filter_filter, List.filter_filter]
  apply List.filter_congr
  intro x _
  rw [Bool.and_comm]

theorem filter_append_drop {α} (p : α → Bool) (l : List α) (a : α) (h : p a = false) : (l ++ [a]).filter p = l.filter p := by
  rw [List.filter_append, List.filter_cons, h]
  simp

theorem otherKids_eq {s s' : Db} (hs : Inv s) {e : Nat} {key value : Str} {p : Option Str} (h : FieldSet s s' e key value p) :
    otherKids s'.heap e = otherKids s.heap e := by
  obtain ⟨r, hr, hr'⟩ := h.replaced.here
  have hk : s.heap.kids e = r.kids := by unfold Heap.kids; rw [hr]; rfl
  have hk' : s'.heap.kids e = r.kids.filter (fun k => !(fieldEls s.heap e key).contains k) ++ [s.next] := by
    unfold Heap.kids; rw [hr']; rfl
  unfold otherKids
  rw [hk', filter_append_drop _ _ _ (by rw [h.newTag]; simp), hk]
  have h1 : (r.kids.filter (fun k => !(fieldEls s.heap e key).contains k)).filter (fun k => s'.heap.tag k != "String".toList) =
      (r.kids.filter (fun k => !(fieldEls s.heap e key).contains k)).filter (fun k => s.heap.tag k != "String".toList) := by
    apply List.filter_congr
    intro k hkm
    have hkm : k ∈ s.heap.kids e := by rw [hk]; exact (List.mem_filter.mp hkm).1
    obtain ⟨a, b, c⟩ := kid_facts hs hkm
    rw [tag_congr (h.replaced.other k a b c)]
  rw [h1, filter_filter_swap]
  apply List.filter_eq_self.mpr
  intro k hk2
  obtain ⟨_, ht⟩ := List.mem_filter.mp hk2
  rw [Bool.not_eq_true', ← Bool.not_eq_true]
  intro hc
  have hc := (all_sub (List.mem_filter.mp (List.contains_iff_mem.mp hc)).1).2
  rw [hc] at ht
  simp at ht

theorem FieldSet.only {s s' : Db} (hs : Inv s) {e : Nat} {key value : Str} {p : Option Str} (h : FieldSet s s' e key value p) :
    OnlyFields s s' e := by
  obtain ⟨r, hr, hr'⟩ := h.replaced.here
  have hn : s'.next = s.next + 3 := by rw [h.state]
  refine ⟨h.inv, by omega, by rw [hn]; exact h.state, h.replaced.other, ⟨r, _, hr, hr', rfl, rfl, rfl⟩, otherKids_eq hs h,
    h.replaced.document, mem_of_heap hr'⟩

theorem OnlyFields.refl {s : Db} (hs : Inv s) {e : Nat} (hm : e ∈ s.world.ids) : OnlyFields s s e := by
  obtain ⟨r, hr⟩ := heap_some.mpr hm
  exact ⟨hs, Nat.le_refl _, rfl, fun _ _ _ _ => rfl, ⟨r, r, hr, hr, rfl, rfl, rfl⟩, rfl, rfl, hm⟩

theorem OnlyFields.trans {s s' s'' : Db} {e : Nat} (a : OnlyFields s s' e) (b : OnlyFields s' s'' e) : OnlyFields s s'' e := by
  refine ⟨b.inv, Nat.le_trans a.mono b.mono, ?_, ?_, ?_, b.kids.trans a.kids, b.document.trans a.document, b.mem⟩
  · have h1 := b.state
    rw [a.state] at h1
    exact h1
  · intro j h0 he hj
    rw [b.other j h0 he (Nat.lt_of_lt_of_le hj a.mono), a.other j h0 he hj]
  · obtain ⟨r, r', h1, h2, h3, h4, h5⟩ := a.here
    obtain ⟨q, q', g1, g2, g3, g4, g5⟩ := b.here
    rw [h2] at g1
    injection g1 with g1
    subst g1
    exact ⟨r, q', h1, g2, g3.trans h3, g4.trans h4, g5.trans h5⟩

/-- Any sequence of assignments. -/
theorem runSets_ok (env : Env) {e : Nat} (he : e ≠ 0) (ops : List SetOp) : ∀ {s : Db}, Inv s → e ∈ s.world.ids →
    Fields s.heap e → (∀ o ∈ ops, o.Ok) →
    ∃ s', runSets env e ops s = (.ok (), s') ∧ OnlyFields s s' e ∧ Fields s'.heap e ∧
      (∀ k, field s'.heap e k = match lastSet ops k with | some v => some v | none => field s.heap e k) ∧
      ∀ k, mark s'.heap e k = markAfter k ops (field s.heap e k) (mark s.heap e k) := by
  induction ops with
  | nil =>
    intro s hs hm hf _
    exact ⟨s, rfl, .refl hs hm, hf, fun _ => rfl, fun _ => rfl⟩
  | cons o os ih =>
    intro s hs hm hf ho
    obtain ⟨s1, h1, h2⟩ := runSet_ok env hs he hm hf (ho o (List.mem_cons_self ..))
    have hon := h2.only hs
    obtain ⟨s', g1, g2, g3, g4, g5⟩ := ih h2.inv hon.mem h2.fields fun x hx => ho x (List.mem_cons_of_mem _ hx)
    refine ⟨s', ?_, hon.trans g2, g3, ?_, ?_⟩
    · show (runSet env e o >>= fun _ => runSets env e os) s = _
      rw [bind_of h1, g1]
    · intro k
      rw [g4 k]
      by_cases hk : k = o.key
      · have : lastSet (o :: os) k = match lastSet os k with | some v => some v | none => some o.value := by
          unfold lastSet
          rw [List.filter_cons, if_pos (by simp [hk])]
          cases hh : (os.filter fun o => o.key == k) with
          | nil => rfl
          | cons a l => rw [List.getLast?_cons_cons]; simp [List.getLast?_cons]
        rw [this]
        cases lastSet os k with
        | some v => rfl
        | none => rw [h2.field_eq, if_pos hk]
      · have : lastSet (o :: os) k = lastSet os k := by
          unfold lastSet
          rw [List.filter_cons, if_neg (by simpa using fun h => hk h.symm)]
        rw [this]
        cases lastSet os k with
        | some v => rfl
        | none => rw [h2.field_eq, if_neg hk]
    · intro k
      rw [g5 k, h2.field_eq, h2.mark]
      show _ = if o.key = k then _ else _
      by_cases hk : k = o.key
      · subst hk; rw [if_pos rfl, if_pos rfl, if_pos rfl]
      · rw [if_neg hk, if_neg hk, if_neg fun h => hk h.symm]

theorem isProtected_run (env : Env) {s : Db} (hs : Inv s) {e : Nat} (he : e ≠ 0) (hm : e ∈ s.world.ids) {key : Str}
    (hk : Plain key) : isProtected env e key s = (.ok (mark s.heap e key == some "True".toList), s) := by
  unfold isProtected mark
  rw [bind_of (first_value env hs he hm hk)]
  cases (valueEls s.heap e key).head? with
  | none => rfl
  | some v =>
    show (attrOf v "Protected".toList >>= fun a => pure (a.getD "False".toList == "True".toList)) s = _
    rw [bind_of (attrOf_run v _ s)]
    rw [Option.bind_some]
    cases s.heap.attr v "Protected".toList with
    | none => rfl
    | some x => rfl

end Verif.Api
