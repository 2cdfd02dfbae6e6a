import Verif.Api.SetLemmas
import Verif.Api.Sample
/-!
# C37: custom properties behave like a dictionary

The reference is a finite map from names to values, given here as a function; the program is run on the
element tree. `dictRun` and `propRun` give the list of results and the final state.
-/
namespace Verif.Props
open Verif XPath Spec Api

inductive POp where
  | set (k v : Str) (p : Bool)
  | get (k : Str)
  | del (k : Str)

/-- A dictionary: a name is absent, or present with a value (`None` for an empty element). -/
abbrev Dict := Str → Option (Option Str)

/-- What the documentation promises: the result and the dictionary afterwards. -/
def dictStep (d : Dict) : POp → Except PyErr (Option Str) × Dict
  | .set k v _ => if k ∈ reservedKeys then (.error .assertion, d) else (.ok none, fun x => if x = k then some (some v) else d x)
  | .get k => if k ∈ reservedKeys then (.error .assertion, d) else (.ok (d k).join, d)
  | .del k => if k ∈ reservedKeys ∨ d k = none then (.error .attribute, d) else (.ok none, fun x => if x = k then none else d x)

def dictRun (d : Dict) : List POp → List (Except PyErr (Option Str)) × Dict
  | [] => ([], d)
  | o :: os => let r := dictStep d o; let q := dictRun r.2 os; (r.1 :: q.1, q.2)

/-- The calls. -/
def propStep (env : Env) (e : Nat) : POp → M (Option Str)
  | .set k v p => do setCustom env e k (some v) p; pure none
  | .get k => getCustom env e k
  | .del k => do deleteCustom env e k; pure none

/-- A sequence of calls: each is made in the state the previous one left, also if that one raised. -/
def propRun (env : Env) (e : Nat) (s : Db) : List POp → List (Except PyErr (Option Str)) × Db
  | [] => ([], s)
  | o :: os => let r := propStep env e o s; let q := propRun env e r.2 os; (r.1 :: q.1, q.2)

def POp.Ok : POp → Prop
  | .set k v _ => Plain k ∧ XmlText k ∧ XmlText v
  | .get k => Plain k
  | .del k => Plain k

theorem deleted_only {s s' : Db} (hs : Inv s) {e : Nat} {key : Str} (h : FieldDeleted s s' e key) :
    OnlyFields s s' e := by
  obtain ⟨r, hr, hr'⟩ := h.here
  have hn : s'.next = s.next := by rw [h.state]
  refine ⟨h.inv, by omega, by rw [hn]; exact h.state, fun j a b _ => h.other j a b, ⟨r, _, hr, hr', rfl, rfl, rfl⟩, ?_,
    h.document, mem_of_heap hr'⟩
  have hk : s.heap.kids e = r.kids := by unfold Heap.kids; rw [hr]; rfl
  have hk' : s'.heap.kids e = r.kids.filter (fun k => !(fieldEls s.heap e key).contains k) := by
    unfold Heap.kids; rw [hr']; rfl
  unfold otherKids
  rw [hk', hk]
  have h1 : (r.kids.filter (fun k => !(fieldEls s.heap e key).contains k)).filter (fun k => s'.heap.tag k != "String".toList) =
      (r.kids.filter (fun k => !(fieldEls s.heap e key).contains k)).filter (fun k => s.heap.tag k != "String".toList) := by
    apply List.filter_congr
    intro k hkm
    have hkm : k ∈ s.heap.kids e := by rw [hk]; exact (List.mem_filter.mp hkm).1
    obtain ⟨a, b, c⟩ := kid_facts hs hkm
    rw [tag_congr (h.other k a b)]
  rw [h1, filter_filter_swap]
  apply List.filter_eq_self.mpr
  intro k hk2
  obtain ⟨_, ht⟩ := List.mem_filter.mp hk2
  rw [Bool.not_eq_true', ← Bool.not_eq_true]
  intro hc
  have hc := (all_sub (List.mem_filter.mp (List.contains_iff_mem.mp hc)).1).2
  rw [hc] at ht
  simp at ht

/-- One call does what the dictionary does. -/
theorem propStep_ok (env : Env) {s : Db} (hs : Inv s) {e : Nat} (he : e ≠ 0) (hm : e ∈ s.world.ids)
    (hf : Fields s.heap e) {o : POp} (ho : o.Ok) :
    (propStep env e o s).1 = (dictStep (prop s.heap e) o).1 ∧
    prop (propStep env e o s).2.heap e = (dictStep (prop s.heap e) o).2 ∧
    OnlyFields s (propStep env e o s).2 e ∧ Fields (propStep env e o s).2.heap e := by
  cases o with
  | get k =>
    show ((if k ∈ reservedKeys then (fail .assertion : M (Option Str)) else getField env e k) s).1 =
        (if k ∈ reservedKeys then _ else _ : Except PyErr (Option Str) × Dict).1 ∧
      prop ((if k ∈ reservedKeys then (fail .assertion : M (Option Str)) else getField env e k) s).2.heap e =
        (if k ∈ reservedKeys then _ else _ : Except PyErr (Option Str) × Dict).2 ∧
      OnlyFields s ((if k ∈ reservedKeys then (fail .assertion : M (Option Str)) else getField env e k) s).2 e ∧
      Fields ((if k ∈ reservedKeys then (fail .assertion : M (Option Str)) else getField env e k) s).2.heap e
    by_cases hr : k ∈ reservedKeys
    · simp only [if_pos hr]
      exact ⟨rfl, rfl, .refl hs hm, hf⟩
    · simp only [if_neg hr]
      rw [getField_run env hs he hm ho, field_eq]
      exact ⟨rfl, rfl, .refl hs hm, hf⟩
  | set k v p =>
    obtain ⟨h1, h2, h3⟩ := ho
    by_cases hr : k ∈ reservedKeys
    · have : propStep env e (.set k v p) s = (.error .assertion, s) := by
        show ((if k ∈ reservedKeys then (fail .assertion : M Unit) else _) >>= _) s = _
        rw [if_pos hr]; rfl
      rw [this]
      show _ = (if k ∈ reservedKeys then _ else _ : Except PyErr (Option Str) × Dict).1 ∧
        _ = (if k ∈ reservedKeys then _ else _ : Except PyErr (Option Str) × Dict).2 ∧ _
      rw [if_pos hr]
      exact ⟨rfl, rfl, .refl hs hm, hf⟩
    · obtain ⟨s', a, b⟩ := runSet_ok env hs he hm hf (o := .custom k v p) ⟨hr, h1, h2, h3⟩
      have : propStep env e (.set k v p) s = (.ok none, s') := by
        show (setCustom env e k (some v) p >>= _) s = _
        rw [bind_of (show setCustom env e k (some v) p s = _ from a)]; rfl
      rw [this]
      show _ = (if k ∈ reservedKeys then _ else _ : Except PyErr (Option Str) × Dict).1 ∧
        _ = (if k ∈ reservedKeys then _ else _ : Except PyErr (Option Str) × Dict).2 ∧ _
      rw [if_neg hr]
      refine ⟨rfl, ?_, b.only hs, b.fields⟩
      funext x
      exact b.prop x
  | del k =>
    rcases deleteCustom_ok env hs he hm hf (key := k) ho with ⟨hr, hp, s', a, b⟩ | ⟨hc, a⟩
    · have : propStep env e (.del k) s = (.ok none, s') := by
        show (deleteCustom env e k >>= _) s = _
        rw [bind_of a]; rfl
      rw [this]
      show _ = (if k ∈ reservedKeys ∨ prop s.heap e k = none then _ else _ : Except PyErr (Option Str) × Dict).1 ∧
        _ = (if k ∈ reservedKeys ∨ prop s.heap e k = none then _ else _ : Except PyErr (Option Str) × Dict).2 ∧ _
      have : ¬ (k ∈ reservedKeys ∨ prop s.heap e k = none) := by
        rintro (h | h)
        · exact hr h
        · exact hp h
      rw [if_neg this]
      refine ⟨rfl, ?_, deleted_only hs b, b.fields⟩
      funext x
      exact b.prop x
    · have : propStep env e (.del k) s = (.error .attribute, s) := by
        show (deleteCustom env e k >>= _) s = _
        rw [bind_err a]
      rw [this]
      show _ = (if k ∈ reservedKeys ∨ prop s.heap e k = none then _ else _ : Except PyErr (Option Str) × Dict).1 ∧
        _ = (if k ∈ reservedKeys ∨ prop s.heap e k = none then _ else _ : Except PyErr (Option Str) × Dict).2 ∧ _
      rw [if_pos hc]
      exact ⟨rfl, rfl, .refl hs hm, hf⟩

/-- Every sequence of set/get/delete gives the results of the dictionary and leaves its content; the rest of the
database is as before. -/
theorem C37_dictionary (env : Env) {e : Nat} (he : e ≠ 0) (ops : List POp) : ∀ {s : Db}, Inv s → e ∈ s.world.ids →
    Fields s.heap e → (∀ o ∈ ops, o.Ok) →
    (propRun env e s ops).1 = (dictRun (prop s.heap e) ops).1 ∧
    prop (propRun env e s ops).2.heap e = (dictRun (prop s.heap e) ops).2 ∧
    OnlyFields s (propRun env e s ops).2 e ∧ Fields (propRun env e s ops).2.heap e := by
  induction ops with
  | nil => intro s hs hm hf _; exact ⟨rfl, rfl, .refl hs hm, hf⟩
  | cons o os ih =>
    intro s hs hm hf ho
    obtain ⟨h1, h2, h3, h4⟩ := propStep_ok env hs he hm hf (ho o (List.mem_cons_self ..))
    obtain ⟨g1, g2, g3, g4⟩ := ih h3.inv h3.mem h4 fun x hx => ho x (List.mem_cons_of_mem _ hx)
    rw [h2] at g1 g2
    refine ⟨?_, ?_, h3.trans g3, g4⟩
    · show _ :: _ = _ :: _
      rw [h1, g1]
    · exact g2

/-- The dictionary never gets or loses a reserved name. -/
theorem dictRun_reserved (ops : List POp) : ∀ (d : Dict) (k : Str), k ∈ reservedKeys → (dictRun d ops).2 k = d k := by
  induction ops with
  | nil => intro d k _; rfl
  | cons o os ih =>
    intro d k hk
    show (dictRun (dictStep d o).2 os).2 k = d k
    rw [ih _ k hk]
    cases o with
    | get x => show (if x ∈ reservedKeys then _ else _ : Except PyErr (Option Str) × Dict).2 k = _; split <;> rfl
    | set x v p =>
      show (if x ∈ reservedKeys then _ else _ : Except PyErr (Option Str) × Dict).2 k = _
      split
      · rfl
      · next h =>
        show (if k = x then _ else _) = _
        rw [if_neg]; rintro rfl; exact h hk
    | del x =>
      show (if x ∈ reservedKeys ∨ d x = none then _ else _ : Except PyErr (Option Str) × Dict).2 k = _
      split
      · rfl
      · next h =>
        show (if k = x then _ else _) = _
        rw [if_neg]; rintro rfl; exact h (.inl hk)

/-- Standard fields are unaffected by any sequence. -/
theorem C37_standard (env : Env) {e : Nat} (he : e ≠ 0) (ops : List POp) {s : Db} (hs : Inv s) (hm : e ∈ s.world.ids)
    (hf : Fields s.heap e) (ho : ∀ o ∈ ops, o.Ok) (f : Field) :
    (getStd env e f (propRun env e s ops).2).1 = (getStd env e f s).1 := by
  obtain ⟨_, h2, h3, _⟩ := C37_dictionary env he ops hs hm hf ho
  unfold getStd
  rw [getField_run env hs he hm (plain_std f), getField_run env h3.inv he h3.mem (plain_std f), field_eq, field_eq, h2,
    dictRun_reserved ops _ _ (std_reserved f)]

theorem customLoop_run (env : Env) {s : Db} (hs : Inv s) {e : Nat} (he : e ≠ 0) (hm : e ∈ s.world.ids) (ks : List (Option Str))
    (hk : ∀ k ∈ ks, ∃ t, k = some t ∧ Plain t) :
    customLoop env e ks s = (.ok (ks.map fun k => (k, field s.heap e (k.getD [])) ), s) := by
  induction ks with
  | nil => rfl
  | cons k ks ih =>
    obtain ⟨t, rfl, hp⟩ := hk k (List.mem_cons_self ..)
    unfold customLoop
    rw [bind_of (getField_run env hs he hm (show Plain ((some t).getD "None".toList) from hp)),
      bind_of (ih fun x hx => hk x (List.mem_cons_of_mem _ hx))]
    rfl

theorem dictOf_nodup (l : List (Option Str × Option Str)) (h : (l.map Prod.fst).Nodup) : dictOf l = l := by
  induction l with
  | nil => rfl
  | cons p l ih =>
    rw [List.map_cons, List.nodup_cons] at h
    unfold dictOf
    simp only [ih h.2]
    have h1 : l.lookup p.1 = none := by
      rw [List.lookup_eq_none_iff]
      intro q hq
      rw [bne_iff_ne]
      intro hc
      exact h.1 (hc ▸ List.mem_map.mpr ⟨q, hq, rfl⟩)
    have h2 : (l.filter fun q => q.1 != p.1) = l := by
      apply List.filter_eq_self.mpr
      intro q hq
      rw [bne_iff_ne]
      intro hc
      exact h.1 (hc ▸ List.mem_map.mpr ⟨q, hq, rfl⟩)
    rw [h1, h2]
    rfl

/-- `custom_properties` lists exactly the names that are present and not reserved, each once, with its value. -/
theorem C37_listing (env : Env) {s : Db} (hs : Inv s) {e : Nat} (he : e ≠ 0) (hm : e ∈ s.world.ids)
    (hf : Fields s.heap e) (hk : ∀ k, prop s.heap e k ≠ none → Plain k) :
    ∃ l, customProps env e s = (.ok l, s) ∧ (l.map Prod.fst).Nodup ∧
      ∀ k v, (k, v) ∈ l ↔ ∃ t, k = some t ∧ t ∉ reservedKeys ∧ prop s.heap e t = some v := by
  have hn : ((keysOf s.heap e).filter fun k => !isReserved k).Nodup :=
    (keys_nodup hf (all_nodup hs e _)).sublist List.filter_sublist
  have hmem : ∀ k ∈ (keysOf s.heap e).filter (fun k => !isReserved k), ∃ t, k = some t ∧ t ∉ reservedKeys ∧ prop s.heap e t ≠ none := by
    intro k hkm
    obtain ⟨h1, h2⟩ := List.mem_filter.mp hkm
    obtain ⟨t, rfl⟩ := keysOf_some hf k h1
    refine ⟨t, rfl, ?_, (mem_keysOf hf t).mp h1⟩
    rw [← isReserved_iff]
    simpa using h2
  have hfst : ((((keysOf s.heap e).filter fun k => !isReserved k).map fun k => (k, field s.heap e (k.getD [])) ).map Prod.fst) =
      (keysOf s.heap e).filter fun k => !isReserved k := by
    rw [List.map_map]
    exact List.map_id _
  refine ⟨((keysOf s.heap e).filter fun k => !isReserved k).map fun k => (k, field s.heap e (k.getD [])), ?_, ?_, ?_⟩
  · unfold customProps
    rw [bind_of (fieldKeys_run hf), bind_of (customLoop_run env hs he hm _ fun k hkm => ?_)]
    · show (Except.ok (dictOf _), s) = _
      rw [dictOf_nodup _ (by rw [hfst]; exact hn)]
    · obtain ⟨t, h1, _, h3⟩ := hmem k hkm
      exact ⟨t, h1, hk t h3⟩
  · rw [hfst]; exact hn
  · intro k v
    rw [List.mem_map]
    have hval : ∀ t, prop s.heap e t ≠ none → prop s.heap e t = some (field s.heap e t) := by
      intro t ht
      rw [field_eq]
      cases h : prop s.heap e t with
      | none => exact absurd h ht
      | some x => cases x <;> rfl
    constructor
    · rintro ⟨a, ha, he⟩
      injection he with h1 h2
      obtain ⟨t, rfl, h4, h5⟩ := hmem a ha
      refine ⟨t, h1.symm, h4, ?_⟩
      rw [hval t h5, ← h2]
      rfl
    · rintro ⟨t, rfl, h1, h2⟩
      have h3 : prop s.heap e t ≠ none := by rw [h2]; simp
      refine ⟨some t, List.mem_filter.mpr ⟨(mem_keysOf hf t).mpr h3, ?_⟩, ?_⟩
      · have := (not_congr (isReserved_iff t)).mpr h1
        simpa using this
      · rw [hval t h3] at h2
        injection h2 with h2
        rw [← h2]
        rfl

/-- The sample entry has a custom property `pin`. -/
example : prop Sample.db.heap 23 "pin".toList ≠ none ∧ "pin".toList ∉ reservedKeys ∧ Fields Sample.db.heap 23 :=
  ⟨by decide +kernel, by decide, fields_of_ok (by decide +kernel)⟩
/-- All its names are plain. -/
example : ∀ k, prop Sample.db.heap 23 k ≠ none → Plain k := by
  intro k hk
  have h := (mem_keysOf (fields_of_ok (by decide +kernel)) k).mpr hk
  have hall : (keysOf Sample.db.heap 23).all (fun k => match k with | some t => decide (Plain t) | none => true) = true := by
    decide +kernel
  simpa using List.all_eq_true.mp hall _ h
example : ∀ o ∈ [POp.set "pin".toList "1".toList true, .del "pin".toList, .del "pin".toList, .get "Title".toList], o.Ok := by
  intro o ho
  simp only [List.mem_cons, List.not_mem_nil, or_false] at ho
  rcases ho with rfl | rfl | rfl | rfl
  · exact (by decide : Plain "pin".toList ∧ XmlText "pin".toList ∧ XmlText "1".toList)
  · exact (by decide : Plain "pin".toList)
  · exact (by decide : Plain "pin".toList)
  · exact (by decide : Plain "Title".toList)
/-- What the dictionary answers in this case. -/
example : (dictRun (prop Sample.db.heap 23) [POp.set "pin".toList "1".toList true, .get "pin".toList, .del "pin".toList,
    .del "pin".toList, .get "Title".toList]).1 =
    [.ok none, .ok (some "1".toList), .ok none, .error .attribute, .error .assertion] := by decide +kernel

end Verif.Props
