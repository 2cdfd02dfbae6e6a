import Verif.Api.SetLemmas
import Verif.Api.Sample
/-!
# C35: reading a string field returns the value last set

`runSets env e ops` calls the setters of `ops` on entry `e` one after the other (the six properties and
`set_custom_property`). `lastSet ops k` is the value the last of them gave to `k`.
-/
namespace Verif.Props
open Verif XPath Spec Api

/-- For every entry with well-formed fields and every sequence of assignments: no call raises; afterwards each
property and each custom property reads the value last set, or what it read before if it was not set;
`OnlyFields`: every other element of the database is as before, and the entry keeps its tag, its attributes and its
other children in their order. -/
theorem C35_fields (env : Env) {s : Db} (hs : Inv s) {e : Nat} (he : e ≠ 0) (hm : e ∈ s.world.ids)
    (hf : Fields s.heap e) (ops : List SetOp) (ho : ∀ o ∈ ops, o.Ok) :
    ∃ s', runSets env e ops s = (.ok (), s') ∧ OnlyFields s s' e ∧ Fields s'.heap e ∧
      (∀ f : Field, getStd env e f s' = (.ok ((lastSet ops f.key).or (field s.heap e f.key)), s')) ∧
      (∀ k, k ∉ reservedKeys → Plain k → getCustom env e k s' = (.ok ((lastSet ops k).or (field s.heap e k)), s')) := by
  obtain ⟨s', h1, h2, h3, h4, _⟩ := runSets_ok env he ops hs hm hf ho
  have hrd : ∀ k, Plain k → getField env e k s' = (.ok ((lastSet ops k).or (field s.heap e k)), s') := by
    intro k hk
    rw [getField_run env h2.inv he h2.mem hk, h4 k]
    cases lastSet ops k <;> rfl
  refine ⟨s', h1, h2, h3, fun f => hrd f.key (plain_std f), ?_⟩
  intro k hk hp
  show (if k ∈ reservedKeys then (fail .assertion : M (Option Str)) else getField env e k) s' = _
  rw [if_neg hk]
  exact hrd k hp

/-- `field` is what the getters return before. -/
theorem C35_get (env : Env) {s : Db} (hs : Inv s) {e : Nat} (he : e ≠ 0) (hm : e ∈ s.world.ids) (f : Field) :
    getStd env e f s = (.ok (field s.heap e f.key), s) := getField_run env hs he hm (plain_std f)

/-- One assignment: the field reads the new value, the others read as before. -/
theorem C35_set_get (env : Env) {s : Db} (hs : Inv s) {e : Nat} (he : e ≠ 0) (hm : e ∈ s.world.ids)
    (hf : Fields s.heap e) (f : Field) {v : Str} (hv : XmlText v) :
    ∃ s', setStd env e f (some v) s = (.ok (), s') ∧ getStd env e f s' = (.ok (some v), s') ∧
      ∀ g : Field, g ≠ f → (getStd env e g s').1 = (getStd env e g s).1 := by
  obtain ⟨s', h1, h2⟩ := runSet_ok env hs he hm hf (o := .std f v) hv
  refine ⟨s', h1, ?_, ?_⟩
  · rw [C35_get env h2.inv he (h2.only hs).mem, h2.field_eq]
    show (Except.ok (if f.key = f.key then some v else _), s') = _
    rw [if_pos rfl]
  · intro g hg
    rw [C35_get env h2.inv he (h2.only hs).mem, C35_get env hs he hm, h2.field_eq]
    have : g.key ≠ f.key := by revert hg; cases f <;> cases g <;> decide
    show Except.ok (if g.key = f.key then _ else _) = _
    rw [if_neg this]

/-- An entry of the sample database, and a sequence of assignments to it. -/
example : Inv Sample.db ∧ 23 ≠ 0 ∧ 23 ∈ Sample.db.world.ids ∧ Fields Sample.db.heap 23 :=
  ⟨Sample.db_inv, by decide, by decide +kernel, fields_of_ok (by decide +kernel)⟩
example : ∀ o ∈ [SetOp.std .title "a<b".toList, .custom "pin".toList "".toList true, .std .title "".toList,
    .std .otp "x".toList], o.Ok := by
  intro o ho
  simp only [List.mem_cons, List.not_mem_nil, or_false] at ho
  rcases ho with rfl | rfl | rfl | rfl
  · exact (by decide : XmlText "a<b".toList)
  · exact (by decide : "pin".toList ∉ reservedKeys ∧ Plain "pin".toList ∧ XmlText "pin".toList ∧ XmlText "".toList)
  · exact (by decide : XmlText [])
  · exact (by decide : XmlText "x".toList)

/-- Setting `None` raises a `TypeError` and the old value is lost (`entry.py:107-123` removes the field before
it builds the new one). -/
theorem C35_none_loses : ∃ s', setStd Sample.env 23 .title none Sample.db = (.error .type, s') ∧
    (getStd Sample.env 23 .title Sample.db).1 = .ok (some "mail".toList) ∧
    (getStd Sample.env 23 .title s').1 = .ok none := by
  refine ⟨(setStd Sample.env 23 .title none Sample.db).2, ?_, ?_, ?_⟩
  · exact Prod.ext (by decide +kernel) rfl
  · decide +kernel
  · decide +kernel

/-- Likewise for a value with a character that XML forbids. -/
theorem C35_control_loses : ∃ s', setStd Sample.env 23 .title (some ['\x00']) Sample.db = (.error .value, s') ∧
    (getStd Sample.env 23 .title s').1 = .ok none :=
  ⟨(setStd Sample.env 23 .title (some ['\x00']) Sample.db).2, Prod.ext (by decide +kernel) rfl, by decide +kernel⟩

/-- Unique keys are needed: with two `Title` fields, the value read after setting one is the other old one. -/
theorem C35_duplicate_keys : ∃ s : Db, (getStd Sample.env 23 .title (setStd Sample.env 23 .title (some "new".toList) s).2).1 =
    .ok (some "dup".toList) ∧ (setStd Sample.env 23 .title (some "new".toList) s).1 = .ok () :=
  ⟨(make 23 (stringXml "Title".toList "dup".toList none) Sample.db).2, by decide +kernel, by decide +kernel⟩

/-- A custom property whose name has a double quote cannot be set: the query is a syntax error. -/
theorem C35_quote : (setCustom Sample.env 23 "a\"b".toList (some "v".toList) false Sample.db).1 = .error .xpathEval := by
  decide +kernel

end Verif.Props
