import Verif.Api.SetLemmas
import Verif.Api.Sample
/-!
# C36: protection flags survive value changes
-/
namespace Verif.Props
open Verif XPath Spec Api

/-- For every sequence of assignments, each field carries the mark that `markAfter` computes by the rules:
`set_custom_property` sets the mark given; `password` and `otp` become protected when the field was absent or empty
and keep the mark otherwise; the other properties keep it; fields not assigned keep it. -/
theorem C36_marks (env : Env) {s : Db} (hs : Inv s) {e : Nat} (he : e ≠ 0) (hm : e ∈ s.world.ids)
    (hf : Fields s.heap e) (ops : List SetOp) (ho : ∀ o ∈ ops, o.Ok) :
    ∃ s', runSets env e ops s = (.ok (), s') ∧
      ∀ k, mark s'.heap e k = markAfter k ops (field s.heap e k) (mark s.heap e k) ∧
        (Plain k → isProtected env e k s' = (.ok (mark s'.heap e k == some "True".toList), s')) := by
  obtain ⟨s', h1, h2, _, _, h5⟩ := runSets_ok env he ops hs hm hf ho
  exact ⟨s', h1, fun k => ⟨h5 k, fun hk => isProtected_run env h2.inv he h2.mem hk⟩⟩

theorem markAfter_untouched (k : Str) (ops : List SetOp) (h : ∀ o ∈ ops, o.key ≠ k) :
    ∀ v m, markAfter k ops v m = m := by
  induction ops with
  | nil => intro v m; rfl
  | cons o os ih =>
    intro v m
    show (if o.key = k then _ else _) = m
    rw [if_neg (h o (List.mem_cons_self ..)), ih fun x hx => h x (List.mem_cons_of_mem _ hx)]

theorem markAfter_std (k : Str) (ops : List SetOp) (h : ∀ o ∈ ops, ∃ f v, o = .std f v) :
    ∀ v, markAfter k ops v (some "True".toList) = some "True".toList := by
  induction ops with
  | nil => intro v; rfl
  | cons o os ih =>
    intro v
    have ih := ih fun x hx => h x (List.mem_cons_of_mem _ hx)
    obtain ⟨f, w, rfl⟩ := h o (List.mem_cons_self ..)
    show (if _ = k then _ else _) = _
    split
    · have : SetOp.newMark v (some "True".toList) (.std f w) = some "True".toList := by
        cases f <;> first | rfl | (show (if _ then _ else _) = _; split <;> rfl)
      rw [this, ih]
    · exact ih _

/-- Fields never assigned keep their mark. -/
theorem C36_untouched (env : Env) {s : Db} (hs : Inv s) {e : Nat} (he : e ≠ 0) (hm : e ∈ s.world.ids)
    (hf : Fields s.heap e) (ops : List SetOp) (ho : ∀ o ∈ ops, o.Ok) (k : Str) (hk : ∀ o ∈ ops, o.key ≠ k) :
    ∃ s', runSets env e ops s = (.ok (), s') ∧ mark s'.heap e k = mark s.heap e k := by
  obtain ⟨s', h1, h2⟩ := C36_marks env hs he hm hf ops ho
  exact ⟨s', h1, by rw [(h2 k).1, markAfter_untouched k ops hk]⟩

/-- A protected field stays protected under any assignments to the properties. -/
theorem C36_stays_protected (env : Env) {s : Db} (hs : Inv s) {e : Nat} (he : e ≠ 0) (hm : e ∈ s.world.ids)
    (hf : Fields s.heap e) (ops : List SetOp) (ho : ∀ o ∈ ops, o.Ok) (hstd : ∀ o ∈ ops, ∃ f v, o = .std f v)
    (k : Str) (hk : Plain k) (hp : isProtected env e k s = (.ok true, s)) :
    ∃ s', runSets env e ops s = (.ok (), s') ∧ isProtected env e k s' = (.ok true, s') := by
  obtain ⟨s', h1, h2⟩ := C36_marks env hs he hm hf ops ho
  refine ⟨s', h1, ?_⟩
  rw [isProtected_run env hs he hm hk] at hp
  have hp : (mark s.heap e k == some "True".toList) = true := by
    have := congrArg Prod.fst hp
    simpa only [Except.ok.injEq] using this
  rw [beq_iff_eq] at hp
  rw [(h2 k).2 hk, (h2 k).1, hp, markAfter_std k ops hstd, beq_self_eq_true]

/-- A password or otp set on an entry without one is protected. -/
theorem C36_created_protected (env : Env) {s : Db} (hs : Inv s) {e : Nat} (he : e ≠ 0) (hm : e ∈ s.world.ids)
    (hf : Fields s.heap e) (f : Field) (hff : f = .password ∨ f = .otp) {v : Str} (hv : XmlText v)
    (hnone : field s.heap e f.key = none) :
    ∃ s', setStd env e f (some v) s = (.ok (), s') ∧ isProtected env e f.key s' = (.ok true, s') := by
  obtain ⟨s', h1, h2⟩ := runSet_ok env hs he hm hf (o := .std f v) hv
  refine ⟨s', h1, ?_⟩
  rw [isProtected_run env h2.inv he (h2.only hs).mem (plain_std f), h2.mark]
  show (Except.ok ((if f.key = f.key then SetOp.newMark (field s.heap e f.key) (mark s.heap e f.key) (.std f v) else _) == _), s') = _
  rw [if_pos rfl, hnone]
  rcases hff with rfl | rfl <;> rfl

/-- `set_custom_property` sets the mark given, and `is_custom_property_protected` reports it. -/
theorem C36_custom (env : Env) {s : Db} (hs : Inv s) {e : Nat} (he : e ≠ 0) (hm : e ∈ s.world.ids)
    (hf : Fields s.heap e) {k v : Str} (hr : k ∉ reservedKeys) (hk : Plain k) (hkx : XmlText k) (hv : XmlText v) (p : Bool) :
    ∃ s', setCustom env e k (some v) p s = (.ok (), s') ∧ isCustomProtected env e k s' = (.ok p, s') := by
  obtain ⟨s', h1, h2⟩ := runSet_ok env hs he hm hf (o := .custom k v p) ⟨hr, hk, hkx, hv⟩
  refine ⟨s', h1, ?_⟩
  show (if k ∈ reservedKeys then (fail .assertion : M Bool) else isProtected env e k) s' = _
  rw [if_neg hr, isProtected_run env h2.inv he (h2.only hs).mem hk, h2.mark]
  show (Except.ok ((if k = k then some (if p then "True".toList else "False".toList) else _) == _), s') = _
  rw [if_pos rfl]
  cases p <;> rfl

/-- The sample entry has a protected password, and no otp. -/
example : isProtected Sample.env 23 "Password".toList Sample.db = (.ok true, Sample.db) ∧
    field Sample.db.heap 23 "otp".toList = none := by
  rw [isProtected_run _ Sample.db_inv (by decide) (by decide +kernel) (by decide)]
  exact ⟨Prod.ext (by decide +kernel) rfl, by decide +kernel⟩
example : Fields Sample.db.heap 23 := fields_of_ok (by decide +kernel)

/-- An empty password marked unprotected becomes protected when it is set; a non-empty unprotected one stays
unprotected. -/
example : markAfter "Password".toList [.std .password "x".toList] (some []) (some "False".toList) = some "True".toList ∧
    markAfter "Password".toList [.std .password "x".toList] (some "y".toList) none = none := by decide

end Verif.Props
