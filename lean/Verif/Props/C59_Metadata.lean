import Verif.Api.TimeLemmas
import Verif.Api.Sample
import Verif.Props.C55_Expiry
/-!
# C59: database metadata setters
-/
namespace Verif.Props
open Verif XPath Spec Api

/-- The setting an element of `Meta` holds: an error if there is no such element. -/
theorem getMeta_run (env : Env) {s : Db} (hs : Inv s) {n : Str} (ht : TagName n) : getMeta env n s =
    (match (metaEls s.heap n).head? with
      | none => .error .attribute
      | some el => .ok (s.heap.text el), s) := by
  unfold getMeta
  rw [bind_of (metaEl_run env hs ht)]
  cases (metaEls s.heap n).head? with
  | none => rfl
  | some el => rw [bind_of (orAttr_some el s)]; rfl

theorem credDate_run (env : Env) {s : Db} (hs : Inv s) : credDate env s =
    (match (metaEls s.heap "MasterKeyChanged".toList).head? with
      | none => .ok none
      | some el => (decodeTime s.version (s.heap.text el)).map some, s) := by
  unfold credDate
  rw [bind_of (metaEl_run env hs (by decide +kernel))]
  cases (metaEls s.heap "MasterKeyChanged".toList).head? with
  | none => rfl
  | some el =>
    show (textOf el >>= _) s = _
    rw [bind_of (textOf_run el s), bind_of (reads_run _ s), bind_run, lift_run]
    show _ = ((decodeTime s.version (s.heap.text el)).map some, s)
    cases decodeTime s.version (s.heap.text el) <;> rfl

/-- Everything the API reads from `Meta` texts. -/
structure MetaSame (env : Env) (s s' : Db) (n : Str) : Prop where
  texts : ∀ m, TagName m → m ≠ n → (getMeta env m s').1 = (getMeta env m s).1
  days : ∀ req, daysName req ≠ n → (credDays env req s').1 = (credDays env req s).1
  date : n ≠ "MasterKeyChanged".toList → (credDate env s').1 = (credDate env s).1

theorem head_tag {s : Db} (hs : Inv s) {n : Str} {i : Nat} (h : (metaEls s.heap n).head? = some i) :
    i ∈ s.world.ids ∧ s.heap.tag i = n := metaEls_mem hs (List.mem_of_mem_head? h)

theorem metaSame_of (env : Env) {s s' : Db} (hs : Inv s) {n : Str} {el : Nat} {v : Option Str}
    (hel : (metaEls s.heap n).head? = some el) (h : TextChanged s s' el v) : MetaSame env s s' n := by
  have key : ∀ m, m ≠ n → ∀ k, (metaEls s.heap m).head? = some k → s'.heap.text k = s.heap.text k := by
    intro m hm k hk
    refine h.text ?_
    rintro rfl
    exact hm ((head_tag hs hk).2.symm.trans (head_tag hs hel).2)
  refine ⟨?_, ?_, ?_⟩
  · intro m ht hm
    rw [getMeta_run env hs ht, getMeta_run env h.inv ht, h.metaEls]
    cases hk : (metaEls s.heap m).head? with
    | none => rfl
    | some k => show Except.ok _ = Except.ok _; rw [key m hm k hk]
  · intro req hm
    rw [← days_name] at hm
    rw [credDays_run env hs, credDays_run env h.inv, h.metaEls]
    cases hk : (metaEls s.heap (daysKey req)).head? with
    | none => rfl
    | some k => show intText _ = intText _; rw [key _ hm k hk]
  · intro hm
    rw [credDate_run env hs, credDate_run env h.inv, h.metaEls, h.version]
    cases hk : (metaEls s.heap "MasterKeyChanged".toList).head? with
    | none => rfl
    | some k => show (decodeTime _ _).map some = (decodeTime _ _).map some; rw [key _ (Ne.symm hm) k hk]

theorem setMeta_ok (env : Env) {s : Db} (hs : Inv s) {n : Str} (ht : TagName n) {el : Nat} (hel : (metaEls s.heap n).head? = some el)
    {v : Str} (hv : XmlText v) : ∃ s', setMeta env n v s = (.ok (), s') ∧ TextChanged s s' el (some v) := by
  obtain ⟨s', h1, h2⟩ := text_changed hs el (v := some v) (by rintro t ⟨⟩; exact hv)
  refine ⟨s', ?_, h2⟩
  unfold setMeta
  rw [bind_of (metaEl_run env hs ht), hel, bind_of (orAttr_some el s)]
  exact h1

/-- The names the text properties use. -/
def metaNames : List Str := ["DatabaseName".toList, "DatabaseDescription".toList, "DefaultUserName".toList]

/-- `database_name`, `database_description`, `default_username`: set, read back, nothing else changes. -/
theorem C59_text (env : Env) {s : Db} (hs : Inv s) {n : Str} (hn : n ∈ metaNames) {el : Nat} (hel : (metaEls s.heap n).head? = some el)
    {v : Str} (hv : XmlText v) :
    ∃ s', setMeta env n v s = (.ok (), s') ∧ TextChanged s s' el (some v) ∧ getMeta env n s' = (.ok (some v), s') ∧ MetaSame env s s' n := by
  have ht : TagName n := by
    simp only [metaNames, List.mem_cons, List.not_mem_nil, or_false] at hn
    rcases hn with rfl | rfl | rfl <;> decide +kernel
  obtain ⟨s', h1, h2⟩ := setMeta_ok env hs ht hel hv
  refine ⟨s', h1, h2, ?_, metaSame_of env hs hel h2⟩
  rw [getMeta_run env h2.inv ht, h2.metaEls, hel]
  show (Except.ok _, s') = _
  rw [h2.here (head_tag hs hel).1]

/-- `credchange_required_days`, `credchange_recommended_days`, for every integer. -/
theorem C59_days (env : Env) {s : Db} (hs : Inv s) (req : Bool) {el : Nat} (hel : (metaEls s.heap (daysName req)).head? = some el) (k : Int) :
    ∃ s', setCredDays env req k s = (.ok (), s') ∧ TextChanged s s' el (some (intStr k)) ∧
      credDays env req s' = (.ok (some k), s') ∧ MetaSame env s s' (daysName req) := by
  rw [← days_name] at hel ⊢
  obtain ⟨s', h1, h2⟩ := setMeta_ok env hs (by cases req <;> decide +kernel) hel (intStr_xml k)
  refine ⟨s', h1, h2, ?_, metaSame_of env hs hel h2⟩
  rw [credDays_run env h2.inv, h2.metaEls, hel]
  show (intText _, s') = _
  rw [h2.here (head_tag hs hel).1]
  show ((pyInt (intStr k)).map some, s') = _
  rw [pyInt_intStr]
  rfl

/-- Changing the password or the key file: the credential is the new one, the change date the current time, the other
credential, every other setting and every other element as before. -/
theorem C59_credentials (env : Env) {s : Db} (hs : Inv s) {el : Nat} (hel : (metaEls s.heap "MasterKeyChanged".toList).head? = some el)
    {x : Str} (hx : encodeTime s.version (env.now s.ticks) = .ok x) (p : Option Str) :
    (∃ s', setPassword env p s = (.ok (), s') ∧ s' = { s with password := p, ticks := s.ticks + 1, world := s'.world } ∧
      (∀ j, s'.heap j = (s.heap j).map fun r => if j = el then { r with text := some x } else r) ∧
      credDate env s' = ((stored s.version (env.now s.ticks)).map some, s') ∧ MetaSame env s s' "MasterKeyChanged".toList) ∧
    (∃ s', setKeyfile env p s = (.ok (), s') ∧ s' = { s with keyfile := p, ticks := s.ticks + 1, world := s'.world } ∧
      (∀ j, s'.heap j = (s.heap j).map fun r => if j = el then { r with text := some x } else r) ∧
      credDate env s' = ((stored s.version (env.now s.ticks)).map some, s') ∧ MetaSame env s s' "MasterKeyChanged".toList) := by
  have gen : ∀ (pw kf : Option Str), ∃ s', setCredDate env (env.now s.ticks) { s with password := pw, keyfile := kf, ticks := s.ticks + 1 } = (.ok (), s') ∧
      s' = { s with password := pw, keyfile := kf, ticks := s.ticks + 1, world := s'.world } ∧
      (∀ j, s'.heap j = (s.heap j).map fun r => if j = el then { r with text := some x } else r) ∧
      credDate env s' = ((stored s.version (env.now s.ticks)).map some, s') ∧ MetaSame env s s' "MasterKeyChanged".toList := by
    intro pw kf
    have hs1 : Inv { s with password := pw, keyfile := kf, ticks := s.ticks + 1 } := ⟨hs.world, hs.bound⟩
    obtain ⟨s', h1, h2⟩ := text_changed hs1 el (v := some x) (by rintro t ⟨⟩; exact encode_xml hx)
    have hel1 : (metaEls (Db.heap { s with password := pw, keyfile := kf, ticks := s.ticks + 1 }) "MasterKeyChanged".toList).head? = some el := hel
    refine ⟨s', ?_, h2.state, h2.heap, ?_, ?_⟩
    · unfold setCredDate
      rw [bind_of (metaEl_run env hs1 (by decide +kernel)), hel1, bind_of (reads_run _ _), bind_run, lift_run,
        show encodeTime (Db.version { s with password := pw, keyfile := kf, ticks := s.ticks + 1 }) (env.now s.ticks) = .ok x from hx]
      show (orAttr (some el) >>= _) _ = _
      rw [bind_of (orAttr_some el _)]
      exact h1
    · rw [credDate_run env h2.inv, h2.metaEls, hel1, h2.version]
      show ((decodeTime s.version _).map some, s') = _
      rw [h2.here (head_tag hs1 hel1).1]
      unfold stored
      rw [hx]
      rfl
    · obtain ⟨m1, m2, m3⟩ := metaSame_of env hs1 hel1 h2
      refine ⟨fun m ht hm => (m1 m ht hm).trans ?_, fun r hr => (m2 r hr).trans ?_, fun h => (m3 h).trans ?_⟩
      · rw [getMeta_run env hs1 ht, getMeta_run env hs ht]; rfl
      · rw [credDays_run env hs1, credDays_run env hs]; rfl
      · rw [credDate_run env hs1, credDate_run env hs]; rfl
  exact ⟨gen p s.keyfile, gen s.password p⟩

/-- Without the element for the change date the setter raises, after the credential has been changed: the object
stays with the new password although the assignment failed. -/
theorem C59_missing (env : Env) {s : Db} (hs : Inv s) (hel : metaEls s.heap "MasterKeyChanged".toList = [])
    {x : Str} (hx : encodeTime s.version (env.now s.ticks) = .ok x) (p : Option Str) :
    setPassword env p s = (.error .attribute, { s with password := p, ticks := s.ticks + 1 }) := by
  have hs1 : Inv { s with password := p, ticks := s.ticks + 1 } := ⟨hs.world, hs.bound⟩
  have hel1 : metaEls (Db.heap { s with password := p, ticks := s.ticks + 1 }) "MasterKeyChanged".toList = [] := hel
  show setCredDate env (env.now s.ticks) { s with password := p, ticks := s.ticks + 1 } = _
  unfold setCredDate
  rw [bind_of (metaEl_run env hs1 (by decide +kernel)), hel1, bind_of (reads_run _ _), bind_run, lift_run,
    show encodeTime (Db.version { s with password := p, ticks := s.ticks + 1 }) (env.now s.ticks) = .ok x from hx]
  rfl

/-! ## The hypotheses hold for the sample database -/

example : (∀ n ∈ metaNames, ((metaEls Sample.db.heap n).head?).isSome = true) ∧
    (∀ r, ((metaEls Sample.db.heap (daysName r)).head?).isSome = true) ∧
    ((metaEls Sample.db.heap "MasterKeyChanged".toList).head?).isSome = true ∧
    (encodeTime Sample.db.version (Sample.env.now Sample.db.ticks)).isOk = true := by decide +kernel

end Verif.Props
