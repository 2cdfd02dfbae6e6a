import Verif.Api.TimeLemmas
import Verif.Api.Sample
import Verif.Props.C20_Kdbx4Times
import Verif.Props.C21_Kdbx3Times
/-!
# C56: time setters and `touch` change only the addressed times
-/
namespace Verif.Props
open Verif XPath Spec Api

/-- Setting a time property: it reads back as stored, every other time property of every element reads as before,
and only one text in the whole database changed. -/
theorem C56_set {s : Db} (hs : Inv s) {e p : Nat} {prop : Str} (hp : timeEl s.heap e prop = some p) {v : DateTime} {x : Str}
    (hx : encodeTime s.version v = .ok x) :
    ∃ s', setTime e prop v s = (.ok (), s') ∧ TextChanged s s' p (some x) ∧
      getTime e prop s' = ((stored s.version v).map some, s') ∧
      (∀ e' prop', (e', prop') ≠ (e, prop) → (getTime e' prop' s').1 = (getTime e' prop' s).1) ∧
      (prop ≠ "Expires".toList → ∀ e', (getExpires e' s').1 = (getExpires e' s).1) := by
  obtain ⟨s', h1, h2⟩ := ((setTime_run hs e prop v).2 p hp).2 x hx
  have hm := (timeEl_mem hs hp).1
  refine ⟨s', h1, h2, ?_, ?_, ?_⟩
  · rw [getTime_run, changed_timeText h2 hm, if_pos hp, h2.version, readTime_stored hx]
  · intro e' prop' hne
    rw [getTime_run, getTime_run, changed_timeText h2 hm, h2.version, if_neg]
    intro h
    obtain ⟨rfl, rfl⟩ := timeEl_inj hs h hp
    exact hne rfl
  · intro hprop e'
    rw [getExpires_run, getExpires_run, changed_timeEl h2]
    cases hq : timeEl s.heap e' "Expires".toList with
    | none => rfl
    | some q =>
      show Except.ok ((s'.heap.text q).map _) = Except.ok ((s.heap.text q).map _)
      rw [h2.text]
      rintro rfl
      exact hprop (timeEl_inj hs hq hp).2.symm

/-- A time that cannot be written changes nothing. -/
theorem C56_error {s : Db} (hs : Inv s) {e p : Nat} {prop : Str} (hp : timeEl s.heap e prop = some p) {v : DateTime} {x : PyErr}
    (hx : encodeTime s.version v = .error x) : setTime e prop v s = (.error x, s) := ((setTime_run hs e prop v).2 p hp).1 x hx

/-- An element without this time: the assignment is dropped without an error. -/
theorem C56_missing {s : Db} (hs : Inv s) {e : Nat} {prop : Str} (hp : timeEl s.heap e prop = none) (v : DateTime) :
    setTime e prop v s = (.ok (), s) ∧ getTime e prop s = (.ok none, s) := by
  refine ⟨(setTime_run hs e prop v).1 hp, ?_⟩
  rw [getTime_run]
  unfold timeText
  rw [hp]
  rfl

/-- In a KDBX4 database a UTC time of whole seconds reads back unchanged. -/
theorem C56_exact4 {s : Db} (hs : Inv s) (h4 : 4 ≤ s.version.1) {e p : Nat} {prop : Str} (hp : timeEl s.heap e prop = some p)
    {v : DateTime} (hv : v.Ok) (hz : v.tz = some 0) (h0 : v.micro = 0) :
    ∃ s', setTime e prop v s = (.ok (), s') ∧ getTime e prop s' = (.ok (some v), s') := by
  obtain ⟨x, h1, h2⟩ := C20_whole_seconds_utc s.version h4 v hv hz h0
  obtain ⟨s', g1, _, g2, _⟩ := C56_set hs hp h1
  refine ⟨s', g1, ?_⟩
  rw [g2]
  unfold stored
  rw [h1]
  show ((decodeTime s.version (some x)).map some, s') = _
  rw [h2]
  rfl

/-- In a KDBX3 database every UTC time does. -/
theorem C56_exact3 {s : Db} (hs : Inv s) (h3 : s.version.1 < 4) {e p : Nat} {prop : Str} (hp : timeEl s.heap e prop = some p)
    {v : DateTime} (hv : v.Ok) (hz : v.tz = some 0) :
    ∃ s', setTime e prop v s = (.ok (), s') ∧ getTime e prop s' = (.ok (some v), s') := by
  obtain ⟨x, h1, h2⟩ := C21_utc s.version h3 v hv hz
  obtain ⟨s', g1, _, g2, _⟩ := C56_set hs hp h1
  refine ⟨s', g1, ?_⟩
  rw [g2]
  unfold stored
  rw [h1]
  show ((decodeTime s.version (some x)).map some, s') = _
  rw [h2]
  rfl

theorem inv_ticks {s : Db} (hs : Inv s) (t : Nat) : Inv { s with ticks := t } := ⟨hs.world, hs.bound⟩

/-- `touch()`: the access time becomes the current time, every other time property, and every other element, is as before. -/
theorem C56_touch (env : Env) {s : Db} (hs : Inv s) {e p : Nat} (hp : timeEl s.heap e "LastAccessTime".toList = some p) {x : Str}
    (hx : encodeTime s.version (env.now s.ticks) = .ok x) :
    ∃ s', touch env e false s = (.ok (), s') ∧ s' = { s with world := s'.world, ticks := s.ticks + 1 } ∧
      (∀ j, s'.heap j = (s.heap j).map fun r => if j = p then { r with text := some x } else r) ∧
      getTime e "LastAccessTime".toList s' = ((stored s.version (env.now s.ticks)).map some, s') ∧
      ∀ e' prop', (e', prop') ≠ (e, "LastAccessTime".toList) → (getTime e' prop' s').1 = (getTime e' prop' s).1 := by
  obtain ⟨s', h1, h2, h3, h4, _⟩ := C56_set (inv_ticks hs (s.ticks + 1)) (show timeEl (Db.heap { s with ticks := s.ticks + 1 }) e _ = some p from hp) hx
  refine ⟨s', ?_, h2.state, h2.heap, h3, ?_⟩
  · unfold touch
    show (setTime e "LastAccessTime".toList (env.now s.ticks) >>= _) { s with ticks := s.ticks + 1 } = _
    rw [bind_of h1]
    rfl
  · intro e' prop' hne
    rw [h4 e' prop' hne, getTime_run, getTime_run]
    rfl

/-- `touch(modify=True)`: the access and the modification time become the current time. -/
theorem C56_touch_modify (env : Env) {s : Db} (hs : Inv s) {e p q : Nat} (hp : timeEl s.heap e "LastAccessTime".toList = some p)
    (hq : timeEl s.heap e "LastModificationTime".toList = some q) {x : Str} (hx : encodeTime s.version (env.now s.ticks) = .ok x) :
    ∃ s', touch env e true s = (.ok (), s') ∧ s' = { s with world := s'.world, ticks := s.ticks + 1 } ∧
      (∀ j, s'.heap j = (s.heap j).map fun r => if j = p ∨ j = q then { r with text := some x } else r) ∧
      getTime e "LastAccessTime".toList s' = ((stored s.version (env.now s.ticks)).map some, s') ∧
      getTime e "LastModificationTime".toList s' = ((stored s.version (env.now s.ticks)).map some, s') ∧
      ∀ e' prop', (e', prop') ≠ (e, "LastAccessTime".toList) → (e', prop') ≠ (e, "LastModificationTime".toList) →
        (getTime e' prop' s').1 = (getTime e' prop' s).1 := by
  obtain ⟨s1, h1, h2, h3, h4, _⟩ := C56_set (inv_ticks hs (s.ticks + 1)) (show timeEl (Db.heap { s with ticks := s.ticks + 1 }) e _ = some p from hp) hx
  have hq1 : timeEl s1.heap e "LastModificationTime".toList = some q := by rw [changed_timeEl h2]; exact hq
  have hv : s1.version = s.version := h2.version
  obtain ⟨s', g1, g2, g3, g4, _⟩ := C56_set h2.inv hq1 (v := env.now s.ticks) (x := x) (by rw [hv]; exact hx)
  refine ⟨s', ?_, ?_, ?_, ?_, ?_, ?_⟩
  · unfold touch
    show (setTime e "LastAccessTime".toList (env.now s.ticks) >>= _) { s with ticks := s.ticks + 1 } = _
    rw [bind_of h1]
    exact g1
  · have a := g2.state
    have b := h2.state
    rw [b] at a
    exact a
  · intro j
    have a := g2.heap j
    have b := h2.heap j
    rw [b] at a
    rw [a]
    show ((s.heap j).map _).map _ = (s.heap j).map _
    cases s.heap j with
    | none => rfl
    | some r =>
      by_cases c1 : j = p <;> by_cases c2 : j = q <;> grind
  · have := g4 e "LastAccessTime".toList (by intro h; injection h with _ h; revert h; decide)
    rw [h3] at this
    rw [getTime_run] at this ⊢
    exact Prod.ext this rfl
  · rw [g3, hv]
  · intro e' prop' n1 n2
    rw [g4 e' prop' n2, h4 e' prop' n1, getTime_run, getTime_run]
    rfl

/-- Setting `expires`. -/
theorem C56_expires {s : Db} (hs : Inv s) {e p : Nat} (hp : timeEl s.heap e "Expires".toList = some p) (b : Bool) :
    ∃ s', setExpires e b s = (.ok (), s') ∧ TextChanged s s' p (some (pyBool b)) ∧ getExpires e s' = (.ok (some b), s') ∧
      (∀ e', e' ≠ e → (getExpires e' s').1 = (getExpires e' s).1) ∧
      ∀ e' prop', (e', prop') ≠ (e, "Expires".toList) → (getTime e' prop' s').1 = (getTime e' prop' s).1 := by
  obtain ⟨s', h1, h2⟩ := text_changed hs p (v := some (pyBool b)) (by rintro t ⟨⟩; cases b <;> decide)
  have hm := (timeEl_mem hs hp).1
  refine ⟨s', ?_, h2, ?_, ?_, ?_⟩
  · unfold setExpires
    obtain ⟨t, a1, a2⟩ := Option.bind_eq_some_iff.mp hp
    rw [bind_of (findKid_run e _ s), a1, bind_of (orAttr_some t s), bind_of (findKid_run t _ s), a2, bind_of (orAttr_some p s)]
    exact h1
  · rw [getExpires_run, changed_timeEl h2, hp]
    show (Except.ok ((s'.heap.text p).map _), s') = _
    rw [h2.here hm]
    cases b <;> rfl
  · intro e' hne
    rw [getExpires_run, getExpires_run, changed_timeEl h2]
    cases hq : timeEl s.heap e' "Expires".toList with
    | none => rfl
    | some q =>
      show Except.ok ((s'.heap.text q).map _) = Except.ok ((s.heap.text q).map _)
      rw [h2.text]
      rintro rfl
      exact hne (timeEl_inj hs hq hp).1
  · intro e' prop' hne
    rw [getTime_run, getTime_run, changed_timeText h2 hm, h2.version, if_neg]
    intro h
    obtain ⟨rfl, rfl⟩ := timeEl_inj hs h hp
    exact hne rfl

/-! ## The hypotheses hold for the sample entry -/

example : (timeEl Sample.db.heap 23 "LastAccessTime".toList).isSome = true ∧
    (timeEl Sample.db.heap 23 "LastModificationTime".toList).isSome = true ∧ (timeEl Sample.db.heap 23 "Expires".toList).isSome = true ∧
    (encodeTime Sample.db.version (Sample.env.now Sample.db.ticks)).isOk = true ∧ timeEl Sample.db.heap 2 "Expires".toList = none := by
  decide +kernel

end Verif.Props
