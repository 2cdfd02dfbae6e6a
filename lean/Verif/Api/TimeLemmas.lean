import Verif.Api.TextLemmas
import Verif.Api.SubLemmas
/-!
# The time properties of entries and groups
-/
namespace Verif.Spec
open Verif Api

/-- The element holding a time property. -/
def timeEl (h : Heap) (e : Nat) (prop : Str) : Option Nat := (h.find e "Times".toList).bind fun t => h.find t prop

/-- The text of a time property. -/
def timeText (h : Heap) (e : Nat) (prop : Str) : Option Str := (timeEl h e prop).bind h.text

/-- A time after writing it and reading it (C20, C21). -/
def stored (ver : Nat × Nat) (v : DateTime) : Except PyErr DateTime := (encodeTime ver v).bind fun t => decodeTime ver (some t)

/-- The value of an optional text as a time. -/
def readTime (ver : Nat × Nat) : Option Str → Except PyErr (Option DateTime)
  | none => .ok none
  | some x => (decodeTime ver (some x)).map some

end Verif.Spec

namespace Verif.Api
open Verif XPath Spec

theorem getTime_run (e : Nat) (prop : Str) (s : Db) :
    getTime e prop s = (readTime s.version (timeText s.heap e prop), s) := by
  unfold getTime timeText timeEl
  rw [bind_of (findKid_run e _ s)]
  cases s.heap.find e "Times".toList with
  | none => rfl
  | some t =>
    show (findKid t prop >>= _) s = _
    rw [bind_of (findKid_run t _ s)]
    show _ = (readTime s.version ((s.heap.find t prop).bind s.heap.text), s)
    cases s.heap.find t prop with
    | none => rfl
    | some p =>
      show (textOf p >>= _) s = _
      rw [bind_of (textOf_run p s)]
      show _ = (readTime s.version (s.heap.text p), s)
      cases s.heap.text p with
      | none => rfl
      | some x =>
        show (reads Db.version >>= _) s = _
        rw [bind_of (reads_run _ s)]
        show (lift _ >>= _) s = ((decodeTime s.version (some x)).map some, s)
        rw [bind_run, lift_run]
        cases decodeTime s.version (some x) <;> rfl

/-- The effect of setting a time. -/
theorem setTime_run {s : Db} (hs : Inv s) (e : Nat) (prop : Str) (v : DateTime) :
    (timeEl s.heap e prop = none → setTime e prop v s = (.ok (), s)) ∧
    ∀ p, timeEl s.heap e prop = some p →
      (∀ x, encodeTime s.version v = .error x → setTime e prop v s = (.error x, s)) ∧
      ∀ x, encodeTime s.version v = .ok x → ∃ s', setTime e prop v s = (.ok (), s') ∧ TextChanged s s' p (some x) := by
  have hu : setTime e prop v s = (match timeEl s.heap e prop with
      | none => pure ()
      | some p => reads Db.version >>= fun ver => lift (encodeTime ver v) >>= fun x => setText p (some x) : M Unit) s := by
    unfold setTime timeEl
    rw [bind_of (findKid_run e _ s)]
    cases s.heap.find e "Times".toList with
    | none => rfl
    | some t =>
      show (findKid t prop >>= _) s = _
      rw [bind_of (findKid_run t _ s)]
      cases h : s.heap.find t prop with
      | none => simp only [Option.bind_some, h]
      | some p => simp only [Option.bind_some, h]
  constructor
  · intro h
    rw [hu, h]
    rfl
  · intro p h
    rw [hu, h]
    show (∀ x, _ → (reads Db.version >>= fun ver => lift (encodeTime ver v) >>= fun x => setText p (some x) : M Unit) s = _) ∧
      ∀ x, _ → ∃ s', (reads Db.version >>= fun ver => lift (encodeTime ver v) >>= fun x => setText p (some x) : M Unit) s = _ ∧ _
    rw [bind_of (reads_run _ s)]
    constructor
    · intro x hx; rw [bind_run, lift_run, hx]
    · intro x hx
      obtain ⟨s', h1, h2⟩ := text_changed hs p (v := some x) (by rintro t ⟨⟩; exact encode_xml hx)
      refine ⟨s', ?_, h2⟩
      rw [bind_run, lift_run, hx]
      exact h1

theorem timeEl_mem {s : Db} (hs : Inv s) {e p : Nat} {prop : Str} (h : timeEl s.heap e prop = some p) :
    p ∈ s.world.ids ∧ s.heap.tag p = prop ∧ ∃ t, s.heap.find e "Times".toList = some t ∧ p ∈ s.heap.kids t := by
  unfold timeEl at h
  obtain ⟨t, h1, h2⟩ := Option.bind_eq_some_iff.mp h
  obtain ⟨k1, k2⟩ := find_kid h2
  exact ⟨(kid_mem hs k1).1, k2, t, h1, k1⟩

/-- Different properties, or the same property of different elements, are held by different elements. -/
theorem timeEl_inj {s : Db} (hs : Inv s) {e e' p : Nat} {prop prop' : Str} (h : timeEl s.heap e prop = some p)
    (h' : timeEl s.heap e' prop' = some p) : e = e' ∧ prop = prop' := by
  obtain ⟨_, a2, t, a3, a4⟩ := timeEl_mem hs h
  obtain ⟨_, b2, t', b3, b4⟩ := timeEl_mem hs h'
  have ht := parent_eq hs a4 b4
  subst ht
  exact ⟨parent_eq hs (find_kid a3).1 (find_kid b3).1, a2.symm.trans b2⟩

theorem changed_timeEl {s s' : Db} {i : Nat} {v : Option Str} (h : TextChanged s s' i v) (e : Nat) (prop : Str) :
    timeEl s'.heap e prop = timeEl s.heap e prop := by
  unfold timeEl
  rw [h.find]
  congr 1
  funext t
  rw [h.find]

theorem changed_timeText {s s' : Db} {i : Nat} {v : Option Str} (h : TextChanged s s' i v) (hm : i ∈ s.world.ids) (e : Nat) (prop : Str) :
    timeText s'.heap e prop = if timeEl s.heap e prop = some i then v else timeText s.heap e prop := by
  unfold timeText
  rw [changed_timeEl h]
  cases hp : timeEl s.heap e prop with
  | none => rw [if_neg (by simp)]; rfl
  | some p =>
    show s'.heap.text p = _
    by_cases hpi : p = i
    · subst hpi; rw [if_pos rfl, h.here hm]
    · rw [if_neg (by simpa using hpi), h.text hpi]; rfl

theorem readTime_stored {ver : Nat × Nat} {v : DateTime} {x : Str} (h : encodeTime ver v = .ok x) :
    readTime ver (some x) = (stored ver v).map some := by
  unfold stored
  rw [h]
  rfl

theorem getExpires_run (e : Nat) (s : Db) : getExpires e s =
    (match timeEl s.heap e "Expires".toList with
      | none => .error .attribute
      | some p => .ok ((s.heap.text p).map fun t => t == "True".toList), s) := by
  unfold getExpires timeEl
  rw [bind_of (findKid_run e _ s)]
  cases s.heap.find e "Times".toList with
  | none => rfl
  | some t =>
    rw [bind_of (orAttr_some t s), bind_of (findKid_run t _ s)]
    simp only [Option.bind_some]
    cases s.heap.find t "Expires".toList with
    | none => rfl
    | some p =>
      rw [bind_of (orAttr_some p s), bind_of (textOf_run p s)]
      rfl

end Verif.Api
