import Verif.Api.TimeLemmas
import Verif.Api.NumeralLemmas
import Verif.Api.Sample
/-!
# C55: expiry decisions follow the stored dates
-/
namespace Verif.Props
open Verif XPath Spec Api

/-- `expired` for an element that expires: exactly if its expiry time is strictly before now. -/
theorem C55_expired (env : Env) {s : Db} {e : Nat} (he : getExpires e s = (.ok (some true), s)) {d : DateTime}
    (hd : getTime e "ExpiryTime".toList s = (.ok (some d), s)) {now exp : Int} (hn : (env.now s.ticks).instant = some now)
    (hx : d.instant = some exp) :
    expired env e s = (.ok (decide (exp < now)), { s with ticks := s.ticks + 1 }) := by
  have hd' : getTime e "ExpiryTime".toList { s with ticks := s.ticks + 1 } = (.ok (some d), { s with ticks := s.ticks + 1 }) := by
    rw [getTime_run] at hd ⊢
    injection hd with hd _
    exact Prod.ext hd rfl
  unfold expired
  rw [bind_of he, if_pos rfl]
  show (getTime e "ExpiryTime".toList >>= _) { s with ticks := s.ticks + 1 } = _
  rw [bind_of hd']
  show (lift ((env.now s.ticks).gt d)) { s with ticks := s.ticks + 1 } = _
  rw [lift_run]
  unfold DateTime.gt
  rw [hn, hx]

/-- An element that does not expire is not expired, whatever its expiry time; the clock is not read. -/
theorem C55_never (env : Env) {s : Db} {e : Nat} {b : Option Bool} (he : getExpires e s = (.ok b, s)) (hb : b ≠ some true) :
    expired env e s = (.ok false, s) := by
  unfold expired
  rw [bind_of he, if_neg hb]
  rfl

/-- Conversely, whenever `expired` answers, the answer is this one. -/
theorem C55_expired_iff (env : Env) {s s' : Db} {e : Nat} {b : Bool} (h : expired env e s = (.ok b, s'))
    (haware : (env.now s.ticks).tz.isSome = true) :
    (b = true ↔ ∃ d now exp, (getExpires e s).1 = .ok (some true) ∧ (getTime e "ExpiryTime".toList s).1 = .ok (some d) ∧
      (env.now s.ticks).instant = some now ∧ d.instant = some exp ∧ exp < now) := by
  obtain ⟨x, s1, h1, h2⟩ := bind_inv (m := getExpires e) h
  have hst : s1 = s := by
    have := getExpires_run e s
    rw [h1] at this
    injection this with _ this
  subst hst
  have he : (getExpires e s1).1 = .ok x := by rw [h1]
  by_cases hx : x = some true
  · subst hx
    rw [if_pos rfl] at h2
    replace h2 : (getTime e "ExpiryTime".toList >>= fun t => match t with
      | none => fail .type
      | some t => lift ((env.now s1.ticks).gt t) : M Bool) { s1 with ticks := s1.ticks + 1 } = (.ok b, s') := h2
    obtain ⟨t, s2, g1, g2⟩ := bind_inv h2
    rw [getTime_run] at g1
    injection g1 with g1 g3
    have ht : (getTime e "ExpiryTime".toList s1).1 = .ok t := by rw [getTime_run]; exact g1
    cases t with
    | none => cases g2
    | some d =>
      obtain ⟨n, hn⟩ : ∃ n, (env.now s1.ticks).instant = some n := by
        unfold DateTime.instant
        cases hz : (env.now s1.ticks).tz with
        | none => rw [hz] at haware; cases haware
        | some o => exact ⟨_, rfl⟩
      cases hd : d.instant with
      | none =>
        replace g2 : (lift ((env.now s1.ticks).gt d) : M Bool) s2 = (.ok b, s') := g2
        rw [lift_run] at g2
        unfold DateTime.gt at g2
        rw [hn, hd] at g2
        cases g2
      | some x =>
        replace g2 : (lift ((env.now s1.ticks).gt d) : M Bool) s2 = (.ok b, s') := g2
        rw [lift_run] at g2
        unfold DateTime.gt at g2
        rw [hn, hd] at g2
        injection g2 with g2 _
        injection g2 with g2
        rw [← g2, decide_eq_true_iff]
        constructor
        · intro hlt; exact ⟨d, n, x, he, ht, hn, hd, hlt⟩
        · rintro ⟨d', n', x', _, e2, e3, e4, e5⟩
          rw [ht] at e2
          injection e2 with e2
          injection e2 with e2
          subst e2
          rw [hn] at e3; rw [hd] at e4
          injection e3 with e3; injection e4 with e4
          omega
  · rw [if_neg hx] at h2
    injection h2 with h2 _
    injection h2 with h2
    constructor
    · intro hb; rw [← h2] at hb; cases hb
    · rintro ⟨_, _, _, e1, _⟩
      rw [he] at e1
      injection e1 with e1
      exact absurd e1 hx

/-! ## Credential changes -/

theorem credDate_state (env : Env) (s : Db) : (credDate env s).2 = s := by
  unfold credDate
  rw [bind_run]
  have hm : ∀ n, (metaEl env n s).2 = s := fun n => by unfold metaEl xpathFirst; rw [bind_run]; cases h : xpath env none (metaQuery n) s with
    | mk r s1 =>
      have : s1 = s := by have := congrArg Prod.snd h; exact this.symm
      subst this
      cases r <;> rfl
  cases h : metaEl env "MasterKeyChanged".toList s with
  | mk r s1 =>
    have h1 : s1 = s := by have := hm "MasterKeyChanged".toList; rw [h] at this; exact this
    subst h1
    cases r with
    | error e => rfl
    | ok o =>
      cases o with
      | none => rfl
      | some el =>
        show ((textOf el >>= _) s1).2 = s1
        rw [bind_of (textOf_run el s1), bind_of (reads_run _ s1), bind_run, lift_run]
        cases decodeTime s1.version (s1.heap.text el) <;> rfl

/-- `int(element.text)`. -/
def intText : Option Str → Except PyErr (Option Int)
  | none => .error .type
  | some t => (pyInt t).map some

/-- The days setting, from the element. -/
theorem credDays_run (env : Env) {s : Db} (hs : Inv s) (req : Bool) : credDays env req s =
    (match (metaEls s.heap (daysKey req)).head? with
      | none => .ok none
      | some el => intText (s.heap.text el), s) := by
  have ht : TagName (daysKey req) := by cases req <;> decide +kernel
  unfold credDays
  rw [bind_of (metaEl_run env hs ht)]
  cases (metaEls s.heap (daysKey req)).head? with
  | none => rfl
  | some el =>
    show (textOf el >>= _) s = _
    rw [bind_of (textOf_run el s)]
    show _ = (intText (s.heap.text el), s)
    cases s.heap.text el with
    | none => rfl
    | some t =>
      show (lift (pyInt t) >>= _) s = _
      rw [bind_run, lift_run]
      show _ = ((pyInt t).map some, s)
      cases pyInt t <;> rfl

/-- `credchange_required` and `credchange_recommended`: true exactly if more than the configured number of whole days
have passed since the last change. Whole days since the change are the largest `n` with `change + n days ≤ now`. -/
theorem C55_credchange (env : Env) {s : Db} (hs : Inv s) (req : Bool) {d : DateTime} (hd : credDate env s = (.ok (some d), s)) {k : Int}
    (hk : credDays env req s = (.ok (some k), s)) (h1 : k ≠ -1) {now change : Int} (hn : (env.now s.ticks).instant = some now)
    (hc : d.instant = some change) :
    ∃ b, credChange env req s = (.ok b, { s with ticks := s.ticks + 1 }) ∧
      (b = true ↔ ∃ n : Int, k < n ∧ change + n * 86400000000 ≤ now) := by
  have hk' : credDays env req { s with ticks := s.ticks + 1 } = (.ok (some k), { s with ticks := s.ticks + 1 }) := by
    have hs' : Inv { s with ticks := s.ticks + 1 } := ⟨hs.world, hs.bound⟩
    rw [credDays_run env hs'] 
    rw [credDays_run env hs] at hk
    injection hk with hk _
    exact Prod.ext hk rfl
  refine ⟨decide ((now - change) / (dayMicros : Int) > k), ?_, ?_⟩
  · unfold credChange
    rw [bind_of hd]
    show (credDays env req >>= _) s = _
    rw [bind_of hk, if_neg (by intro h; injection h with h; exact h1 h)]
    show (lift ((env.now s.ticks).daysSince d) >>= _) { s with ticks := s.ticks + 1 } = _
    rw [bind_run, lift_run]
    have : (env.now s.ticks).daysSince d = .ok ((now - change) / (dayMicros : Int)) := by
      unfold DateTime.daysSince
      rw [hn, hc]
    rw [this]
    show (credDays env req >>= _) { s with ticks := s.ticks + 1 } = _
    rw [bind_of hk']
    rfl
  · rw [decide_eq_true_iff]
    have hday : (dayMicros : Int) = 86400000000 := rfl
    rw [hday]
    constructor
    · intro h
      refine ⟨(now - change) / 86400000000, h, ?_⟩
      have := Int.ediv_mul_le (now - change) (b := 86400000000) (by decide)
      omega
    · rintro ⟨n, h2, h3⟩
      have : n ≤ (now - change) / 86400000000 := (Int.le_ediv_iff_mul_le (by decide)).mpr (by omega)
      omega

/-- With the setting -1 no change is asked for. -/
theorem C55_disabled (env : Env) {s : Db} (req : Bool) {d : Option DateTime} (hd : credDate env s = (.ok d, s))
    (hk : credDays env req s = (.ok (some (-1)), s)) : credChange env req s = (.ok false, s) := by
  unfold credChange
  rw [bind_of hd]
  cases d with
  | none => rfl
  | some d =>
    show (credDays env req >>= _) s = _
    rw [bind_of hk, if_pos rfl]
    rfl

/-- Without a change date no change is asked for. -/
theorem C55_no_date (env : Env) {s : Db} (req : Bool) (hd : credDate env s = (.ok none, s)) : credChange env req s = (.ok false, s) := by
  unfold credChange
  rw [bind_of hd]
  rfl

/-- The elements of `Meta` with the two settings, as the format names them: a change is forced or recommended. -/
def daysName : Bool → Str
  | true => "MasterKeyChangeForce".toList
  | false => "MasterKeyChangeRec".toList

theorem days_name (req : Bool) : daysKey req = daysName req := by cases req <;> rfl

/-- The settings are the numbers in these elements. -/
theorem C55_days (env : Env) {s : Db} (hs : Inv s) (req : Bool) : credDays env req s =
    (match (metaEls s.heap (daysName req)).head? with
      | none => .ok none
      | some el => intText (s.heap.text el), s) := by
  rw [credDays_run env hs, days_name]

/-- Without the days setting the answer is an error: an integer is compared with `None`. -/
theorem C55_no_days (env : Env) {s : Db} (hs : Inv s) (req : Bool) {d : DateTime} (hd : credDate env s = (.ok (some d), s))
    (hk : metaEls s.heap (daysName req) = []) {now change : Int} (hn : (env.now s.ticks).instant = some now)
    (hc : d.instant = some change) : (credChange env req s).1 = .error .type := by
  rw [← days_name] at hk
  have hk0 : credDays env req s = (.ok none, s) := by rw [credDays_run env hs, hk]; rfl
  have hk1 : credDays env req { s with ticks := s.ticks + 1 } = (.ok none, { s with ticks := s.ticks + 1 }) := by
    have hs' : Inv { s with ticks := s.ticks + 1 } := ⟨hs.world, hs.bound⟩
    rw [credDays_run env hs', show metaEls (Db.heap { s with ticks := s.ticks + 1 }) (daysKey req) = [] from hk]; rfl
  unfold credChange
  rw [bind_of hd]
  show ((credDays env req >>= _) s).1 = _
  rw [bind_of hk0, if_neg (by simp)]
  show ((lift ((env.now s.ticks).daysSince d) >>= _) { s with ticks := s.ticks + 1 }).1 = _
  rw [bind_run, lift_run]
  have : (env.now s.ticks).daysSince d = .ok ((now - change) / (dayMicros : Int)) := by
    unfold DateTime.daysSince
    rw [hn, hc]
  rw [this]
  show ((credDays env req >>= _) { s with ticks := s.ticks + 1 }).1 = _
  rw [bind_of hk1]
  rfl

/-! ## The hypotheses hold for the sample database -/

example : (getExpires 23 Sample.db).1 = .ok (some true) ∧
    (getTime 23 "ExpiryTime".toList Sample.db).1 = .ok (some ⟨⟨1, 1, 1⟩, 0, 0, 0, 0, some 0⟩) ∧
    (Sample.env.now 0).instant.isSome = true ∧ (expired Sample.env 23 Sample.db).1 = .ok true := by decide +kernel
example : (credDate Sample.env Sample.db).1 = .ok (some ⟨⟨1, 1, 1⟩, 0, 0, 0, 0, some 0⟩) ∧
    (credDays Sample.env true Sample.db).1 = .ok (some 30) ∧ (credDays Sample.env false Sample.db).1 = .ok (some (-1)) ∧
    (credChange Sample.env true Sample.db).1 = .ok true := by decide +kernel

/-- Which texts of the setting are read as a number of days, and what is raised for others. -/
theorem C55_days_text (env : Env) {s : Db} (hs : Inv s) (req : Bool) :
    ((metaEls s.heap (daysKey req)).head? = none → credDays env req s = (.ok none, s)) ∧
    ∀ el, (metaEls s.heap (daysKey req)).head? = some el →
      (s.heap.text el = none → credDays env req s = (.error .type, s)) ∧
      ∀ t, s.heap.text el = some t →
        (∀ k, credDays env req s = (.ok (some k), s) ↔ Numeral t k) ∧
        ((¬ ∃ k, Numeral t k) → credDays env req s = (.error .value, s)) := by
  rw [credDays_run env hs]
  refine ⟨fun h => by rw [h], fun el h => ⟨fun h1 => by rw [h]; simp only; rw [h1]; rfl, fun t h1 => ⟨fun k => ?_, fun h2 => ?_⟩⟩⟩
  · rw [h]
    simp only
    rw [h1, ← pyInt_iff]
    show (((pyInt t).map some, s) : Except PyErr (Option Int) × Db) = _ ↔ _
    cases pyInt t with
    | error e =>
      constructor
      · intro h
        injection h with h _
        cases h
      · intro h
        cases h
    | ok n =>
      constructor
      · intro h
        injection h with h _
        injection h with h
        injection h with h
        rw [h]
      · intro h
        injection h with h
        rw [h]; rfl
  · rw [h]
    simp only
    rw [h1]
    show (((pyInt t).map some, s) : Except PyErr (Option Int) × Db) = _
    rw [(pyInt_no t).mpr h2]
    rfl

/-- A numeral with everything in it, and one that is none. -/
example : Numeral " -1_000\n".toList (-1000) ∧ ¬ ∃ n, Numeral "1__0".toList n :=
  ⟨(pyInt_iff _ _).mp (by decide +kernel), (pyInt_no _).mp (by decide +kernel)⟩

end Verif.Props
