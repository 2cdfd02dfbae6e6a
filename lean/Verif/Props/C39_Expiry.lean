import Verif.Props.C39_AddEntry
import Verif.Props.C20_Kdbx4Times
import Verif.Props.C21_Kdbx3Times
/-!
# C39, the expiry time

`add_entry` converts the expiry time to UTC before it is written, which the setter of `expiry_time` does not do
(`C21_offset_dropped`).
-/
namespace Verif.Props
open Verif XPath Spec Api

/-- The moment a datetime means, in microseconds since 0001-01-01T00:00 UTC: its wall clock less its offset, which for a naive one is
the offset of the local time zone. -/
def AtMoment (env : Env) (e : DateTime) (n : Int) : Prop :=
  ∃ off, (e.tz = some off ∨ (e.tz = none ∧ off = env.localOff e)) ∧ n = e.wall - off

/-- The expiry time given to `add_entry`, in any time zone or in none, comes back as a UTC datetime of that moment: exactly in KDBX3, less
than a second away in KDBX4, exactly if it was one of whole seconds. The entry is marked as expiring. -/
theorem C39_expiry {env : Env} {s s' : Db} (hs : Inv s) {dest i : Nat} (hm : dest ∈ s.world.ids) {a : EntryArgs} {force : Bool}
    (h : addEntry env dest a force s = (.ok i, s')) {e : DateTime} (he : a.expiry = some e) {n : Int} (hn : AtMoment env e n)
    (hmax : 4 ≤ s.version.1 → n + 1000000 ≤ (maxMicros : Int)) :
    getExpires i s' = (.ok (some true), s') ∧
    ∃ w m, getTime i "ExpiryTime".toList s' = (.ok (some w), s') ∧ w.Ok ∧ w.tz = some 0 ∧ w.instant = some m ∧
      (s.version.1 < 4 → m = n) ∧ (n % 1000000 = 0 → m = n) ∧ m < n + 1000000 ∧ n < m + 1000000 := by
  have hr := (C39_added hs hm h).2
  refine ⟨by rw [hr.expires, he]; rfl, ?_⟩
  obtain ⟨o, now, exp, t, nm, p, _, _, _, _, _, _, h5, _⟩ := addEntry_inv h
  have hx := hr.expiry
  rw [he] at hx
  have hz : e.astimezoneUtc env.localOff =
      if n < 0 ∨ (maxMicros : Int) ≤ n then .error .overflow else .ok (DateTime.ofMicros n.toNat) := by
    obtain ⟨off, ho, rfl⟩ := hn
    unfold DateTime.astimezoneUtc
    rcases ho with ho | ⟨ho, rfl⟩ <;> rw [ho] <;> rfl
  rw [he] at h5
  replace h5 : (match e.astimezoneUtc env.localOff with | .error y => Except.error y | .ok z => encodeTime s.version z) = .ok exp := h5
  replace hx : getTime i "ExpiryTime".toList s' = (((e.astimezoneUtc env.localOff).bind (stored s.version)).map some, s') := hx
  by_cases hb : n < 0 ∨ (maxMicros : Int) ≤ n
  · rw [hz, if_pos hb] at h5
    cases h5
  rw [hz, if_neg hb] at hx
  replace hx : getTime i "ExpiryTime".toList s' = ((stored s.version (DateTime.ofMicros n.toNat)).map some, s') := hx
  have hk : ((n.toNat : Nat) : Int) = n := Int.toNat_of_nonneg (by omega)
  have hi : (DateTime.ofMicros n.toNat).instant = some ((n.toNat : Nat) : Int) := ofMicros_instant _
  by_cases hv : 4 ≤ s.version.1
  · have hmx := hmax hv
    obtain ⟨x, w, m, g1, g2, g3, g4, g5, g6, g7⟩ := C20_roundtrip s.version hv _ _ hi (by omega)
    refine ⟨w, m, ?_, g3, g4, g5, fun hl => absurd hv (by omega), ?_, by omega, by omega⟩
    · rw [hx]
      unfold stored
      rw [g1]
      show ((decodeTime s.version (some x)).map some, s') = _
      rw [g2]
      rfl
    · intro h0
      obtain ⟨x', w', k1, k2, _, k4⟩ := C20_whole_seconds s.version hv _ _ hi (by omega) (by omega)
      rw [g1] at k1
      cases k1
      rw [g2] at k2
      cases k2
      rw [g5, hi] at k4
      have := Option.some.inj k4
      omega
  · obtain ⟨x, g1, g2⟩ := C21_utc s.version (by omega) (DateTime.ofMicros n.toNat) (ofMicros_ok _ (by omega)) rfl
    refine ⟨DateTime.ofMicros n.toNat, n, ?_, ofMicros_ok _ (by omega), rfl, by rw [hi, hk], fun _ => rfl, fun _ => rfl, by omega, by omega⟩
    rw [hx]
    unfold stored
    rw [g1]
    show ((decodeTime s.version (some x)).map some, s') = _
    rw [g2]
    rfl

/-- The expiry time of the sample arguments, 07:08:09 one hour east of Greenwich, is 06:08:09 UTC. -/
example : sampleArgs.expiry = some ⟨⟨2031, 5, 6⟩, 7, 8, 9, 0, some 3600000000⟩ ∧
    AtMoment Sample.env ⟨⟨2031, 5, 6⟩, 7, 8, 9, 0, some 3600000000⟩ 64071410889000000 ∧
    (⟨⟨2031, 5, 6⟩, 6, 8, 9, 0, some 0⟩ : DateTime).instant = some 64071410889000000 ∧ (64071410889000000 : Int) + 1000000 ≤ maxMicros :=
  ⟨rfl, ⟨3600000000, .inl rfl, by decide +kernel⟩, by decide +kernel, by decide +kernel⟩

end Verif.Props
