import Verif.Time.Lemmas
/-!
# C20: KDBX4 times round-trip to the second

The instant of an aware datetime (`DateTime.instant`) is its number of microseconds since
0001-01-01T00:00 UTC; that days are counted as in the Gregorian calendar is `C20_calendar`.
-/
namespace Verif.Props
open Verif

/-- The day count behind instants: 0001-01-01 is day 1 and every day follows the one before it. -/
theorem C20_calendar : ymd2ord ⟨1, 1, 1⟩ = 1 ∧
    ∀ d : Date, d.Ok → d.next.Ok ∧ ymd2ord d.next = ymd2ord d + 1 :=
  ⟨by decide, ymd2ord_next⟩

/-- Every aware datetime whose instant lies between year 1 and the last second of year 9999 is
written, and reads back as a UTC datetime less than one second away. -/
theorem C20_roundtrip (ver : Nat × Nat) (hver : 4 ≤ ver.1) (v : DateTime) (n : Nat)
    (hn : v.instant = some (n : Int)) (hmax : n + 1000000 ≤ maxMicros) :
    ∃ text w m, encodeTime ver v = .ok text ∧ decodeTime ver (some text) = .ok w ∧
      w.Ok ∧ w.tz = some 0 ∧ w.instant = some (m : Int) ∧ m < n + 1000000 ∧ n < m + 1000000 := by
  obtain ⟨b1, b2, b3⟩ := truncSeconds_bounds n
  unfold maxMicros dayMicros at hmax
  have hs : intSeconds (n : Int) = (truncSeconds n : Nat) := by
    unfold intSeconds; rw [if_pos (by omega)]; simp
  have hlt : truncSeconds n * 1000000 < maxMicros := by
    unfold maxMicros dayMicros; omega
  refine ⟨b64encode (leBytes 8 (truncSeconds n)), DateTime.ofMicros (truncSeconds n * 1000000),
    truncSeconds n * 1000000, ?_, ?_, ofMicros_ok _ hlt, rfl, ofMicros_instant _, ?_, ?_⟩
  · unfold encodeTime
    rw [if_pos ((versionGe4_iff ver).mpr hver), hn]
    simp only [hs]
    rw [if_neg (by omega)]
    simp
  · rw [decode_pack ver hver _ (by omega), if_neg (by omega)]
  · by_cases h0 : n % 1000000 = 0
    · rw [b3 h0]; omega
    · omega
  · omega

/-- A whole-second datetime comes back as the same instant, whatever its time zone ... -/
theorem C20_whole_seconds (ver : Nat × Nat) (hver : 4 ≤ ver.1) (v : DateTime) (n : Nat)
    (hn : v.instant = some (n : Int)) (hmax : n < maxMicros) (h0 : n % 1000000 = 0) :
    ∃ text w, encodeTime ver v = .ok text ∧ decodeTime ver (some text) = .ok w ∧
      w.tz = some 0 ∧ w.instant = v.instant := by
  have hmax' := hmax
  unfold maxMicros dayMicros at hmax'
  have b3 := (truncSeconds_bounds n).2.2 h0
  have hs : intSeconds (n : Int) = (truncSeconds n : Nat) := by
    unfold intSeconds; rw [if_pos (by omega)]; simp
  have e : truncSeconds n * 1000000 = n := by rw [b3]; omega
  refine ⟨b64encode (leBytes 8 (truncSeconds n)), DateTime.ofMicros n, ?_, ?_, rfl, ?_⟩
  · unfold encodeTime
    rw [if_pos ((versionGe4_iff ver).mpr hver), hn]
    simp only [hs]
    rw [if_neg (by omega)]
    simp
  · rw [decode_pack ver hver _ (by omega), e, if_neg (by omega)]
  · rw [ofMicros_instant, hn]

/-- ... and as the same datetime, field by field, when it is in UTC. -/
theorem C20_whole_seconds_utc (ver : Nat × Nat) (hver : 4 ≤ ver.1) (v : DateTime) (hv : v.Ok)
    (hz : v.tz = some 0) (h0 : v.micro = 0) :
    ∃ text, encodeTime ver v = .ok text ∧ decodeTime ver (some text) = .ok v := by
  have hn : v.instant = some (v.wall : Int) := by unfold DateTime.instant; rw [hz]; simp
  have hw := wall_lt v hv
  have hm : v.wall % 1000000 = 0 := by unfold DateTime.wall dayMicros; rw [h0]; omega
  obtain ⟨text, w, e1, e2, e3, e4⟩ := C20_whole_seconds ver hver v v.wall hn hw hm
  refine ⟨text, e1, ?_⟩
  rw [e2]
  unfold decodeTime at e2
  rw [if_pos ((versionGe4_iff ver).mpr hver)] at e2
  -- the decoded value is a valid datetime with the same instant
  have hw2 : w.Ok ∧ w.wall = v.wall := by
    unfold DateTime.instant at e4
    rw [e3, hz] at e4
    simp only [Option.map_some, Option.some.injEq] at e4
    refine ⟨?_, by omega⟩
    simp only at e2
    cases hb : b64decode text with
    | error e =>
      exfalso
      unfold encodeTime at e1
      rw [if_pos ((versionGe4_iff ver).mpr hver), hn] at e1
      simp only at e1
      split at e1
      · cases e1
      · injection e1 with e1
        rw [← e1, b64decode_b64encode] at hb
        cases hb
    | ok b =>
      rw [hb] at e2
      simp only at e2
      split at e2
      · cases e2
      · split at e2
        · cases e2
        · injection e2 with e2
          rw [← e2]
          exact ofMicros_ok _ (by omega)
  rw [wall_inj hw2.1 hv hw2.2 (e3.trans hz.symm)]

/-- For instants of the years 1090 to 2177 the fraction is cut off, except that the last three
microseconds of a second are counted to the next second: `total_seconds()` is a double. -/
theorem C20_truncation (n : Nat) (h1 : 2 ^ 35 ≤ n / 1000000) (h2 : n / 1000000 < 2 ^ 36) :
    truncSeconds n = n / 1000000 + (if 999997 ≤ n % 1000000 then 1 else 0) := by
  have hl : Nat.log2 (n / 1000000) = 35 := (Nat.log2_eq_iff (by omega)).mpr ⟨h1, h2⟩
  have hf : fracBits n = 17 := by
    unfold fracBits
    rw [if_neg (by omega), hl]
  unfold truncSeconds
  rw [hf, show (2 : Nat) ^ 17 = 131072 by decide]
  have hq := Nat.div_add_mod n 1000000
  have hr := Nat.mod_lt n (show 1000000 > 0 by decide)
  generalize n / 1000000 = q at *
  generalize n % 1000000 = r at *
  subst hq
  clear h1 h2 hl hf
  unfold divHalfEven
  have ed : (1000000 * q + r) * 131072 / 1000000 = q * 131072 + r * 131072 / 1000000 := by omega
  have em : (1000000 * q + r) * 131072 % 1000000 = r * 131072 % 1000000 := by omega
  rw [ed, em]
  clear ed em
  have hts := Nat.div_add_mod (r * 131072) 1000000
  have hs := Nat.mod_lt (r * 131072) (show 1000000 > 0 by decide)
  obtain ⟨t, ht⟩ : ∃ t, t = r * 131072 / 1000000 := ⟨_, rfl⟩
  obtain ⟨s, hs'⟩ : ∃ s, s = r * 131072 % 1000000 := ⟨_, rfl⟩
  rw [← ht, ← hs'] at hts ⊢
  rw [← hs'] at hs
  clear ht hs'
  have key : ∀ x, x = t ∧ s ≤ 500000 ∨ x = t + 1 ∧ 500000 ≤ s →
      (q * 131072 + x) / 131072 = q + (if 999997 ≤ r then 1 else 0) := by
    intro x hx
    by_cases hr2 : 999997 ≤ r
    · rw [if_pos hr2]; omega
    · rw [if_neg hr2]; omega
  by_cases c1 : 2 * s < 1000000
  · rw [if_pos c1]; exact key t (by omega)
  · rw [if_neg c1]
    by_cases c2 : 1000000 < 2 * s
    · rw [if_pos c2, Nat.add_assoc]; exact key (t + 1) (by omega)
    · rw [if_neg c2]
      by_cases c3 : (q * 131072 + t) % 2 = 0
      · rw [if_pos c3]; exact key t (by omega)
      · rw [if_neg c3, Nat.add_assoc]; exact key (t + 1) (by omega)

/-- So a stored time can lie after the time that was written. -/
theorem C20_not_truncated : ∃ v w : DateTime, v.Ok ∧ v.tz = some 0 ∧
    (encodeTime (4, 0) v).bind (fun t => decodeTime (4, 0) (some t)) = .ok w ∧
    w.wall = v.wall + 3 := by
  refine ⟨⟨⟨2026, 11, 16⟩, 8, 30, 0, 999997, some 0⟩, ⟨⟨2026, 11, 16⟩, 8, 30, 1, 0, some 0⟩, ?_, rfl, ?_, ?_⟩
  · refine ⟨by decide, by decide, by decide, by decide, by decide, by decide, ?_⟩
    intro o ho; injection ho with ho; subst ho; decide
  · decide +kernel
  · decide +kernel

/-- The largest datetime (a natural "never") is written as a second of year 10000: reading it back
raises `OverflowError`. -/
theorem C20_datetime_max :
    (encodeTime (4, 0) ⟨⟨9999, 12, 31⟩, 23, 59, 59, 999999, some 0⟩).bind
      (fun t => decodeTime (4, 0) (some t)) = .error .overflow := by
  decide +kernel

/-- Instants before year 1 (first day of year 1 in a zone east of UTC): refused if at least one
second before. -/
theorem C20_before_year_one (ver : Nat × Nat) (hver : 4 ≤ ver.1) (v : DateTime) (n : Nat)
    (hn : v.instant = some (-(n : Int))) (h : 1000000 ≤ n) : encodeTime ver v = .error .struct := by
  unfold encodeTime
  rw [if_pos ((versionGe4_iff ver).mpr hver), hn]
  simp only
  have hs : intSeconds (-(n : Int)) = -(truncSeconds n : Nat) := by
    unfold intSeconds
    rw [if_neg (by omega)]; simp
  have b1 := (truncSeconds_bounds n).1
  rw [hs, if_pos (by omega)]

/-- A naive datetime cannot be written to a KDBX4 database. -/
theorem C20_naive (ver : Nat × Nat) (hver : 4 ≤ ver.1) (v : DateTime) (hz : v.tz = none) :
    encodeTime ver v = .error .type := by
  unfold encodeTime DateTime.instant
  rw [if_pos ((versionGe4_iff ver).mpr hver), hz]; rfl

/-- An ISO time with `Z` in a KDBX4 database is not read: its letters and digits are 16 base64
characters, so the fallback is not reached and `struct.error` leaves the property. -/
theorem C20_iso_z : decodeTime (4, 0) (some "2026-11-16T08:30:00Z".toList) = .error .struct := by
  decide +kernel

-- an offset of +5:30 and a fraction
example : (⟨⟨2024, 2, 29⟩, 1, 2, 3, 456789, some 19800000000⟩ : DateTime).instant
    = some ((63844745523456789 : Nat) : Int) ∧ 63844745523456789 + 1000000 ≤ maxMicros := by decide +kernel

end Verif.Props
