import Verif.Time.Lemmas
/-!
# C21: KDBX3 times round-trip for UTC datetimes
-/
namespace Verif.Props
open Verif

/-- Every datetime is written, and reads back with the same wall-clock fields labelled UTC. -/
theorem C21_roundtrip (ver : Nat × Nat) (hver : ver.1 < 4) (v : DateTime) (hv : v.Ok) :
    ∃ text, encodeTime ver v = .ok text ∧ decodeTime ver (some text) = .ok { v with tz := some 0 } := by
  have hg : ¬ versionGe4 ver = true := by rw [versionGe4_iff]; omega
  refine ⟨isoformat v, ?_, ?_⟩
  · unfold encodeTime; rw [if_neg hg]
  · unfold decodeTime
    rw [if_neg hg]
    show fromIso (replaceZ (isoformat v)) = _
    rw [replaceZ_id _ (isoformat_noZ v), fromIso_isoformat v hv]

/-- So a UTC datetime comes back unchanged, microseconds included. -/
theorem C21_utc (ver : Nat × Nat) (hver : ver.1 < 4) (v : DateTime) (hv : v.Ok) (hz : v.tz = some 0) :
    ∃ text, encodeTime ver v = .ok text ∧ decodeTime ver (some text) = .ok v := by
  obtain ⟨t, h1, h2⟩ := C21_roundtrip ver hver v hv
  refine ⟨t, h1, ?_⟩
  rw [h2]
  obtain ⟨_, _, _, _, _, _⟩ := v
  simp only at hz
  subst hz; rfl

/-- A datetime with another offset comes back as another instant: the offset is written but ignored
when reading. -/
theorem C21_offset_dropped (ver : Nat × Nat) (hver : ver.1 < 4) (v : DateTime) (hv : v.Ok) (o : Int)
    (hz : v.tz = some o) (ho : o ≠ 0) :
    ∃ text w, encodeTime ver v = .ok text ∧ decodeTime ver (some text) = .ok w ∧
      w.instant ≠ v.instant := by
  obtain ⟨t, h1, h2⟩ := C21_roundtrip ver hver v hv
  refine ⟨t, _, h1, h2, ?_⟩
  unfold DateTime.instant
  rw [hz]
  show some (({ v with tz := some 0 } : DateTime).wall - (0 : Int)) ≠ some ((v.wall : Int) - o)
  have : ({ v with tz := some 0 } : DateTime).wall = v.wall := rfl
  rw [this]
  intro h
  injection h with h
  omega

/-- The form written by other KeePass programs, with `Z`, is read. -/
theorem C21_z (v : DateTime) (hv : v.Ok) (hz : v.tz = none) (ver : Nat × Nat)
    (hver : ver.1 < 4) :
    decodeTime ver (some (isoformat v ++ ['Z'])) = .ok { v with tz := some 0 } := by
  have hg : ¬ versionGe4 ver = true := by rw [versionGe4_iff]; omega
  have h0 : ({ v with tz := some 0 } : DateTime).Ok := by
    obtain ⟨a, b, c, d, e, f, -⟩ := hv
    refine ⟨a, b, c, d, e, f, ?_⟩
    intro o ho
    injection ho with ho
    subst ho; decide
  have he : isoformat { v with tz := some 0 } = isoformat v ++ "+00:00".toList := by
    unfold isoformat
    rw [hz]
    simp only [List.append_nil]
    rfl
  unfold decodeTime
  rw [if_neg hg]
  show fromIso (replaceZ (isoformat v ++ ['Z'])) = _
  have hr : replaceZ (isoformat v ++ ['Z']) = isoformat v ++ "+00:00".toList := by
    have := replaceZ_id _ (isoformat_noZ v)
    unfold replaceZ at this ⊢
    rw [List.flatMap_append, this]; rfl
  rw [hr, ← he, fromIso_isoformat _ h0]

example : (⟨⟨2024, 2, 29⟩, 1, 2, 3, 456789, some 0⟩ : DateTime).Ok ∧
    isoformat ⟨⟨2024, 2, 29⟩, 1, 2, 3, 456789, some 0⟩ = "2024-02-29T01:02:03.456789+00:00".toList := by
  refine ⟨⟨by decide, by decide, by decide, by decide, by decide, by decide, ?_⟩, by decide +kernel⟩
  intro o ho; injection ho with ho; subst ho; decide

end Verif.Props
