import Verif.Kdbx.Toy
/-!
# C06: a file without the KeePass signature is rejected as `HeaderChecksumError`
-/
namespace Verif.Props
open Verif Parser

/-- The first eight bytes of every KeePass 2 file. -/
def keepassSignature : Bytes := [0x03, 0xd9, 0xa2, 0x9a, 0x67, 0xfb, 0x4b, 0xb5]

/-- Whatever the credentials and whatever follows, eight other bytes give `HeaderChecksumError`. -/
theorem C06_rejected (P : Prims) (c : Creds) (dec : Bool) (file : Bytes) (hlen : 8 ≤ file.length)
    (hsig : file.take 8 ≠ keepassSignature) : openBytes P c dec file = .error .headerChecksum := by
  have hh : header "(parsing)" file = .error (.check "(parsing) -> header -> sig_check") := by
    obtain ⟨a, r, rfl, ha⟩ : ∃ a r, file = a ++ r ∧ a.length = 4 :=
      ⟨file.take 4, file.drop 4, (List.take_append_drop 4 file).symm, by rw [List.length_take]; omega⟩
    have hr : 4 ≤ r.length := by rw [List.length_append] at hlen; omega
    obtain ⟨b, t, rfl, hb⟩ : ∃ b t, r = b ++ t ∧ b.length = 4 :=
      ⟨r.take 4, r.drop 4, (List.take_append_drop 4 r).symm, by rw [List.length_take]; omega⟩
    have hne : ¬ (a = sig1 ∧ b = sig2) := by
      rintro ⟨rfl, rfl⟩
      exact hsig rfl
    unfold header headerVal
    rw [bind_run (bytes_append' (n := 4) a (b ++ t) ha), bind_run (bytes_append' (n := 4) b t hb),
      if_pos hne]
    rfl
  unfold openBytes parseKdbx
  rw [hh]
  simp only [readErr]
  rw [if_pos trivial]

/-- Conversely a file that opens has the signature. -/
theorem C06_opened (P : Prims) (c : Creds) (dec : Bool) (file : Bytes) (k : Kdbx)
    (h : openBytes P c dec file = .ok k) : file.take 8 = keepassSignature := by
  by_cases hl : 8 ≤ file.length
  · by_cases hs : file.take 8 = keepassSignature
    · exact hs
    · rw [C06_rejected P c dec file hl hs] at h; cases h
  · exfalso
    obtain ⟨rest, hp⟩ := openBytes_ok.mp h
    obtain ⟨r, hr⟩ := parse_header hp
    unfold header at hr
    split at hr
    · cases hr
    · next v r0 hv =>
      unfold headerVal at hv
      obtain ⟨a, m, h1, hv⟩ := bind_ok.mp hv
      obtain ⟨b, m2, h2, hv⟩ := bind_ok.mp hv
      obtain ⟨e1, e2⟩ := bytes_ok.mp h1
      obtain ⟨e3, e4⟩ := bytes_ok.mp h2
      rw [e2, e4, List.length_append, List.length_append] at hl
      omega

/-- A KDB 1 file (other second half of the signature) of any content. -/
example (P : Prims) (c : Creds) (r : Bytes) :
    openBytes P c true ([0x03, 0xd9, 0xa2, 0x9a, 0x65, 0xfb, 0x4b, 0xb5] ++ r) = .error .headerChecksum :=
  C06_rejected P c true _ (by simp) (by simp [keepassSignature])

end Verif.Props
