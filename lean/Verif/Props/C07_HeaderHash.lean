import Verif.Kdbx.Toy
/-!
# C07: KDBX4 header corruption is detected before credentials are judged
-/
namespace Verif.Props
open Verif Parser

/-- The keyed hash of a KDBX4 header as the format defines it:
`HMAC-SHA256(key = SHA512(0xFF * 8 ‖ SHA512(seed ‖ transformed key ‖ 0x01)), header)`. -/
def headerMac (P : Prims) (seed tk hdr : Bytes) : Bytes :=
  P.hmac256 (P.sha512 ([255, 255, 255, 255, 255, 255, 255, 255] ++ P.sha512 (seed ++ tk ++ [1]))) hdr

/-- The header parses, but the 32 bytes after it are not its SHA-256: `HeaderChecksumError` for all
credentials from which a key can be derived, right or wrong, decrypting or not, whatever follows. -/
theorem C07_rejected (P : Prims) (c : Creds) (dec : Bool) (file sha r : Bytes) (h : Header)
    (d : DynHeader) (hh : header "(parsing)" file = .ok (h, sha ++ r)) (hlen : sha.length = 32)
    (hv : h.value.major = 4) (hd : h.value.dyn = some d) (hsha : sha ≠ P.sha256 h.data)
    (tk seed : Bytes) (hk : (computeTransformed4 P c d).1 = .ok tk) (hs : d.raw .masterSeed = .ok seed) :
    openBytes P c dec file = .error .headerChecksum := by
  have hmk : computeMaster P d tk = .ok (P.sha256 (seed ++ tk)) := by
    unfold computeMaster; rw [exc_bind_run hs]; rfl
  have hb : body4 P h.data d tk dec (sha ++ r) = .error (.checksum "(parsing) -> body -> sha256") := by
    unfold body4
    rw [bind_run (lift_run hmk _), bind_run (bytes_append' (n := 32) sha r hlen), if_pos hsha]
    rfl
  unfold openBytes parseKdbx
  rw [hh]
  simp only [hd]
  rw [if_neg (by omega)]
  cases ht : computeTransformed4 P c d with
  | mk res kf =>
    rw [ht] at hk
    simp only at hk
    subst hk
    simp only [hb]
    simp [Except.map, readErr]

/-- Without the assumption that a key can be derived (e.g. the key file is missing): such a file
never opens. -/
theorem C07_never_opens (P : Prims) (c : Creds) (dec : Bool) (file sha r : Bytes) (h : Header)
    (hh : header "(parsing)" file = .ok (h, sha ++ r)) (hlen : sha.length = 32)
    (hv : h.value.major = 4) (hsha : sha ≠ P.sha256 h.data) (k : Kdbx) :
    openBytes P c dec file ≠ .ok k := by
  intro ho
  obtain ⟨rest, hp⟩ := openBytes_ok.mp ho
  obtain ⟨r', hr'⟩ := parse_header hp
  rw [hh] at hr'
  injection hr' with hr'
  injection hr' with hr' _
  obtain ⟨d, tk, r0, b, g1, g2, g3, g4, g5⟩ := (parse4_ok (by rw [← hr']; exact hv)).mp hp
  rw [hh] at g1
  injection g1 with g1
  injection g1 with g0 g1
  unfold body4 at g4
  obtain ⟨mk, m, hlift, g6⟩ := bind_ok.mp g4
  obtain ⟨s, m2, hs, g7⟩ := bind_ok.mp g6
  obtain ⟨_, rfl⟩ := lift_ok.mp hlift
  obtain ⟨hs1, hs2⟩ := bytes_ok.mp hs
  rw [← g1] at hs2
  have : sha = s := (List.append_inj hs2 (by omega)).1
  subst this
  rw [← hr', if_pos hsha] at g7
  exact fail_ok g7

/-- Finding: the key is derived before the hash is compared, so when that fails (here: the key file
cannot be opened) its error is what the caller sees, also for a corrupted header. -/
theorem C07_keyfile_first (P : Prims) (pw : Option Str) (t : Option Bytes) (dec : Bool) (file r : Bytes)
    (h : Header) (d : DynHeader) (hh : header "(parsing)" file = .ok (h, r))
    (hv : h.value.major = 4) (hd : h.value.dyn = some d) :
    openBytes P { password := pw, keyfile := .path none, transformedKey := t } dec file = .error .os := by
  unfold openBytes parseKdbx
  rw [hh]
  simp only [hd]
  rw [if_neg (by omega)]
  rfl

/-- A corrupted header: the file carries the hash of `h0`, its header is `h.data` instead, and the
hash function tells the two apart. -/
theorem C07_corrupted (P : Prims) (hP : P.Lawful) (c : Creds) (dec : Bool) (h0 r : Bytes) (h : Header)
    (d : DynHeader)
    (hh : header "(parsing)" (h.data ++ (P.sha256 h0 ++ r)) = .ok (h, P.sha256 h0 ++ r))
    (hv : h.value.major = 4) (hd : h.value.dyn = some d) (hne : P.sha256 h0 ≠ P.sha256 h.data)
    (tk seed : Bytes) (hk : (computeTransformed4 P c d).1 = .ok tk) (hs : d.raw .masterSeed = .ok seed) :
    openBytes P c dec (h.data ++ (P.sha256 h0 ++ r)) = .error .headerChecksum :=
  C07_rejected P c dec _ _ r h d hh (hP.sha256_length _) hv hd hne tk seed hk hs

/-- If a KDBX4 file opens, the header is followed by its SHA-256 and its keyed hash under the key
derived from the credentials. -/
theorem C07_opened (P : Prims) (hP : P.Lawful) (c : Creds) (file : Bytes) (k : Kdbx)
    (ho : openBytes P c true file = .ok k) (hv : k.header.value.major = 4) :
    ∃ d tk seed r, k.header.value.dyn = some d ∧ (computeTransformed4 P c d).1 = .ok tk ∧
      d.raw .masterSeed = .ok seed ∧
      file = k.header.data ++ (P.sha256 k.header.data ++ (headerMac P seed tk k.header.data ++ r)) := by
  obtain ⟨rest, hp⟩ := openBytes_ok.mp ho
  obtain ⟨d, tk, r0, b, g1, g2, g3, g4, g5⟩ := (parse4_ok hv).mp hp
  obtain ⟨mk, seed, z, cc, iv, blocks, dd, plain, p, s', _, k2, k3, _⟩ := (body4_iff P hP ..).mp g4
  refine ⟨d, tk, seed, s', g2, g3, k2, ?_⟩
  rw [(header_ok g1).1, k3]
  rfl

/-- The same without decrypting, for the plain hash. -/
theorem C07_opened_header_only (P : Prims) (c : Creds) (dec : Bool) (file : Bytes) (k : Kdbx)
    (ho : openBytes P c dec file = .ok k) (hv : k.header.value.major = 4) :
    ∃ r, file = k.header.data ++ (P.sha256 k.header.data ++ r) := by
  obtain ⟨rest, hp⟩ := openBytes_ok.mp ho
  obtain ⟨d, tk, r0, b, g1, g2, g3, g4, g5⟩ := (parse4_ok hv).mp hp
  unfold body4 at g4
  obtain ⟨mk, m, hlift, g6⟩ := bind_ok.mp g4
  obtain ⟨s, m2, hs, g7⟩ := bind_ok.mp g6
  obtain ⟨_, rfl⟩ := lift_ok.mp hlift
  obtain ⟨_, hs2⟩ := bytes_ok.mp hs
  by_cases hsha : s = P.sha256 k.header.data
  · exact ⟨m2, by rw [(header_ok g1).1, hs2, hsha]⟩
  · rw [if_pos hsha] at g7; exact absurd g7 fail_ok

/-- Met by the example header followed by 32 zero bytes, for every cipher. -/
example (c : CipherId) (z : Bool) (r : Bytes) :
    openBytes Toy.prims Toy.creds true
      ((Toy.header4 c z).data ++ (List.replicate 32 0 ++ r)) = .error .headerChecksum := by
  obtain ⟨tk, htk⟩ := Toy.key4 c z
  obtain ⟨seed, iv, h1, _⟩ := Toy.settings4 c z
  refine C07_rejected _ _ _ _ _ r (Toy.header4 c z) (Toy.dyn4 c z)
    (Parser.header_run _ 4 0 _ _ (Toy.headerOk4 c z) _) (by simp) rfl rfl ?_ tk seed htk h1
  cases c <;> cases z <;> decide +kernel

end Verif.Props
