import Verif.Props.C07_HeaderHash
/-!
# C05: wrong credentials are reported as `CredentialsError`
-/
namespace Verif.Props
open Verif Parser

/-- KDBX4: the header is intact (its SHA-256 follows), `mac` is the stored keyed hash. Credentials
whose key gives another keyed hash raise `CredentialsError`, whatever follows. -/
theorem C05_kdbx4 (P : Prims) (hP : P.Lawful) (c : Creds) (file mac r : Bytes) (h : Header)
    (d : DynHeader) (hh : header "(parsing)" file = .ok (h, P.sha256 h.data ++ (mac ++ r)))
    (hlen : mac.length = 32) (hv : h.value.major = 4) (hd : h.value.dyn = some d)
    (tk seed : Bytes) (hk : (computeTransformed4 P c d).1 = .ok tk) (hs : d.raw .masterSeed = .ok seed)
    (hwrong : mac ≠ headerMac P seed tk h.data) :
    openBytes P c true file = .error .credentials := by
  have hmk : computeMaster P d tk = .ok (P.sha256 (seed ++ tk)) := by
    unfold computeMaster; rw [exc_bind_run hs]; rfl
  have hb : body4 P h.data d tk true (P.sha256 h.data ++ (mac ++ r)) =
      .error (.checksum "(parsing) -> body -> cred_check") := by
    unfold body4
    rw [bind_run (lift_run hmk _),
      bind_run (bytes_append' (n := 32) _ (mac ++ r) (hP.sha256_length _)),
      if_neg (not_not_intro rfl), if_pos rfl, bind_run (lift_run hs _)]
    rw [bind_run (bytes_append' (n := 32) mac r hlen),
      if_pos (show mac ≠ headerHmac P (hmacBase P seed tk) h.data from hwrong)]
    rfl
  unfold openBytes parseKdbx
  rw [hh]
  simp only [hd]
  rw [if_neg (by omega)]
  cases ht : computeTransformed4 P c d with
  | mk res kf =>
    rw [ht] at hk
    simp only at hk
    subst hk
    simp only [hb]
    simp [Except.map, readErr]

/-- KDBX4: a database is only returned when the keyed hash in the file is the one derived from the
credentials. -/
theorem C05_kdbx4_opened (P : Prims) (hP : P.Lawful) (c : Creds) (file mac r : Bytes) (k : Kdbx)
    (ho : openBytes P c true file = .ok k) (hv : k.header.value.major = 4)
    (hf : file = k.header.data ++ (P.sha256 k.header.data ++ (mac ++ r))) (hlen : mac.length = 32) :
    ∃ d tk seed, k.header.value.dyn = some d ∧ (computeTransformed4 P c d).1 = .ok tk ∧
      d.raw .masterSeed = .ok seed ∧ mac = headerMac P seed tk k.header.data := by
  obtain ⟨d, tk, seed, r', h1, h2, h3, h4⟩ := C07_opened P hP c file k ho hv
  rw [hf] at h4
  have h5 := List.append_cancel_left (List.append_cancel_left h4)
  exact ⟨d, tk, seed, h1, h2, h3, (List.append_inj h5 (by rw [hlen]; exact (hP.hmac256_length _ _).symm)).1⟩

/-- KDBX3: the payload is a whole number of cipher blocks. `start` is what the header announces.
Credentials whose key decrypts the payload to at least 32 bytes that begin otherwise raise
`CredentialsError`. -/
theorem C05_kdbx3 (P : Prims) (c : Creds) (file enc : Bytes) (h : Header) (d : DynHeader)
    (hh : header "(parsing)" file = .ok (h, enc)) (hv : h.value.major = 3)
    (hd : h.value.dyn = some d) (tk seed iv start : Bytes) (cid : CipherId)
    (hk : (computeTransformed3 P c d).1 = .ok tk) (hs : d.raw .masterSeed = .ok seed)
    (hc : d.cipher = .ok cid) (hiv : d.raw .encryptionIv = .ok iv)
    (hst : d.raw .streamStartBytes = .ok start) (plain : Bytes)
    (hdec : payloadDecrypt P cid (P.sha256 (seed ++ tk)) iv enc = .ok plain)
    (hlen : 32 ≤ plain.length) (hwrong : plain.take 32 ≠ start) :
    openBytes P c true file = .error .credentials := by
  have hmk : computeMaster P d tk = .ok (P.sha256 (seed ++ tk)) := by
    unfold computeMaster; rw [exc_bind_run hs]; rfl
  have hu : unpack3 P d plain = .error (.checksum "(parsing) -> cred_check") := by
    unfold unpack3
    rw [exc_bind_run (a := (plain.take 32, plain.drop 32)) (by
      unfold bytes; rw [if_neg (by omega)])]
    simp only
    rw [exc_bind_run hst, if_pos hwrong]
    rfl
  have hb : body3 P d tk true enc = .error (.checksum "(parsing) -> cred_check") := by
    unfold body3
    rw [bind_run (lift_run hmk _), if_pos rfl, bind_run (lift_run hc _),
      bind_run (show greedy enc = .ok (enc, []) from rfl), bind_run (lift_run hiv _),
      bind_run (lift_run hdec _)]
    exact bind_err (by rw [hu]; rfl)
  unfold openBytes parseKdbx
  rw [hh]
  simp only [hd]
  rw [if_pos hv]
  cases ht : computeTransformed3 P c d with
  | mk res kf =>
    rw [ht] at hk
    simp only at hk
    subst hk
    simp only [hb]
    simp [Except.map, readErr]

/-- KDBX3: a database is only returned when the payload decrypts to the announced start bytes under
the key derived from the credentials. -/
theorem C05_kdbx3_opened (P : Prims) (c : Creds) (file : Bytes) (k : Kdbx)
    (ho : openBytes P c true file = .ok k) (hv : k.header.value.major = 3) :
    ∃ d tk seed iv cid enc plain start, k.header.value.dyn = some d ∧
      (computeTransformed3 P c d).1 = .ok tk ∧ d.raw .masterSeed = .ok seed ∧
      d.cipher = .ok cid ∧ d.raw .encryptionIv = .ok iv ∧ d.raw .streamStartBytes = .ok start ∧
      file = k.header.data ++ enc ∧
      payloadDecrypt P cid (P.sha256 (seed ++ tk)) iv enc = .ok plain ∧ plain.take 32 = start := by
  obtain ⟨rest, hp⟩ := openBytes_ok.mp ho
  obtain ⟨d, tk, r0, b, g1, g2, g3, g4, g5⟩ := (parse3_ok hv).mp hp
  obtain ⟨mk, cid, iv, plain, p, k1, k2, k3, k4, k5, _⟩ := (body3_iff P ..).mp g4
  obtain ⟨start, r, _, _, _, _, _, _, hl, rfl, hst, _⟩ := (unpack3_iff ..).mp k5
  unfold computeMaster at k1
  obtain ⟨seed, hs, k1⟩ := exc_bind_ok.mp k1
  have k1 := exc_pure_ok.mp k1
  subst k1
  exact ⟨d, tk, seed, iv, cid, r0, _, start, g2, g3, hs, k2, k3, hst, (header_ok g1).1, k4,
    by rw [List.take_append_of_le_length (by omega), List.take_of_length_le (by omega)]⟩

/-- What the wrong key makes of a payload of whole blocks, at least three of them, is long enough:
unpadding removes at most 16 bytes. So the length hypothesis of `C05_kdbx3` holds for every file a
writer can have produced (32 start bytes and a block header are 72 bytes). -/
theorem C05_kdbx3_length (P : Prims) (hP : P.Lawful) (c : CipherId) (key iv enc : Bytes)
    (hc : CipherOk c key iv) (h16 : enc.length % 16 = 0) (h48 : 48 ≤ enc.length) :
    ∃ plain, payloadDecrypt P c key iv enc = .ok plain ∧ 32 ≤ plain.length := by
  obtain ⟨d, hd⟩ := payloadDecrypt_total (P := P) hc h16
  have := payloadDecrypt_length hP h16 hd
  exact ⟨d, hd, by omega⟩

/-- A wrong password on the KDBX4 example, for every cipher, compressed or not. -/
example (c : CipherId) (z : Bool) :
    openBytes Toy.prims Toy.wrong true (Toy.file4 c z) = .error .credentials := by
  obtain ⟨tk, r, h1, h2⟩ := Toy.file4_parts c z
  rw [h2]
  obtain ⟨tk', h3⟩ : ∃ tk', (computeTransformed4 Toy.prims Toy.wrong (Toy.dyn4 c z)).1 = .ok tk' := by
    cases c <;> cases z <;> exact ⟨_, rfl⟩
  refine C05_kdbx4 Toy.prims Toy.lawful Toy.wrong _
    (headerHmac Toy.prims (hmacBase Toy.prims (List.replicate 32 7) tk) (Toy.header4 c z).data) r
    (Toy.header4 c z) (Toy.dyn4 c z) (Parser.header_run _ 4 0 _ _ (Toy.headerOk4 c z) _)
    (Toy.lawful.hmac256_length _ _) rfl rfl tk' (List.replicate 32 7) h3 ?_ ?_
  · cases c <;> cases z <;> rfl
  · have e1 : ∀ t, (computeTransformed4 Toy.prims Toy.creds (Toy.dyn4 c z)).1 = .ok t →
        t = Toy.mix 32 (Toy.mix 32 (Toy.mix 32 [112]) ++ [5, 6]) := by
      intro t ht; cases c <;> cases z <;> exact (Except.ok.inj ht).symm
    have e2 : ∀ t, (computeTransformed4 Toy.prims Toy.wrong (Toy.dyn4 c z)).1 = .ok t →
        t = Toy.mix 32 (Toy.mix 32 (Toy.mix 32 [113]) ++ [5, 6]) := by
      intro t ht; cases c <;> cases z <;> exact (Except.ok.inj ht).symm
    rw [e1 tk h1, e2 tk' h3]
    cases c <;> cases z <;> decide +kernel

end Verif.Props
