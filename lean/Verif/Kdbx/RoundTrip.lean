import Verif.Kdbx.FileLemmas
/-!
# Lemmas for the save/open round trip
-/
namespace Verif
open Parser

theorem payloadDecrypt_cipherOk {P : Prims} {c : CipherId} {key iv data d : Bytes}
    (h : payloadDecrypt P c key iv data = .ok d) : CipherOk c key iv := by
  cases c with
  | aes256 =>
    simp only [payloadDecrypt] at h
    split at h
    · cases h
    · next hk =>
      split at h
      · cases h
      · next hi => exact ⟨Decidable.not_not.mp hk, Decidable.not_not.mp hi⟩
  | chacha20 =>
    simp only [payloadDecrypt] at h
    split at h
    · cases h
    · next hk =>
      split at h
      · cases h
      · next hi => exact ⟨Decidable.not_not.mp hk, Decidable.not_not.mp hi⟩
  | twofish =>
    simp only [payloadDecrypt] at h
    unfold Twofish.newCbc at h
    by_cases hk : key.length = 16 ∨ key.length = 24 ∨ key.length = 32
    · by_cases hi : iv.length = 16
      · exact ⟨hk, hi⟩
      · rw [if_neg (not_not_intro hk)] at h
        cases hs : Twofish.setKey key with
        | error e => rw [hs] at h; cases h
        | ok c => rw [hs] at h; simp only [if_pos hi] at h; cases h
    · rw [if_pos hk] at h; cases h

/-- The ciphers add at most one block of padding. -/
theorem payloadEncrypt_length {P : Prims} (hP : P.Lawful) {c : CipherId} {key iv data e : Bytes}
    (h : payloadEncrypt P c key iv data = .ok e) : e.length ≤ data.length + 16 := by
  have hpad : (pad data).length ≤ data.length + 16 := by
    simp only [pad, List.length_append, List.length_replicate]; omega
  cases c with
  | aes256 =>
    simp only [payloadEncrypt] at h
    split at h
    · cases h
    · next hk =>
      split at h
      · cases h
      · next hi =>
        split at h
        · cases h
        · next hd =>
          injection h with h
          subst h
          rw [hP.aesEnc_length _ _ _ (Decidable.not_not.mp hk) (Decidable.not_not.mp hi)
            (Decidable.not_not.mp hd)]
          exact hpad
  | chacha20 =>
    simp only [payloadEncrypt] at h
    split at h
    · cases h
    · split at h
      · cases h
      · injection h with h
        subst h
        rw [ksXor_length]; omega
  | twofish =>
    simp only [payloadEncrypt] at h
    cases hs : Twofish.newCbc key iv with
    | error e => rw [hs] at h; cases h
    | ok s =>
      rw [hs] at h
      injection h with h
      subst h
      have hs0 := hs
      unfold Twofish.newCbc at hs0
      by_cases hk : key.length = 16 ∨ key.length = 24 ∨ key.length = 32
      · by_cases hi : iv.length = 16
        · obtain ⟨s', hs', hok, hi', hc⟩ := newCbc_ok hk hi
          rw [hs] at hs'
          injection hs' with hs'
          subst hs'
          rw [Twofish.encUpdate_eq]
          simp only [hc, List.nil_append]
          rw [(Twofish.decLoop_encLoop s.ctx hok (pad data) s.iv (by rw [hi']; exact hi)).2.2.2]
          omega
        · rw [if_neg (not_not_intro hk)] at hs0
          cases hs1 : Twofish.setKey key with
          | error e => rw [hs1] at hs0; cases hs0
          | ok c => rw [hs1] at hs0; simp only [if_pos hi] at hs0; cases hs0
      · rw [if_pos hk] at hs0; cases hs0

theorem innerOk_binaries {ih : InnerHeader} (h : ih.Ok) (bs : List Bytes) :
    InnerHeader.Ok { ih with binaries := bs } :=
  ⟨h.typed, h.nodup, h.last⟩

/-- Reading back what `buildBody4` wrote. -/
theorem body4_build (P : Prims) (hP : P.Lawful) (raw : Bytes) (h : DynHeader) (tk : Bytes)
    (inner : InnerHeader) (hin : inner.Ok) (xml : Xml) (hx : xml.Valid) (out r : Bytes)
    (hb : buildBody4 P raw h tk (some { inner := some inner, xml := xml }) = .ok out) :
    ∃ mk, computeMaster P h tk = .ok mk ∧ body4 P raw h tk true (out ++ r) =
      .ok ({ transformedKey := tk, masterKey := mk,
             payload := some { inner := some inner, xml := xml.norm } }, r) := by
  obtain ⟨mk, seed, ih, sid, x, z, c, iv, enc, blocks, h1, h2, h3, h4, h5, h6, h7, h8, h9, h10,
    rfl⟩ := (buildBody4_iff ..).mp hb
  refine ⟨mk, h1, (body4_iff P hP ..).mpr ⟨mk, seed, z, c, iv, splitBlocks enc,
    compress P z (ih ++ x), ih ++ x, { inner := some inner, xml := xml.norm }, blocks ++ r,
    h1, h2, ?_, h6, h7, ?_, h8, ?_, ?_, ?_, rfl⟩⟩
  · simp only [List.append_assoc]
  · exact blocks4_build P hP _ _ _ _ h10
  · rw [concatBlocks_splitBlocks]; exact payload_roundtrip P hP _ _ _ _ _ h9
  · exact decompress_compress P hP _ _
  · exact (unpack4_iff ..).mpr ⟨inner, x, sid, xml.norm, innerHeader_build _ hin _ _ h3, h4,
      readXml_writeXml P hP _ _ _ hx _ h5, rfl⟩

/-- Reading back what `buildBody3` wrote. -/
theorem body3_build (P : Prims) (hP : P.Lawful) (h : DynHeader) (tk : Bytes)
    (inner : Option InnerHeader) (xml : Xml) (hx : xml.Valid) (out : Bytes)
    (hb : buildBody3 P h tk (some { inner := inner, xml := xml }) = .ok out) :
    ∃ mk, computeMaster P h tk = .ok mk ∧ body3 P h tk true out =
      .ok ({ transformedKey := tk, masterKey := mk,
             payload := some { inner := none, xml := xml.norm } }, []) := by
  obtain ⟨mk, start, sid, x, z, blocks, c, iv, h1, h2, h3, h4, h5, h6, h7, h8, h9, h10⟩ :=
    (buildBody3_iff ..).mp hb
  refine ⟨mk, h1, (body3_iff P ..).mpr ⟨mk, c, iv, start ++ blocks,
    { inner := none, xml := xml.norm }, h1, h8, h9, payload_roundtrip P hP _ _ _ _ _ h10, ?_,
    rfl, rfl⟩⟩
  have hbl := blocks3_build P hP _ _ [] h7
  rw [List.append_nil] at hbl
  exact (unpack3_iff ..).mpr ⟨start, blocks, sid, z, _, _, x, xml.norm, h3, rfl, h2, h4, h6,
    hbl, by rw [concatBlocks_splitBlocks]; exact decompress_compress P hP _ _,
    readXml_writeXml P hP _ _ _ hx _ h5, rfl⟩

/-- Writing succeeds for the settings of a body that was read. -/
theorem buildBody4_total (P : Prims) (hP : P.Lawful) (raw : Bytes) (h : DynHeader)
    (tk0 s r : Bytes) (b : Body) (p : Payload) (ih : InnerHeader)
    (ho : body4 P raw h tk0 true s = .ok (b, r)) (hp : b.payload = some p)
    (hih : p.inner = some ih) (tk : Bytes) (bs : List Bytes) (xml : Xml)
    (hsz : ∀ x ∈ innerEncode { ih with binaries := bs }, ∀ d, x.2 = .raw d → d.length < 2 ^ 32)
    (hlen : ∀ z d, h.compressed = .ok z →
      pack4 P (some { inner := some { ih with binaries := bs }, xml := xml }) = .ok d →
      (compress P z d).length + 16 < 2 ^ 83) :
    ∃ out, buildBody4 P raw h tk (some { inner := some { ih with binaries := bs }, xml := xml })
      = .ok out := by
  obtain ⟨mk0, seed, z, c, iv, blocks, d, plain, p', s', h1, h2, _, h6, h7, _, h8, h9, _, h11, rfl⟩ :=
    (body4_iff P hP ..).mp ho
  injection hp with hp
  subst hp
  obtain ⟨inner, r', sid, xml0, k1, k2, k3, rfl⟩ := (unpack4_iff ..).mp h11
  injection hih with hih
  subst hih
  have hok := innerOk_binaries (innerHeader_ok k1) bs
  obtain ⟨y, hy⟩ := buildInner_total _ hok hsz
  obtain ⟨x, hx⟩ := writeXml_total P sid inner.streamKey xml k3
  have hmk : computeMaster P h tk = .ok (P.sha256 (seed ++ tk)) := by
    unfold computeMaster; rw [exc_bind_run h2]; rfl
  have hmk0 : mk0 = P.sha256 (seed ++ tk0) := by
    unfold computeMaster at h1; rw [exc_bind_run h2] at h1; exact (exc_pure_ok.mp h1).symm
  have hco := payloadDecrypt_cipherOk h9
  have hco' : CipherOk c (P.sha256 (seed ++ tk)) iv := by
    subst hmk0
    cases c <;>
      simp only [CipherOk, AesKeyLen, hP.sha256_length] at hco ⊢ <;> exact hco
  obtain ⟨enc, henc⟩ := payloadEncrypt_total P c _ iv (compress P z (y ++ x)) hco'
  have hpk : pack4 P (some { inner := some { inner with binaries := bs }, xml := xml })
      = .ok (y ++ x) := by
    unfold pack4
    simp only
    rw [exc_bind_run hy, exc_bind_run (show InnerHeader.streamId { inner with binaries := bs }
      = .ok sid from k2), exc_bind_run (show writeXml P sid (InnerHeader.streamKey
        { inner with binaries := bs }) xml = .ok x from hx)]
    rfl
  have hl := payloadEncrypt_length hP henc
  have hl2 := hlen z _ h6 hpk
  obtain ⟨blk, hblk⟩ := buildBlocks4_total P (hmacBase P seed tk) enc (by omega)
  exact ⟨_, (buildBody4_iff ..).mpr ⟨_, seed, y, sid, x, z, c, iv, enc, blk, hmk, h2, hy, k2, hx, h6,
    h7, h8, henc, hblk, rfl⟩⟩

theorem buildBody3_total (P : Prims) (hP : P.Lawful) (h : DynHeader)
    (tk0 s r : Bytes) (b : Body) (ho : body3 P h tk0 true s = .ok (b, r)) (tk : Bytes)
    (inner : Option InnerHeader) (xml : Xml)
    (hlen : ∀ z sid x, h.compressed = .ok z → h.streamId = .ok sid →
      writeXml P sid h.streamKey xml = .ok x → (compress P z x).length < 2 ^ 51) :
    ∃ out, buildBody3 P h tk (some { inner := inner, xml := xml }) = .ok out := by
  obtain ⟨mk0, c, iv, d, p, h1, h2, h3, h4, h5, _, rfl⟩ := (body3_iff P ..).mp ho
  obtain ⟨start, r', sid, z, blocks, _, plain, xml0, k1, rfl, k2, k3, k4, k5, k6, k7, rfl⟩ :=
    (unpack3_iff ..).mp h5
  obtain ⟨x, hx⟩ := writeXml_total P sid h.streamKey xml k7
  unfold computeMaster at h1
  obtain ⟨seed, g1, g2⟩ := exc_bind_ok.mp h1
  have hmk : computeMaster P h tk = .ok (P.sha256 (seed ++ tk)) := by
    unfold computeMaster; rw [exc_bind_run g1]; rfl
  have hmk0 := exc_pure_ok.mp g2
  have hco := payloadDecrypt_cipherOk h4
  have hco' : CipherOk c (P.sha256 (seed ++ tk)) iv := by
    subst hmk0
    cases c <;>
      simp only [CipherOk, AesKeyLen, hP.sha256_length] at hco ⊢ <;> exact hco
  obtain ⟨blk, hblk⟩ := buildBlocks3_total P (compress P z x) (hlen z sid x k4 k3 hx)
  obtain ⟨enc, henc⟩ := payloadEncrypt_total P c _ iv (start ++ blk) hco'
  exact ⟨_, (buildBody3_iff ..).mpr ⟨_, start, sid, x, z, blk, c, iv, hmk, k2, k1, k3, hx, k4, hblk,
    h2, h3, henc⟩⟩

end Verif
