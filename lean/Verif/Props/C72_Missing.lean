import Verif.Kdbx.FileLemmas
import Verif.Kdbx.Toy
/-!
# C72 A database is opened only if everything it is opened with is in the file

No part of a header has a default. A file in which a needed one is missing is refused, and which exception is raised depends on how the code
asks for it: `AttributeError` where it uses an attribute, `KeyError` where it uses a path of `construct`; never one of the exceptions that tell
about credentials or damage.
-/
namespace Verif.Props
open Verif Parser

/-- A field is looked up with these results. -/
theorem raw_get {d : DynHeader} {i : HId} {b : Bytes} : d.raw i = .ok b ↔ d.get i = some (.raw b) := by
  unfold DynHeader.raw
  constructor
  · intro h
    split at h
    · next e => injection h with h; rw [e, h]
    · cases h
    · cases h
  · intro h; rw [h]

theorem raw_none {d : DynHeader} {i : HId} (h : d.get i = none) : d.raw i = .error .attribute := by unfold DynHeader.raw; rw [h]

theorem cipher_get {d : DynHeader} {c : CipherId} : d.cipher = .ok c ↔ d.get .cipherId = some (.cipher c) := by
  unfold DynHeader.cipher
  constructor
  · intro h
    split at h
    · next e => injection h with h; rw [e, h]
    · cases h
    · cases h
  · intro h; rw [h]

theorem compressed_get {d : DynHeader} {z : Bool} : d.compressed = .ok z ↔ d.get .compressionFlags = some (.flag z) := by
  unfold DynHeader.compressed
  constructor
  · intro h
    split at h
    · next e => injection h with h; rw [e, h]
    · cases h
    · cases h
  · intro h; rw [h]

theorem streamId_get {d : DynHeader} {i : StreamId} : d.streamId = .ok i ↔ d.get .protectedStreamId = some (.stream i) := by
  unfold DynHeader.streamId
  constructor
  · intro h
    split at h
    · next e => injection h with h; rw [e, h]
    · cases h
    · cases h
  · intro h; rw [h]

theorem streamKey_get {d : DynHeader} {b : Bytes} : d.streamKey = .ok b ↔ d.get .protectedStreamKey = some (.raw b) := by
  unfold DynHeader.streamKey
  constructor
  · intro h
    split at h
    · next e => injection h with h; rw [e, h]
    · cases h
    · cases h
  · intro h; rw [h]

theorem rounds_get {d : DynHeader} {n : Nat} : d.rounds = .ok n ↔ d.get .transformRounds = some (.rounds n) := by
  unfold DynHeader.rounds
  constructor
  · intro h
    split at h
    · next e => injection h with h; rw [e, h]
    · cases h
    · cases h
  · intro h; rw [h]

theorem kdf_get {d : DynHeader} {v : VDict} : d.kdf = .ok v ↔ d.get .kdfParameters = some (.dict v) := by
  unfold DynHeader.kdf
  constructor
  · intro h
    split at h
    · next e => injection h with h; rw [e, h]
    · cases h
    · cases h
  · intro h; rw [h]

theorem key_needed {P : Prims} {s : StreamId} {key : Except PyErr Bytes} {x : Bytes} {t : Xml} (h : readXml P s key x = .ok t) :
    s = .none ∨ ∃ k, key = .ok k := by
  unfold readXml at h
  obtain ⟨_, _, h⟩ := exc_bind_ok.mp h
  obtain ⟨ks, h, _⟩ := exc_bind_ok.mp h
  unfold innerStream at h
  cases s with
  | none => exact .inl rfl
  | _ => right; obtain ⟨k, e, _⟩ := exc_bind_ok.mp h; exact ⟨k, e⟩

section
variable {P : Prims} {c : Creds} {s : Bytes} {k : Kdbx} {d : DynHeader}

/-- A KDBX3 database that was opened has all of these; the two for the key derivation unless the key was given, and the key of the inner stream
unless there is no inner encryption. -/
theorem C72_needed3 (ho : openBytes P c true s = .ok k) (hv : k.header.value.major = 3) (hd : k.header.value.dyn = some d) :
    (∃ b, d.get .masterSeed = some (.raw b)) ∧ (∃ a, d.get .cipherId = some (.cipher a)) ∧ (∃ b, d.get .encryptionIv = some (.raw b)) ∧
    (∃ b, d.get .streamStartBytes = some (.raw b)) ∧ (∃ z, d.get .compressionFlags = some (.flag z)) ∧
    (∃ i, d.get .protectedStreamId = some (.stream i) ∧ (i = .none ∨ ∃ b, d.get .protectedStreamKey = some (.raw b))) ∧
    (c.transformedKey = none → (∃ b, d.get .transformSeed = some (.raw b)) ∧ ∃ n, d.get .transformRounds = some (.rounds n)) := by
  obtain ⟨r, h⟩ := openBytes_ok.mp ho
  obtain ⟨d', tk, r, b, _, h2, h3, h4, _⟩ := (parse3_ok hv).mp h
  rw [hd] at h2
  injection h2 with h2
  subst h2
  obtain ⟨mk, a, iv, x, p, g1, g2, g3, _, g5, _, _⟩ := (body3_iff P d tk _ _ b).mp h4
  obtain ⟨start, _, i, z, _, _, _, _, _, _, e1, e2, e3, _, _, e4, _⟩ := (unpack3_iff P d x p).mp g5
  unfold computeMaster at g1
  obtain ⟨seed, g1, _⟩ := exc_bind_ok.mp g1
  refine ⟨⟨_, raw_get.mp g1⟩, ⟨_, cipher_get.mp g2⟩, ⟨_, raw_get.mp g3⟩, ⟨_, raw_get.mp e1⟩, ⟨_, compressed_get.mp e3⟩,
    ⟨i, streamId_get.mp e2, (key_needed e4).imp id fun ⟨b, h⟩ => ⟨b, streamKey_get.mp h⟩⟩, fun hk => ?_⟩
  unfold computeTransformed3 at h3
  rw [hk] at h3
  dsimp only at h3
  split at h3
  · cases h3
  · obtain ⟨b, k1, h3⟩ := exc_bind_ok.mp h3
    obtain ⟨n, k2, _⟩ := exc_bind_ok.mp h3
    exact ⟨⟨b, raw_get.mp k1⟩, n, rounds_get.mp k2⟩

/-- A KDBX4 database that was opened has all of these, the parameters of the key derivation even if the key was given. -/
theorem C72_needed4 (hP : P.Lawful) (ho : openBytes P c true s = .ok k) (hv : k.header.value.major = 4) (hd : k.header.value.dyn = some d) :
    (∃ b, d.get .masterSeed = some (.raw b)) ∧ (∃ a, d.get .cipherId = some (.cipher a)) ∧ (∃ b, d.get .encryptionIv = some (.raw b)) ∧
    (∃ z, d.get .compressionFlags = some (.flag z)) ∧ (∃ v, d.get .kdfParameters = some (.dict v) ∧
      (c.transformedKey = none → ∃ u, dictGet v.items "$UUID".toList = some (.bytes u) ∧ u ∈ [uuidArgon2, uuidArgon2id, uuidAesKdf])) ∧
    (∃ b p ih i, k.body = some b ∧ b.payload = some p ∧ p.inner = some ih ∧ ih.fields.lookup .streamId = some (.stream i) ∧
      (i = .none ∨ ∃ b, ih.fields.lookup .streamKey = some (.raw b))) := by
  obtain ⟨r, h⟩ := openBytes_ok.mp ho
  obtain ⟨d', tk, r, b, _, h2, h3, h4, hb⟩ := (parse4_ok hv).mp h
  rw [hd] at h2
  injection h2 with h2
  subst h2
  obtain ⟨mk, seed, z, a, iv, _, x, plain, p, _, _, g1, _, g2, g3, _, g4, _, _, g5, rfl⟩ := (body4_iff P hP _ d tk _ _ b).mp h4
  obtain ⟨ih, _, i, _, _, e1, e2, rfl⟩ := (unpack4_iff P plain p).mp g5
  refine ⟨⟨_, raw_get.mp g1⟩, ⟨_, cipher_get.mp g3⟩, ⟨_, raw_get.mp g4⟩, ⟨_, compressed_get.mp g2⟩, ?_, ⟨_, _, ih, i, hb, rfl, rfl, ?_, ?_⟩⟩
  · unfold computeTransformed4 at h3
    split at h3
    · cases h3
    · split at h3
      · cases h3
      · rename_i v hv
        refine ⟨v, kdf_get.mp hv, fun hk => ?_⟩
        rw [hk] at h3
        dsimp only at h3
        split at h3
        · cases h3
        · rename_i u hu
          have hu' : dictGet v.items "$UUID".toList = some u := by
            unfold VDict.get at hu
            split at hu
            · injection hu with hu; subst hu; assumption
            · cases hu
          split at h3
          · rename_i e
            rcases e with rfl | rfl
            · exact ⟨_, hu', by decide⟩
            · exact ⟨_, hu', by decide⟩
          · split at h3
            · rename_i e; subst e; exact ⟨_, hu', by decide⟩
            · cases h3
  · unfold InnerHeader.streamId at e1
    split at e1
    · injection e1 with e1; subst e1; assumption
    · cases e1
    · cases e1
  · refine (key_needed e2).imp id fun ⟨b, h⟩ => ⟨b, ?_⟩
    unfold InnerHeader.streamKey at h
    split at h
    · injection h with h; subst h; assumption
    · cases h
    · cases h

/-! ## The exception -/

theorem exc_bind_err {α β} {x : Except PyErr α} {f : α → Except PyErr β} {e : PyErr} (h : x = .error e) : (x >>= f) = .error e := by rw [h]; rfl

theorem lift_err {α} {x : Except PyErr α} {e : PyErr} (h : x = .error e) (s : Bytes) : lift x s = .error e := by unfold lift; rw [h]; rfl

theorem key_asked {P : Prims} {i : StreamId} {key : Except PyErr Bytes} {x : Bytes} {t : Xml} {e : PyErr} (ht : P.xmlParse x = .ok t)
    (hi : i ≠ .none) (hk : key = .error e) : readXml P i key x = .error e := by
  unfold readXml
  rw [exc_bind_run ht]
  have : innerStream P i key = .error e := by
    unfold innerStream
    cases i with
    | none => exact absurd rfl hi
    | _ => exact exc_bind_err hk
  exact exc_bind_err this

theorem open_err3 {h : Header} {r : Bytes} (hh : header "(parsing)" s = .ok (h, r)) (hv : h.value.major = 3) (hd : h.value.dyn = some d)
    (dec : Bool) :
    (∀ e, (computeTransformed3 P c d).1 = .error e → openBytes P c dec s = .error (readErr e)) ∧
    (∀ tk e, (computeTransformed3 P c d).1 = .ok tk → body3 P d tk dec r = .error e → openBytes P c dec s = .error (readErr e)) := by
  unfold openBytes parseKdbx
  rw [hh]
  dsimp only
  rw [hd]
  dsimp only
  rw [if_pos hv]
  rcases computeTransformed3 P c d with ⟨x, kf⟩
  constructor
  · rintro e rfl; rfl
  · rintro tk e rfl h; dsimp only; rw [h]; rfl

theorem open_err4 {h : Header} {r : Bytes} (hh : header "(parsing)" s = .ok (h, r)) (hv : h.value.major = 4) (hd : h.value.dyn = some d)
    (dec : Bool) :
    (∀ e, (computeTransformed4 P c d).1 = .error e → openBytes P c dec s = .error (readErr e)) ∧
    (∀ tk e, (computeTransformed4 P c d).1 = .ok tk → body4 P h.data d tk dec r = .error e → openBytes P c dec s = .error (readErr e)) := by
  unfold openBytes parseKdbx
  rw [hh]
  dsimp only
  rw [hd]
  dsimp only
  rw [if_neg (by rw [hv]; decide)]
  rcases computeTransformed4 P c d with ⟨x, kf⟩
  constructor
  · rintro e rfl; rfl
  · rintro tk e rfl h; dsimp only; rw [h]; rfl

/-- KDBX3: the first field that is missing, in the order in which they are asked for. -/
theorem C72_missing3 {h : Header} {r : Bytes} (hh : header "(parsing)" s = .ok (h, r)) (hv : h.value.major = 3) (hd : h.value.dyn = some d) :
    (c.transformedKey = none → ∀ comp, (computeKeyComposite P c.password c.keyfile).1 = .ok comp →
      (d.get .transformSeed = none → openBytes P c true s = .error .attribute) ∧
      ∀ b, d.get .transformSeed = some (.raw b) → d.get .transformRounds = none → openBytes P c true s = .error .attribute) ∧
    ∀ tk, (computeTransformed3 P c d).1 = .ok tk →
      (d.get .masterSeed = none → openBytes P c true s = .error .attribute) ∧
      ∀ seed, d.get .masterSeed = some (.raw seed) →
        (d.get .cipherId = none → openBytes P c true s = .error .key) ∧
        ∀ a, d.get .cipherId = some (.cipher a) →
          (d.get .encryptionIv = none → openBytes P c true s = .error .attribute) ∧
          ∀ iv start x, d.get .encryptionIv = some (.raw iv) → payloadDecrypt P a (P.sha256 (seed ++ tk)) iv r = .ok (start ++ x) →
            start.length = 32 →
            (d.get .streamStartBytes = none → openBytes P c true s = .error .attribute) ∧
            (d.get .streamStartBytes = some (.raw start) →
              (d.get .protectedStreamId = none → openBytes P c true s = .error .key) ∧
              ∀ i, d.get .protectedStreamId = some (.stream i) →
                (d.get .compressionFlags = none → openBytes P c true s = .error .key) ∧
                ∀ z blocks r' plain t, d.get .compressionFlags = some (.flag z) → blocks3 P x = .ok (blocks, r') →
                  decompress P z (concatBlocks blocks) = .ok plain → P.xmlParse plain = .ok t → i ≠ .none →
                  d.get .protectedStreamKey = none → openBytes P c true s = .error .key) := by
  obtain ⟨o1, o2⟩ := open_err3 (P := P) (c := c) hh hv hd true
  refine ⟨fun hk comp hc => ?_, fun tk ht => ?_⟩
  · have key : ∀ e, (do let seed ← d.raw .transformSeed; let n ← d.rounds; aesKdf P seed n comp) = .error e →
        openBytes P c true s = .error (readErr e) := by
      intro e he
      refine o1 e ?_
      unfold computeTransformed3
      rw [hk]
      dsimp only
      generalize computeKeyComposite P c.password c.keyfile = q at hc
      obtain ⟨q, kf⟩ := q
      dsimp only at hc
      subst hc
      exact he
    refine ⟨fun h => key .attribute (exc_bind_err (raw_none h)), fun b h1 h2 => key .attribute ?_⟩
    rw [exc_bind_run (raw_get.mpr h1)]
    exact exc_bind_err (by unfold DynHeader.rounds; rw [h2])
  · have o2 := o2 tk
    refine ⟨fun h => o2 .attribute ht ?_, fun seed hs => ?_⟩
    · unfold body3
      exact bind_err (lift_err (exc_bind_err (raw_none h)) _)
    have hm : computeMaster P d tk = .ok (P.sha256 (seed ++ tk)) := exc_bind_run (raw_get.mpr hs)
    refine ⟨fun h => o2 .key ht ?_, fun a ha => ?_⟩
    · unfold body3
      rw [bind_run (lift_run hm _), if_pos rfl]
      exact bind_err (lift_err (by unfold DynHeader.cipher; rw [h]) _)
    have hg : ∀ y, greedy y = .ok (y, []) := fun _ => rfl
    refine ⟨fun h => o2 .attribute ht ?_, fun iv start x hi hp hl => ?_⟩
    · unfold body3
      rw [bind_run (lift_run hm _), if_pos rfl, bind_run (lift_run (cipher_get.mpr ha) _), bind_run (hg _)]
      exact bind_err (lift_err (raw_none h) _)
    have key : ∀ e, unpack3 P d (start ++ x) = .error e → openBytes P c true s = .error (readErr e) := by
      intro e he
      refine o2 e ht ?_
      unfold body3
      rw [bind_run (lift_run hm _), if_pos rfl, bind_run (lift_run (cipher_get.mpr ha) _), bind_run (hg _),
        bind_run (lift_run (raw_get.mpr hi) _), bind_run (lift_run hp _)]
      exact bind_err (lift_err he _)
    have hb : bytes 32 (start ++ x) = .ok (start, x) := bytes_append' _ _ hl
    refine ⟨fun h => key .attribute ?_, fun hst => ⟨fun h => key .key ?_, fun i hi => ⟨fun h => key .key ?_, ?_⟩⟩⟩
    · unfold unpack3
      rw [exc_bind_run hb]
      exact exc_bind_err (raw_none h)
    · unfold unpack3
      rw [exc_bind_run hb]
      dsimp only
      rw [exc_bind_run (raw_get.mpr hst), if_neg (not_not_intro rfl)]
      exact exc_bind_err (by unfold DynHeader.streamId; rw [h])
    · unfold unpack3
      rw [exc_bind_run hb]
      dsimp only
      rw [exc_bind_run (raw_get.mpr hst), if_neg (not_not_intro rfl), exc_bind_run (streamId_get.mpr hi)]
      exact exc_bind_err (by unfold DynHeader.compressed; rw [h])
    · intro z blocks r' plain t hz hbl hpl hx hn h
      refine key .key ?_
      unfold unpack3
      rw [exc_bind_run hb]
      dsimp only
      rw [exc_bind_run (raw_get.mpr hst), if_neg (not_not_intro rfl), exc_bind_run (streamId_get.mpr hi), exc_bind_run (compressed_get.mpr hz),
        exc_bind_run hbl]
      dsimp only
      rw [exc_bind_run hpl]
      exact exc_bind_err (key_asked hx hn (by unfold DynHeader.streamKey; rw [h]))

/-- KDBX4, the same; here the parameters of the key derivation come first, and the id and key of the inner stream are in the inner header. -/
theorem C72_missing4 (hP : P.Lawful) {h : Header} {r : Bytes} (hh : header "(parsing)" s = .ok (h, r)) (hv : h.value.major = 4)
    (hd : h.value.dyn = some d) :
    (∀ comp, (computeKeyComposite P c.password c.keyfile).1 = .ok comp →
      (d.get .kdfParameters = none → openBytes P c true s = .error .attribute) ∧
      ∀ v, d.get .kdfParameters = some (.dict v) → c.transformedKey = none →
        (dictGet v.items "$UUID".toList = none → openBytes P c true s = .error .key) ∧
        ∀ u, dictGet v.items "$UUID".toList = some u → u ∉ [.bytes uuidArgon2, .bytes uuidArgon2id, .bytes uuidAesKdf] →
          openBytes P c true s = .error .exception) ∧
    ∀ tk, (computeTransformed4 P c d).1 = .ok tk →
      (d.get .masterSeed = none → openBytes P c true s = .error .attribute) ∧
      ∀ seed y, d.get .masterSeed = some (.raw seed) → r = P.sha256 h.data ++ (headerHmac P (hmacBase P seed tk) h.data ++ y) →
        (d.get .compressionFlags = none → openBytes P c true s = .error .key) ∧
        ∀ z, d.get .compressionFlags = some (.flag z) →
          (d.get .cipherId = none → openBytes P c true s = .error .key) ∧
          ∀ a blocks r', d.get .cipherId = some (.cipher a) → blocks4 P (hmacBase P seed tk) y = .ok (blocks, r') →
            (d.get .encryptionIv = none → openBytes P c true s = .error .attribute) ∧
            ∀ iv x plain ih t, d.get .encryptionIv = some (.raw iv) →
              payloadDecrypt P a (P.sha256 (seed ++ tk)) iv (concatBlocks blocks) = .ok x → decompress P z x = .ok plain →
              innerHeader plain = .ok (ih, t) →
              (ih.fields.lookup .streamId = none → openBytes P c true s = .error .key) ∧
              ∀ i tree, ih.fields.lookup .streamId = some (.stream i) → P.xmlParse t = .ok tree → i ≠ .none →
                ih.fields.lookup .streamKey = none → openBytes P c true s = .error .key := by
  obtain ⟨o1, o2⟩ := open_err4 (P := P) (c := c) hh hv hd true
  refine ⟨fun comp hc => ?_, fun tk ht => ?_⟩
  · have hc' : ∃ kf, computeKeyComposite P c.password c.keyfile = (.ok comp, kf) := ⟨_, by rw [← hc]⟩
    obtain ⟨kf, hc'⟩ := hc'
    refine ⟨fun h => o1 .attribute ?_, fun v h1 hk => ⟨fun h => o1 .key ?_, fun u h2 h3 => o1 .exception ?_⟩⟩
    · unfold computeTransformed4
      rw [hc']
      dsimp only
      have : d.kdf = .error .attribute := by unfold DynHeader.kdf; rw [h]
      rw [this]
    · unfold computeTransformed4
      rw [hc']
      dsimp only
      rw [kdf_get.mpr h1, hk]
      dsimp only
      have : v.get "$UUID" = .error .key := by unfold VDict.get; rw [h]
      rw [this]
    · unfold computeTransformed4
      rw [hc']
      dsimp only
      rw [kdf_get.mpr h1, hk]
      dsimp only
      have : v.get "$UUID" = .ok u := by unfold VDict.get; rw [h2]
      rw [this]
      simp only [List.mem_cons, List.not_mem_nil, or_false, not_or] at h3
      dsimp only
      rw [if_neg (fun e => e.elim h3.1 h3.2.1), if_neg h3.2.2]
  · have o2 := o2 tk
    refine ⟨fun h => o2 .attribute ht ?_, fun seed y hs hr => ?_⟩
    · unfold body4
      exact bind_err (lift_err (exc_bind_err (raw_none h)) _)
    have hm : computeMaster P d tk = .ok (P.sha256 (seed ++ tk)) := exc_bind_run (raw_get.mpr hs)
    have key : ∀ e, (do
        let z ← Parser.lift d.compressed
        let a ← Parser.lift d.cipher
        let blocks ← Parser.blocks4 P (hmacBase P seed tk)
        let iv ← Parser.lift (d.raw .encryptionIv)
        let x ← Parser.lift (payloadDecrypt P a (P.sha256 (seed ++ tk)) iv (concatBlocks blocks))
        let plain ← Parser.lift (decompress P z x)
        let p ← Parser.lift (unpack4 P plain)
        pure { transformedKey := tk, masterKey := P.sha256 (seed ++ tk), payload := some p } : Parser Body) y = .error e →
        openBytes P c true s = .error (readErr e) := by
      intro e he
      refine o2 e ht ?_
      subst hr
      unfold body4
      rw [bind_run (lift_run hm _), bind_run (bytes_append' _ _ (hP.sha256_length _)),
        if_neg (not_not_intro rfl), if_pos rfl, bind_run (lift_run (raw_get.mpr hs) _),
        bind_run (bytes_append' (headerHmac P (hmacBase P seed tk) h.data) y (hP.hmac256_length _ _)), if_neg (not_not_intro rfl)]
      exact he
    refine ⟨fun h => key .key (bind_err (lift_err (by unfold DynHeader.compressed; rw [h]) _)), fun z hz => ⟨fun h => key .key ?_, fun a blocks r' ha hbl =>
      ⟨fun h => key .attribute ?_, fun iv x plain ih t hi hp hpl hin => ⟨fun h => key .key ?_, fun i tree h1 h2 h3 h4 => key .key ?_⟩⟩⟩⟩
    · rw [bind_run (lift_run (compressed_get.mpr hz) _)]
      exact bind_err (lift_err (by unfold DynHeader.cipher; rw [h]) _)
    · rw [bind_run (lift_run (compressed_get.mpr hz) _), bind_run (lift_run (cipher_get.mpr ha) _), bind_run hbl]
      exact bind_err (lift_err (raw_none h) _)
    · rw [bind_run (lift_run (compressed_get.mpr hz) _), bind_run (lift_run (cipher_get.mpr ha) _), bind_run hbl,
        bind_run (lift_run (raw_get.mpr hi) _), bind_run (lift_run hp _), bind_run (lift_run hpl _)]
      refine bind_err (lift_err ?_ _)
      unfold unpack4
      rw [exc_bind_run hin]
      exact exc_bind_err (by unfold InnerHeader.streamId; rw [h])
    · rw [bind_run (lift_run (compressed_get.mpr hz) _), bind_run (lift_run (cipher_get.mpr ha) _), bind_run hbl,
        bind_run (lift_run (raw_get.mpr hi) _), bind_run (lift_run hp _), bind_run (lift_run hpl _)]
      refine bind_err (lift_err ?_ _)
      unfold unpack4
      rw [exc_bind_run hin]
      dsimp only
      have : ih.streamId = .ok i := by unfold InnerHeader.streamId; rw [h1]
      rw [exc_bind_run this]
      exact exc_bind_err (key_asked h2 h3 (by unfold InnerHeader.streamKey; rw [h4]))

end

/-! Files in which one field was left out. The header of KDBX3 has no checksum, so this is all it takes; for KDBX4 the hashes are made anew. -/

def without3 (i : Nat) : Bytes :=
  Spec.headerLayout 3 1 ((Toy.fields3 .aes256 true).eraseIdx i) [] ++ (Toy.file3 .aes256 true).drop (Toy.header3 .aes256 true).data.length

def without4 (i : Nat) : Bytes :=
  let raw := Spec.headerLayout 4 0 ((Toy.fields4 .aes256 true).eraseIdx i) [13, 10]
  let tk := match (computeTransformed4 Toy.prims Toy.creds ((Toy.header4 .aes256 true).value.dyn.getD [])).1 with | .ok k => k | .error _ => []
  raw ++ Toy.prims.sha256 raw ++ headerHmac Toy.prims (hmacBase Toy.prims (List.replicate 32 7) tk) raw ++
    (Toy.file4 .aes256 true).drop ((Toy.header4 .aes256 true).data.length + 64)

/-- Whether the file opens, or what it raises. -/
def outcome (file : Bytes) : Option PyErr :=
  match openBytes Toy.prims Toy.creds true file with | .ok _ => none | .error e => some e

/-- Without the cipher, the master seed, the stream id; with nothing left out it is the file that opens (`Toy.open3`). -/
example : outcome (without3 0) = some .key := by decide +kernel
example : outcome (without3 2) = some .attribute := by decide +kernel
example : outcome (without3 8) = some .key := by decide +kernel
example : without3 9 = Toy.file3 .aes256 true := by decide +kernel

/-- Without the compression, the KDF. -/
example : outcome (without4 2) = some .key := by decide +kernel
example : outcome (without4 5) = some .attribute := by decide +kernel

end Verif.Props
