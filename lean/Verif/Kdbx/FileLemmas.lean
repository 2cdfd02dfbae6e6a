import Verif.Kdbx.File
/-!
# Lemmas about whole files
-/
namespace Verif
open Parser

/-! ## Key files -/

/-- Key files that can be read any number of times: everything but non-seekable streams. -/
def Keyfile.Reusable : Keyfile → Prop
  | .stream false _ _ => False
  | _ => True

theorem composite_again (P : Prims) (pw : Option Str) (kf : Keyfile) (h : kf.Reusable) :
    computeKeyComposite P pw (computeKeyComposite P pw kf).2 = computeKeyComposite P pw kf ∧
    (computeKeyComposite P pw kf).2.Reusable := by
  cases kf with
  | none => exact ⟨rfl, trivial⟩
  | path c =>
    cases c with
    | none => exact ⟨rfl, trivial⟩
    | some b =>
      have : (computeKeyComposite P pw (.path (some b))).2 = .path (some b) := by
        simp only [computeKeyComposite, Keyfile.read]
        cases keyfileComposite P b <;> rfl
      rw [this]; exact ⟨rfl, trivial⟩
  | stream sk b pos =>
    cases sk with
    | false => exact absurd h (by simp [Keyfile.Reusable])
    | true =>
      have : (computeKeyComposite P pw (.stream true b pos)).2 = .stream true b b.length := by
        simp only [computeKeyComposite, Keyfile.read]
        cases keyfileComposite P b <;> rfl
      rw [this]
      refine ⟨?_, trivial⟩
      simp only [computeKeyComposite, Keyfile.read]

theorem transformed3_again (P : Prims) (c : Creds) (h : DynHeader) (hr : c.keyfile.Reusable) :
    computeTransformed3 P { c with keyfile := (computeTransformed3 P c h).2 } h
      = computeTransformed3 P c h ∧ (computeTransformed3 P c h).2.Reusable := by
  unfold computeTransformed3
  cases hk : c.transformedKey with
  | some k => exact ⟨rfl, hr⟩
  | none =>
    have h1 := composite_again P c.password c.keyfile hr
    cases hc : computeKeyComposite P c.password c.keyfile with
    | mk res kf =>
      rw [hc] at h1
      cases res with
      | error e => simp only at h1 ⊢; rw [h1.1]; exact ⟨rfl, h1.2⟩
      | ok comp => simp only at h1 ⊢; rw [h1.1]; exact ⟨rfl, h1.2⟩

theorem transformed4_again (P : Prims) (c : Creds) (h : DynHeader) (hr : c.keyfile.Reusable) :
    computeTransformed4 P { c with keyfile := (computeTransformed4 P c h).2 } h
      = computeTransformed4 P c h ∧ (computeTransformed4 P c h).2.Reusable := by
  have h1 := composite_again P c.password c.keyfile hr
  cases hc : computeKeyComposite P c.password c.keyfile with
  | mk res kf =>
    rw [hc] at h1
    have key : (computeTransformed4 P c h).2 = kf := by
      unfold computeTransformed4
      rw [hc]
      cases res with
      | error e => rfl
      | ok comp =>
        simp only
        cases h.kdf with
        | error e => rfl
        | ok d =>
          simp only
          cases c.transformedKey with
          | some k => rfl
          | none =>
            simp only
            cases d.get "$UUID" with
            | error e => rfl
            | ok u =>
              simp only
              split
              · rfl
              · split
                · rw [h1.1]
                · rfl
    refine ⟨?_, by rw [key]; exact h1.2⟩
    rw [key]
    unfold computeTransformed4
    simp only [hc, h1.1]

/-! ## Field access after a successful header parse -/

theorem readXml_writeXml (P : Prims) (hP : P.Lawful) (s : StreamId) (key : Except PyErr Bytes)
    (t : Xml) (ht : t.Valid) (x : Bytes) (h : writeXml P s key t = .ok x) :
    readXml P s key x = .ok t.norm := by
  unfold writeXml at h
  obtain ⟨ks, h1, h2⟩ := exc_bind_ok.mp h
  unfold readXml
  cases ks with
  | none =>
    have := exc_pure_ok.mp h2
    subst this
    rw [exc_bind_run (hP.xml_inverse t ht), exc_bind_run h1]
    rfl
  | some ks =>
    have := exc_pure_ok.mp h2
    subst this
    rw [exc_bind_run (hP.xml_inverse (protect ks t) (mapProtected_valid ks 0 t ht)), exc_bind_run h1]
    show Except.ok (unprotect ks _) = _
    have := mapProtected_roundtrip ks 0 t ht
    unfold unprotect protect
    rw [this]

theorem writeXml_total (P : Prims) (s : StreamId) (key : Except PyErr Bytes) (t : Xml) {d : Bytes}
    {x : Xml} (h : readXml P s key d = .ok x) : ∃ y, writeXml P s key t = .ok y := by
  unfold readXml at h
  obtain ⟨_, _, h⟩ := exc_bind_ok.mp h
  obtain ⟨ks, h1, _⟩ := exc_bind_ok.mp h
  unfold writeXml
  rw [exc_bind_run h1]
  cases ks <;> exact ⟨_, rfl⟩

/-! ## Bodies -/

theorem body4_iff (P : Prims) (hP : P.Lawful) (raw : Bytes) (h : DynHeader) (tk s r : Bytes)
    (b : Body) :
    body4 P raw h tk true s = .ok (b, r) ↔
      ∃ mk seed z c iv blocks d plain p s',
        computeMaster P h tk = .ok mk ∧ h.raw .masterSeed = .ok seed ∧
        s = P.sha256 raw ++ (headerHmac P (hmacBase P seed tk) raw ++ s') ∧
        h.compressed = .ok z ∧ h.cipher = .ok c ∧
        blocks4 P (hmacBase P seed tk) s' = .ok (blocks, r) ∧
        h.raw .encryptionIv = .ok iv ∧
        payloadDecrypt P c mk iv (concatBlocks blocks) = .ok d ∧
        decompress P z d = .ok plain ∧
        unpack4 P plain = .ok p ∧
        b = { transformedKey := tk, masterKey := mk, payload := some p } := by
  unfold body4
  constructor
  · intro hh
    obtain ⟨mk, m1, h1, k1⟩ := bind_ok.mp hh
    obtain ⟨g1, rfl⟩ := lift_ok.mp h1
    obtain ⟨sha, m2, h2, k2⟩ := bind_ok.mp k1
    obtain ⟨_, rfl⟩ := bytes_ok.mp h2
    simp only [if_true] at k2
    split at k2
    · exact absurd k2 fail_ok
    · next hs =>
      have hs := Decidable.not_not.mp hs
      subst hs
      obtain ⟨seed, m3, h3, k3⟩ := bind_ok.mp k2
      obtain ⟨g3, rfl⟩ := lift_ok.mp h3
      obtain ⟨hm, m4, h4, k4⟩ := bind_ok.mp k3
      obtain ⟨_, rfl⟩ := bytes_ok.mp h4
      split at k4
      · exact absurd k4 fail_ok
      · next hs =>
        have hs := Decidable.not_not.mp hs
        subst hs
        obtain ⟨z, m5, h5, k5⟩ := bind_ok.mp k4
        obtain ⟨g5, rfl⟩ := lift_ok.mp h5
        obtain ⟨c, m6, h6, k6⟩ := bind_ok.mp k5
        obtain ⟨g6, rfl⟩ := lift_ok.mp h6
        obtain ⟨blocks, m7, h7, k7⟩ := bind_ok.mp k6
        obtain ⟨iv, m8, h8, k8⟩ := bind_ok.mp k7
        obtain ⟨g8, rfl⟩ := lift_ok.mp h8
        obtain ⟨d, m9, h9, k9⟩ := bind_ok.mp k8
        obtain ⟨g9, rfl⟩ := lift_ok.mp h9
        obtain ⟨plain, m10, h10, k10⟩ := bind_ok.mp k9
        obtain ⟨g10, rfl⟩ := lift_ok.mp h10
        obtain ⟨p, m11, h11, k11⟩ := bind_ok.mp k10
        obtain ⟨g11, rfl⟩ := lift_ok.mp h11
        obtain ⟨rfl, rfl⟩ := pure_ok.mp k11
        exact ⟨mk, seed, z, c, iv, blocks, d, plain, p, _, g1, g3, rfl, g5, g6, h7, g8, g9, g10,
          g11, rfl⟩
  · rintro ⟨mk, seed, z, c, iv, blocks, d, plain, p, s', h1, h3, rfl, h5, h6, h7, h8, h9, h10, h11,
      rfl⟩
    rw [bind_run (lift_run h1 _), bind_run (bytes_append' _ _ (hP.sha256_length _)),
      if_neg (not_not_intro rfl), if_pos rfl, bind_run (lift_run h3 _),
      bind_run (bytes_append' (headerHmac P (hmacBase P seed tk) raw) s' (hP.hmac256_length _ _)),
      if_neg (not_not_intro rfl),
      bind_run (lift_run h5 _), bind_run (lift_run h6 _), bind_run h7, bind_run (lift_run h8 _),
      bind_run (lift_run h9 _), bind_run (lift_run h10 _), bind_run (lift_run h11 _)]
    rfl

theorem body3_iff (P : Prims) (h : DynHeader) (tk s r : Bytes) (b : Body) :
    body3 P h tk true s = .ok (b, r) ↔
      ∃ mk c iv d p, computeMaster P h tk = .ok mk ∧ h.cipher = .ok c ∧
        h.raw .encryptionIv = .ok iv ∧ payloadDecrypt P c mk iv s = .ok d ∧
        unpack3 P h d = .ok p ∧ r = [] ∧
        b = { transformedKey := tk, masterKey := mk, payload := some p } := by
  unfold body3
  constructor
  · intro hh
    obtain ⟨mk, m1, h1, k1⟩ := bind_ok.mp hh
    obtain ⟨g1, rfl⟩ := lift_ok.mp h1
    rw [if_pos rfl] at k1
    obtain ⟨c, m6, h6, k2⟩ := bind_ok.mp k1
    obtain ⟨g6, rfl⟩ := lift_ok.mp h6
    obtain ⟨enc, m7, h7, k3⟩ := bind_ok.mp k2
    cases h7
    obtain ⟨iv, m8, h8, k4⟩ := bind_ok.mp k3
    obtain ⟨g8, rfl⟩ := lift_ok.mp h8
    obtain ⟨d, m9, h9, k5⟩ := bind_ok.mp k4
    obtain ⟨g9, rfl⟩ := lift_ok.mp h9
    obtain ⟨p, m11, h11, k6⟩ := bind_ok.mp k5
    obtain ⟨g11, rfl⟩ := lift_ok.mp h11
    obtain ⟨rfl, rfl⟩ := pure_ok.mp k6
    exact ⟨mk, c, iv, d, p, g1, g6, g8, g9, g11, rfl, rfl⟩
  · rintro ⟨mk, c, iv, d, p, h1, h6, h8, h9, h11, rfl, rfl⟩
    have hg : greedy s = .ok (s, []) := rfl
    rw [bind_run (lift_run h1 _), if_pos rfl, bind_run (lift_run h6 _), bind_run hg,
      bind_run (lift_run h8 _), bind_run (lift_run h9 _), bind_run (lift_run h11 _)]
    rfl

theorem unpack4_iff (P : Prims) (d : Bytes) (p : Payload) :
    unpack4 P d = .ok p ↔ ∃ inner r sid xml, innerHeader d = .ok (inner, r) ∧
      inner.streamId = .ok sid ∧ readXml P sid inner.streamKey r = .ok xml ∧
      p = { inner := some inner, xml := xml } := by
  unfold unpack4
  constructor
  · intro h
    obtain ⟨⟨inner, r⟩, h1, h⟩ := exc_bind_ok.mp h
    obtain ⟨sid, h2, h⟩ := exc_bind_ok.mp h
    obtain ⟨xml, h3, h⟩ := exc_bind_ok.mp h
    exact ⟨inner, r, sid, xml, h1, h2, h3, (exc_pure_ok.mp h).symm⟩
  · rintro ⟨inner, r, sid, xml, h1, h2, h3, rfl⟩
    rw [exc_bind_run h1]
    simp only
    rw [exc_bind_run h2, exc_bind_run h3]
    rfl

theorem unpack3_iff (P : Prims) (h : DynHeader) (d : Bytes) (p : Payload) :
    unpack3 P h d = .ok p ↔ ∃ start r sid z blocks r' plain xml,
      start.length = 32 ∧ d = start ++ r ∧ h.raw .streamStartBytes = .ok start ∧
      h.streamId = .ok sid ∧ h.compressed = .ok z ∧ blocks3 P r = .ok (blocks, r') ∧
      decompress P z (concatBlocks blocks) = .ok plain ∧
      readXml P sid h.streamKey plain = .ok xml ∧ p = { inner := none, xml := xml } := by
  unfold unpack3
  constructor
  · intro hh
    obtain ⟨⟨start, r⟩, h1, k1⟩ := exc_bind_ok.mp hh
    obtain ⟨expected, h2, k2⟩ := exc_bind_ok.mp k1
    obtain ⟨hl, hd⟩ := bytes_ok.mp h1
    simp only at k2
    split at k2
    · exact absurd k2 exc_throw_ok
    · next hs =>
      have hs := Decidable.not_not.mp hs
      subst hs
      obtain ⟨sid, h3, k3⟩ := exc_bind_ok.mp k2
      obtain ⟨z, h4, k4⟩ := exc_bind_ok.mp k3
      obtain ⟨⟨blocks, r'⟩, h5, k5⟩ := exc_bind_ok.mp k4
      obtain ⟨plain, h6, k6⟩ := exc_bind_ok.mp k5
      obtain ⟨xml, h7, k7⟩ := exc_bind_ok.mp k6
      exact ⟨start, r, sid, z, blocks, r', plain, xml, hl, hd, h2, h3, h4, h5, h6, h7,
        (exc_pure_ok.mp k7).symm⟩
  · rintro ⟨start, r, sid, z, blocks, r', plain, xml, hl, hd, h2, h3, h4, h5, h6, h7, rfl⟩
    rw [exc_bind_run (bytes_ok.mpr ⟨hl, hd⟩)]
    simp only
    rw [exc_bind_run h2, if_neg (not_not_intro rfl)]
    rw [exc_bind_run h3, exc_bind_run h4, exc_bind_run h5]
    simp only
    rw [exc_bind_run h6, exc_bind_run h7]
    rfl

/-! ## Opening -/

/-- A parsed header has a dynamic header exactly for major versions 3 and 4. -/
theorem header_dyn {path : String} {s r : Bytes} {h : Header} (hp : header path s = .ok (h, r)) :
    (∃ d, h.value.dyn = some d) ↔ h.value.major = 3 ∨ h.value.major = 4 := by
  unfold header at hp
  split at hp
  · cases hp
  · next v r0 hv =>
    injection hp with hp
    injection hp with h1 h2
    rw [← h1]
    unfold headerVal at hv
    obtain ⟨s1, m1, _, k1⟩ := bind_ok.mp hv
    obtain ⟨s2, m2, _, k2⟩ := bind_ok.mp k1
    split at k2
    · exact absurd k2 fail_ok
    · obtain ⟨mi, m3, _, k3⟩ := bind_ok.mp k2
      obtain ⟨ma, m4, _, k4⟩ := bind_ok.mp k3
      split at k4
      · next h3 =>
        obtain ⟨d, m5, _, k5⟩ := bind_ok.mp k4
        obtain ⟨rfl, _⟩ := pure_ok.mp k5
        exact ⟨fun _ => .inl h3, fun _ => ⟨d, rfl⟩⟩
      · next h3 =>
        split at k4
        · next h4 =>
          obtain ⟨d, m5, _, k5⟩ := bind_ok.mp k4
          obtain ⟨rfl, _⟩ := pure_ok.mp k5
          exact ⟨fun _ => .inr h4, fun _ => ⟨d, rfl⟩⟩
        · next h4 =>
          obtain ⟨rfl, _⟩ := pure_ok.mp k4
          exact ⟨fun ⟨_, h⟩ => (by cases h), fun h => absurd h (by simp [h3, h4])⟩

theorem openBytes_ok {P : Prims} {c : Creds} {dec : Bool} {s : Bytes} {k : Kdbx} :
    openBytes P c dec s = .ok k ↔ ∃ r, (parseKdbx P c dec s).1 = .ok (k, r) := by
  unfold openBytes
  cases h : (parseKdbx P c dec s).1 with
  | error e =>
    simp only
    constructor
    · intro h; cases h
    · rintro ⟨_, h⟩; cases h
  | ok x =>
    obtain ⟨k', r⟩ := x
    simp only
    constructor
    · intro h; cases h; exact ⟨r, rfl⟩
    · rintro ⟨_, h⟩; cases h; rfl

/-- Opening a KDBX4 file. -/
theorem parse4_ok {P : Prims} {c : Creds} {dec : Bool} {s rest : Bytes} {k : Kdbx}
    (hv : k.header.value.major = 4) :
    (parseKdbx P c dec s).1 = .ok (k, rest) ↔
      ∃ d tk r b, header "(parsing)" s = .ok (k.header, r) ∧ k.header.value.dyn = some d ∧
        (computeTransformed4 P c d).1 = .ok tk ∧
        body4 P k.header.data d tk dec r = .ok (b, rest) ∧ k.body = some b := by
  constructor
  · intro h
    unfold parseKdbx at h
    cases hh : header "(parsing)" s with
    | error e => rw [hh] at h; cases h
    | ok x =>
      obtain ⟨hd, r⟩ := x
      rw [hh] at h
      simp only at h
      cases hdyn : hd.value.dyn with
      | none =>
        rw [hdyn] at h
        cases h
        have := (header_dyn hh).mpr (.inr hv)
        obtain ⟨d, hd⟩ := this
        rw [hdyn] at hd; cases hd
      | some d =>
        rw [hdyn] at h
        simp only at h
        split at h
        · next h3 =>
          cases ht : computeTransformed3 P c d with
          | mk res kf =>
            rw [ht] at h
            cases res with
            | error e => cases h
            | ok tk =>
              simp only at h
              cases hb : body3 P d tk dec r with
              | error e => rw [hb] at h; cases h
              | ok y =>
                rw [hb] at h
                cases h
                simp only at hv
                omega
        · cases ht : computeTransformed4 P c d with
          | mk res kf =>
            rw [ht] at h
            cases res with
            | error e => cases h
            | ok tk =>
              simp only at h
              cases hb : body4 P hd.data d tk dec r with
              | error e => rw [hb] at h; cases h
              | ok y =>
                rw [hb] at h
                cases h
                exact ⟨d, tk, r, y.1, rfl, hdyn, by rw [ht], hb, rfl⟩
  · rintro ⟨d, tk, r, b, h1, h2, h3, h4, h5⟩
    unfold parseKdbx
    rw [h1]
    simp only [h2, hv]
    rw [if_neg (by decide)]
    cases ht : computeTransformed4 P c d with
    | mk res kf =>
      rw [ht] at h3
      cases h3
      simp only [h4]
      obtain ⟨kh, kb⟩ := k
      cases h5
      rfl

/-- Opening a KDBX3 file. -/
theorem parse3_ok {P : Prims} {c : Creds} {dec : Bool} {s rest : Bytes} {k : Kdbx}
    (hv : k.header.value.major = 3) :
    (parseKdbx P c dec s).1 = .ok (k, rest) ↔
      ∃ d tk r b, header "(parsing)" s = .ok (k.header, r) ∧ k.header.value.dyn = some d ∧
        (computeTransformed3 P c d).1 = .ok tk ∧
        body3 P d tk dec r = .ok (b, rest) ∧ k.body = some b := by
  constructor
  · intro h
    unfold parseKdbx at h
    cases hh : header "(parsing)" s with
    | error e => rw [hh] at h; cases h
    | ok x =>
      obtain ⟨hd, r⟩ := x
      rw [hh] at h
      simp only at h
      cases hdyn : hd.value.dyn with
      | none =>
        rw [hdyn] at h
        cases h
        have := (header_dyn hh).mpr (.inl hv)
        obtain ⟨d, hd⟩ := this
        rw [hdyn] at hd; cases hd
      | some d =>
        rw [hdyn] at h
        simp only at h
        split at h
        · next h3 =>
          cases ht : computeTransformed3 P c d with
          | mk res kf =>
            rw [ht] at h
            cases res with
            | error e => cases h
            | ok tk =>
              simp only at h
              cases hb : body3 P d tk dec r with
              | error e => rw [hb] at h; cases h
              | ok y =>
                rw [hb] at h
                cases h
                exact ⟨d, tk, r, y.1, rfl, hdyn, by rw [ht], hb, rfl⟩
        · next h3 =>
          cases ht : computeTransformed4 P c d with
          | mk res kf =>
            rw [ht] at h
            cases res with
            | error e => cases h
            | ok tk =>
              simp only at h
              cases hb : body4 P hd.data d tk dec r with
              | error e => rw [hb] at h; cases h
              | ok y =>
                rw [hb] at h
                cases h
                exact absurd hv h3
  · rintro ⟨d, tk, r, b, h1, h2, h3, h4, h5⟩
    unfold parseKdbx
    rw [h1]
    simp only [h2, hv, if_true]
    cases ht : computeTransformed3 P c d with
    | mk res kf =>
      rw [ht] at h3
      cases h3
      simp only [h4]
      obtain ⟨kh, kb⟩ := k
      cases h5
      rfl

/-! ## Writing -/

theorem buildBody4_iff (P : Prims) (raw : Bytes) (h : DynHeader) (tk : Bytes) (inner : InnerHeader)
    (xml : Xml) (out : Bytes) :
    buildBody4 P raw h tk (some { inner := some inner, xml := xml }) = .ok out ↔
      ∃ mk seed ih sid x z c iv enc blocks,
        computeMaster P h tk = .ok mk ∧ h.raw .masterSeed = .ok seed ∧ buildInner inner = .ok ih ∧
        inner.streamId = .ok sid ∧ writeXml P sid inner.streamKey xml = .ok x ∧
        h.compressed = .ok z ∧ h.cipher = .ok c ∧ h.raw .encryptionIv = .ok iv ∧
        payloadEncrypt P c mk iv (compress P z (ih ++ x)) = .ok enc ∧
        buildBlocks4 P (hmacBase P seed tk) (splitBlocks enc) = .ok blocks ∧
        out = P.sha256 raw ++ headerHmac P (hmacBase P seed tk) raw ++ blocks := by
  unfold buildBody4 pack4
  constructor
  · intro h0
    obtain ⟨mk, h1, k1⟩ := exc_bind_ok.mp h0
    obtain ⟨seed, h2, k2⟩ := exc_bind_ok.mp k1
    obtain ⟨d, h3, k3⟩ := exc_bind_ok.mp k2
    simp only at h3
    obtain ⟨ih, h31, l1⟩ := exc_bind_ok.mp h3
    obtain ⟨sid, h32, l2⟩ := exc_bind_ok.mp l1
    obtain ⟨x, h33, l3⟩ := exc_bind_ok.mp l2
    have := exc_pure_ok.mp l3
    subst this
    obtain ⟨z, h4, k4⟩ := exc_bind_ok.mp k3
    obtain ⟨c, h5, k5⟩ := exc_bind_ok.mp k4
    obtain ⟨iv, h6, k6⟩ := exc_bind_ok.mp k5
    obtain ⟨enc, h7, k7⟩ := exc_bind_ok.mp k6
    obtain ⟨blocks, h8, k8⟩ := exc_bind_ok.mp k7
    exact ⟨mk, seed, ih, sid, x, z, c, iv, enc, blocks, h1, h2, h31, h32, h33, h4, h5, h6, h7, h8,
      (exc_pure_ok.mp k8).symm⟩
  · rintro ⟨mk, seed, ih, sid, x, z, c, iv, enc, blocks, h1, h2, h31, h32, h33, h4, h5, h6, h7, h8,
      rfl⟩
    rw [exc_bind_run h1, exc_bind_run h2]
    simp only
    have hp : (do
        let ih ← buildInner inner
        let sid ← inner.streamId
        let x ← writeXml P sid inner.streamKey xml
        pure (ih ++ x)) = Except.ok (ih ++ x) := by
      rw [exc_bind_run h31, exc_bind_run h32, exc_bind_run h33]; rfl
    rw [exc_bind_run hp, exc_bind_run h4, exc_bind_run h5, exc_bind_run h6, exc_bind_run h7,
      exc_bind_run h8]
    rfl

theorem buildBody3_iff (P : Prims) (h : DynHeader) (tk : Bytes) (inner : Option InnerHeader)
    (xml : Xml) (out : Bytes) :
    buildBody3 P h tk (some { inner := inner, xml := xml }) = .ok out ↔
      ∃ mk start sid x z blocks c iv,
        computeMaster P h tk = .ok mk ∧ h.raw .streamStartBytes = .ok start ∧ start.length = 32 ∧
        h.streamId = .ok sid ∧ writeXml P sid h.streamKey xml = .ok x ∧ h.compressed = .ok z ∧
        buildBlocks3 P (splitBlocks (compress P z x)) = .ok blocks ∧ h.cipher = .ok c ∧
        h.raw .encryptionIv = .ok iv ∧ payloadEncrypt P c mk iv (start ++ blocks) = .ok out := by
  unfold buildBody3 pack3
  constructor
  · intro h0
    obtain ⟨mk, h1, k1⟩ := exc_bind_ok.mp h0
    obtain ⟨d, h2, k2⟩ := exc_bind_ok.mp k1
    obtain ⟨start, h21, l1⟩ := exc_bind_ok.mp h2
    split at l1
    · exact absurd l1 exc_throw_ok
    · next hl =>
      simp only at l1
      obtain ⟨sid, h31, l2⟩ := exc_bind_ok.mp l1
      obtain ⟨x, h32, l3⟩ := exc_bind_ok.mp l2
      obtain ⟨z, h33, l4⟩ := exc_bind_ok.mp l3
      obtain ⟨blocks, h34, l5⟩ := exc_bind_ok.mp l4
      have := exc_pure_ok.mp l5
      subst this
      obtain ⟨c, h5, k5⟩ := exc_bind_ok.mp k2
      obtain ⟨iv, h6, k6⟩ := exc_bind_ok.mp k5
      exact ⟨mk, start, sid, x, z, blocks, c, iv, h1, h21, Decidable.not_not.mp hl, h31, h32, h33,
        h34, h5, h6, k6⟩
  · rintro ⟨mk, start, sid, x, z, blocks, c, iv, h1, h21, hl, h31, h32, h33, h34, h5, h6, h7⟩
    rw [exc_bind_run h1]
    rw [exc_bind_run (a := start ++ blocks)]
    · rw [exc_bind_run h5, exc_bind_run h6, h7]
    · rw [exc_bind_run h21, if_neg (not_not_intro hl)]
      simp only
      rw [exc_bind_run h31, exc_bind_run h32, exc_bind_run h33, exc_bind_run h34]
      rfl

theorem decompress_compress (P : Prims) (hP : P.Lawful) (z : Bool) (d : Bytes) :
    decompress P z (compress P z d) = .ok d := by
  cases z
  · rfl
  · exact hP.gzip_inverse d

theorem buildKdbx_ok {P : Prims} {c : Creds} {k : Kdbx} {d : DynHeader} {b : Body} {out : Bytes}
    (hd : k.header.value.dyn = some d) (hb : k.body = some b) :
    (buildKdbx P c k).1 = .ok out ↔
      (k.header.value.major = 3 ∧ ∃ tk o, (computeTransformed3 P c d).1 = .ok tk ∧
        buildBody3 P d tk b.payload = .ok o ∧ out = k.header.data ++ o) ∨
      (k.header.value.major ≠ 3 ∧ ∃ tk o, (computeTransformed4 P c d).1 = .ok tk ∧
        buildBody4 P k.header.data d tk b.payload = .ok o ∧ out = k.header.data ++ o) := by
  unfold buildKdbx
  rw [hd, hb]
  simp only
  by_cases h3 : k.header.value.major = 3
  · rw [if_pos h3]
    simp only [h3, true_and, ne_eq, not_true_eq_false, false_and, or_false]
    cases ht : computeTransformed3 P c d with
    | mk res kf =>
      cases res with
      | error e =>
        simp only
        exact ⟨fun h => (by cases h), fun ⟨_, _, h, _⟩ => (by cases h)⟩
      | ok tk =>
        simp only
        cases ho : buildBody3 P d tk b.payload with
        | error e =>
          refine ⟨fun h => (by cases h), fun ⟨_, _, h, h2, _⟩ => ?_⟩
          cases h; rw [ho] at h2; cases h2
        | ok o =>
          refine ⟨fun h => ⟨tk, o, rfl, ho, ?_⟩, fun ⟨_, _, h, h2, h3⟩ => ?_⟩
          · cases h; rfl
          · cases h; rw [ho] at h2; cases h2; rw [h3]; rfl
  · rw [if_neg h3]
    simp only [h3, false_and, false_or, ne_eq, not_false_eq_true, true_and]
    cases ht : computeTransformed4 P c d with
    | mk res kf =>
      cases res with
      | error e =>
        simp only
        exact ⟨fun h => (by cases h), fun ⟨_, _, h, _⟩ => (by cases h)⟩
      | ok tk =>
        simp only
        cases ho : buildBody4 P k.header.data d tk b.payload with
        | error e =>
          refine ⟨fun h => (by cases h), fun ⟨_, _, h, h2, _⟩ => ?_⟩
          cases h; rw [ho] at h2; cases h2
        | ok o =>
          refine ⟨fun h => ⟨tk, o, rfl, ho, ?_⟩, fun ⟨_, _, h, h2, h3⟩ => ?_⟩
          · cases h; rfl
          · cases h; rw [ho] at h2; cases h2; rw [h3]; rfl

/-- The key file left behind by writing is the one left behind by the key computation. -/
theorem buildKdbx_keyfile {P : Prims} {c : Creds} {k : Kdbx} {d : DynHeader} {b : Body}
    (hd : k.header.value.dyn = some d) (hb : k.body = some b) :
    (buildKdbx P c k).2 = if k.header.value.major = 3 then (computeTransformed3 P c d).2
      else (computeTransformed4 P c d).2 := by
  unfold buildKdbx
  rw [hd, hb]
  simp only
  split
  · cases ht : computeTransformed3 P c d with
    | mk res kf => cases res <;> rfl
  · cases ht : computeTransformed4 P c d with
    | mk res kf => cases res <;> rfl

/-! ## Headers of opened and of written files -/

theorem parse_header {P : Prims} {c : Creds} {dec : Bool} {s rest : Bytes} {k : Kdbx}
    (h : (parseKdbx P c dec s).1 = .ok (k, rest)) :
    ∃ r, header "(parsing)" s = .ok (k.header, r) := by
  unfold parseKdbx at h
  cases hh : header "(parsing)" s with
  | error e => rw [hh] at h; cases h
  | ok x =>
    obtain ⟨hd, r⟩ := x
    rw [hh] at h
    simp only at h
    cases hdyn : hd.value.dyn with
    | none =>
      rw [hdyn] at h
      injection h with h
      injection h with h _
      subst h
      exact ⟨r, rfl⟩
    | some d =>
      rw [hdyn] at h
      simp only at h
      split at h
      · cases ht : computeTransformed3 P c d with
        | mk res kf =>
          rw [ht] at h
          cases res with
          | error e => cases h
          | ok tk =>
            simp only at h
            cases hb : body3 P d tk dec r with
            | error e => rw [hb] at h; cases h
            | ok x => rw [hb] at h; injection h with h; injection h with h _; subst h; exact ⟨r, rfl⟩
      · cases ht : computeTransformed4 P c d with
        | mk res kf =>
          rw [ht] at h
          cases res with
          | error e => cases h
          | ok tk =>
            simp only at h
            cases hb : body4 P hd.data d tk dec r with
            | error e => rw [hb] at h; cases h
            | ok x => rw [hb] at h; injection h with h; injection h with h _; subst h; exact ⟨r, rfl⟩

theorem build_header {P : Prims} {c : Creds} {k : Kdbx} {g : Bytes}
    (h : (buildKdbx P c k).1 = .ok g) : ∃ o, g = k.header.data ++ o := by
  cases hd : k.header.value.dyn with
  | none =>
    unfold buildKdbx at h
    rw [hd] at h
    injection h with h
    exact ⟨[], by rw [← h, List.append_nil]⟩
  | some d =>
    cases hb : k.body with
    | none =>
      unfold buildKdbx at h
      rw [hd, hb] at h
      injection h with h
      exact ⟨[], by rw [← h, List.append_nil]⟩
    | some b =>
      rcases (buildKdbx_ok hd hb).mp h with ⟨_, tk, o, _, _, e⟩ | ⟨_, tk, o, _, _, e⟩
      · exact ⟨o, e⟩
      · exact ⟨o, e⟩

end Verif
