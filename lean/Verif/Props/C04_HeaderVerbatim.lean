import Verif.Kdbx.Toy
/-!
# C04: `save()` writes the header of the opened file verbatim
-/
namespace Verif.Props
open Verif Parser

/-- One open/edit/save cycle from file content `f` to file content `g`: any credentials, decrypting
or not, any change of the payload, any credentials for saving. -/
inductive Cycle (P : Prims) : Bytes → Bytes → Prop where
  | mk (c c' : Creds) (dec : Bool) (f g : Bytes) (k : Kdbx) (body : Option Body)
      (hopen : openBytes P c dec f = .ok k)
      (hsave : (buildKdbx P c' { k with body := body }).1 = .ok g) : Cycle P f g

/-- Any number of cycles. -/
inductive Cycles (P : Prims) : Bytes → Bytes → Prop where
  | refl (f : Bytes) : Cycles P f f
  | step {f g h : Bytes} : Cycles P f g → Cycle P g h → Cycles P f h

/-- What is saved starts with the bytes the opened file starts with, and these are the header: the
part of the file before the body. -/
theorem C04_save (P : Prims) (c c' : Creds) (dec : Bool) (f g : Bytes) (k k' : Kdbx)
    (hopen : openBytes P c dec f = .ok k) (hedit : k'.header = k.header)
    (hsave : (buildKdbx P c' k').1 = .ok g) :
    (∃ r, f = k.header.data ++ r) ∧ (∃ r, g = k.header.data ++ r) ∧
      ∀ r, header "(parsing)" (k.header.data ++ r) = .ok (k.header, r) := by
  obtain ⟨rest, hp⟩ := openBytes_ok.mp hopen
  obtain ⟨r, hr⟩ := parse_header hp
  obtain ⟨o, ho⟩ := build_header hsave
  rw [hedit] at ho
  exact ⟨⟨r, (header_ok hr).1⟩, ⟨o, ho⟩, (header_ok hr).2⟩

/-- After any number of cycles the file has the header of the first file, byte for byte and field
for field: version, cipher, compression, KDF parameters, but also master seed, IV and (KDBX3)
inner stream key and start bytes. -/
theorem C04_cycles (P : Prims) (f g : Bytes) (hc : Cycles P f g) (c : Creds) (dec : Bool) (k : Kdbx)
    (hopen : openBytes P c dec f = .ok k) :
    (∃ r, g = k.header.data ++ r) ∧
      ∀ c' dec' k', openBytes P c' dec' g = .ok k' → k'.header = k.header := by
  obtain ⟨rest, hp⟩ := openBytes_ok.mp hopen
  obtain ⟨r, hr⟩ := parse_header hp
  have key : ∃ r, g = k.header.data ++ r := by
    induction hc with
    | refl => exact ⟨r, (header_ok hr).1⟩
    | step _ hstep ih =>
      obtain ⟨r1, h1⟩ := ih
      cases hstep with
      | mk c1 c2 dec1 _ _ k1 body ho hs =>
        obtain ⟨_, hp1⟩ := openBytes_ok.mp ho
        obtain ⟨r2, hr2⟩ := parse_header hp1
        rw [h1, (header_ok hr).2] at hr2
        injection hr2 with hr2
        injection hr2 with hr2 _
        obtain ⟨o, e⟩ := build_header hs
        exact ⟨o, by rw [e, hr2]⟩
  refine ⟨key, ?_⟩
  intro c' dec' k' ho
  obtain ⟨r1, h1⟩ := key
  obtain ⟨_, hp1⟩ := openBytes_ok.mp ho
  obtain ⟨r2, hr2⟩ := parse_header hp1
  rw [h1, (header_ok hr).2] at hr2
  injection hr2 with hr2
  injection hr2 with hr2 _
  exact hr2.symm

/-- Finding: nothing is refreshed. Two different trees saved with the same credentials are
encrypted with the same key, the same IV and, in the inner stream, the same key stream; here for a
KDBX4 file: `x1`, `x2` are the two plaintexts and `e1`, `e2` what is split into blocks. -/
theorem C04_no_refresh (P : Prims) (c : Creds) (k : Kdbx) (d : DynHeader) (b : Body)
    (ih : InnerHeader) (t1 t2 : Xml) (g1 g2 : Bytes)
    (hd : k.header.value.dyn = some d) (hv : k.header.value.major = 4)
    (h1 : (buildKdbx P c { k with body := some { b with payload := some { inner := some ih, xml := t1 } } }).1 = .ok g1)
    (h2 : (buildKdbx P c { k with body := some { b with payload := some { inner := some ih, xml := t2 } } }).1 = .ok g2) :
    ∃ mk iv cid z sid x1 x2 e1 e2 i, d.cipher = .ok cid ∧ d.compressed = .ok z ∧
      writeXml P sid ih.streamKey t1 = .ok x1 ∧ writeXml P sid ih.streamKey t2 = .ok x2 ∧
      payloadEncrypt P cid mk iv (compress P z (i ++ x1)) = .ok e1 ∧
      payloadEncrypt P cid mk iv (compress P z (i ++ x2)) = .ok e2 ∧
      ∃ base bl1 bl2, buildBlocks4 P base (splitBlocks e1) = .ok bl1 ∧
        buildBlocks4 P base (splitBlocks e2) = .ok bl2 ∧
        g1 = k.header.data ++ (P.sha256 k.header.data ++ headerHmac P base k.header.data ++ bl1) ∧
        g2 = k.header.data ++ (P.sha256 k.header.data ++ headerHmac P base k.header.data ++ bl2) := by
  have key : ∀ t g, (buildKdbx P c { k with body := some { b with payload := some { inner := some ih, xml := t } } }).1 = .ok g →
      ∃ tk o, (computeTransformed4 P c d).1 = .ok tk ∧
        buildBody4 P k.header.data d tk (some { inner := some ih, xml := t }) = .ok o ∧
        g = k.header.data ++ o := by
    intro t g h
    rcases (buildKdbx_ok (k := { k with body := some { b with payload := some { inner := some ih, xml := t } } })
      (d := d) hd rfl).mp h with ⟨h3, _⟩ | ⟨_, h4⟩
    · exact absurd h3 (by show ¬ k.header.value.major = 3; omega)
    · exact h4
  obtain ⟨tk, o1, a1, a2, rfl⟩ := key t1 g1 h1
  obtain ⟨tk', o2, b1, b2, rfl⟩ := key t2 g2 h2
  rw [a1] at b1
  injection b1 with b1
  subst b1
  obtain ⟨mk, seed, i, sid, x1, z, cc, iv, e1, bl1, p1, p2, p3, p4, p5, p6, p7, p8, p9, p10, rfl⟩ :=
    (buildBody4_iff ..).mp a2
  obtain ⟨mk', seed', i', sid', x2, z', cc', iv', e2, bl2, q1, q2, q3, q4, q5, q6, q7, q8, q9, q10, rfl⟩ :=
    (buildBody4_iff ..).mp b2
  rw [p1] at q1; rw [p2] at q2; rw [p3] at q3; rw [p4] at q4; rw [p6] at q6; rw [p7] at q7
  rw [p8] at q8
  injection q1 with q1; injection q2 with q2; injection q3 with q3; injection q4 with q4
  injection q6 with q6; injection q7 with q7; injection q8 with q8
  subst q1 q2 q3 q4 q6 q7 q8
  exact ⟨mk, iv, cc, z, sid, x1, x2, e1, e2, i, p7, p6, p5, q5, p9, q9, _, bl1, bl2, p10, q10, rfl, rfl⟩

theorem ksXor_pad (ks : Nat → UInt8) (a b : Bytes) : ∀ o, xorBytes (ksXor ks o a) (ksXor ks o b) = xorBytes a b := by
  induction a generalizing b with
  | nil => intro o; simp [ksXor, xorBytes]
  | cons x xs ih =>
    intro o
    cases b with
    | nil => simp [ksXor, xorBytes]
    | cons y ys =>
      have := ih ys (o + 1)
      unfold xorBytes at this ⊢
      simp only [ksXor, List.zipWith_cons_cons, this]
      congr 1
      have : (ks o ^^^ (y ^^^ ks o)) = y := by rw [UInt8.xor_comm y, ← UInt8.xor_assoc, UInt8.xor_self, UInt8.zero_xor]
      rw [UInt8.xor_assoc, this]

/-- Consequence of the finding for ChaCha20: the ciphertexts of two saves of a database differ
exactly where the plaintexts (inner header and XML, compressed or not) differ, and by the same
bits. Whoever has both files learns the exclusive or of the two plaintexts without any key. -/
theorem C04_two_time_pad (P : Prims) (c : Creds) (k : Kdbx) (d : DynHeader) (b : Body)
    (ih : InnerHeader) (t1 t2 : Xml) (g1 g2 : Bytes)
    (hd : k.header.value.dyn = some d) (hv : k.header.value.major = 4) (hc : d.cipher = .ok .chacha20)
    (h1 : (buildKdbx P c { k with body := some { b with payload := some { inner := some ih, xml := t1 } } }).1 = .ok g1)
    (h2 : (buildKdbx P c { k with body := some { b with payload := some { inner := some ih, xml := t2 } } }).1 = .ok g2) :
    ∃ sid x1 x2 i z e1 e2 base bl1 bl2,
      writeXml P sid ih.streamKey t1 = .ok x1 ∧ writeXml P sid ih.streamKey t2 = .ok x2 ∧ d.compressed = .ok z ∧
      e1.length = (compress P z (i ++ x1)).length ∧ e2.length = (compress P z (i ++ x2)).length ∧
      xorBytes e1 e2 = xorBytes (compress P z (i ++ x1)) (compress P z (i ++ x2)) ∧
      buildBlocks4 P base (splitBlocks e1) = .ok bl1 ∧ buildBlocks4 P base (splitBlocks e2) = .ok bl2 ∧
      g1 = k.header.data ++ (P.sha256 k.header.data ++ headerHmac P base k.header.data ++ bl1) ∧
      g2 = k.header.data ++ (P.sha256 k.header.data ++ headerHmac P base k.header.data ++ bl2) := by
  obtain ⟨mk, iv, cid, z, sid, x1, x2, e1, e2, i, q1, q2, q3, q4, q5, q6, base, bl1, bl2, q7, q8, q9, q10⟩ :=
    C04_no_refresh P c k d b ih t1 t2 g1 g2 hd hv h1 h2
  rw [hc] at q1
  injection q1 with q1
  subst q1
  have key : ∀ x e, payloadEncrypt P .chacha20 mk iv x = .ok e → e = ksXor (P.chacha20 mk iv) 0 x := by
    intro x e he
    unfold payloadEncrypt at he
    simp only at he
    split at he
    · cases he
    split at he
    · cases he
    · injection he with he; exact he.symm
  have a1 := key _ _ q5
  have a2 := key _ _ q6
  refine ⟨sid, x1, x2, i, z, e1, e2, base, bl1, bl2, q3, q4, q2, ?_, ?_, ?_, q7, q8, q9, q10⟩
  · rw [a1, ksXor_length]
  · rw [a2, ksXor_length]
  · rw [a1, a2, ksXor_pad]

/-- The example file with ChaCha20 meets the conditions. -/
example (z : Bool) : ∃ d g, (Toy.content4 .chacha20 z).header.value.dyn = some d ∧
    (Toy.content4 .chacha20 z).header.value.major = 4 ∧ d.cipher = .ok .chacha20 ∧
    (buildKdbx Toy.prims Toy.creds { Toy.content4 .chacha20 z with
      body := some { transformedKey := [], masterKey := [], payload := some { inner := some Toy.inner, xml := Toy.tree } } }).1 = .ok g := by
  obtain ⟨g, hg⟩ := Toy.build4 .chacha20 z
  obtain ⟨seed, iv, h1, h2, h3, h4, h5⟩ := Toy.settings4 .chacha20 z
  exact ⟨_, g, rfl, rfl, by first | exact h2 | exact h3 | exact h4, hg⟩

/-- A cycle exists: the example file opened and saved. -/
example (c : CipherId) (z : Bool) : Cycle Toy.prims (Toy.file4 c z) (Toy.file4 c z) := by
  obtain ⟨tk, mk, h⟩ := Toy.open4 c z
  obtain ⟨out, ho⟩ := Toy.build4 c z
  have hf : Toy.file4 c z = out := by unfold Toy.file4; rw [ho]
  exact .mk Toy.creds Toy.creds true _ _ _ (Toy.content4 c z).body h (by rw [hf]; exact ho)

end Verif.Props
