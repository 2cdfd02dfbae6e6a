import Verif.Props.C01_Kdbx4RoundTrip
import Verif.Kdbx.CutLemmas
/-!
# C80: a database file that ends too early is refused
-/
namespace Verif.Props
open Verif Parser Spec

/-- A file that ends inside its header is refused with `StreamError`, whatever the credentials. -/
theorem C80_header (P : Prims) (c : Creds) (dec : Bool) (s v : Bytes) (c' : Creds) (dec' : Bool) (k : Kdbx)
    (ho : openBytes P c dec s = .ok k) (hv : v <+: k.header.data) (hn : v ≠ k.header.data) :
    openBytes P c' dec' v = .error .stream := by
  obtain ⟨rest, hp⟩ := openBytes_ok.mp ho
  obtain ⟨r, hh⟩ := parse_header hp
  unfold openBytes parseKdbx
  rw [short_header hh ⟨hv, hn⟩]
  rfl

theorem body4_cut {P : Prims} {c : Creds} {dec : Bool} {h : Header} {d : DynHeader} {tk r : Bytes} (hv : h.value.major = 4)
    (hd : h.value.dyn = some d) (hk : (computeTransformed4 P c d).1 = .ok tk) (s : Bytes)
    (hh : header "(parsing)" s = .ok (h, r)) {e : PyErr} (he : body4 P h.data d tk dec r = .error e) :
    openBytes P c dec s = .error (readErr e) := by
  unfold openBytes parseKdbx
  rw [hh]
  simp only [hd, hv]
  rw [if_neg (by decide)]
  cases ht : computeTransformed4 P c d with
  | mk res kf =>
    rw [ht] at hk
    cases hk
    simp only [he]
    rfl

theorem parse_cut (P : Prims) (c : Creds) (dec : Bool) (s rest v : Bytes) (k : Kdbx) (hv : k.header.value.major = 4)
    (hp : (parseKdbx P c dec s).1 = .ok (k, rest)) :
    ∃ u, s = u ++ rest ∧ (Short v u → openBytes P c dec v = .error .stream) ∧
      ∀ r', openBytes P c dec (u ++ r') = .ok k := by
  obtain ⟨d, tk, r, b, h1, h2, h3, h4, h5⟩ := (parse4_ok hv).mp hp
  obtain ⟨e, he⟩ := header_ok h1
  obtain ⟨w, rfl, hw, hw'⟩ := cut_body4 P k.header.data d tk dec r b rest h4
  refine ⟨k.header.data ++ w, by rw [e, List.append_assoc], ?_, ?_⟩
  · intro hs
    rcases short_append hs with h | ⟨x, rfl, h⟩
    · exact C80_header P c dec s v c dec k (openBytes_ok.mpr ⟨_, hp⟩) h.1 h.2
    · exact body4_cut hv h2 h3 _ (he x) (hw' x h)
  · intro r'
    refine openBytes_ok.mpr ⟨r', (parse4_ok hv).mpr ⟨d, tk, w ++ r', b, ?_, h2, h3, hw r', h5⟩⟩
    rw [List.append_assoc]
    exact he _

/-- A KDBX4 file cut at any place is refused with `StreamError`, unless only bytes behind the last
block were cut off, and then it opens to the same database. -/
theorem C80_cut (P : Prims) (c : Creds) (dec : Bool) (s v : Bytes) (k : Kdbx) (ho : openBytes P c dec s = .ok k)
    (hm : k.header.value.major = 4) (hv : v <+: s) :
    openBytes P c dec v = .error .stream ∨ openBytes P c dec v = .ok k := by
  obtain ⟨rest, hp⟩ := openBytes_ok.mp ho
  obtain ⟨u, rfl, h1, h2⟩ := parse_cut P c dec s rest v k hm hp
  obtain ⟨t, ht⟩ := hv
  rcases List.append_eq_append_iff.mp ht with ⟨x, e1, _⟩ | ⟨x, e1, _⟩
  · by_cases e : v = u
    · right; rw [e]; have := h2 []; rwa [List.append_nil] at this
    · exact .inl (h1 ⟨⟨x, e1.symm⟩, e⟩)
  · rw [e1]; exact .inr (h2 x)

/-- Of what was saved nothing can be cut off: every shorter piece from the start is refused. -/
theorem C80_saved (P : Prims) (hP : P.Lawful) (c0 : Creds) (file : Bytes) (k k' : Kdbx)
    (hopen : openBytes P c0 true file = .ok k) (hver : k.header.value.major = 4)
    (bs : List Bytes) (xml : Xml) (hedit : Edited4 k k' bs xml) (hx : xml.Valid)
    (c : Creds) (hc : c.keyfile.Reusable) (out : Bytes) (kf : Keyfile)
    (hsave : buildKdbx P c k' = (.ok out, kf)) (n : Nat) (hn : n < out.length) :
    openBytes P { c with keyfile := kf } true (out.take n) = .error .stream := by
  obtain ⟨k2, hp, hs⟩ := roundtrip4_parse P hP c0 file k k' hopen hver bs xml hedit hx c hc out kf hsave []
  rw [List.append_nil] at hp
  have hv2 : k2.header.value.major = 4 := by rw [hs.1]; exact hver
  obtain ⟨u, e, h1, _⟩ := parse_cut P _ true out [] (out.take n) k2 hv2 hp
  rw [List.append_nil] at e
  subst e
  refine h1 ⟨List.take_prefix n out, fun e => ?_⟩
  have := congrArg List.length e
  simp at this
  omega

/-- KDBX3 keeps its blocks inside the encrypted part: a file whose encrypted part decrypts to less
than the start bytes and blocks of the opened one is refused with `StreamError`. -/
theorem C80_kdbx3 (P : Prims) (c : Creds) (s : Bytes) (k : Kdbx) (ho : openBytes P c true s = .ok k)
    (hm : k.header.value.major = 3) :
    ∃ d cid mk iv enc plain u t, s = k.header.data ++ enc ∧ k.header.value.dyn = some d ∧ d.cipher = .ok cid ∧
      d.raw .encryptionIv = .ok iv ∧ (∃ b, k.body = some b ∧ b.masterKey = mk) ∧
      payloadDecrypt P cid mk iv enc = .ok plain ∧ plain = u ++ t ∧
      ∀ enc' plain', payloadDecrypt P cid mk iv enc' = .ok plain' → plain' <+: u → plain' ≠ u →
        openBytes P c true (k.header.data ++ enc') = .error .stream := by
  obtain ⟨rest, hp⟩ := openBytes_ok.mp ho
  obtain ⟨d, tk, r, b, h1, h2, h3, h4, h5⟩ := (parse3_ok hm).mp hp
  obtain ⟨e, he⟩ := header_ok h1
  unfold body3 at h4
  obtain ⟨mk, m1, k1, h4⟩ := bind_ok.mp h4
  obtain ⟨j1, rfl⟩ := lift_ok.mp k1
  rw [if_pos rfl] at h4
  obtain ⟨cid, m2, k2, h4⟩ := bind_ok.mp h4
  obtain ⟨j2, rfl⟩ := lift_ok.mp k2
  obtain ⟨enc, m3, k3, h4⟩ := bind_ok.mp h4
  cases k3
  obtain ⟨iv, m4, k4, h4⟩ := bind_ok.mp h4
  obtain ⟨j4, rfl⟩ := lift_ok.mp k4
  obtain ⟨plain, m5, k5, h4⟩ := bind_ok.mp h4
  obtain ⟨j5, rfl⟩ := lift_ok.mp k5
  obtain ⟨p, m6, k6, h4⟩ := bind_ok.mp h4
  obtain ⟨j6, _⟩ := lift_ok.mp k6
  obtain ⟨rfl, _⟩ := pure_ok.mp h4
  unfold unpack3 at j6
  obtain ⟨⟨start, r1⟩, q1, j6⟩ := exc_bind_ok.mp j6
  obtain ⟨ex, q2, j6⟩ := exc_bind_ok.mp j6
  split at j6
  · cases j6
  · next hst =>
    obtain ⟨sid, q3, j6⟩ := exc_bind_ok.mp j6
    obtain ⟨z, q4, j6⟩ := exc_bind_ok.mp j6
    obtain ⟨⟨blocks, t⟩, q5, j6⟩ := exc_bind_ok.mp j6
    obtain ⟨w, rfl, hw, hw'⟩ := cut_blocks3 P r1 blocks t q5
    obtain ⟨q0, rfl⟩ := bytes_ok.mp q1
    refine ⟨d, cid, mk, iv, r, _, start ++ w, t, e, h2, j2, j4, ⟨_, h5, rfl⟩, j5, by rw [List.append_assoc], ?_⟩
    intro enc' plain' hd hpre hne
    have hu : unpack3 P d plain' = .error .stream := by
      unfold unpack3
      rcases short_append ⟨hpre, hne⟩ with h | ⟨x, rfl, h⟩
      · obtain ⟨u0, e0, _, h0⟩ := cut_bytes 32 _ _ _ q1
        have : u0 = start := (List.append_cancel_right e0).symm
        subst this
        rw [h0 plain' h]
        rfl
      · rw [exc_bind_run (show Parser.bytes 32 (start ++ x) = .ok (start, x) from bytes_append' start x q0)]
        simp only
        rw [exc_bind_run q2, if_neg hst, exc_bind_run q3, exc_bind_run q4, hw' x h]
        rfl
    have hb : body3 P d tk true enc' = .error .stream := by
      unfold body3
      rw [bind_run (lift_run j1 _), if_pos rfl, bind_run (lift_run j2 _), bind_run (show greedy enc' = .ok (enc', []) from rfl),
        bind_run (lift_run j4 _), bind_run (lift_run hd _)]
      refine bind_err ?_
      unfold Parser.lift
      rw [hu]
      rfl
    unfold openBytes parseKdbx
    rw [he enc']
    simp only [h2, hm, if_true]
    cases ht : computeTransformed3 P c d with
    | mk res kf =>
      rw [ht] at h3
      cases h3
      simp only [hb]
      rfl

/-- The hypotheses hold for the example file, which has bytes to cut off. -/
example (c : CipherId) (z : Bool) : (∃ k, openBytes Toy.prims Toy.creds true (Toy.file4 c z) = .ok k ∧ k.header.value.major = 4) ∧
    0 < (Toy.file4 c z).length := by
  obtain ⟨tk, mk, h⟩ := Toy.open4 c z
  refine ⟨⟨_, h, rfl⟩, ?_⟩
  cases hf : Toy.file4 c z with
  | nil => rw [hf] at h; cases h
  | cons a b => simp
example (c : CipherId) (z : Bool) : ∃ k, openBytes Toy.prims Toy.creds true (Toy.file3 c z) = .ok k ∧ k.header.value.major = 3 := by
  obtain ⟨tk, mk, h⟩ := Toy.open3 c z
  exact ⟨_, h, rfl⟩

end Verif.Props
