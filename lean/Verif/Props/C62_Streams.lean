import Verif.Props.C01_Kdbx4RoundTrip
import Verif.Props.C11_CrashSafeSave
import Verif.Kdbx.BlockLemmas
/-!
# C62: databases in streams

`filename` may be a stream. `save` writes at the position of the stream and does not go back to where the database was
read from.
-/
namespace Verif.Props
open Verif Parser Spec

/-- The content of a stream after `out` has been written at `pos`: what was before and behind stays, a gap is filled
with zeros. -/
def Overwritten (old : Bytes) (pos : Nat) (out new : Bytes) : Prop :=
  ∀ i, new[i]? = if i < pos then some (old[i]?.getD 0) else if i < pos + out.length then out[i - pos]? else old[i]?

theorem writeAt_overwrites (old : Bytes) (pos : Nat) (out : Bytes) (h : out ≠ []) : Overwritten old pos out (writeAt old pos out) := by
  intro i
  unfold writeAt
  rw [if_neg h]
  have hl : ((old ++ List.replicate (pos - old.length) 0).take pos).length = pos := by
    rw [List.length_take, List.length_append, List.length_replicate]
    omega
  by_cases h1 : i < pos
  · rw [if_pos h1, List.append_assoc, List.getElem?_append_left (by omega), List.getElem?_take, if_pos h1, List.getElem?_append]
    split
    · next h2 => rw [List.getElem?_eq_getElem h2]; rfl
    · next h2 =>
      rw [List.getElem?_eq_none (l := old) (by omega), List.getElem?_replicate, if_pos (by omega)]; rfl
  · rw [if_neg h1, List.append_assoc, List.getElem?_append_right (by omega), hl, List.getElem?_append]
    by_cases h2 : i < pos + out.length
    · rw [if_pos h2, if_pos (by omega)]
    · rw [if_neg h2, if_neg (by omega), List.getElem?_drop]
      congr 1
      omega

/-- Inside, across the end and behind a gap. -/
example : Overwritten [1, 2, 3, 4] 1 [8, 9] [1, 8, 9, 4] ∧ Overwritten [1, 2] 1 [8, 9] [1, 8, 9] ∧
    Overwritten [1] 3 [8] [1, 0, 0, 8] :=
  ⟨writeAt_overwrites [1, 2, 3, 4] 1 [8, 9] (by decide), writeAt_overwrites [1, 2] 1 [8, 9] (by decide),
   writeAt_overwrites [1] 3 [8] (by decide)⟩

/-- Nothing but this is the content. -/
theorem C62_one_content (old : Bytes) (pos : Nat) (out a b : Bytes) (ha : Overwritten old pos out a) (hb : Overwritten old pos out b) :
    a = b :=
  List.ext_getElem? fun i => (ha i).trans (hb i).symm

theorem overwritten_drop {old out new : Bytes} {pos : Nat} (h : Overwritten old pos out new) :
    new.drop pos = out ++ old.drop (pos + out.length) := by
  refine List.ext_getElem? fun i => ?_
  rw [List.getElem?_drop, h, if_neg (by omega), List.getElem?_append]
  by_cases h2 : i < out.length
  · rw [if_pos (by omega), if_pos h2]
    congr 1
    omega
  · rw [if_neg (by omega), if_neg h2, List.getElem?_drop]
    congr 1
    omega

theorem overwritten_take {old out new : Bytes} {pos : Nat} (h : Overwritten old pos out new) (hp : pos ≤ old.length) :
    new.take pos = old.take pos := by
  refine List.ext_getElem? fun i => ?_
  rw [List.getElem?_take, List.getElem?_take]
  split
  · next hi =>
    rw [h, if_pos hi, List.getElem?_eq_getElem (by omega)]
    rfl
  · rfl

theorem save_stream {P : Prims} {o : Os} {fs : Fs} {s : Session} {f : Option Filename} {tk : Option Bytes} {b : Bytes}
    {pos : Nat} {k : Kdbx} (hk : s.kdbx = some k) (ht : s.target f = some (.stream b pos)) {out : Bytes} {kf : Keyfile}
    (hb : buildKdbx P ⟨s.password, s.keyfile, tk⟩ k = (.ok out, kf)) (hf : o.Faithful) (hi : o.ioError = none) :
    ∃ name, s.save P o fs f tk = ⟨⟨[fs], fs, .ok ()⟩, { s with keyfile := kf, filename := name },
      some (writeAt b pos out, pos + out.length)⟩ ∧
      (f = none → name = some (.stream (writeAt b pos out) (pos + out.length))) := by
  unfold Session.save
  rw [hk]
  simp only [ht, hb, Os.writes, hi]
  rw [hf out]
  refine ⟨_, rfl, ?_⟩
  rintro rfl
  rfl

/-- Saving to a stream writes the new database at the position of the stream, moves the position behind it and touches
no file. -/
theorem C62_written (P : Prims) (o : Os) (fs : Fs) (s : Session) (f : Option Filename) (tk : Option Bytes) (b : Bytes)
    (pos : Nat) (ht : s.target f = some (.stream b pos)) (out : Bytes) (hn : newContent P s tk out) (hne : out ≠ [])
    (hf : o.Faithful) (hi : o.ioError = none) :
    (s.save P o fs f tk).run.result = .ok () ∧ (∀ x ∈ (s.save P o fs f tk).run.states, x = fs) ∧
      ∃ b', (s.save P o fs f tk).stream = some (b', pos + out.length) ∧ Overwritten b pos out b' := by
  obtain ⟨k, hk, hb⟩ := hn
  have hb : buildKdbx P ⟨s.password, s.keyfile, tk⟩ k = (.ok out, (buildKdbx P ⟨s.password, s.keyfile, tk⟩ k).2) := by rw [← hb]
  obtain ⟨name, e, -⟩ := save_stream (fs := fs) hk ht hb hf hi
  rw [e]
  refine ⟨rfl, ?_, _, rfl, writeAt_overwrites b pos out hne⟩
  intro x hx
  exact List.mem_singleton.mp hx

/-- Saving to an empty stream: it holds the database and nothing else. -/
theorem C62_new (P : Prims) (o : Os) (fs : Fs) (s : Session) (tk : Option Bytes) (out : Bytes) (hn : newContent P s tk out)
    (hf : o.Faithful) (hi : o.ioError = none) :
    (s.save P o fs (some (.stream [] 0)) tk).run.result = .ok () ∧
      (s.save P o fs (some (.stream [] 0)) tk).stream = some (out, out.length) := by
  obtain ⟨k, hk, hb⟩ := hn
  have hb : buildKdbx P ⟨s.password, s.keyfile, tk⟩ k = (.ok out, (buildKdbx P ⟨s.password, s.keyfile, tk⟩ k).2) := by rw [← hb]
  obtain ⟨name, e, -⟩ := save_stream (fs := fs) (f := some (.stream [] 0)) hk rfl hb hf hi
  rw [e]
  refine ⟨rfl, ?_⟩
  have : writeAt [] 0 out = out := by
    unfold writeAt
    split
    · next h => exact h.symm
    · simp
  simp only [this, Nat.zero_add]

/-- A parse of a KDBX4 database depends only on the bytes it consumed. -/
theorem parse4_local {P : Prims} (hP : P.Lawful) {c : Creds} {file rest : Bytes} {k : Kdbx}
    (hp : (parseKdbx P c true file).1 = .ok (k, rest)) (hv : k.header.value.major = 4) :
    ∃ u, file = u ++ rest ∧ ∀ x, openBytes P c true (u ++ x) = .ok k := by
  obtain ⟨d, tk, r, b, g1, g2, g3, g4, g5⟩ := (parse4_ok hv).mp hp
  obtain ⟨e1, e2⟩ := header_ok g1
  obtain ⟨mk, seed, z, cc, iv, blocks, dd, plain, p, s', k1, k2, k3, k4, k5, k6, k7⟩ := (body4_iff P hP ..).mp g4
  obtain ⟨l1, l2, l3, l4⟩ := (blocks4_iff hP ..).mp k6
  refine ⟨k.header.data ++ (P.sha256 k.header.data ++ (headerHmac P (hmacBase P seed tk) k.header.data ++ stream4 (mac4 P (hmacBase P seed tk)) 0 blocks)), ?_, fun x => ?_⟩
  · rw [e1, k3, l4]
    simp only [List.append_assoc]
  · refine openBytes_ok.mpr ⟨x, (parse4_ok hv).mpr ⟨d, tk, _, b, by rw [List.append_assoc]; exact e2 _, g2, g3, ?_, g5⟩⟩
    refine (body4_iff P hP ..).mpr ⟨mk, seed, z, cc, iv, blocks, dd, plain, p, stream4 (mac4 P (hmacBase P seed tk)) 0 blocks ++ x, k1, k2,
      by simp only [List.append_assoc], k4, k5, (blocks4_iff hP ..).mpr ⟨l1, l2, l3, rfl⟩, k7⟩

theorem parse_reusable (P : Prims) (c : Creds) (hr : c.keyfile.Reusable) (dec : Bool) (s : Bytes) :
    (parseKdbx P c dec s).2.Reusable := by
  unfold parseKdbx
  split
  · exact hr
  · split
    · exact hr
    · split
      · have := (transformed3_again P c ‹_› hr).2
        split <;> simp_all
      · have := (transformed4_again P c ‹_› hr).2
        split <;> simp_all

theorem parse_none (P : Prims) (c : Creds) (dec : Bool) (s : Bytes) (hr : c.keyfile = .none) :
    (parseKdbx P c dec s).2 = .none := by
  have h3 : ∀ d, (computeTransformed3 P c d).2 = .none := by
    intro d
    unfold computeTransformed3
    rw [hr]
    split
    · rfl
    · split <;> next e => (rw [Prod.ext_iff] at e; exact e.2.symm)
  have h4 : ∀ d, (computeTransformed4 P c d).2 = .none := by
    intro d
    have hk : (computeKeyComposite P c.password .none).2 = .none := rfl
    unfold computeTransformed4
    rw [hr]
    cases hc : computeKeyComposite P c.password .none with
    | mk res kf =>
      obtain rfl : kf = .none := by rw [hc] at hk; exact hk
      cases res with
      | error e => rfl
      | ok comp =>
        simp only [hc]
        repeat' split
        all_goals first | rfl | simp_all
  unfold parseKdbx
  split
  · exact hr
  · split
    · exact hr
    · next d _ =>
      split
      · have := h3 d
        split <;> simp_all
      · have := h4 d
        split <;> simp_all

theorem open_stream {P : Prims} {c : Creds} {b : Bytes} {pos : Nat} {k : Kdbx} (h : openBytes P c true (b.drop pos) = .ok k)
    (left : Nat) (fs : Fs) : ∃ s, Session.open P left fs (some (.stream b pos)) c true = (.ok (), s) ∧ s.kdbx = some k ∧
      s.password = c.password ∧ (c.keyfile = .none → s.keyfile = .none) := by
  have hk := parse_none P c true (b.drop pos)
  obtain ⟨r, h⟩ := openBytes_ok.mp h
  unfold Session.open Session.read Session.target
  simp only [Filename.truthy, if_true]
  cases hp : parseKdbx P c true (b.drop pos) with
  | mk res kf =>
    rw [hp] at h hk
    simp only at h
    subst h
    exact ⟨_, rfl, rfl, rfl, hk⟩

/-- Going back to the position where the database was saved and opening the stream from there shows what was saved,
whatever else is in the stream. -/
theorem C62_rewound (P : Prims) (hP : P.Lawful) (c0 : Creds) (file : Bytes) (k k' : Kdbx)
    (hopen : openBytes P c0 true file = .ok k) (hver : k.header.value.major = 4)
    (bs : List Bytes) (xml : Xml) (hedit : Edited4 k k' bs xml) (hx : xml.Valid)
    (o : Os) (hf : o.Faithful) (hi : o.ioError = none) (fs : Fs) (s : Session) (hk : s.kdbx = some k')
    (hr : s.keyfile.Reusable) (f : Option Filename) (tk : Option Bytes) (b : Bytes) (pos : Nat)
    (ht : s.target f = some (.stream b pos)) (out : Bytes) (hn : newContent P s tk out) (left : Nat) :
    ∃ b' pos' s2 k2, (s.save P o fs f tk).stream = some (b', pos') ∧
      Session.open P left fs (some (.stream b' pos))
        ⟨s.password, (s.save P o fs f tk).session.keyfile, tk⟩ true = (.ok (), s2) ∧
      s2.kdbx = some k2 ∧ Shows4 k2 k.header bs xml.norm := by
  obtain ⟨k1, hk1, hb⟩ := hn
  obtain rfl : k' = k1 := Option.some.inj (hk.symm.trans hk1)
  have hb : buildKdbx P ⟨s.password, s.keyfile, tk⟩ k' = (.ok out, (buildKdbx P ⟨s.password, s.keyfile, tk⟩ k').2) := by rw [← hb]
  obtain ⟨name, e, -⟩ := save_stream (fs := fs) hk ht hb hf hi
  rw [e]
  obtain ⟨x, hx'⟩ := writeAt_drop b pos out
  obtain ⟨k2, h1, h2⟩ := C01_roundtrip P hP c0 file k k' hopen hver bs xml hedit hx _ hr out _ hb x
  rw [← hx'] at h1
  obtain ⟨s2, h3, h4⟩ := open_stream h1 left fs
  exact ⟨_, _, s2, k2, rfl, h3, h4.1, h2⟩

/-- Saving without argument a KDBX4 database that was opened from a stream: the stream now has both databases, the old
one where it was and the new one behind it. Opening the stream again from the old position shows the old one. -/
theorem C62_again (P : Prims) (hP : P.Lawful) (c : Creds) (hr : c.keyfile.Reusable)
    (left : Nat) (fs : Fs) (b : Bytes) (pos : Nat) (s : Session)
    (hopen : Session.open P left fs (some (.stream b pos)) c true = (.ok (), s)) (k k' : Kdbx) (hk : s.kdbx = some k)
    (hver : k.header.value.major = 4) (bs : List Bytes) (xml : Xml) (hedit : Edited4 k k' bs xml) (hx : xml.Valid)
    (o : Os) (hf : o.Faithful) (hi : o.ioError = none) (out : Bytes)
    (hn : newContent P { s with kdbx := some k' } none out) :
    ∃ b' mid r, (Session.save P o fs { s with kdbx := some k' } none none).run.result = .ok () ∧
      (Session.save P o fs { s with kdbx := some k' } none none).session.filename = some (.stream b' (mid + out.length)) ∧
      pos < mid ∧ b'.take mid = b.take mid ∧ b'.drop mid = out ++ r ∧
      openBytes P c true (b'.drop pos) = .ok k ∧
      ∃ k2, openBytes P ⟨s.password, (Session.save P o fs { s with kdbx := some k' } none none).session.keyfile, none⟩ true
          (b'.drop mid) = .ok k2 ∧ Shows4 k2 k.header bs xml.norm := by
  unfold Session.open Session.read Session.target at hopen
  simp only [Filename.truthy, if_true] at hopen
  have hru := parse_reusable P c hr true (b.drop pos)
  cases hp : parseKdbx P c true (b.drop pos) with
  | mk res kf =>
    rw [hp] at hopen hru
    cases res with
    | error e => cases hopen
    | ok x =>
      obtain ⟨k0, r⟩ := x
      simp only at hopen hru
      cases hopen
      obtain rfl : k0 = k := Option.some.inj hk
      obtain ⟨u, hu, hl⟩ := parse4_local hP (by rw [hp]) hver
      have hu0 : u ≠ [] := by
        rintro rfl
        cases (hl [] : openBytes P c true [] = .ok k0)
      have hlen : b.length - pos = u.length + r.length := by rw [← List.length_drop, hu, List.length_append]
      have hpos := List.length_pos_iff.mpr hu0
      have hmax : max pos (b.length - r.length) = pos + u.length := by omega
      obtain ⟨k1, hk1, hb⟩ := hn
      obtain rfl : k' = k1 := Option.some.inj hk1
      rw [hmax] at hb ⊢
      have hb : buildKdbx P ⟨c.password, kf, none⟩ k' = (.ok out, (buildKdbx P ⟨c.password, kf, none⟩ k').2) := by rw [← hb]
      obtain ⟨name, e, hname⟩ := save_stream (fs := fs) (f := none) (tk := none)
        (s := ⟨c.password, kf, some (.stream b (pos + u.length)), some k'⟩) rfl rfl hb hf hi
      rw [e]
      obtain ⟨x, hx'⟩ := writeAt_drop b (pos + u.length) out
      obtain ⟨k2, h1, h2⟩ := C01_roundtrip P hP c (b.drop pos) k0 k' (openBytes_ok.mpr ⟨r, by rw [hp]⟩) hver bs xml hedit hx _ hru out _ hb x
      rw [← hx'] at h1
      have hw : (writeAt b (pos + u.length) out).take (pos + u.length) = b.take (pos + u.length) := by
        by_cases h0 : out = []
        · rw [writeAt, if_pos h0]
        · exact overwritten_take (writeAt_overwrites b _ out h0) (by omega)
      refine ⟨_, pos + u.length, x, rfl, hname rfl, by omega, hw, hx', ?_, k2, h1, h2⟩
      have : (writeAt b (pos + u.length) out).drop pos = u ++ (writeAt b (pos + u.length) out).drop (pos + u.length) := by
        have h3 := congrArg (List.drop pos) hw
        rw [List.drop_take, List.drop_take, hu, Nat.add_sub_cancel_left, List.take_left'  rfl] at h3
        have h4 := List.take_append_drop u.length ((writeAt b (pos + u.length) out).drop pos)
        rw [h3, List.drop_drop] at h4
        exact h4.symm
      rw [this]
      exact hl _

/-- The example: a KDBX4 database behind three other bytes, a binary added. -/
example (c : CipherId) (z : Bool) : ∃ s k k' out,
    Session.open Toy.prims 0 (fun _ => none) (some (.stream ([1, 2, 3] ++ Toy.file4 c z) 3)) Toy.creds true = (.ok (), s) ∧
    s.kdbx = some k ∧ k.header.value.major = 4 ∧ Edited4 k k' [[0, 1, 2], [1], [0, 7]] Toy.tree ∧
    newContent Toy.prims { s with kdbx := some k' } none out ∧ Toy.creds.keyfile.Reusable := by
  obtain ⟨tk, mk, h⟩ := Toy.open4 c z
  have hd : ([1, 2, 3] ++ Toy.file4 c z).drop 3 = Toy.file4 c z := List.drop_left (l₁ := [1, 2, 3])
  obtain ⟨s, h1, h2, h3, h4⟩ := open_stream (b := [1, 2, 3] ++ Toy.file4 c z) (pos := 3) (hd ▸ h) 0 (fun _ => none)
  obtain ⟨tk', hk⟩ := Toy.key4 c z
  obtain ⟨out, ho⟩ := C01_save_succeeds Toy.prims Toy.lawful _ _ _ _ h rfl [[0, 1, 2], [1], [0, 7]] Toy.tree
    ⟨_, _, _, rfl, rfl, rfl, rfl⟩ (by decide) (by
      intro b' d z hb hp
      cases hb
      have := Toy.compress_length z d
      have : d.length < 2 ^ 40 := by
        refine (?_ : ∀ e, e = Except.ok d → (match e with | .ok x => x.length | .error (_ : PyErr) => 0) < 2 ^ 40 → d.length < 2 ^ 40)
          _ hp (by dsimp only; decide +kernel)
        rintro e rfl h
        exact h
      omega) Toy.creds _ _ rfl hk
  refine ⟨s, _, _, out, h1, h2, rfl, ⟨_, _, _, rfl, rfl, rfl, rfl⟩, ⟨_, rfl, ?_⟩, trivial⟩
  dsimp only
  rw [h3, h4 rfl]
  exact ho

/-- `reload` reads on from where the stream stands: after opening or saving at the end of the stream nothing is left
and it raises. -/
theorem C62_reload (P : Prims) (left : Nat) (fs : Fs) (s : Session) (b : Bytes) (pos : Nat)
    (hs : s.filename = some (.stream b pos)) (hp : b.length ≤ pos) : (s.reload P left fs).1 = .error .stream := by
  unfold Session.reload Session.read Session.target
  simp only [hs, Filename.truthy, if_true]
  rw [List.drop_eq_nil_of_le hp]
  rfl

/-- Saving to another place, a stream or a path, leaves the object where it was: its file name, password and content are as before, and the
key file too, except for the position of a key file given as a stream. -/
theorem C62_stays (P : Prims) (o : Os) (fs : Fs) (s : Session) {f : Filename} (hf : f.truthy = true) (tk : Option Bytes) :
    (s.save P o fs (some f) tk).session = { s with keyfile := (s.save P o fs (some f) tk).session.keyfile } ∧
    ((s.save P o fs (some f) tk).session.keyfile = s.keyfile ∨
      ∃ k, s.kdbx = some k ∧ (s.save P o fs (some f) tk).session.keyfile = (buildKdbx P ⟨s.password, s.keyfile, tk⟩ k).2) := by
  obtain ⟨pw, kf, nm, kd⟩ := s
  cases kd with
  | none => exact ⟨rfl, .inl rfl⟩
  | some k =>
    cases f with
    | stream b pos => exact ⟨rfl, .inr ⟨k, rfl, rfl⟩⟩
    | path p =>
      unfold Session.save Session.target
      dsimp only
      rw [if_pos hf]
      dsimp only
      cases (PPath.ofStr p).withTmp with
      | error e => exact ⟨rfl, .inl rfl⟩
      | ok _ =>
        dsimp only
        split
        · exact ⟨rfl, .inr ⟨k, rfl, rfl⟩⟩
        · exact ⟨rfl, .inl rfl⟩

/-- Saving without argument a database opened from a path does so too. -/
theorem C62_own_path (P : Prims) (o : Os) (fs : Fs) (s : Session) {p : Str} (hp : s.filename = some (.path p)) (tk : Option Bytes) :
    (s.save P o fs none tk).session = { s with keyfile := (s.save P o fs none tk).session.keyfile } := by
  obtain ⟨pw, kf, nm, kd⟩ := s
  obtain rfl : nm = some (.path p) := hp
  cases kd with
  | none => rfl
  | some k =>
    unfold Session.save Session.target
    dsimp only
    cases (PPath.ofStr p).withTmp with
    | error e => rfl
    | ok _ =>
      dsimp only
      split <;> rfl

/-- `reload` is opening what the object was opened from with the password and key file it has. -/
theorem C62_reloaded (P : Prims) (left : Nat) (fs : Fs) (s : Session) {p : Str} (hn : s.filename = some (.path p)) {b : Bytes}
    (hb : fs (PPath.ofStr p) = some b) :
    (∀ e, openBytes P ⟨s.password, s.keyfile, none⟩ true b = .error e → (s.reload P left fs).1 = .error e ∧ (s.reload P left fs).2.kdbx = s.kdbx) ∧
    (∀ k, openBytes P ⟨s.password, s.keyfile, none⟩ true b = .ok k → (s.reload P left fs).1 = .ok () ∧ (s.reload P left fs).2.kdbx = some k) ∧
    (s.reload P left fs).2.password = s.password ∧ (s.reload P left fs).2.filename = s.filename := by
  have ht : s.target (some (.path p)) = some (.path p) := by
    unfold Session.target
    cases p with
    | nil => exact hn
    | cons _ _ => rfl
  unfold Session.reload Session.read openBytes
  rw [hn, ht]
  dsimp only
  rw [hb]
  dsimp only
  cases hx : parseKdbx P ⟨s.password, s.keyfile, none⟩ true b with
  | mk r kf =>
    cases r with
    | error e => exact ⟨fun e' h => ⟨by cases h; rfl, rfl⟩, fun k h => (by cases h), rfl, rfl⟩
    | ok x => exact ⟨fun e h => (by cases h), fun k h => ⟨rfl, by cases h; rfl⟩, rfl, rfl⟩

example : ((toySession .aes256 true).save Toy.prims ⟨true, fun b => [b], [], none, true, true, none⟩ (fun _ => none) (some (.path "a".toList)) none).session.filename
    = (toySession .aes256 true).filename := by rw [(C62_stays _ _ _ _ rfl _).1]

end Verif.Props
