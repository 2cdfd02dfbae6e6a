import Verif.Props.C12_FailingSave
import Verif.Props.C58_ReportedAlgorithms
/-!
# C10: `decrypt=False` reads the header and never exposes the payload
-/
namespace Verif.Props
open Verif Parser Spec

/-- A KDBX4 file consisting of a header, its SHA-256 and anything at all opens with `decrypt=False`
under any credentials from which a key can be derived. -/
theorem C10_opens4 (P : Prims) (hP : P.Lawful) (c : Creds) (minor : Nat) (fs : List Field) (fin r : Bytes)
    (h : HeaderOk 4 minor fs fin) (seed tk : Bytes)
    (hs : DynHeader.raw (fs.map Field.value ++ [(.end, .raw fin)]) .masterSeed = .ok seed)
    (hk : (computeTransformed4 P c (fs.map Field.value ++ [(.end, .raw fin)])).1 = .ok tk) :
    ∃ k, openBytes P c false
        (headerLayout 4 minor fs fin ++ (P.sha256 (headerLayout 4 minor fs fin) ++ r)) = .ok k ∧
      k.version = (4, minor) ∧
      k.header.value.dyn = some (fs.map Field.value ++ [(.end, .raw fin)]) ∧
      k.tree = .error .value := by
  refine ⟨{ header := { data := headerLayout 4 minor fs fin,
                        value := { minor, major := 4, dyn := some (fs.map Field.value ++ [(.end, .raw fin)]) } },
            body := some { transformedKey := tk, masterKey := P.sha256 (seed ++ tk), payload := none } },
    ?_, rfl, rfl, rfl⟩
  rw [openBytes_ok]
  refine ⟨r, (parse4_ok rfl).mpr ⟨_, tk, _, _, header_run _ 4 minor fs fin h _, rfl, hk, ?_, rfl⟩⟩
  unfold body4
  rw [bind_run (lift_run (a := P.sha256 (seed ++ tk)) ?_ _),
    bind_run (bytes_append' (n := 32) _ _ (hP.sha256_length _)), if_neg (by simp)]
  · rfl
  · unfold computeMaster
    rw [exc_bind_run hs]; rfl

/-- The same for KDBX3, where nothing at all needs to follow the header. -/
theorem C10_opens3 (P : Prims) (c : Creds) (minor : Nat) (fs : List Field) (fin r : Bytes)
    (h : HeaderOk 3 minor fs fin) (seed tk : Bytes)
    (hs : DynHeader.raw (fs.map Field.value ++ [(.end, .raw fin)]) .masterSeed = .ok seed)
    (hk : (computeTransformed3 P c (fs.map Field.value ++ [(.end, .raw fin)])).1 = .ok tk) :
    ∃ k, openBytes P c false (headerLayout 3 minor fs fin ++ r) = .ok k ∧
      k.version = (3, minor) ∧
      k.header.value.dyn = some (fs.map Field.value ++ [(.end, .raw fin)]) ∧
      k.tree = .error .value := by
  refine ⟨{ header := { data := headerLayout 3 minor fs fin,
                        value := { minor, major := 3, dyn := some (fs.map Field.value ++ [(.end, .raw fin)]) } },
            body := some { transformedKey := tk, masterKey := P.sha256 (seed ++ tk), payload := none } },
    ?_, rfl, rfl, rfl⟩
  rw [openBytes_ok]
  refine ⟨r, (parse3_ok rfl).mpr ⟨_, tk, _, _, header_run _ 3 minor fs fin h _, rfl, hk, ?_, rfl⟩⟩
  unfold body3
  rw [bind_run (lift_run (a := P.sha256 (seed ++ tk)) ?_ _)]
  · rfl
  · unfold computeMaster
    rw [exc_bind_run hs]; rfl

/-- Whether the composite key can be computed, and how the key file is left, do not depend on the
password. -/
theorem composite_password (P : Prims) (pw pw' : Option Str) (kf : Keyfile) :
    (computeKeyComposite P pw' kf).2 = (computeKeyComposite P pw kf).2 ∧
    ∀ x, (computeKeyComposite P pw kf).1 = .ok x → ∃ y, (computeKeyComposite P pw' kf).1 = .ok y := by
  unfold computeKeyComposite
  cases kf with
  | none => exact ⟨rfl, fun _ _ => ⟨_, rfl⟩⟩
  | path b =>
    simp only
    cases Keyfile.read (.path b) with
    | mk r kf' =>
      cases r with
      | error e => exact ⟨rfl, fun _ h => (by cases h)⟩
      | ok b =>
        simp only
        cases keyfileComposite P b with
        | error e => exact ⟨rfl, fun _ h => (by cases h)⟩
        | ok k => exact ⟨rfl, fun _ _ => ⟨_, rfl⟩⟩
  | stream sk b pos =>
    simp only
    cases Keyfile.read (.stream sk b pos) with
    | mk r kf' =>
      cases r with
      | error e => exact ⟨rfl, fun _ h => (by cases h)⟩
      | ok b =>
        simp only
        cases keyfileComposite P b with
        | error e => exact ⟨rfl, fun _ h => (by cases h)⟩
        | ok k => exact ⟨rfl, fun _ _ => ⟨_, rfl⟩⟩

/-- Argon2 accepts or refuses its parameters whatever the secret. -/
def ArgonUniform (P : Prims) : Prop :=
  ∀ id a b salt t m p v x, P.argon2 id a salt t m p v = .ok x → ∃ y, P.argon2 id b salt t m p v = .ok y

theorem aesKdf_password (P : Prims) (seed : Bytes) (n : Nat) (a b : Bytes) {x : Bytes}
    (h : aesKdf P seed n a = .ok x) : ∃ y, aesKdf P seed n b = .ok y := by
  unfold aesKdf at h ⊢
  split at h
  · next hl => rw [if_pos hl]; exact ⟨_, rfl⟩
  · cases h

theorem transformed4_password (P : Prims) (hA : ArgonUniform P) (c : Creds) (pw : Option Str)
    (d : DynHeader) (tk : Bytes) (h : (computeTransformed4 P c d).1 = .ok tk) :
    ∃ tk', (computeTransformed4 P { c with password := pw } d).1 = .ok tk' := by
  obtain ⟨e1, e2⟩ := composite_password P c.password pw c.keyfile
  unfold computeTransformed4 at h ⊢
  simp only
  cases h1 : computeKeyComposite P c.password c.keyfile with
  | mk r kf =>
    cases h1' : computeKeyComposite P pw c.keyfile with
    | mk r' kf' =>
      rw [h1, h1'] at e1
      rw [h1, h1'] at e2
      simp only at e1
      subst e1
      rw [h1] at h
      cases r with
      | error e => cases h
      | ok comp =>
        obtain ⟨comp', e2⟩ := e2 _ rfl
        simp only at e2
        subst e2
        simp only at h ⊢
        cases hd : d.kdf with
        | error e => rw [hd] at h; cases h
        | ok vd =>
          rw [hd] at h
          simp only at h ⊢
          cases htk : c.transformedKey with
          | some k => exact ⟨k, rfl⟩
          | none =>
            rw [htk] at h
            simp only at h ⊢
            cases hu : vd.get "$UUID" with
            | error e => rw [hu] at h; cases h
            | ok u =>
              rw [hu] at h
              simp only at h ⊢
              by_cases hu1 : u = .bytes uuidArgon2 ∨ u = .bytes uuidArgon2id
              · rw [if_pos hu1] at h ⊢
                simp only at h ⊢
                unfold argon2Branch at h ⊢
                obtain ⟨a1, b1, h⟩ := exc_bind_ok.mp h
                rw [exc_bind_run b1]
                obtain ⟨a2, b2, h⟩ := exc_bind_ok.mp h
                rw [exc_bind_run b2]
                obtain ⟨a3, b3, h⟩ := exc_bind_ok.mp h
                rw [exc_bind_run b3]
                obtain ⟨a4, b4, h⟩ := exc_bind_ok.mp h
                rw [exc_bind_run b4]
                obtain ⟨a5, b5, h⟩ := exc_bind_ok.mp h
                rw [exc_bind_run b5]
                obtain ⟨a6, b6, h⟩ := exc_bind_ok.mp h
                rw [exc_bind_run b6]
                obtain ⟨a7, b7, h⟩ := exc_bind_ok.mp h
                rw [exc_bind_run b7]
                obtain ⟨a8, b8, h⟩ := exc_bind_ok.mp h
                rw [exc_bind_run b8]
                obtain ⟨a9, b9, h⟩ := exc_bind_ok.mp h
                rw [exc_bind_run b9]
                obtain ⟨a10, b10, h⟩ := exc_bind_ok.mp h
                rw [exc_bind_run b10]
                obtain ⟨a11, b11, h⟩ := exc_bind_ok.mp h
                rw [exc_bind_run b11]
                exact hA _ _ _ _ _ _ _ _ _ h
              · rw [if_neg hu1] at h ⊢
                by_cases hu2 : u = .bytes uuidAesKdf
                · rw [if_pos hu2] at h ⊢
                  obtain ⟨e3, e4⟩ := composite_password P c.password pw kf'
                  cases h2 : computeKeyComposite P c.password kf' with
                  | mk r2 kf2 =>
                    cases h2' : computeKeyComposite P pw kf' with
                    | mk r2' kf2' =>
                      rw [h2] at h
                      cases r2 with
                      | error e => cases h
                      | ok comp2 =>
                        rw [h2, h2'] at e4
                        obtain ⟨comp2', e4⟩ := e4 _ rfl
                        simp only at e4
                        subst e4
                        simp only at h ⊢
                        unfold aesBranch at h ⊢
                        obtain ⟨a1, b1, h⟩ := exc_bind_ok.mp h
                        rw [exc_bind_run b1]
                        obtain ⟨a2, b2, h⟩ := exc_bind_ok.mp h
                        rw [exc_bind_run b2]
                        obtain ⟨a3, b3, h⟩ := exc_bind_ok.mp h
                        rw [exc_bind_run b3]
                        by_cases hl : ¬ AesKeyLen a3
                        · rw [if_pos hl] at h; cases h
                        · rw [if_neg hl] at h ⊢
                          obtain ⟨a4, b4, h⟩ := exc_bind_ok.mp h
                          rw [exc_bind_run b4]
                          exact aesKdf_password P _ _ _ _ h
                · rw [if_neg hu2] at h; cases h

theorem transformed3_password (P : Prims) (c : Creds) (pw : Option Str)
    (d : DynHeader) (tk : Bytes) (h : (computeTransformed3 P c d).1 = .ok tk) :
    ∃ tk', (computeTransformed3 P { c with password := pw } d).1 = .ok tk' := by
  obtain ⟨e1, e2⟩ := composite_password P c.password pw c.keyfile
  unfold computeTransformed3 at h ⊢
  simp only
  cases htk : c.transformedKey with
  | some k => exact ⟨k, rfl⟩
  | none =>
    rw [htk] at h
    simp only at h ⊢
    cases h1 : computeKeyComposite P c.password c.keyfile with
    | mk r kf =>
      rw [h1] at h
      cases r with
      | error e => cases h
      | ok comp =>
        rw [h1] at e2
        obtain ⟨comp', e2⟩ := e2 _ rfl
        cases h1' : computeKeyComposite P pw c.keyfile with
        | mk r' kf' =>
          rw [h1'] at e2
          simp only at e2
          subst e2
          simp only at h ⊢
          obtain ⟨a1, b1, h⟩ := exc_bind_ok.mp h
          rw [exc_bind_run b1]
          obtain ⟨a2, b2, h⟩ := exc_bind_ok.mp h
          rw [exc_bind_run b2]
          exact aesKdf_password P _ _ _ _ h

/-- A file that opens at all, in whatever way, opens with `decrypt=False` whatever password is
given; the header reported is the same and the content is not available. -/
theorem C10_any_password (P : Prims) (hA : ArgonUniform P) (c : Creds) (dec : Bool) (file : Bytes) (k : Kdbx)
    (h : openBytes P c dec file = .ok k)
    (hv : k.header.value.major = 3 ∨ k.header.value.major = 4) (pw : Option Str) :
    ∃ k', openBytes P { c with password := pw } false file = .ok k' ∧ k'.header = k.header ∧
      k'.tree = .error .value := by
  obtain ⟨rest, h⟩ := openBytes_ok.mp h
  rcases hv with hv | hv
  · obtain ⟨d, tk, r, b, h1, h2, h3, h4, h5⟩ := (parse3_ok hv).mp h
    obtain ⟨tk', ht⟩ := transformed3_password P c pw d tk h3
    unfold body3 at h4
    obtain ⟨mk, r1, h6, _⟩ := bind_ok.mp h4
    obtain ⟨h6, _⟩ := lift_ok.mp h6
    unfold computeMaster at h6
    obtain ⟨seed, hs, _⟩ := exc_bind_ok.mp h6
    refine ⟨{ header := k.header,
              body := some { transformedKey := tk', masterKey := P.sha256 (seed ++ tk'), payload := none } },
      ?_, rfl, rfl⟩
    rw [openBytes_ok]
    refine ⟨r, (parse3_ok (k := { header := k.header, body := some ⟨tk', P.sha256 (seed ++ tk'), none⟩ }) hv).mpr ⟨d, tk', r, _, h1, h2, ht, ?_, rfl⟩⟩
    unfold body3
    rw [bind_run (lift_run (a := P.sha256 (seed ++ tk')) ?_ _)]
    · rfl
    · unfold computeMaster
      rw [exc_bind_run hs]; rfl
  · obtain ⟨d, tk, r, b, h1, h2, h3, h4, h5⟩ := (parse4_ok hv).mp h
    obtain ⟨tk', ht⟩ := transformed4_password P hA c pw d tk h3
    unfold body4 at h4
    obtain ⟨mk, r1, h6, h4⟩ := bind_ok.mp h4
    obtain ⟨h8, rfl⟩ := lift_ok.mp h6
    obtain ⟨sha, r2, h7, h4⟩ := bind_ok.mp h4
    have hm : ∃ seed, d.raw .masterSeed = .ok seed := by
      unfold computeMaster at h8
      obtain ⟨seed, hs, _⟩ := exc_bind_ok.mp h8
      exact ⟨seed, hs⟩
    obtain ⟨seed, hs⟩ := hm
    by_cases hsha : sha ≠ P.sha256 k.header.data
    · rw [if_pos hsha] at h4
      exact absurd h4 fail_ok
    · refine ⟨{ header := k.header,
                body := some { transformedKey := tk', masterKey := P.sha256 (seed ++ tk'), payload := none } },
        ?_, rfl, rfl⟩
      rw [openBytes_ok]
      refine ⟨r2, (parse4_ok (k := { header := k.header, body := some ⟨tk', P.sha256 (seed ++ tk'), none⟩ }) hv).mpr ⟨d, tk', r, _, h1, h2, ht, ?_, rfl⟩⟩
      unfold body4
      rw [bind_run (lift_run (a := P.sha256 (seed ++ tk')) ?_ _), bind_run h7, if_neg hsha]
      · rfl
      · unfold computeMaster
        rw [exc_bind_run hs]; rfl

/-- A database opened with `decrypt=False` cannot be built. -/
theorem C10_cannot_build (P : Prims) (c c' : Creds) (file : Bytes) (k : Kdbx)
    (h : openBytes P c false file = .ok k)
    (hv : k.header.value.major = 3 ∨ k.header.value.major = 4) :
    k.tree = .error .value ∧ ∃ e, (buildKdbx P c' k).1 = .error e := by
  obtain ⟨rest, h⟩ := openBytes_ok.mp h
  have key : ∃ d b, k.header.value.dyn = some d ∧ k.body = some b ∧ b.payload = none := by
    rcases hv with hv | hv
    · obtain ⟨d, tk, r, b, h1, h2, h3, h4, h5⟩ := (parse3_ok hv).mp h
      unfold body3 at h4
      obtain ⟨mk, r1, _, h4⟩ := bind_ok.mp h4
      simp only [Bool.false_eq_true, if_false] at h4
      obtain ⟨rfl, _⟩ := pure_ok.mp h4
      exact ⟨d, _, h2, h5, rfl⟩
    · obtain ⟨d, tk, r, b, h1, h2, h3, h4, h5⟩ := (parse4_ok hv).mp h
      unfold body4 at h4
      obtain ⟨mk, r1, _, h4⟩ := bind_ok.mp h4
      obtain ⟨sha, r2, _, h4⟩ := bind_ok.mp h4
      by_cases hsha : sha ≠ P.sha256 k.header.data
      · rw [if_pos hsha] at h4
        exact absurd h4 fail_ok
      · rw [if_neg hsha] at h4
        simp only [Bool.false_eq_true, if_false] at h4
        obtain ⟨rfl, _⟩ := pure_ok.mp h4
        exact ⟨d, _, h2, h5, rfl⟩
  obtain ⟨d, b, h1, h2, h3⟩ := key
  refine ⟨by unfold Kdbx.tree Kdbx.payload; rw [h2]; simp only [h3]; rfl, ?_⟩
  unfold buildKdbx
  rw [h1, h2]
  simp only [h3]
  split
  · cases computeTransformed3 P c' d with
    | mk r kf =>
      cases r with
      | error e => exact ⟨e, rfl⟩
      | ok tk =>
        simp only
        have : ∀ y, buildBody3 P d tk none ≠ .ok y := by
          intro y hy
          unfold buildBody3 at hy
          obtain ⟨_, _, hy⟩ := exc_bind_ok.mp hy
          obtain ⟨_, hp, _⟩ := exc_bind_ok.mp hy
          unfold pack3 at hp
          obtain ⟨_, _, hp⟩ := exc_bind_ok.mp hp
          split at hp <;> cases hp
        cases hb : buildBody3 P d tk none with
        | ok y => exact absurd hb (this y)
        | error e => exact ⟨e, rfl⟩
  · cases computeTransformed4 P c' d with
    | mk r kf =>
      cases r with
      | error e => exact ⟨e, rfl⟩
      | ok tk =>
        simp only
        have : ∀ y, buildBody4 P k.header.data d tk none ≠ .ok y := by
          intro y hy
          unfold buildBody4 at hy
          obtain ⟨_, _, hy⟩ := exc_bind_ok.mp hy
          obtain ⟨_, _, hy⟩ := exc_bind_ok.mp hy
          obtain ⟨_, hp, _⟩ := exc_bind_ok.mp hy
          cases hp
        cases hb : buildBody4 P k.header.data d tk none with
        | ok y => exact absurd hb (this y)
        | error e => exact ⟨e, rfl⟩

/-- Hence saving it fails and no file except the temporary one is touched; that one is gone. -/
theorem C10_save_fails (P : Prims) (o : Os) (fs : Fs) (s : Session) (f : Option Filename)
    (tk : Option Bytes) (p : Str) (tmp : PPath) (c : Creds) (file : Bytes) (k : Kdbx)
    (h : openBytes P c false file = .ok k)
    (hv : k.header.value.major = 3 ∨ k.header.value.major = 4)
    (hk : s.kdbx = some k) (ht : s.target f = some (.path p)) (hn : ¬ NamedTmp (PPath.ofStr p))
    (hw : (PPath.ofStr p).withTmp = .ok tmp)
    (ho : o.openOk = true) (hrm : o.removeOk = true) :
    (∃ e, (s.save P o fs f tk).run.result = .error e) ∧
    (s.save P o fs f tk).run.final (PPath.ofStr p) = fs (PPath.ofStr p) ∧
    (s.save P o fs f tk).run.final tmp = none := by
  obtain ⟨_, e, he⟩ := C10_cannot_build P c
    { password := s.password, keyfile := s.keyfile, transformedKey := tk } file k h hv
  obtain ⟨h1, h2, h3⟩ := C12_build_fails P o fs s f tk p tmp k e ht hw hk he ho hrm
  exact ⟨⟨e, h1⟩, h3 _ (fun h => withTmp_ne _ hn (h ▸ hw)), h2⟩

/-- The example files open without decrypting under a wrong password. -/
example (c : CipherId) (z : Bool) : ∃ k', openBytes Toy.prims { Toy.creds with password := some [] } false
    (Toy.file4 c z) = .ok k' ∧ k'.header = Toy.header4 c z ∧ k'.tree = .error .value := by
  obtain ⟨tk, mk, h⟩ := Toy.open4 c z
  exact C10_any_password Toy.prims (by intro id a b salt t m p v x _; exact ⟨_, rfl⟩) Toy.creds true _ _ h
    (.inr rfl) _

end Verif.Props
