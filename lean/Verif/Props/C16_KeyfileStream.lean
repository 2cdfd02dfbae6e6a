import Verif.Kdbx.Toy
/-!
# C16: a seekable key-file stream can be used any number of times
-/
namespace Verif.Props
open Verif Parser

/-- The key file after `n` more derivations of a key with it, and the keys derived. -/
def derive4 (P : Prims) (pw : Option Str) (d : DynHeader) : Nat → Keyfile → List (Except PyErr Bytes) × Keyfile
  | 0, kf => ([], kf)
  | n + 1, kf =>
    let r := computeTransformed4 P { password := pw, keyfile := kf, transformedKey := none } d
    let rs := derive4 P pw d n r.2
    (r.1 :: rs.1, rs.2)

def derive3 (P : Prims) (pw : Option Str) (d : DynHeader) : Nat → Keyfile → List (Except PyErr Bytes) × Keyfile
  | 0, kf => ([], kf)
  | n + 1, kf =>
    let r := computeTransformed3 P { password := pw, keyfile := kf, transformedKey := none } d
    let rs := derive3 P pw d n r.2
    (r.1 :: rs.1, rs.2)

/-- The key derived from a seekable stream depends on its content only, not on its position; it is
the key derived from a path naming a file with this content. -/
theorem C16_position_irrelevant (P : Prims) (c : Creds) (d : DynHeader) (b : Bytes) (pos : Nat) :
    (computeTransformed4 P { c with keyfile := .stream true b pos } d).1 =
      (computeTransformed4 P { c with keyfile := .path (some b) } d).1 ∧
    (computeTransformed3 P { c with keyfile := .stream true b pos } d).1 =
      (computeTransformed3 P { c with keyfile := .path (some b) } d).1 := by
  have hk : ∀ pos, (computeKeyComposite P c.password (.stream true b pos)).1 =
      (computeKeyComposite P c.password (.path (some b))).1 ∧
      (computeKeyComposite P c.password (.stream true b pos)).2 = .stream true b b.length ∧
      (computeKeyComposite P c.password (.path (some b))).2 = .path (some b) := by
    intro pos
    simp only [computeKeyComposite, Keyfile.read]
    cases keyfileComposite P b <;> exact ⟨rfl, rfl, rfl⟩
  obtain ⟨h1, h2, h3⟩ := hk pos
  obtain ⟨h1', h2', _⟩ := hk b.length
  constructor
  · unfold computeTransformed4
    cases e1 : computeKeyComposite P c.password (.stream true b pos) with
    | mk r1 k1 =>
      cases e2 : computeKeyComposite P c.password (.path (some b)) with
      | mk r2 k2 =>
        rw [e1] at h1 h2; rw [e2] at h1 h3
        simp only at h1 h2 h3
        subst h1 h2 h3
        cases r1 with
        | error e => rfl
        | ok comp =>
          simp only
          cases d.kdf with
          | error e => rfl
          | ok kd =>
            cases c.transformedKey with
            | some t => rfl
            | none =>
              simp only
              cases kd.get "$UUID" with
              | error e => rfl
              | ok u =>
                simp only
                split
                · rfl
                · split
                  · cases e3 : computeKeyComposite P c.password (.stream true b b.length) with
                    | mk r3 k3 =>
                      rw [e3, e2] at h1'
                      simp only at h1'
                      subst h1'
                      rw [e2]
                  · rfl
  · unfold computeTransformed3
    cases c.transformedKey with
    | some t => rfl
    | none =>
      simp only
      cases e1 : computeKeyComposite P c.password (.stream true b pos) with
      | mk r1 k1 =>
        cases e2 : computeKeyComposite P c.password (.path (some b)) with
        | mk r2 k2 =>
          rw [e1, e2] at h1
          simp only at h1
          subst h1
          cases r1 <;> rfl

/-- All of any number of derivations with the same stream give the same result. -/
theorem C16_repeated (P : Prims) (pw : Option Str) (d : DynHeader) (kf : Keyfile)
    (hk : kf.Reusable) (n : Nat) :
    (∀ r ∈ (derive4 P pw d n kf).1,
      r = (computeTransformed4 P { password := pw, keyfile := kf, transformedKey := none } d).1) ∧
    (∀ r ∈ (derive3 P pw d n kf).1,
      r = (computeTransformed3 P { password := pw, keyfile := kf, transformedKey := none } d).1) := by
  constructor
  · induction n generalizing kf with
    | zero => intro r hr; cases hr
    | succ n ih =>
      have ha := transformed4_again P { password := pw, keyfile := kf, transformedKey := none } d hk
      intro r hr
      rcases List.mem_cons.mp hr with rfl | hr
      · rfl
      · rw [ih _ ha.2 r hr]
        exact congrArg Prod.fst ha.1
  · induction n generalizing kf with
    | zero => intro r hr; cases hr
    | succ n ih =>
      have ha := transformed3_again P { password := pw, keyfile := kf, transformedKey := none } d hk
      intro r hr
      rcases List.mem_cons.mp hr with rfl | hr
      · rfl
      · rw [ih _ ha.2 r hr]
        exact congrArg Prod.fst ha.1

/-- A stream that cannot be rewound is consumed by its first use: afterwards it reads as empty. -/
theorem C16_not_seekable (P : Prims) (pw : Option Str) (b : Bytes) (pos : Nat) :
    ∃ pos', (computeKeyComposite P pw (.stream false b pos)).2 = .stream false b pos' ∧
      (Keyfile.stream false b pos').read.1 = .ok [] := by
  refine ⟨max pos b.length, ?_, ?_⟩
  · simp only [computeKeyComposite, Keyfile.read]
    cases keyfileComposite P (b.drop pos) <;> rfl
  · simp only [Keyfile.read]
    rw [List.drop_eq_nil_of_le (by omega)]

/-- Finding: with AES-KDF in KDBX4 the key file is read twice during one derivation, so with such a
stream already the first key is that of an empty key file. -/
theorem C16_aeskdf_reads_twice (P : Prims) (pw : Option Str) (b : Bytes) (d : DynHeader) (kd : VDict)
    (hd : d.kdf = .ok kd) (hu : kd.get "$UUID" = .ok (.bytes uuidAesKdf)) (k k0 : Bytes)
    (hb : keyfileComposite P b = .ok k) (he : keyfileComposite P [] = .ok k0) :
    (computeTransformed4 P { password := pw, keyfile := .stream false b 0, transformedKey := none } d).1 =
      aesBranch P kd (P.sha256 (passwordComposite P pw ++ k0)) := by
  unfold computeTransformed4
  simp only [computeKeyComposite, Keyfile.read, List.drop_zero, hb, hd, hu]
  rw [if_neg (by simp [uuidArgon2, uuidArgon2id, uuidAesKdf])]
  rw [if_pos trivial]
  rw [List.drop_eq_nil_of_le (by omega)]
  rw [he]

/-- Concrete: derived keys from a stream left at its end, three times. -/
example : (derive4 Toy.prims none (Toy.dyn4 .aes256 true) 3 (.stream true [1, 2] 2)).1 =
    List.replicate 3 (computeTransformed4 Toy.prims
      { password := none, keyfile := .path (some [1, 2]), transformedKey := none } (Toy.dyn4 .aes256 true)).1 := by
  decide +kernel

end Verif.Props
