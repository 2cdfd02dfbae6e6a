import Verif.Twofish.Object
import Verif.Props.C23_TwofishCbc
/-!
# C23 The cipher object: modes, `final`, changing direction

The object offers seven modes, of which one can be had. `final` is documented to pad and encrypt what is left in the cache; it
never does, so data that is not a multiple of 16 bytes loses its rest unless the caller pads it. Encryption and decryption
share the chain, so an object must be used in one direction.
-/
namespace Verif.Props
open Verif Twofish

/-- An object is made exactly for CBC, a key of 16, 24 or 32 bytes and an IV of 16 bytes or none, and it is then the cipher
the library uses. -/
theorem C23_only_cbc (key : KeyArg) (mode : Nat) (iv : Option Bytes) (counter : Bool) (segment : Option Int) (o : Cipher) :
    Twofish.new key mode iv counter segment = .ok o ↔
      mode = 2 ∧ ∃ k s, key = .bytes k ∧ Fresh k (iv.getD (List.replicate 16 0)) s ∧ o = ⟨2, none, s⟩ := by
  cases key with
  | pair k1 k2 =>
    constructor
    · intro h
      exfalso
      unfold Twofish.new chain at h
      dsimp only at h
      split at h
      · split at h <;> cases h
      · unfold codebook at h; cases h
    · rintro ⟨_, k, s, e, _⟩; cases e
  | bytes k =>
    unfold Twofish.new chain Fresh newCbc codebook
    dsimp only
    by_cases hk : k.length = 16 ∨ k.length = 24 ∨ k.length = 32
    · rw [if_neg (not_not_intro hk), setKey, if_pos hk]
      dsimp only
      constructor
      · intro h
        split at h
        · cases h
        · split at h
          · cases h
          · split at h
            · next h2 =>
              subst h2
              split at h
              · cases h
              · next hi =>
                injection h with h
                exact ⟨rfl, k, _, rfl, by rw [if_neg (not_not_intro hk), setKey, if_pos hk]; dsimp only; rw [if_neg hi], h.symm⟩
            · exfalso
              split at h
              · split at h
                · cases h
                · split at h
                  · cases h
                  · split at h <;> cases h
              · split at h
                · split at h <;> cases h
                · split at h
                  · split at h <;> cases h
                  · split at h <;> cases h
      · rintro ⟨rfl, k', s, e, hs, rfl⟩
        cases e
        rw [if_neg (not_not_intro hk), setKey, if_pos hk] at hs
        dsimp only at hs
        split at hs
        · cases hs
        · next hi =>
          cases hs
          rw [if_neg (by decide), if_neg (by decide), if_pos rfl, if_neg hi]
    · rw [if_pos hk]
      constructor
      · intro h; cases h
      · rintro ⟨_, k', s, e, hs, _⟩
        cases e
        rw [if_pos hk] at hs
        cases hs

/-- Without a mode the object cannot be made: ECB, the default, is missing. -/
theorem C23_default_mode (k : Bytes) (iv : Option Bytes) (hk : k.length = 16 ∨ k.length = 24 ∨ k.length = 32) :
    Twofish.new (.bytes k) (iv := iv) = .error .name := by
  unfold Twofish.new chain codebook
  dsimp only
  rw [if_neg (not_not_intro hk), if_neg (by decide), setKey, if_pos hk]
  rfl

/-- What everything else raises. One key: `ValueError` for its length; `NameError` for ECB and CMAC, and for CFB, OFB and CTR if the other
arguments are right; `ValueError` for the segment size in CFB and the IV in OFB; `Exception` for the IV in CBC and CFB, a missing counter, a
single key in XTS and a mode that does not exist. Two keys: `NameError` in XTS if they can be keys or are empty, `KeyError` otherwise and in
every other mode. -/
theorem C23_not_made (mode : Nat) (iv : Option Bytes) (counter : Bool) (segment : Option Int) :
    (∀ k, ¬ (k.length = 16 ∨ k.length = 24 ∨ k.length = 32) → Twofish.new (.bytes k) mode iv counter segment = .error .value) ∧
    (∀ k, (k.length = 16 ∨ k.length = 24 ∨ k.length = 32) →
      let badIv := ∃ v, iv = some v ∧ v.length ≠ 16
      let badSegment := ∀ n, segment = some n → n > 128 ∨ n % 8 ≠ 0
      let r := Twofish.new (.bytes k) mode iv counter segment
      (mode = 1 ∨ mode = 8 → r = .error .name) ∧
      (mode = 2 ∧ badIv → r = .error .exception) ∧
      (mode = 3 ∧ badIv → r = .error .exception) ∧
      (mode = 3 ∧ ¬ badIv ∧ badSegment → r = .error .value) ∧
      (mode = 3 ∧ ¬ badIv ∧ ¬ badSegment → r = .error .name) ∧
      (mode = 5 ∧ badIv → r = .error .value) ∧
      (mode = 5 ∧ ¬ badIv → r = .error .name) ∧
      (mode = 6 → r = .error (if counter then .name else .exception)) ∧
      (mode ∉ [1, 2, 3, 5, 6, 8] → r = .error .exception)) ∧
    (∀ k1 k2, Twofish.new (.pair k1 k2) mode iv counter segment = .error
      (if mode = 7 ∧ k1.length ∈ [0, 16, 24, 32] ∧ k2.length ∈ [0, 16, 24, 32] then .name else .key)) := by
  refine ⟨fun k hk => ?_, fun k hk => ?_, fun k1 k2 => ?_⟩
  · unfold Twofish.new
    dsimp only
    rw [if_pos hk]
  · have hiv : ∀ {P : Prop}, ((∃ v, iv = some v ∧ v.length ≠ 16) → P) → (iv.getD (List.replicate 16 0)).length ≠ 16 → P := by
      intro P h hn
      cases iv with
      | none => exact absurd List.length_replicate hn
      | some v => exact h ⟨v, rfl, hn⟩
    have hiv' : (∃ v, iv = some v ∧ v.length ≠ 16) ↔ (iv.getD (List.replicate 16 0)).length ≠ 16 :=
      ⟨fun ⟨v, e, h⟩ => by rw [e]; exact h, hiv id⟩
    dsimp only
    rw [hiv']
    unfold Twofish.new chain codebook
    dsimp only
    rw [if_neg (not_not_intro hk), setKey, if_pos hk]
    dsimp only
    refine ⟨?_, ?_, ?_, ?_, ?_, ?_, ?_, ?_, ?_⟩
    · rintro (rfl | rfl)
      · rw [if_neg (by decide), if_pos rfl]
      · rw [if_neg (by decide), if_neg (by decide), if_neg (by decide), if_neg (by decide), if_neg (by decide), if_neg (by decide), if_pos rfl]
    · rintro ⟨rfl, h⟩
      rw [if_neg (by decide), if_neg (by decide), if_pos rfl, if_pos h]
    · rintro ⟨rfl, h⟩
      rw [if_neg (by decide), if_neg (by decide), if_neg (by decide), if_pos rfl, if_pos h]
    · rintro ⟨rfl, h, h2⟩
      rw [if_neg (by decide), if_neg (by decide), if_neg (by decide), if_pos rfl, if_neg h]
      cases segment with
      | none => rfl
      | some n => dsimp only; rw [if_pos (h2 n rfl)]
    · rintro ⟨rfl, h, h2⟩
      rw [if_neg (by decide), if_neg (by decide), if_neg (by decide), if_pos rfl, if_neg h]
      cases segment with
      | none => exact absurd nofun h2
      | some n =>
        dsimp only
        rw [if_neg]
        intro h3
        exact h2 fun m e => by cases e; exact h3
    · rintro ⟨rfl, h⟩
      rw [if_neg (by decide), if_neg (by decide), if_neg (by decide), if_neg (by decide), if_pos rfl, if_pos h]
    · rintro ⟨rfl, h⟩
      rw [if_neg (by decide), if_neg (by decide), if_neg (by decide), if_neg (by decide), if_pos rfl, if_neg h]
    · rintro rfl
      rw [if_neg (by decide), if_neg (by decide), if_neg (by decide), if_neg (by decide), if_neg (by decide), if_pos rfl]
      cases counter <;> rfl
    · intro h
      by_cases h7 : mode = 7
      · rw [if_pos h7]
      · rw [if_neg h7]
        simp only [List.mem_cons, List.not_mem_nil, or_false, not_or] at h
        obtain ⟨h1, h2, h3, h5, h6, h8⟩ := h
        rw [if_neg h1, if_neg h2, if_neg h3, if_neg h5, if_neg h6, if_neg h8]
  · unfold Twofish.new chain
    dsimp only
    have hp : ∀ k : Bytes, (k.length ∈ [0, 16, 24, 32] ∧ ∃ c, pairKey k = .ok c) ∨ (¬ k.length ∈ [0, 16, 24, 32] ∧ pairKey k = .error .key) := by
      intro k
      unfold pairKey setKey
      by_cases h0 : k = []
      · subst h0; exact .inl ⟨by decide, none, rfl⟩
      · rw [if_neg h0]
        by_cases hk : k.length = 16 ∨ k.length = 24 ∨ k.length = 32
        · rw [if_pos hk]
          exact .inl ⟨by rcases hk with h | h | h <;> rw [h] <;> decide, _, rfl⟩
        · rw [if_neg hk]
          refine .inr ⟨?_, rfl⟩
          intro h
          simp only [List.mem_cons, List.not_mem_nil, or_false] at h
          rcases h with h | h
          · exact h0 (List.length_eq_zero_iff.mp h)
          · exact hk h
    by_cases h7 : mode = 7
    · rw [if_pos h7]
      rcases hp k1 with ⟨a1, c1, b1⟩ | ⟨a1, b1⟩
      · rcases hp k2 with ⟨a2, c2, b2⟩ | ⟨a2, b2⟩
        · rw [b1, b2, if_pos ⟨h7, a1, a2⟩]
        · rw [b1, b2, if_neg fun h => a2 h.2.2]
      · rw [b1, if_neg fun h => a1 h.2.1]
    · have : ¬ (mode = 7 ∧ k1.length ∈ [0, 16, 24, 32] ∧ k2.length ∈ [0, 16, 24, 32]) := fun h => h7 h.1
      rw [if_neg h7, if_neg this]
      rfl

example : Twofish.new (.bytes (List.replicate 32 7)) 3 none false (some 8) = .error .name ∧
    Twofish.new (.pair (List.replicate 32 7) []) 7 = .error .name ∧ Twofish.new (.pair [1] []) 7 = .error .key := by
  refine ⟨?_, ?_, ?_⟩ <;> rfl

/-- What an object is like after any use. -/
theorem used_object {o : Cipher} (hm : o.mode = 2) (he : ∀ b, o.ed ≠ some (.bytes b)) (us : List Use) :
    (o.uses us).2.mode = 2 ∧ ∀ b, (o.uses us).2.ed ≠ some (.bytes b) := by
  induction us generalizing o with
  | nil => exact ⟨hm, he⟩
  | cons u us ih =>
    cases u with
    | encrypt d => exact ih (o := (o.encrypt d).2) hm nofun
    | decrypt d => exact ih (o := (o.decrypt d).2) hm nofun
    | final =>
      have e : o.use .final = (.ok [], o) := by
        unfold Cipher.use Cipher.final
        rw [if_neg (by rw [hm]; decide), if_neg (he _)]
        rfl
      unfold Cipher.uses
      rw [e]
      exact ih hm he

/-- `final` does nothing, whatever the object was used for before. -/
theorem C23_final (key : KeyArg) (mode : Nat) (iv : Option Bytes) (counter : Bool) (segment : Option Int) (o : Cipher)
    (h : Twofish.new key mode iv counter segment = .ok o) (us : List Use) :
    (o.uses us).2.final = (.ok none, (o.uses us).2) := by
  obtain ⟨_, k, s, _, _, rfl⟩ := (C23_only_cbc key mode iv counter segment o).mp h
  obtain ⟨h1, h2⟩ := used_object (o := ⟨2, none, s⟩) rfl nofun us
  unfold Cipher.final
  rw [if_neg (by rw [h1]; decide), if_neg (h2 _)]

/-- The bytes in a list of results. -/
def outputs (rs : List (Except PyErr Bytes)) : Bytes := rs.flatMap fun r => r.toOption.getD []

/-- The data given to be encrypted. -/
def given (us : List Use) : Bytes := us.flatMap fun
  | .encrypt d => d
  | .decrypt d => d
  | .final => []

/-- An object used for encryption only, with `final` called anywhere: nothing raises, the output is the encryption of the
complete blocks of the data, decrypting it with another object gives them back, and the rest is never part of any output. -/
theorem C23_object (key : KeyArg) (mode : Nat) (iv : Option Bytes) (counter : Bool) (segment : Option Int) (o : Cipher)
    (h : Twofish.new key mode iv counter segment = .ok o) (us : List Use) (hu : ∀ u ∈ us, ∀ d, u ≠ .decrypt d) :
    (∀ r ∈ (o.uses us).1, ∃ b, r = .ok b) ∧
    outputs (o.uses us).1 = (o.encrypt (given us)).1 ∧
    (o.decrypt (outputs (o.uses us).1)).1 = (given us).take ((given us).length / 16 * 16) ∧
    (o.uses us).2.chain.cache = (given us).drop ((given us).length / 16 * 16) := by
  obtain ⟨_, k, s, _, hs, rfl⟩ := (C23_only_cbc key mode iv counter segment o).mp h
  have key : ∀ (us : List Use) (o : Cipher), o.mode = 2 → (∀ b, o.ed ≠ some (.bytes b)) → (∀ u ∈ us, ∀ d, u ≠ .decrypt d) →
      ∃ ds : List Bytes, ds.flatten = given us ∧ (∀ r ∈ (o.uses us).1, ∃ b, r = .ok b) ∧
        outputs (o.uses us).1 = (o.chain.encChunks ds).1 ∧ (o.uses us).2.chain = (o.chain.encChunks ds).2 := by
    intro us
    induction us with
    | nil => intro o _ _ _; exact ⟨[], rfl, nofun, rfl, rfl⟩
    | cons u us ih =>
      intro o hm he hu
      cases u with
      | decrypt d => exact absurd rfl (hu _ (List.mem_cons_self ..) d)
      | encrypt d =>
        obtain ⟨ds, e1, e2, e3, e4⟩ := ih (o.encrypt d).2 hm nofun (fun u hm => hu u (List.mem_cons_of_mem _ hm))
        refine ⟨d :: ds, ?_, ?_, ?_, e4⟩
        · rw [List.flatten_cons, e1]; rfl
        · intro r hr
          rcases List.mem_cons.mp hr with rfl | hr
          · exact ⟨_, rfl⟩
          · exact e2 r hr
        · show (o.encrypt d).1 ++ outputs ((o.encrypt d).2.uses us).1 = _
          rw [e3]; rfl
      | final =>
        have e : o.use .final = (.ok [], o) := by
          unfold Cipher.use Cipher.final
          rw [if_neg (by rw [hm]; decide), if_neg (he _)]
          rfl
        obtain ⟨ds, e1, e2, e3, e4⟩ := ih o hm he (fun u hm => hu u (List.mem_cons_of_mem _ hm))
        have e' : o.uses (.final :: us) = (.ok [] :: (o.uses us).1, (o.uses us).2) := by
          show ((o.use .final).1 :: ((o.use .final).2.uses us).1, ((o.use .final).2.uses us).2) = _
          rw [e]
        rw [e']
        refine ⟨ds, e1, ?_, e3, e4⟩
        intro r hr
        rcases List.mem_cons.mp hr with rfl | hr
        · exact ⟨_, rfl⟩
        · exact e2 r hr
  obtain ⟨ds, e1, e2, e3, e4⟩ := key us ⟨2, none, s⟩ rfl nofun hu
  have hc := (fresh_elim hs).2.2.2
  obtain ⟨r1, r2⟩ := C23_roundtrip k _ s s hs hs ds [(s.encChunks ds).1] (by simp)
  have one : s.decChunks [(s.encChunks ds).1] = s.decUpdate (s.encChunks ds).1 := by
    rw [decChunks_eq _ s (by simp [hc])]; simp
  rw [one] at r1
  refine ⟨e2, ?_, ?_, ?_⟩
  · rw [e3]
    show (s.encChunks ds).1 = (s.encUpdate (given us)).1
    rw [encChunks_eq ds s (by simp [hc]), e1]
  · rw [e3]
    show (s.decUpdate (s.encChunks ds).1).1 = _
    rw [r1, e1]
  · rw [e4, ← e1]; exact r2

/-- So encrypting 5 bytes and finalising gives no output at all, where PKCS#7 padding would give a block. -/
theorem C23_final_loses :
    ∃ o, Twofish.new (.bytes (List.replicate 32 7)) 2 = .ok o ∧
      outputs (o.uses [.encrypt [1, 2, 3, 4, 5], .final]).1 = [] := by
  refine ⟨_, rfl, ?_⟩
  decide +kernel

/-- An object that has encrypted does not decrypt its own output: the chain goes on. -/
theorem C23_one_direction :
    ∃ o, Twofish.new (.bytes (List.replicate 16 7)) 2 = .ok o ∧
      ((o.encrypt (List.replicate 16 1)).2.decrypt (o.encrypt (List.replicate 16 1)).1).1 ≠ List.replicate 16 1 := by
  refine ⟨_, rfl, ?_⟩
  decide +kernel

/-- A case of `C23_object`: data in two pieces with `final` in between. -/
example : ∃ o, Twofish.new (.bytes (List.replicate 24 7)) 2 (some (List.replicate 16 3)) = .ok o ∧
    (given [.encrypt (List.replicate 10 1), .final, .encrypt (List.replicate 10 2)]).length = 20 ∧
    ∀ u ∈ [Use.encrypt (List.replicate 10 1), .final, .encrypt (List.replicate 10 2)], ∀ d, u ≠ .decrypt d := by
  refine ⟨_, rfl, rfl, ?_⟩
  intro u hu d e
  subst e
  simp at hu

end Verif.Props
