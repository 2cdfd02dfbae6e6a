import Verif.Kdbx.BlockLemmas
/-!
# C24: payload padding and block splitting are inverted by the reader
-/
namespace Verif.Props
open Verif

/-- `p` is the PKCS#7 padding of `d` to blocks of 16: between 1 and 16 bytes, each holding their
number. -/
def IsPadded (d p : Bytes) : Prop :=
  ∃ n, 1 ≤ n ∧ n ≤ 16 ∧ p = d ++ List.replicate n (UInt8.ofNat n) ∧ p.length % 16 = 0

/-- Padding pads. -/
theorem C24_pad (d : Bytes) : IsPadded d (pad d) :=
  ⟨16 - d.length % 16, by omega, by omega, rfl, pad_length_mod d⟩

/-- Unpadding recognises every padded text and returns the data. -/
theorem C24_unpad (d p : Bytes) (h : IsPadded d p) : unpad p = .ok d := by
  obtain ⟨n, h1, h2, rfl, h3⟩ := h
  have : n = 16 - d.length % 16 := by
    rw [List.length_append, List.length_replicate] at h3; omega
  subst this
  exact unpad_pad d

/-- Padding then unpadding any payload returns it (also by the reader's variant that keeps data
whose padding is wrong). -/
theorem C24_pad_roundtrip (d : Bytes) : unpad (pad d) = .ok d ∧ tryUnpad (pad d) = d :=
  ⟨unpad_pad d, tryUnpad_pad d⟩

/-- What unpadding returns was padded: it removes exactly a padding. -/
theorem C24_unpad_only_padding (d p : Bytes) (h : unpad p = .ok d) : IsPadded d p := by
  unfold unpad at h
  split at h
  · cases h
  · next last hl =>
    split at h
    · cases h
    · next hmod =>
      simp only at h
      split at h
      · cases h
      · next hr =>
        split at h
        · cases h
        · next he =>
          injection h with h
          have he := Decidable.not_not.mp he
          refine ⟨last.toNat, by omega, by omega, ?_, by omega⟩
          rw [← h]
          conv => lhs; rw [← List.take_append_drop (p.length - last.toNat) p, he]
          simp

/-- Splitting any payload into blocks and concatenating them returns it. -/
theorem C24_split_concat (d : Bytes) : concatBlocks (splitBlocks d) = d := concatBlocks_splitBlocks d

/-- Shape of the blocks: all but the last data block are exactly 1 MiB, none is empty before the
terminator, the terminator is the last. -/
theorem C24_blocks (d : Bytes) : ∃ as : List Bytes, splitBlocks d = as ++ [[]] ∧
    (∀ b ∈ as, b ≠ [] ∧ b.length ≤ 1048576) ∧
    ∀ i, i + 1 < as.length → ∀ b, as[i]? = some b → b.length = 1048576 := by
  refine ⟨splitLoop (2 ^ 20) d.length d, rfl, fun b hb => splitLoop_mem _ (by decide) _ _ b hb, ?_⟩
  have key : ∀ f (d : Bytes) i, i + 1 < (splitLoop (2 ^ 20) f d).length → ∀ b,
      (splitLoop (2 ^ 20) f d)[i]? = some b → b.length = 2 ^ 20 := by
    intro f
    induction f with
    | zero => intro d i h; simp [splitLoop] at h
    | succ f ih =>
      intro d i h b hb
      rw [splitLoop] at h hb
      split at h
      · simp at h
      · next hd =>
        rw [if_neg hd] at hb
        cases i with
        | zero =>
          simp only [List.getElem?_cons_zero, Option.some.injEq] at hb
          rw [← hb, List.length_take]
          simp only [List.length_cons] at h
          have : (splitLoop (2 ^ 20) f (d.drop (2 ^ 20))).length ≤ (d.drop (2 ^ 20)).length :=
            splitLoop_length _ (by decide) _ _
          rw [List.length_drop] at this
          omega
        | succ i =>
          simp only [List.getElem?_cons_succ] at hb
          simp only [List.length_cons] at h
          exact ih _ i (by omega) b hb
  exact key d.length d

/-- Concrete cases: empty data, one full cipher block, a short block. -/
example : pad [] = List.replicate 16 16 ∧ pad (List.replicate 16 0) = List.replicate 16 0 ++ List.replicate 16 16 ∧
    unpad ([1, 2, 3] ++ List.replicate 13 13) = .ok [1, 2, 3] ∧ unpad [1, 2, 3] = .error .value ∧
    splitBlocks [1, 2] = [[1, 2], []] := by decide +kernel

end Verif.Props
