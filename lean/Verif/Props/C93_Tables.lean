import Verif.Crypto.GzipTables
/-!
# C93: the tables, codes and checksum are those of the RFCs

`IsGzip` is stated with the tables of the decompressor. Here they are described without them: by formulas, by shares of a code
space, and by division of polynomials.
-/
namespace Verif.Props
open Verif Gzip Spec.Gz

/-- Lengths 3 to 10 have a symbol each; then four symbols for every number of extra bits; 258 has the last symbol. -/
theorem C93_lengths (s : Nat) : lengths[s]? =
    if s < 8 then some (3 + s, 0)
    else if s < 28 then some (3 + (4 + s % 4) * 2 ^ ((s - 4) / 4), (s - 4) / 4)
    else if s = 28 then some (258, 0) else none := by
  by_cases h : s < 29
  · have : ∀ s < 29, lengths[s]? =
        if s < 8 then some (3 + s, 0)
        else if s < 28 then some (3 + (4 + s % 4) * 2 ^ ((s - 4) / 4), (s - 4) / 4)
        else if s = 28 then some (258, 0) else none := by decide +kernel
    exact this s h
  · rw [if_neg (by omega), if_neg (by omega), if_neg (by omega), List.getElem?_eq_none (by rw [lengths_length]; omega)]

/-- Distances 1 to 4 have a symbol each; then two symbols for every number of extra bits. -/
theorem C93_distances (d : Nat) : distances[d]? =
    if d < 4 then some (1 + d, 0)
    else if d < 30 then some (1 + (2 + d % 2) * 2 ^ ((d - 2) / 2), (d - 2) / 2) else none := by
  by_cases h : d < 30
  · have : ∀ d < 30, distances[d]? =
        if d < 4 then some (1 + d, 0)
        else if d < 30 then some (1 + (2 + d % 2) * 2 ^ ((d - 2) / 2), (d - 2) / 2) else none := by decide +kernel
    exact this d h
  · rw [if_neg (by omega), if_neg (by omega), List.getElem?_eq_none (by show 30 ≤ d; omega)]

/-- Every length from 3 to 258 can be written. -/
theorem C93_all_lengths (n : Nat) (h : 3 ≤ n ∧ n ≤ 258) : ∃ s base k : Nat, lengths[s]? = some (base, k) ∧ base ≤ n ∧ n < base + 2 ^ k := by
  have : ∀ n < 259, 3 ≤ n → ∃ s, s < 29 ∧ ((lengths.getD s (0, 0)).1 ≤ n ∧ n < (lengths.getD s (0, 0)).1 + 2 ^ (lengths.getD s (0, 0)).2) := by
    decide +kernel
  obtain ⟨s, hs, h1, h2⟩ := this n (by omega) h.1
  have e : lengths[s]? = some (lengths.getD s (0, 0)) := by
    rw [List.getD_eq_getElem?_getD, List.getElem?_eq_getElem (by rw [lengths_length]; exact hs)]; rfl
  exact ⟨s, _, _, e, h1, h2⟩

/-- Ranges that follow each other without a gap, up to `stop`. -/
def Joined : Nat → List (Nat × Nat) → Nat → Prop
  | a, [], stop => a = stop
  | a, p :: r, stop => p.1 = a ∧ Joined (a + 2 ^ p.2) r stop

instance : ∀ a l stop, Decidable (Joined a l stop)
  | a, [], stop => inferInstanceAs (Decidable (a = stop))
  | a, p :: r, stop => @instDecidableAnd _ _ _ (instDecidableJoined (a + 2 ^ p.2) r stop)

theorem joined_covers {a stop : Nat} {l : List (Nat × Nat)} (h : Joined a l stop) {n : Nat} (h1 : a ≤ n) (h2 : n < stop) :
    ∃ s base k : Nat, l[s]? = some (base, k) ∧ base ≤ n ∧ n < base + 2 ^ k := by
  induction l generalizing a with
  | nil => rw [Joined] at h; omega
  | cons p r ih =>
    obtain ⟨rfl, h⟩ := h
    by_cases hn : n < p.1 + 2 ^ p.2
    · exact ⟨0, p.1, p.2, rfl, h1, hn⟩
    · obtain ⟨s, base, k, hs, hb⟩ := ih h (by omega)
      exact ⟨s + 1, base, k, by simpa using hs, hb⟩

/-- Every distance from 1 to 32768 can be written. -/
theorem C93_all_distances (n : Nat) (h : 1 ≤ n ∧ n ≤ 32768) : ∃ s base k : Nat, distances[s]? = some (base, k) ∧ base ≤ n ∧ n < base + 2 ^ k :=
  joined_covers (a := 1) (stop := 32769) (by decide +kernel) h.1 (by omega)

/-- Code lengths are accepted exactly if they are at most 15 and fill the code space; or there are none; or, for literals and distances,
no code is longer than one bit. -/
theorem C93_usable (strict : Bool) (lens : List Nat) :
    usable strict lens = true ↔ (∀ l ∈ lens, l ≤ 15) ∧ taken (lens.filter fun k => 0 < k) ≤ 2 ^ 15 ∧
      (taken (lens.filter fun k => 0 < k) = 2 ^ 15 ∨ (∀ l ∈ lens, l = 0) ∨ strict = false ∧ ∀ l ∈ lens, l ≤ 1) := usable_iff strict lens

/-- The code for accepted lengths: symbols whose length is not zero have one, of that length; codes take their shares of the code
space one after the other, shorter ones first, those of one length in the order of the symbols. -/
theorem C93_codes {strict : Bool} {lens : List Nat} (h : usable strict lens = true) (s : Nat) (c : List Bool) :
    (s, c) ∈ canon lens ↔ ∃ l, lens[s]? = some l ∧ l ≠ 0 ∧ c.length = l ∧
      high c * 2 ^ (15 - l) = taken (lens.filter fun k => 0 < k ∧ k < l) + taken ((lens.take s).filter fun k => k = l) := canon_iff h s c

/-- No code begins with another one. -/
theorem C93_prefix_free {strict : Bool} {lens : List Nat} (h : usable strict lens = true) {s t : Nat} {c e : List Bool}
    (hs : (s, c) ∈ canon lens) (ht : (t, e) ∈ canon lens) (hp : c <+: e) : s = t :=
  congrArg Prod.fst ((canon_free h).1 _ hs _ ht hp)

/-- The fixed codes, as in the table of RFC 1951 §3.2.6. -/
theorem C93_fixed : canon fixedLit =
      (List.range 288).map (fun s => (s,
        if s < 144 then msb 8 (0b00110000 + s) else if s < 256 then msb 9 (0b110010000 + (s - 144))
        else if s < 280 then msb 7 (s - 256) else msb 8 (0b11000000 + (s - 280)))) ∧
    canon fixedDist = (List.range 32).map fun s => (s, msb 5 s) := by
  constructor <;> decide +kernel

/-- The lengths of the code for code lengths are written in the order 16, 17, 18, 0, 8, 7, 9, 6, and so on outwards from 8; those not
written are zero. -/
theorem C93_order (cl : List Nat) (i : Nat) (hi : i < 19) :
    (unordered cl)[if i < 3 then 16 + i else if i = 3 then 0 else if i % 2 = 0 then 6 + i / 2 else 9 - i / 2]? = some (cl.getD i 0) := by
  have key : ∀ i < 19, (if i < 3 then 16 + i else if i = 3 then 0 else if i % 2 = 0 then 6 + i / 2 else 9 - i / 2) < 19 ∧
      order.idxOf (if i < 3 then 16 + i else if i = 3 then 0 else if i % 2 = 0 then 6 + i / 2 else 9 - i / 2) = i := by decide +kernel
  obtain ⟨h1, h2⟩ := key i hi
  unfold unordered
  rw [List.getElem?_map, List.getElem?_range h1]
  simp only [Option.map_some, h2]

/-- The checksum: complemented and mirrored, it is the remainder of the data (first bits complemented, 32 zeros appended) in the
division by the polynomial of CRC-32; it is the only number of 32 bits with that property. -/
theorem C93_checksum (d : Bytes) (r : Nat) : crc32 d = r ↔ r < 2 ^ 32 ∧
    Multiple (high (bits d) <<< 32 ^^^ 0xFFFFFFFF <<< (bits d).length ^^^ mirror (r ^^^ 0xFFFFFFFF)) := crc32_iff d r

/-- Behind the compressed data: the checksum, then the length modulo 2^32, four bytes each, lowest first. -/
theorem C93_trailer (d : Bytes) : trailer d = leBytes 4 (crc32 d) ++ leBytes 4 (d.length % 2 ^ 32) := rfl

/-- RFC 1951 §3.2.2: lengths 3, 3, 3, 3, 3, 2, 4, 4 are accepted, `F` has the code 00, `H` the code 1111. -/
example : usable true [3, 3, 3, 3, 3, 2, 4, 4] = true ∧ (5, [false, false]) ∈ canon [3, 3, 3, 3, 3, 2, 4, 4] ∧
    (7, [true, true, true, true]) ∈ canon [3, 3, 3, 3, 3, 2, 4, 4] := by decide +kernel
example : taken [3, 3, 3, 3, 3, 2, 4, 4] = 2 ^ 15 ∧ taken [1, 1, 1] > 2 ^ 15 ∧ taken [2, 2, 2] < 2 ^ 15 := by decide
example : unordered [1, 2, 3, 4, 5, 6, 7] = [4, 0, 0, 0, 0, 0, 0, 6, 5, 7, 0, 0, 0, 0, 0, 0, 1, 2, 3] := by decide
example : poly = 0x104C11DB7 ∧ mirror 0xEDB88320 = 0x04C11DB7 := by decide +kernel
example : ¬ Multiple 1 := by
  intro h
  obtain ⟨m, hb⟩ := multiple_below h
  exact absurd (hb.large (by decide)) (by decide)

end Verif.Props
