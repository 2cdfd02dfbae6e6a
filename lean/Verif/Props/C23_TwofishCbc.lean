import Verif.Twofish.Cbc
/-!
# C23 Twofish-CBC is independent of how data is chunked

Feeding data to the CBC cipher in any sequence of chunks outputs the same bytes as feeding it at
once (complete blocks only, the rest is kept), and decryption inverts encryption for any chunking
on both sides.
-/
namespace Verif.Props
open Verif.Twofish

/-- Textbook CBC encryption of a list of blocks with block function `E`. -/
def cbcSpec (E : Bytes → Bytes) (iv : Bytes) : List Bytes → List Bytes
  | [] => []
  | p :: ps => E (xorBytes p iv) :: cbcSpec E (E (xorBytes p iv)) ps

/-- Textbook CBC decryption of a list of blocks with inverse block function `D`. -/
def cbcDecSpec (D : Bytes → Bytes) (iv : Bytes) : List Bytes → List Bytes
  | [] => []
  | x :: xs => xorBytes iv (D x) :: cbcDecSpec D x xs

/-- One cipher object created by `Twofish.new`. -/
def Fresh (key iv : Bytes) (s : Cbc) : Prop := newCbc key iv = .ok s

theorem fresh_elim {key iv : Bytes} {s : Cbc} (h : Fresh key iv s) :
    s.ctx.Ok ∧ s.iv = iv ∧ iv.length = 16 ∧ s.cache = [] := by
  unfold Fresh newCbc at h
  split at h
  · cases h
  · split at h
    · cases h
    · next c hc =>
      split at h
      · cases h
      · next hiv =>
        injection h with h
        subst h
        exact ⟨setKey_ok hc, rfl, by simpa using hiv, rfl⟩

/-- Any two chunkings of the same data give the same output and leave the same state. -/
theorem C23_chunking_encrypt (key iv : Bytes) (s : Cbc) (hs : Fresh key iv s)
    (ds es : List Bytes) (h : ds.flatten = es.flatten) : s.encChunks ds = s.encChunks es := by
  have hc := (fresh_elim hs).2.2.2
  rw [encChunks_eq ds s (by simp [hc]), encChunks_eq es s (by simp [hc]), h]

theorem C23_chunking_decrypt (key iv : Bytes) (s : Cbc) (hs : Fresh key iv s)
    (ds es : List Bytes) (h : ds.flatten = es.flatten) : s.decChunks ds = s.decChunks es := by
  have hc := (fresh_elim hs).2.2.2
  rw [decChunks_eq ds s (by simp [hc]), decChunks_eq es s (by simp [hc]), h]

/-- Encrypting in any chunks and decrypting in any chunks returns the complete blocks of the data;
the incomplete rest stays in the cache of the encrypting object. -/
theorem C23_roundtrip (key iv : Bytes) (s s' : Cbc) (hs : Fresh key iv s) (hs' : Fresh key iv s')
    (ds es : List Bytes) (h : es.flatten = (s.encChunks ds).1) :
    (s'.decChunks es).1 = ds.flatten.take (ds.flatten.length / 16 * 16) ∧
    (s.encChunks ds).2.cache = ds.flatten.drop (ds.flatten.length / 16 * 16) := by
  have hss : s = s' := by
    have h1 := hs; have h2 := hs'
    unfold Fresh at h1 h2
    rw [h1] at h2
    injection h2
  subst hss
  obtain ⟨ok, hiv, l, hcache⟩ := fresh_elim hs
  rw [encChunks_eq ds s (by simp [hcache])] at h ⊢
  rw [decChunks_eq es s (by simp [hcache]), h]
  simp only [encUpdate_eq, decUpdate_eq, hcache, List.nil_append]
  have := decLoop_encLoop s.ctx ok ds.flatten s.iv (by rw [hiv]; exact l)
  exact ⟨this.1, this.2.2.1⟩

/-- Whole data in, whole data out: with a multiple of 16 bytes nothing is kept back. -/
theorem C23_roundtrip_whole (key iv : Bytes) (s s' : Cbc) (hs : Fresh key iv s)
    (hs' : Fresh key iv s') (ds es : List Bytes) (hd : ds.flatten.length % 16 = 0)
    (h : es.flatten = (s.encChunks ds).1) :
    (s'.decChunks es).1 = ds.flatten ∧ (s.encChunks ds).2.cache = [] := by
  have e : ds.flatten.length / 16 * 16 = ds.flatten.length := by omega
  have := C23_roundtrip key iv s s' hs hs' ds es h
  rw [e, List.take_length, List.drop_length] at this
  exact this

/-- The blocks produced are those of textbook CBC. -/
theorem C23_matches_cbc (key iv : Bytes) (s : Cbc) (hs : Fresh key iv s) (bs : List Bytes)
    (hb : ∀ b ∈ bs, b.length = 16) :
    (s.encChunks bs).1 = (cbcSpec (encBlock s.ctx) iv bs).flatten ∧
    (s.decChunks bs).1 = (cbcDecSpec (decBlock s.ctx) iv bs).flatten := by
  obtain ⟨hok, hiv, hl, hcache⟩ := fresh_elim hs
  rw [encChunks_eq bs s (by simp [hcache]), decChunks_eq bs s (by simp [hcache])]
  simp only [encUpdate_eq, decUpdate_eq, hcache, List.nil_append, hiv]
  clear hiv hs hcache hok hl
  induction bs generalizing iv with
  | nil => simp [cbcSpec, cbcDecSpec, encLoop_short, decLoop_short]
  | cons b bs ih =>
    have hb0 := hb b (by simp)
    have := ih (encBlock s.ctx (xorBytes b iv)) (fun x hx => hb x (by simp [hx]))
    have this2 := ih b (fun x hx => hb x (by simp [hx]))
    simp only [List.flatten_cons, encLoop_block _ _ _ _ hb0, decLoop_block _ _ _ _ hb0, cbcSpec,
      cbcDecSpec, this.1, this2.2, and_self]

/-- A wrong key size or IV size is refused before any data is processed. -/
theorem C23_refused (key iv : Bytes) :
    (∃ s, Fresh key iv s) ↔
      (key.length = 16 ∨ key.length = 24 ∨ key.length = 32) ∧ iv.length = 16 := by
  constructor
  · rintro ⟨s, hs⟩
    refine ⟨?_, (fresh_elim hs).2.2.1⟩
    unfold Fresh newCbc at hs
    split at hs
    · cases hs
    · next h => exact Decidable.not_not.mp h
  · rintro ⟨hk, hiv⟩
    refine ⟨⟨setKeyWords (key.length * 8 / 64) (keyWord key), iv, []⟩, ?_⟩
    unfold Fresh newCbc
    rw [if_neg (not_not_intro hk), setKey, if_pos hk]
    simp [hiv]

/-- Non-vacuous: a 32-byte key, a 16-byte IV and 40 bytes fed as 7 + 20 + 13. -/
example : ∃ s, Fresh (List.replicate 32 7) (List.replicate 16 1) s ∧
    ([List.replicate 7 1, List.replicate 20 2, List.replicate 13 3] : List Bytes).flatten.length
      = 40 :=
  ⟨_, rfl, rfl⟩

end Verif.Props
