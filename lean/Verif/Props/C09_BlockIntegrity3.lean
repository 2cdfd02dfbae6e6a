import Verif.Kdbx.BlockLemmas
import Verif.Kdbx.Toy
/-!
# C09: KDBX3 payload blocks are checked for position and content
-/
namespace Verif.Props
open Verif Parser Spec

/-- The reader accepts exactly the byte strings that are a sequence of non-empty blocks and one
empty block, the `i`-th block carrying index `i` and the SHA-256 of its data (zeros for the empty
one); anything may follow. -/
theorem C09_accepted_iff (P : Prims) (hP : P.Lawful) (s r : Bytes) (bs : List Bytes) :
    blocks3 P s = .ok (bs, r) ↔ Terminated bs ∧ bs.length ≤ 2 ^ 32 ∧
      (∀ b ∈ bs, b.length < 2 ^ 32) ∧ s = stream3 P.sha256 0 bs ++ r :=
  blocks3_iff hP s r bs

/-- Whenever a KDBX3 database opens, its decrypted payload is: the start bytes of the header, then
such a block stream. -/
theorem C09_opened (P : Prims) (hP : P.Lawful) (c : Creds) (file : Bytes) (k : Kdbx)
    (ho : openBytes P c true file = .ok k) (hv : k.header.value.major = 3) :
    ∃ d tk seed iv cid enc start bs r, k.header.value.dyn = some d ∧
      (computeTransformed3 P c d).1 = .ok tk ∧ d.raw .masterSeed = .ok seed ∧
      d.cipher = .ok cid ∧ d.raw .encryptionIv = .ok iv ∧ d.raw .streamStartBytes = .ok start ∧
      file = k.header.data ++ enc ∧ Terminated bs ∧
      payloadDecrypt P cid (P.sha256 (seed ++ tk)) iv enc =
        .ok (start ++ (stream3 P.sha256 0 bs ++ r)) := by
  obtain ⟨rest, hp⟩ := openBytes_ok.mp ho
  obtain ⟨d, tk, r0, b, g1, g2, g3, g4, g5⟩ := (parse3_ok hv).mp hp
  obtain ⟨mk, cid, iv, plain, p, k1, k2, k3, k4, k5, _⟩ := (body3_iff P ..).mp g4
  obtain ⟨start, r, sid, z, bs, r', pl, xml, hl, rfl, hst, _, _, hbl, _⟩ := (unpack3_iff ..).mp k5
  unfold computeMaster at k1
  obtain ⟨seed, hs, k1⟩ := exc_bind_ok.mp k1
  have k1 := exc_pure_ok.mp k1
  subst k1
  obtain ⟨ht, _, _, rfl⟩ := (blocks3_iff hP ..).mp hbl
  exact ⟨d, tk, seed, iv, cid, r0, start, bs, r', g2, g3, hs, k2, k3, hst, (header_ok g1).1, ht, k4⟩

/-- A block at its place whose hash is not that of its data raises `PayloadChecksumError`; here for a
whole file with correct start bytes, after any number of good blocks. -/
theorem C09_bad_hash (P : Prims) (hP : P.Lawful) (c : Creds) (h : Header) (d : DynHeader)
    (tk seed iv start enc : Bytes) (z : Bool) (cid : CipherId) (sid : StreamId) (good : List Bytes)
    (m b r : Bytes)
    (hd : h.value.dyn = some d) (hv : h.value.major = 3)
    (hk : (computeTransformed3 P c d).1 = .ok tk) (hs : d.raw .masterSeed = .ok seed)
    (hz : d.compressed = .ok z) (hc : d.cipher = .ok cid) (hi : d.raw .encryptionIv = .ok iv)
    (hst : d.raw .streamStartBytes = .ok start) (hsl : start.length = 32) (hsid : d.streamId = .ok sid)
    (hg : ∀ a ∈ good, a ≠ [] ∧ a.length < 2 ^ 32) (hn : good.length < 2 ^ 32)
    (hm : m.length = 32) (hb : b.length < 2 ^ 32)
    (hbad : m ≠ if b = [] then List.replicate 32 0 else P.sha256 b)
    (file : Bytes) (hh : header "(parsing)" file = .ok (h, enc))
    (hdec : payloadDecrypt P cid (P.sha256 (seed ++ tk)) iv enc =
      .ok (start ++ (stream3 P.sha256 0 good ++ (leBytes 4 good.length ++ (m ++ (leBytes 4 b.length ++ (b ++ r))))))) :
    openBytes P c true file = .error .payloadChecksum := by
  have hmk : computeMaster P d tk = .ok (P.sha256 (seed ++ tk)) := by
    unfold computeMaster; rw [exc_bind_run hs]; rfl
  have hbl : blocks3 P (stream3 P.sha256 0 good ++ (leBytes 4 good.length ++ (m ++ (leBytes 4 b.length ++ (b ++ r))))) =
      .error (.checksum "(parsing) -> xml -> block_hash") := by
    unfold blocks3 repeatUntil
    have := loop3_bad hP m b r hm hb hbad good
      ((stream3 P.sha256 0 good ++ (leBytes 4 good.length ++ (m ++ (leBytes 4 b.length ++ (b ++ r))))).length + 1)
      0 hg (by omega) (by
        have := stream3_length_le (hash := P.sha256) good 0
        rw [List.length_append]; omega)
    rw [Nat.zero_add] at this
    exact this
  have hu : unpack3 P d (start ++ (stream3 P.sha256 0 good ++ (leBytes 4 good.length ++ (m ++ (leBytes 4 b.length ++ (b ++ r)))))) =
      .error (.checksum "(parsing) -> xml -> block_hash") := by
    unfold unpack3
    rw [exc_bind_run (bytes_append' (n := 32) start _ hsl)]
    simp only
    rw [exc_bind_run hst, if_neg (not_not_intro rfl), exc_bind_run hsid, exc_bind_run hz, hbl]
    rfl
  have hbody : body3 P d tk true enc = .error (.checksum "(parsing) -> xml -> block_hash") := by
    unfold body3
    rw [bind_run (lift_run hmk _), if_pos rfl, bind_run (lift_run hc _),
      bind_run (show greedy enc = .ok (enc, []) from rfl), bind_run (lift_run hi _),
      bind_run (lift_run hdec _)]
    exact bind_err (by rw [hu]; rfl)
  unfold openBytes parseKdbx
  rw [hh]
  simp only [hd]
  rw [if_pos hv]
  cases ht : computeTransformed3 P c d with
  | mk res kf =>
    rw [ht] at hk
    simp only at hk
    subst hk
    simp only [hbody]
    simp [Except.map, readErr]

/-- Good blocks, then something that is refused as the next block. -/
theorem loop3_refused {P : Prims} (hP : P.Lawful) (tail : Bytes) (e : PyErr) : ∀ (as : List Bytes) (fuel i : Nat),
    (∀ a ∈ as, a ≠ [] ∧ a.length < 2 ^ 32) → i + as.length < 2 ^ 32 → as.length < fuel → block3 P (i + as.length) tail = .error e →
    repeatLoop (block3 P) (fun d => d.isEmpty) fuel i (stream3 P.sha256 i as ++ tail) = .error e := by
  intro as
  induction as with
  | nil =>
    intro fuel i _ hi hf he
    obtain ⟨f, rfl⟩ : ∃ f, fuel = f + 1 := ⟨fuel - 1, by simp at hf; omega⟩
    exact repeatLoop_err _ _ _ _ _ _ he
  | cons a as ih =>
    intro fuel i has hi hf he
    obtain ⟨f, rfl⟩ : ∃ f, fuel = f + 1 := ⟨fuel - 1, by simp at hf; omega⟩
    have ha := has a (by simp)
    refine repeatLoop_step_err (block3 P) _ f i _ (stream3 P.sha256 (i + 1) as ++ tail) a _
      ((block3_ok hP).mpr ⟨by simp at hi; omega, ha.2, ?_⟩) ?_
      (ih f (i + 1) (fun b hb => has b (by simp [hb])) (by simp at hi; omega) (by simp at hf; omega)
        (by rw [show i + 1 + as.length = i + (a :: as).length by simp; omega]; exact he))
    · simp only [stream3, List.append_assoc]
    · cases a with
      | nil => exact absurd rfl ha.1
      | cons => rfl

/-- A block with another index than its position is refused, with a plain `ChecksumError` (it is not translated); here for a
whole file with correct start bytes, after any number of good blocks. -/
theorem C09_bad_index (P : Prims) (hP : P.Lawful) (c : Creds) (h : Header) (d : DynHeader)
    (tk seed iv start enc : Bytes) (z : Bool) (cid : CipherId) (sid : StreamId) (good : List Bytes) (i : Nat) (r : Bytes)
    (hd : h.value.dyn = some d) (hv : h.value.major = 3)
    (hk : (computeTransformed3 P c d).1 = .ok tk) (hs : d.raw .masterSeed = .ok seed)
    (hz : d.compressed = .ok z) (hc : d.cipher = .ok cid) (hi : d.raw .encryptionIv = .ok iv)
    (hst : d.raw .streamStartBytes = .ok start) (hsl : start.length = 32) (hsid : d.streamId = .ok sid)
    (hg : ∀ a ∈ good, a ≠ [] ∧ a.length < 2 ^ 32) (hn : good.length < 2 ^ 32) (hb : i < 2 ^ 32) (hbad : i ≠ good.length)
    (file : Bytes) (hh : header "(parsing)" file = .ok (h, enc))
    (hdec : payloadDecrypt P cid (P.sha256 (seed ++ tk)) iv enc = .ok (start ++ (stream3 P.sha256 0 good ++ (leBytes 4 i ++ r)))) :
    openBytes P c true file = .error (.checksum "(parsing) -> xml -> block_index") := by
  have hmk : computeMaster P d tk = .ok (P.sha256 (seed ++ tk)) := by
    unfold computeMaster; rw [exc_bind_run hs]; rfl
  have hbl : blocks3 P (stream3 P.sha256 0 good ++ (leBytes 4 i ++ r)) = .error (.checksum "(parsing) -> xml -> block_index") := by
    unfold blocks3 repeatUntil
    refine loop3_refused hP _ _ good _ 0 hg (by omega) ?_ ?_
    · have := stream3_length_le (hash := P.sha256) good 0
      rw [List.length_append]; omega
    · unfold block3
      rw [bind_run (uint_leBytes 4 i _ (by omega)), if_pos (by omega)]
      rfl
  have hu : unpack3 P d (start ++ (stream3 P.sha256 0 good ++ (leBytes 4 i ++ r))) =
      .error (.checksum "(parsing) -> xml -> block_index") := by
    unfold unpack3
    rw [exc_bind_run (bytes_append' (n := 32) start _ hsl)]
    simp only
    rw [exc_bind_run hst, if_neg (not_not_intro rfl), exc_bind_run hsid, exc_bind_run hz, hbl]
    rfl
  have hbody : body3 P d tk true enc = .error (.checksum "(parsing) -> xml -> block_index") := by
    unfold body3
    rw [bind_run (lift_run hmk _), if_pos rfl, bind_run (lift_run hc _),
      bind_run (show greedy enc = .ok (enc, []) from rfl), bind_run (lift_run hi _),
      bind_run (lift_run hdec _)]
    exact bind_err (by rw [hu]; rfl)
  unfold openBytes parseKdbx
  rw [hh]
  simp only [hd]
  rw [if_pos hv]
  cases ht : computeTransformed3 P c d with
  | mk res kf =>
    rw [ht] at hk
    simp only at hk
    subst hk
    simp only [hbody]
    simp [Except.map, readErr]

/-- Accepted, and refused after exchanging two blocks' positions or changing a byte. -/
example : blocks3 Toy.prims (stream3 Toy.prims.sha256 0 [[5, 6], [7], []] ++ [9]) =
      .ok ([[5, 6], [7], []], [9]) ∧
    blocks3 Toy.prims (stream3 Toy.prims.sha256 1 [[5, 6], [7], []]) =
      .error (.checksum "(parsing) -> xml -> block_index") ∧
    blocks3 Toy.prims (stream3 Toy.prims.sha256 0 [[5, 6]] ++ (leBytes 4 1 ++ Toy.prims.sha256 [7] ++
      leBytes 4 1 ++ [8])) = .error (.checksum "(parsing) -> xml -> block_hash") := by
  refine ⟨?_, ?_, ?_⟩ <;> decide +kernel

end Verif.Props
