import Verif.Kdbx.BlockLemmas
import Verif.Props.C07_HeaderHash
/-!
# C08: KDBX4 payload blocks cannot be altered, dropped, reordered, duplicated or truncated
-/
namespace Verif.Props
open Verif Parser Spec

/-- The MAC of block `i` with data `d` as the format defines it:
`HMAC-SHA256(key = SHA512(i ‖ base), i ‖ length ‖ d)`, `base = SHA512(seed ‖ transformed key ‖ 1)`. -/
def blockMac (P : Prims) (base : Bytes) (i : Nat) (d : Bytes) : Bytes :=
  P.hmac256 (P.sha512 (leBytes 8 i ++ base)) (leBytes 8 i ++ (leBytes 4 d.length ++ d))

/-- The reader accepts exactly the byte strings that are a sequence of non-empty blocks and one empty
block, block number `i` carrying the MAC of its number and data; anything may follow. -/
theorem C08_accepted_iff (P : Prims) (hP : P.Lawful) (base s r : Bytes) (bs : List Bytes) :
    blocks4 P base s = .ok (bs, r) ↔ Terminated bs ∧ bs.length ≤ 2 ^ 64 ∧
      (∀ b ∈ bs, b.length < 2 ^ 32) ∧ s = stream4 (blockMac P base) 0 bs ++ r :=
  blocks4_iff hP base s r bs

/-- `m` is block number `i` with data `d` in the byte string `s`: what a reader meets after skipping
`i` blocks. -/
def BlockAt (s : Bytes) (i : Nat) (m d : Bytes) : Prop :=
  ∃ pre post, s = pre ++ (m ++ (leBytes 4 d.length ++ (d ++ post))) ∧ m.length = 32 ∧
    ∃ bs : List (Bytes × Bytes), bs.length = i ∧
      pre = bs.flatMap (fun b => b.1 ++ (leBytes 4 b.2.length ++ b.2)) ∧ ∀ b ∈ bs, b.1.length = 32

theorem stream4_blockAt {P : Prims} (hP : P.Lawful) (base : Bytes) (bs : List Bytes) (r : Bytes)
    (i : Nat) (d : Bytes) (h : bs[i]? = some d) :
    BlockAt (stream4 (mac4 P base) 0 bs ++ r) i (mac4 P base i d) d := by
  have key : ∀ (bs : List Bytes) (j i : Nat), bs[i]? = some d →
      ∃ pre post, stream4 (mac4 P base) j bs ++ r =
        pre ++ (mac4 P base (j + i) d ++ (leBytes 4 d.length ++ (d ++ post))) ∧
        ∃ l : List (Bytes × Bytes), l.length = i ∧
          pre = l.flatMap (fun b => b.1 ++ (leBytes 4 b.2.length ++ b.2)) ∧ ∀ b ∈ l, b.1.length = 32 := by
    intro bs
    induction bs with
    | nil => intro j i h; simp at h
    | cons b bs ih =>
      intro j i h
      cases i with
      | zero =>
        simp at h
        subst h
        exact ⟨[], stream4 (mac4 P base) (j + 1) bs ++ r, by simp [stream4], [], rfl, rfl, by simp⟩
      | succ i =>
        simp at h
        obtain ⟨pre, post, h1, l, h2, h3, h4⟩ := ih (j + 1) i h
        refine ⟨mac4 P base j b ++ (leBytes 4 b.length ++ b) ++ pre, post, ?_,
          (mac4 P base j b, b) :: l, by simp [h2], by simp [h3], ?_⟩
        · rw [show j + (i + 1) = j + 1 + i by omega]
          simp only [stream4, List.append_assoc]
          rw [h1]
        · intro x hx
          rcases List.mem_cons.mp hx with rfl | hx
          · exact hP.hmac256_length _ _
          · exact h4 x hx
  obtain ⟨pre, post, h1, l, h2⟩ := key bs 0 i h
  rw [Nat.zero_add] at h1
  exact ⟨pre, post, h1, hP.hmac256_length _ _, l, h2⟩

/-- Unforgeability as the usual idealisation: of the blocks occurring in the byte string `s`, those
whose MAC verifies are blocks the writer authenticated, under the number he gave them. -/
def Unforged (P : Prims) (base s : Bytes) (written : List Bytes) : Prop :=
  ∀ i m d, BlockAt s i m d → m = blockMac P base i d → written[i]? = some d

/-- Then any byte string the reader accepts (blocks altered, dropped, reordered, duplicated,
truncated, taken from elsewhere) yields exactly the data that was written. -/
theorem C08_integrity (P : Prims) (hP : P.Lawful) (base data s r : Bytes) (bs : List Bytes)
    (hacc : blocks4 P base s = .ok (bs, r)) (hu : Unforged P base s (splitBlocks data)) :
    bs = splitBlocks data ∧ concatBlocks bs = data := by
  obtain ⟨⟨as, hbs, has⟩, _, _, rfl⟩ := (blocks4_iff hP base s r bs).mp hacc
  have hw : ∀ i d, bs[i]? = some d → (splitBlocks data)[i]? = some d := fun i d h =>
    hu i _ d (stream4_blockAt hP base bs r i d h) rfl
  have hst := splitLoop_stop (n := 2 ^ 20) (by decide) (f := data.length) (d := data)
  have heq : bs = splitBlocks data := by
    have hlen : bs.length = as.length + 1 := by rw [hbs]; simp
    have hlast : (splitBlocks data)[as.length]? = some [] := by
      apply hw; rw [hbs]; simp
    have hlw : (splitBlocks data).length = as.length + 1 := by
      unfold splitBlocks at hlast ⊢
      rw [List.length_append, List.length_singleton]
      rcases Nat.lt_trichotomy as.length (splitLoop (2 ^ 20) data.length data).length with h | h | h
      · rw [List.getElem?_append_left h] at hlast
        have := hst [] (List.mem_of_getElem? hlast)
        exact absurd this (by decide)
      · omega
      · rw [List.getElem?_append_right (by omega)] at hlast
        have : (splitLoop (2 ^ 20) data.length data).length < as.length := h
        rw [List.getElem?_eq_none (by rw [List.length_singleton]; omega)] at hlast
        cases hlast
    apply List.ext_getElem?
    intro i
    cases h : bs[i]? with
    | some d => rw [hw i d h]
    | none =>
      rw [List.getElem?_eq_none_iff] at h
      rw [List.getElem?_eq_none (by omega)]
  refine ⟨heq, ?_⟩
  rw [heq, concatBlocks_splitBlocks]

/-- The hypothesis is met by what the writer wrote (below 4 GiB; beyond, length fields wrap). -/
theorem C08_written_unforged (P : Prims) (hP : P.Lawful) (base data : Bytes)
    (hlen : (stream4 (blockMac P base) 0 (splitBlocks data)).length < 2 ^ 32) :
    Unforged P base (stream4 (blockMac P base) 0 (splitBlocks data)) (splitBlocks data) := by
  intro i m d hat _
  obtain ⟨pre, post, hs, hm, l, hl, rfl, hl32⟩ := hat
  have key : ∀ (l : List (Bytes × Bytes)) (ws : List Bytes) (j : Nat),
      (stream4 (mac4 P base) j ws).length < 2 ^ 32 → (∀ b ∈ l, b.1.length = 32) →
      stream4 (mac4 P base) j ws = l.flatMap (fun b => b.1 ++ (leBytes 4 b.2.length ++ b.2)) ++
        (m ++ (leBytes 4 d.length ++ (d ++ post))) → ws[l.length]? = some d := by
    have step : ∀ (w x m' t t' : Bytes) (j : Nat), m'.length = 32 →
        mac4 P base j w ++ (leBytes 4 w.length ++ (w ++ t)) = m' ++ (leBytes 4 x.length ++ (x ++ t')) →
        (mac4 P base j w ++ (leBytes 4 w.length ++ (w ++ t))).length < 2 ^ 32 → w = x ∧ t = t' := by
      intro w x m' t t' j h32 he hlt
      have hlt2 := hlt
      rw [he] at hlt2
      simp only [List.length_append] at hlt hlt2
      obtain ⟨_, h2⟩ := List.append_inj he (by rw [h32]; exact hP.hmac256_length _ _)
      obtain ⟨h3, h4⟩ := List.append_inj h2 (by simp)
      have hwx : w.length = x.length := by
        have := congrArg leNat h3
        rw [leNat_leBytes 4 _ (by omega), leNat_leBytes 4 _ (by omega)] at this
        exact this
      exact List.append_inj h4 hwx
    intro l
    induction l with
    | nil =>
      intro ws j hlt _ he
      cases ws with
      | nil =>
        have := congrArg List.length he
        simp [stream4, hm] at this
        omega
      | cons w ws =>
        simp only [List.flatMap_nil, List.nil_append, stream4] at he hlt
        obtain ⟨rfl, _⟩ := step w d m _ _ j hm he hlt
        rfl
    | cons b l ih =>
      intro ws j hlt h32 he
      cases ws with
      | nil =>
        have := congrArg List.length he
        simp [stream4, hm] at this
        omega
      | cons w ws =>
        simp only [List.flatMap_cons, stream4, List.append_assoc] at he hlt
        obtain ⟨rfl, h5⟩ := step w b.2 b.1 _ _ j (h32 b (by simp)) he hlt
        have := ih ws (j + 1) (by simp only [List.length_append] at hlt; omega)
          (fun x hx => h32 x (by simp [hx])) (by rw [h5])
        simpa using this
  rw [← hl]
  exact key l _ 0 hlen hl32 hs

/-- A block whose MAC does not verify raises `PayloadChecksumError` — here for a whole file: header,
hashes, `n` good blocks, then the bad one, then anything. -/
theorem C08_bad_mac (P : Prims) (hP : P.Lawful) (c : Creds) (h : Header) (d : DynHeader)
    (tk seed : Bytes) (z : Bool) (cid : CipherId) (good : List Bytes) (m b r : Bytes)
    (hd : h.value.dyn = some d) (hv : h.value.major = 4)
    (hk : (computeTransformed4 P c d).1 = .ok tk) (hs : d.raw .masterSeed = .ok seed)
    (hz : d.compressed = .ok z) (hc : d.cipher = .ok cid)
    (hg : ∀ a ∈ good, a ≠ [] ∧ a.length < 2 ^ 32) (hn : good.length < 2 ^ 64)
    (hm : m.length = 32) (hb : b.length < 2 ^ 32)
    (hbad : m ≠ blockMac P (P.sha512 (seed ++ tk ++ [1])) good.length b)
    (file : Bytes) (hh : header "(parsing)" file = .ok (h, P.sha256 h.data ++ (headerMac P seed tk h.data ++
      (stream4 (blockMac P (P.sha512 (seed ++ tk ++ [1]))) 0 good ++
        (m ++ (leBytes 4 b.length ++ (b ++ r))))))) :
    openBytes P c true file = .error .payloadChecksum := by
  have hmk : computeMaster P d tk = .ok (P.sha256 (seed ++ tk)) := by
    unfold computeMaster; rw [exc_bind_run hs]; rfl
  have hbl : blocks4 P (hmacBase P seed tk)
      (stream4 (mac4 P (hmacBase P seed tk)) 0 good ++ (m ++ (leBytes 4 b.length ++ (b ++ r)))) =
      .error (.checksum "(parsing) -> body -> payload -> hmac_hash") := by
    unfold blocks4 repeatUntil
    refine loop4_bad hP (hmacBase P seed tk) m b r hm hb good _ 0 hg (by omega) ?_ ?_
    · have := stream4_length_le (mac := mac4 P (hmacBase P seed tk)) good 0
      rw [List.length_append]; omega
    · rw [Nat.zero_add]; exact hbad
  have hbody : body4 P h.data d tk true (P.sha256 h.data ++ (headerMac P seed tk h.data ++
      (stream4 (blockMac P (P.sha512 (seed ++ tk ++ [1]))) 0 good ++
        (m ++ (leBytes 4 b.length ++ (b ++ r)))))) =
      .error (.checksum "(parsing) -> body -> payload -> hmac_hash") := by
    unfold body4
    rw [bind_run (lift_run hmk _), bind_run (bytes_append' (n := 32) _ _ (hP.sha256_length _)),
      if_neg (not_not_intro rfl), if_pos rfl, bind_run (lift_run hs _),
      bind_run (bytes_append' (n := 32) (headerMac P seed tk h.data) _ (hP.hmac256_length _ _)),
      if_neg (not_not_intro (show headerMac P seed tk h.data =
        headerHmac P (hmacBase P seed tk) h.data from rfl)), bind_run (lift_run hz _), bind_run (lift_run hc _)]
    exact bind_err hbl
  unfold openBytes parseKdbx
  rw [hh]
  simp only [hd]
  rw [if_neg (by omega)]
  cases ht : computeTransformed4 P c d with
  | mk res kf =>
    rw [ht] at hk
    simp only at hk
    subst hk
    simp only [hbody]
    simp [Except.map, readErr]

/-- An accepted stream, and the same with the first block dropped. (`Unforged`: see
`C08_written_unforged`.) -/
example : blocks4 Toy.prims [1] (stream4 (blockMac Toy.prims [1]) 0 [[5, 6], [7], []]) =
    .ok ([[5, 6], [7], []], []) ∧
    blocks4 Toy.prims [1] (stream4 (blockMac Toy.prims [1]) 1 [[7], []]) =
    .error (.checksum "(parsing) -> body -> payload -> hmac_hash") := by
  constructor <;> decide +kernel

end Verif.Props
