import Verif.Kdbx.Payload
import Verif.Spec.Blocks
/-!
# Which byte strings the block readers accept
-/
namespace Verif
open Parser Spec

/-- The MAC of block `i`. -/
def mac4 (P : Prims) (base : Bytes) (i : Nat) (d : Bytes) : Bytes :=
  P.hmac256 (P.sha512 (leBytes 8 i ++ base)) (leBytes 8 i ++ (leBytes 4 d.length ++ d))

namespace Parser

theorem block4_ok {P : Prims} (hP : P.Lawful) {base s r d : Bytes} {i : Nat} :
    block4 P base i s = .ok (d, r) ↔ i < 2 ^ 64 ∧ d.length < 2 ^ 32 ∧
      s = mac4 P base i d ++ (leBytes 4 d.length ++ (d ++ r)) := by
  unfold block4
  constructor
  · intro h
    obtain ⟨m, s1, h1, h2⟩ := bind_ok.mp h
    obtain ⟨d', s2, h3, h4⟩ := bind_ok.mp h2
    obtain ⟨hm, rfl⟩ := bytes_ok.mp h1
    obtain ⟨n, t, d0, t', hn, ht, hl, hd⟩ := prefixed_ok.mp h3
    obtain ⟨b, hb, hbn, rfl⟩ := uint_ok.mp hn
    cases hd
    subst ht
    have hlt := leNat_lt b
    rw [hb, hbn, ← hl] at hlt
    cases hx : blockHmac P base i d' with
    | error e => rw [hx] at h4; exact absurd h4 fail_ok
    | ok h' =>
      rw [hx] at h4
      simp only at h4
      split at h4
      · next he =>
        obtain ⟨rfl, rfl⟩ := pure_ok.mp h4
        unfold blockHmac at hx
        split at hx
        · next hb2 =>
          injection hx with hx
          refine ⟨hb2.1, hb2.2, ?_⟩
          rw [he, ← hx, hl, ← hbn, ← hb, leBytes_leNat, List.append_assoc]
          unfold mac4
          rw [hl, ← hbn, ← hb, leBytes_leNat]
        · cases hx
      · exact absurd h4 fail_ok
  · rintro ⟨h1, h2, rfl⟩
    rw [bind_run (bytes_append' (n := 32) (mac4 P base i d) _ (hP.hmac256_length _ _)),
      bind_run (by have := prefixed_greedy 4 d r (by omega); rw [List.append_assoc] at this; exact this)]
    unfold blockHmac
    rw [if_pos ⟨h1, h2⟩]
    simp only
    rw [if_pos (by unfold mac4; rw [List.append_assoc])]
    rfl

theorem block3_ok {P : Prims} (hP : P.Lawful) {s r d : Bytes} {i : Nat} :
    block3 P i s = .ok (d, r) ↔ i < 2 ^ 32 ∧ d.length < 2 ^ 32 ∧
      s = leBytes 4 i ++ ((if d = [] then List.replicate 32 0 else P.sha256 d) ++
        (leBytes 4 d.length ++ (d ++ r))) := by
  unfold block3
  constructor
  · intro h
    obtain ⟨idx, s0, h0, h1⟩ := bind_ok.mp h
    obtain ⟨bi, hbi, hbin, rfl⟩ := uint_ok.mp h0
    split at h1
    · exact absurd h1 fail_ok
    · next hidx =>
      have hidx := Decidable.not_not.mp hidx
      subst hidx
      obtain ⟨m, s1, h2, h3⟩ := bind_ok.mp h1
      obtain ⟨hm, rfl⟩ := bytes_ok.mp h2
      obtain ⟨d', s2, h4, h5⟩ := bind_ok.mp h3
      obtain ⟨n, t, d0, t', hn, ht, hl, hd⟩ := prefixed_ok.mp h4
      obtain ⟨b, hb, hbn, rfl⟩ := uint_ok.mp hn
      cases hd
      subst ht
      have hlt := leNat_lt b
      rw [hb, hbn, ← hl] at hlt
      have hlt2 := leNat_lt bi
      rw [hbi, hbin] at hlt2
      have e1 : leBytes 4 idx = bi := by rw [← hbin, ← hbi, leBytes_leNat]
      have e2 : leBytes 4 d'.length = b := by rw [hl, ← hbn, ← hb, leBytes_leNat]
      split at h5
      · next hemp =>
        have hemp := List.isEmpty_iff.mp hemp
        subst hemp
        split at h5
        · next hz =>
          obtain ⟨rfl, rfl⟩ := pure_ok.mp h5
          exact ⟨hlt2, hlt, by rw [e1, e2, if_pos rfl, hz]⟩
        · exact absurd h5 fail_ok
      · next hemp =>
        have hemp : d' ≠ [] := fun e => hemp (by rw [e]; rfl)
        split at h5
        · next hz =>
          obtain ⟨rfl, rfl⟩ := pure_ok.mp h5
          exact ⟨hlt2, hlt, by rw [e1, e2, if_neg hemp, hz]⟩
        · exact absurd h5 fail_ok
  · rintro ⟨h1, h2, rfl⟩
    rw [bind_run (uint_leBytes 4 i _ (by omega)), if_neg (not_not_intro rfl),
      bind_run (bytes_append' (n := 32) _ _ (by
        split
        · simp
        · exact hP.sha256_length _)),
      bind_run (by have := prefixed_greedy 4 d r (by omega); rw [List.append_assoc] at this; exact this)]
    by_cases hd : d = []
    · subst hd; rw [if_pos rfl, if_pos rfl]; rfl
    · rw [if_neg hd, if_neg (by simpa using hd), if_pos rfl]; rfl

/-- The block loop of KDBX4, from block `i` on. -/
theorem loop4_iff {P : Prims} (hP : P.Lawful) (base : Bytes) : ∀ fuel i s bs r,
    repeatLoop (block4 P base) (fun d => d.isEmpty) fuel i s = .ok (bs, r) ↔
      Terminated bs ∧ bs.length ≤ fuel ∧ i + bs.length ≤ 2 ^ 64 ∧ (∀ b ∈ bs, b.length < 2 ^ 32) ∧
        s = stream4 (mac4 P base) i bs ++ r := by
  intro fuel
  induction fuel with
  | zero =>
    intro i s bs r
    constructor
    · intro h; exact absurd h fail_ok
    · rintro ⟨⟨as, rfl, _⟩, h, _⟩
      simp at h
  | succ fuel ih =>
    intro i s bs r
    constructor
    · intro h
      obtain ⟨d, m, h1, h2⟩ := bind_ok.mp h
      obtain ⟨g1, g2, rfl⟩ := (block4_ok hP).mp h1
      split at h2
      · next hd =>
        obtain ⟨rfl, rfl⟩ := pure_ok.mp h2
        have hd := List.isEmpty_iff.mp hd
        subst hd
        exact ⟨⟨[], rfl, by simp⟩, by simp, by simp; omega, by simp, by simp [stream4]⟩
      · next hd =>
        obtain ⟨as, m2, h3, h4⟩ := bind_ok.mp h2
        obtain ⟨rfl, rfl⟩ := pure_ok.mp h4
        obtain ⟨⟨l, rfl, hl⟩, k1, k2, k3, rfl⟩ := (ih ..).mp h3
        refine ⟨⟨d :: l, rfl, ?_⟩, by simp at k1 ⊢; omega, by simp at k2 ⊢; omega, ?_, ?_⟩
        · intro a ha
          rcases List.mem_cons.mp ha with rfl | ha
          · exact fun e => hd (by rw [e]; rfl)
          · exact hl a ha
        · intro a ha
          rcases List.mem_cons.mp ha with rfl | ha
          · exact g2
          · exact k3 a ha
        · simp [stream4]
    · rintro ⟨⟨as, rfl, has⟩, h1, h2, h3, rfl⟩
      cases as with
      | nil =>
        have e : stream4 (mac4 P base) i ([] ++ [[]]) ++ r = _ := rfl
        rw [e]
        refine repeatLoop_last _ _ fuel i _ r [] ((block4_ok hP).mpr ⟨by simp at h2; omega, by simp, ?_⟩) rfl
        simp [stream4]
      | cons d ds =>
        refine repeatLoop_step (block4 P base) _ fuel i (stream4 (mac4 P base) i (d :: ds ++ [[]]) ++ r) (stream4 (mac4 P base) (i + 1) (ds ++ [[]]) ++ r) r d (ds ++ [[]])
          ((block4_ok hP).mpr ⟨by simp at h2; omega, h3 d (by simp), by simp [stream4]⟩) ?_ ?_
        · have := has d (by simp)
          cases d with
          | nil => exact absurd rfl this
          | cons => rfl
        · refine (ih ..).mpr ⟨⟨ds, rfl, fun a ha => has a (by simp [ha])⟩, by simp at h1 ⊢; omega,
            by simp at h2 ⊢; omega, fun b hb => h3 b (by simp at hb ⊢; exact .inr hb), rfl⟩

/-- The block loop of KDBX3, from block `i` on. -/
theorem loop3_iff {P : Prims} (hP : P.Lawful) : ∀ fuel i s bs r,
    repeatLoop (block3 P) (fun d => d.isEmpty) fuel i s = .ok (bs, r) ↔
      Terminated bs ∧ bs.length ≤ fuel ∧ i + bs.length ≤ 2 ^ 32 ∧ (∀ b ∈ bs, b.length < 2 ^ 32) ∧
        s = stream3 P.sha256 i bs ++ r := by
  intro fuel
  induction fuel with
  | zero =>
    intro i s bs r
    constructor
    · intro h; exact absurd h fail_ok
    · rintro ⟨⟨as, rfl, _⟩, h, _⟩
      simp at h
  | succ fuel ih =>
    intro i s bs r
    constructor
    · intro h
      obtain ⟨d, m, h1, h2⟩ := bind_ok.mp h
      obtain ⟨g1, g2, rfl⟩ := (block3_ok hP).mp h1
      split at h2
      · next hd =>
        obtain ⟨rfl, rfl⟩ := pure_ok.mp h2
        have hd := List.isEmpty_iff.mp hd
        subst hd
        exact ⟨⟨[], rfl, by simp⟩, by simp, by simp; omega, by simp, by simp [stream3]⟩
      · next hd =>
        obtain ⟨as, m2, h3, h4⟩ := bind_ok.mp h2
        obtain ⟨rfl, rfl⟩ := pure_ok.mp h4
        obtain ⟨⟨l, rfl, hl⟩, k1, k2, k3, rfl⟩ := (ih ..).mp h3
        refine ⟨⟨d :: l, rfl, ?_⟩, by simp at k1 ⊢; omega, by simp at k2 ⊢; omega, ?_, ?_⟩
        · intro a ha
          rcases List.mem_cons.mp ha with rfl | ha
          · exact fun e => hd (by rw [e]; rfl)
          · exact hl a ha
        · intro a ha
          rcases List.mem_cons.mp ha with rfl | ha
          · exact g2
          · exact k3 a ha
        · simp [stream3]
    · rintro ⟨⟨as, rfl, has⟩, h1, h2, h3, rfl⟩
      cases as with
      | nil =>
        have e : stream3 (P.sha256) i ([] ++ [[]]) ++ r = _ := rfl
        rw [e]
        refine repeatLoop_last _ _ fuel i _ r [] ((block3_ok hP).mpr ⟨by simp at h2; omega, by simp, ?_⟩) rfl
        simp [stream3]
      | cons d ds =>
        refine repeatLoop_step _ _ fuel i (stream3 (P.sha256) i (d :: ds ++ [[]]) ++ r) (stream3 P.sha256 (i + 1) (ds ++ [[]]) ++ r) r d (ds ++ [[]])
          ((block3_ok hP).mpr ⟨by simp at h2; omega, h3 d (by simp), by simp [stream3]⟩) ?_ ?_
        · have := has d (by simp)
          cases d with
          | nil => exact absurd rfl this
          | cons => rfl
        · refine (ih ..).mpr ⟨⟨ds, rfl, fun a ha => has a (by simp [ha])⟩, by simp at h1 ⊢; omega,
            by simp at h2 ⊢; omega, fun b hb => h3 b (by simp at hb ⊢; exact .inr hb), rfl⟩

theorem stream4_length_le {mac : Nat → Bytes → Bytes} (bs : List Bytes) : ∀ i,
    bs.length ≤ (stream4 mac i bs).length := by
  induction bs with
  | nil => intro i; simp [stream4]
  | cons d ds ih =>
    intro i
    have := ih (i + 1)
    simp [stream4]
    omega

theorem stream3_length_le {hash : Bytes → Bytes} (bs : List Bytes) : ∀ i,
    bs.length ≤ (stream3 hash i bs).length := by
  induction bs with
  | nil => intro i; simp [stream3]
  | cons d ds ih =>
    intro i
    have := ih (i + 1)
    simp [stream3]
    omega

/-- What `EncryptedPayload` of KDBX4 accepts. -/
theorem blocks4_iff {P : Prims} (hP : P.Lawful) (base s r : Bytes) (bs : List Bytes) :
    blocks4 P base s = .ok (bs, r) ↔ Terminated bs ∧ bs.length ≤ 2 ^ 64 ∧
      (∀ b ∈ bs, b.length < 2 ^ 32) ∧ s = stream4 (mac4 P base) 0 bs ++ r := by
  unfold blocks4 repeatUntil
  rw [loop4_iff hP]
  constructor
  · rintro ⟨h1, _, h2, h3, h4⟩; exact ⟨h1, by omega, h3, h4⟩
  · rintro ⟨h1, h2, h3, h4⟩
    refine ⟨h1, ?_, by omega, h3, h4⟩
    have := stream4_length_le (mac := mac4 P base) bs 0
    rw [h4, List.length_append]; omega

/-- What `PayloadBlocks` of KDBX3 accepts. -/
theorem blocks3_iff {P : Prims} (hP : P.Lawful) (s r : Bytes) (bs : List Bytes) :
    blocks3 P s = .ok (bs, r) ↔ Terminated bs ∧ bs.length ≤ 2 ^ 32 ∧
      (∀ b ∈ bs, b.length < 2 ^ 32) ∧ s = stream3 P.sha256 0 bs ++ r := by
  unfold blocks3 repeatUntil
  rw [loop3_iff hP]
  constructor
  · rintro ⟨h1, _, h2, h3, h4⟩; exact ⟨h1, by omega, h3, h4⟩
  · rintro ⟨h1, h2, h3, h4⟩
    refine ⟨h1, ?_, by omega, h3, h4⟩
    have := stream3_length_le (hash := P.sha256) bs 0
    rw [h4, List.length_append]; omega

theorem repeatLoop_err {α} (p : Nat → Parser α) (stop : α → Bool) (fuel i : Nat) (s : Bytes)
    (e : PyErr) (h : p i s = .error e) : repeatLoop p stop (fuel + 1) i s = .error e := by
  rw [repeatLoop]
  exact bind_err h

theorem repeatLoop_step_err {α} (p : Nat → Parser α) (stop : α → Bool) (fuel i : Nat) (s m : Bytes)
    (a : α) (e : PyErr) (h : p i s = .ok (a, m)) (hs : stop a = false)
    (hr : repeatLoop p stop fuel (i + 1) m = .error e) :
    repeatLoop p stop (fuel + 1) i s = .error e := by
  rw [repeatLoop, bind_run h, hs]
  exact bind_err hr

/-- Good blocks followed by a block with another MAC. -/
theorem loop4_bad {P : Prims} (hP : P.Lawful) (base m d r : Bytes) (hm : m.length = 32)
    (hd : d.length < 2 ^ 32) : ∀ (as : List Bytes) (fuel i : Nat),
    (∀ a ∈ as, a ≠ [] ∧ a.length < 2 ^ 32) → i + as.length < 2 ^ 64 → as.length < fuel →
    m ≠ mac4 P base (i + as.length) d →
    repeatLoop (block4 P base) (fun d => d.isEmpty) fuel i
      (stream4 (mac4 P base) i as ++ (m ++ (leBytes 4 d.length ++ (d ++ r)))) =
      .error (.checksum "(parsing) -> body -> payload -> hmac_hash") := by
  intro as
  induction as with
  | nil =>
    intro fuel i _ hi hf hne
    obtain ⟨f, rfl⟩ : ∃ f, fuel = f + 1 := ⟨fuel - 1, by simp at hf; omega⟩
    refine repeatLoop_err _ _ _ _ _ _ ?_
    simp only [stream4, List.nil_append]
    unfold block4
    rw [bind_run (bytes_append' (n := 32) m _ hm),
      bind_run (by have := prefixed_greedy 4 d r (by omega); rw [List.append_assoc] at this; exact this)]
    unfold blockHmac
    rw [if_pos ⟨by simpa using hi, hd⟩]
    simp only
    rw [if_neg (fun e => hne (by rw [e]; unfold mac4; simp))]
    rfl
  | cons a as ih =>
    intro fuel i has hi hf hne
    obtain ⟨f, rfl⟩ : ∃ f, fuel = f + 1 := ⟨fuel - 1, by simp at hf; omega⟩
    have ha := has a (by simp)
    refine repeatLoop_step_err (block4 P base) _ f i _
      (stream4 (mac4 P base) (i + 1) as ++ (m ++ (leBytes 4 d.length ++ (d ++ r)))) a _
      ((block4_ok hP).mpr ⟨by simp at hi; omega, ha.2, by simp [stream4]⟩) ?_
      (ih f (i + 1) (fun b hb => has b (by simp [hb])) (by simp at hi; omega) (by simp at hf; omega) ?_)
    · cases a with
      | nil => exact absurd rfl ha.1
      | cons => rfl
    · rw [show i + 1 + as.length = i + (a :: as).length by simp; omega]; exact hne

/-- Good blocks followed by a block at its place with another hash. -/
theorem loop3_bad {P : Prims} (hP : P.Lawful) (m d r : Bytes) (hm : m.length = 32)
    (hd : d.length < 2 ^ 32) (hne : m ≠ if d = [] then List.replicate 32 0 else P.sha256 d) :
    ∀ (as : List Bytes) (fuel i : Nat),
    (∀ a ∈ as, a ≠ [] ∧ a.length < 2 ^ 32) → i + as.length < 2 ^ 32 → as.length < fuel →
    repeatLoop (block3 P) (fun d => d.isEmpty) fuel i
      (stream3 P.sha256 i as ++ (leBytes 4 (i + as.length) ++ (m ++ (leBytes 4 d.length ++ (d ++ r))))) =
      .error (.checksum "(parsing) -> xml -> block_hash") := by
  intro as
  induction as with
  | nil =>
    intro fuel i _ hi hf
    obtain ⟨f, rfl⟩ : ∃ f, fuel = f + 1 := ⟨fuel - 1, by simp at hf; omega⟩
    refine repeatLoop_err _ _ _ _ _ _ ?_
    simp only [stream3, List.nil_append, List.length_nil, Nat.add_zero]
    unfold block3
    rw [bind_run (uint_leBytes 4 i _ (by simpa using hi)), if_neg (not_not_intro rfl),
      bind_run (bytes_append' (n := 32) m _ hm),
      bind_run (by have := prefixed_greedy 4 d r (by omega); rw [List.append_assoc] at this; exact this)]
    by_cases hz : d = []
    · subst hz
      rw [if_pos (show ([] : Bytes).isEmpty = true from rfl), if_neg (fun e => hne (by rw [if_pos rfl]; exact e))]; rfl
    · rw [if_neg (by simpa using hz), if_neg (by simpa [hz] using hne)]; rfl
  | cons a as ih =>
    intro fuel i has hi hf
    obtain ⟨f, rfl⟩ : ∃ f, fuel = f + 1 := ⟨fuel - 1, by simp at hf; omega⟩
    have ha := has a (by simp)
    refine repeatLoop_step_err (block3 P) _ f i _
      (stream3 P.sha256 (i + 1) as ++ (leBytes 4 (i + 1 + as.length) ++ (m ++ (leBytes 4 d.length ++ (d ++ r))))) a _
      ((block3_ok hP).mpr ⟨by simp at hi; omega, ha.2, ?_⟩) ?_
      (ih f (i + 1) (fun b hb => has b (by simp [hb])) (by simp at hi; omega) (by simp at hf; omega))
    · rw [show i + 1 + as.length = i + (a :: as).length by simp; omega]
      simp only [stream3, List.append_assoc]
    · cases a with
      | nil => exact absurd rfl ha.1
      | cons => rfl

end Parser
end Verif
