import Verif.Base.Bytes
/-!
# The `construct` combinators used by the repository (parsing side)

A parser takes the bytes left in the stream and returns a value and the bytes left, or the
exception raised (construct 2.10.70).
-/
namespace Verif

/-- A parser: remaining stream in, value and remaining stream out. -/
abbrev Parser := StateT Bytes (Except PyErr)

namespace Parser

/-- Raise an exception. -/
def fail {α} (e : PyErr) : Parser α := fun _ => .error e

/-- `construct.Bytes(n)` / `stream_read`: `StreamError` when fewer bytes are left. -/
def bytes (n : Nat) : Parser Bytes := fun s =>
  if s.length < n then .error .stream else .ok (s.take n, s.drop n)

/-- `construct.GreedyBytes`. -/
def greedy : Parser Bytes := fun s => .ok (s, [])

/-- An unsigned little-endian integer of `n` bytes: `Byte`, `Int16ul`, `Int32ul`, `Int64ul`. -/
def uint (n : Nat) : Parser Nat := do
  let b ← bytes n
  return leNat b

/-- A signed little-endian integer of `n` bytes: `Int32sl`, `Int64sl`. -/
def sint (n : Nat) : Parser Int := do
  let b ← bytes n
  let v := leNat b
  return (if v < 256 ^ n / 2 then (v : Int) else (v : Int) - (256 ^ n : Nat))

/-- `construct.Prefixed(lengthfield, subcon)`: the sub-parser sees exactly the prefixed bytes;
what it leaves unread is dropped. -/
def prefixed {α} (len : Parser Nat) (sub : Parser α) : Parser α := do
  let n ← len
  let d ← bytes n
  match sub d with
  | .error e => fail e
  | .ok (a, _) => return a

/-- `construct.Peek(Byte)`: `None` at the end of the stream, nothing consumed. -/
def peekByte : Parser (Option UInt8) := fun s => .ok (s.head?, s)

/-- The loop of `construct.RepeatUntil(predicate, subcon)`; `i` is `_index`.
The fuel is an upper bound for the number of items: every subcon the repository repeats consumes at
least one byte, so `run s = loop (s.length + 1)` never runs out (`repeatLoop_fuel`). -/
def repeatLoop {α} (p : Nat → Parser α) (stop : α → Bool) : Nat → Nat → Parser (List α)
  | 0, _ => fail .recursion
  | fuel + 1, i => do
    let a ← p i
    if stop a then return [a]
    else
      let as ← repeatLoop p stop fuel (i + 1)
      return a :: as

/-- `construct.RepeatUntil(predicate, subcon)`. -/
def repeatUntil {α} (p : Nat → Parser α) (stop : α → Bool) : Parser (List α) := fun s =>
  repeatLoop p stop (s.length + 1) 0 s

/-! ## Locality: a successful parse depends only on the bytes it consumed -/

/-- A successful parse consumes a prefix and does not depend on what follows. -/
def Local {α} (p : Parser α) : Prop :=
  ∀ s a r, p s = .ok (a, r) → ∃ u, s = u ++ r ∧ ∀ r', p (u ++ r') = .ok (a, r')

/-- A successful parse consumes at least one byte. -/
def Progress {α} (p : Parser α) : Prop :=
  ∀ s a r, p s = .ok (a, r) → r.length < s.length

theorem bind_ok {α β} {p : Parser α} {f : α → Parser β} {s : Bytes} {b : β} {r : Bytes} :
    (p >>= f) s = .ok (b, r) ↔ ∃ a m, p s = .ok (a, m) ∧ f a m = .ok (b, r) := by
  show (p s >>= fun x => f x.1 x.2) = _ ↔ _
  cases h : p s with
  | error e =>
    constructor
    · intro h; cases h
    · rintro ⟨_, _, h, _⟩; cases h
  | ok x =>
    obtain ⟨a, m⟩ := x
    constructor
    · intro h; exact ⟨a, m, rfl, h⟩
    · rintro ⟨a', m', h1, h2⟩
      injection h1 with h1
      injection h1 with h1 h1'
      subst h1 h1'
      exact h2

theorem bind_run {α β} {p : Parser α} {f : α → Parser β} {s : Bytes} {a : α} {m : Bytes}
    (h : p s = .ok (a, m)) : (p >>= f) s = f a m := by
  show (p s >>= fun x => f x.1 x.2) = _
  rw [h]; rfl

theorem bind_err {α β} {p : Parser α} {f : α → Parser β} {s : Bytes} {e : PyErr}
    (h : p s = .error e) : (p >>= f) s = .error e := by
  show (p s >>= fun x => f x.1 x.2) = _
  rw [h]; rfl

theorem pure_run {α} (a : α) (s : Bytes) : (pure a : Parser α) s = .ok (a, s) := rfl

theorem pure_ok {α} {a b : α} {s r : Bytes} :
    (pure a : Parser α) s = .ok (b, r) ↔ a = b ∧ s = r := by
  show Except.ok (a, s) = .ok (b, r) ↔ _
  constructor
  · intro h; injection h with h; injection h with h1 h2; exact ⟨h1, h2⟩
  · rintro ⟨rfl, rfl⟩; rfl

theorem fail_ok {α} {e : PyErr} {b : α} {s r : Bytes} : ¬ (fail e : Parser α) s = .ok (b, r) := by
  intro h; cases h

theorem local_pure {α} (a : α) : Local (pure a : Parser α) := by
  intro s b r h
  rw [pure_ok] at h
  obtain ⟨rfl, rfl⟩ := h
  exact ⟨[], rfl, fun r' => rfl⟩

theorem local_fail {α} (e : PyErr) : Local (fail e : Parser α) := by
  intro s b r h; exact absurd h fail_ok

theorem local_bind {α β} {p : Parser α} {f : α → Parser β} (hp : Local p)
    (hf : ∀ a, Local (f a)) : Local (p >>= f) := by
  intro s b r h
  rw [bind_ok] at h
  obtain ⟨a, m, h1, h2⟩ := h
  obtain ⟨u, rfl, hu⟩ := hp s a m h1
  obtain ⟨v, rfl, hv⟩ := hf a m b r h2
  refine ⟨u ++ v, by rw [List.append_assoc], fun r' => ?_⟩
  rw [List.append_assoc, bind_run (hu _), hv]

theorem bytes_ok {n : Nat} {s a r : Bytes} :
    bytes n s = .ok (a, r) ↔ a.length = n ∧ s = a ++ r := by
  unfold bytes
  split
  · next h =>
    constructor
    · intro h; cases h
    · rintro ⟨rfl, rfl⟩; simp at h; omega
  · next h =>
    constructor
    · intro h2
      injection h2 with h2
      injection h2 with h2 h3
      subst h2 h3
      refine ⟨by simp; omega, (List.take_append_drop n s).symm⟩
    · rintro ⟨rfl, rfl⟩; simp

theorem bytes_append (a r : Bytes) : bytes a.length (a ++ r) = .ok (a, r) := by
  rw [bytes_ok]; exact ⟨rfl, rfl⟩

theorem bytes_append' {n : Nat} (a r : Bytes) (h : a.length = n) :
    bytes n (a ++ r) = .ok (a, r) := by subst h; exact bytes_append a r

theorem local_bytes (n : Nat) : Local (bytes n) := by
  intro s a r h
  rw [bytes_ok] at h
  obtain ⟨h1, rfl⟩ := h
  exact ⟨a, rfl, fun r' => by rw [bytes_ok]; exact ⟨h1, rfl⟩⟩

theorem progress_bytes {n : Nat} (h : 0 < n) : Progress (bytes n) := by
  intro s a r h2
  rw [bytes_ok] at h2
  obtain ⟨h1, rfl⟩ := h2
  simp; omega

theorem local_uint (n : Nat) : Local (uint n) :=
  local_bind (local_bytes n) fun _ => local_pure _

theorem uint_ok {n v : Nat} {s r : Bytes} :
    uint n s = .ok (v, r) ↔ ∃ b : Bytes, b.length = n ∧ leNat b = v ∧ s = b ++ r := by
  unfold uint
  rw [bind_ok]
  constructor
  · rintro ⟨b, m, h1, h2⟩
    rw [bytes_ok] at h1
    rw [pure_ok] at h2
    obtain ⟨h2, rfl⟩ := h2
    exact ⟨b, h1.1, h2, h1.2⟩
  · rintro ⟨b, h1, h2, h3⟩
    exact ⟨b, r, bytes_ok.mpr ⟨h1, h3⟩, pure_ok.mpr ⟨h2, rfl⟩⟩

theorem uint_leBytes (k v : Nat) (r : Bytes) (h : v < 256 ^ k) :
    uint k (leBytes k v ++ r) = .ok (v, r) :=
  uint_ok.mpr ⟨leBytes k v, by simp, leNat_leBytes k v h, rfl⟩

theorem local_prefixed {α} {len : Parser Nat} (sub : Parser α) (hl : Local len) :
    Local (prefixed len sub) := by
  refine local_bind hl fun n => local_bind (local_bytes n) fun d => ?_
  split
  · exact local_fail _
  · exact local_pure _

theorem prefixed_ok {α} {len : Parser Nat} {sub : Parser α} {s r : Bytes} {a : α} :
    prefixed len sub s = .ok (a, r) ↔
      ∃ n m d t, len s = .ok (n, m) ∧ m = d ++ r ∧ d.length = n ∧ sub d = .ok (a, t) := by
  unfold prefixed
  rw [bind_ok]
  constructor
  · rintro ⟨n, m, h1, h2⟩
    rw [bind_ok] at h2
    obtain ⟨d, r', h3, h4⟩ := h2
    rw [bytes_ok] at h3
    cases hsub : sub d with
    | error e => rw [hsub] at h4; exact absurd h4 fail_ok
    | ok x =>
      obtain ⟨a', t⟩ := x
      rw [hsub] at h4
      obtain ⟨rfl, rfl⟩ := pure_ok.mp h4
      exact ⟨n, m, d, t, h1, h3.2, h3.1, hsub⟩
  · rintro ⟨n, m, d, t, h1, h2, h3, h4⟩
    refine ⟨n, m, h1, ?_⟩
    rw [bind_ok]
    refine ⟨d, r, bytes_ok.mpr ⟨h3, h2⟩, ?_⟩
    rw [h4]
    rfl

theorem Progress.bind {α β} {p : Parser α} {f : α → Parser β} (hp : Progress p)
    (hf : ∀ a s b r, f a s = .ok (b, r) → r.length ≤ s.length) : Progress (p >>= f) := by
  intro s b r h
  rw [bind_ok] at h
  obtain ⟨a, m, h1, h2⟩ := h
  have := hp s a m h1
  have := hf a m b r h2
  omega

theorem Local.le {α} {p : Parser α} (hp : Local p) {s r : Bytes} {a : α} (h : p s = .ok (a, r)) :
    r.length ≤ s.length := by
  obtain ⟨u, rfl, _⟩ := hp s a r h
  simp

/-- A longer fuel changes nothing, and the fuel needed is the number of items. -/
theorem repeatLoop_ok {α} (p : Nat → Parser α) (stop : α → Bool) (hp : ∀ i, Local (p i)) :
    ∀ fuel i s l r, repeatLoop p stop fuel i s = .ok (l, r) →
      ∃ u, s = u ++ r ∧ l.length ≤ fuel ∧ l ≠ [] ∧
        ∀ fuel' r', l.length ≤ fuel' → repeatLoop p stop fuel' i (u ++ r') = .ok (l, r') := by
  intro fuel
  induction fuel with
  | zero => intro i s l r h; exact absurd h fail_ok
  | succ fuel ih =>
    intro i s l r h
    rw [repeatLoop, bind_ok] at h
    obtain ⟨a, m, h1, h2⟩ := h
    obtain ⟨u, rfl, hu⟩ := hp i s a m h1
    split at h2
    · next hs =>
      rw [pure_ok] at h2
      obtain ⟨rfl, rfl⟩ := h2
      refine ⟨u, rfl, by simp, by simp, ?_⟩
      intro fuel' r' hf
      cases fuel' with
      | zero => simp at hf
      | succ f =>
        rw [repeatLoop, bind_run (hu r'), if_pos hs]
        rfl
    · next hs =>
      rw [bind_ok] at h2
      obtain ⟨as, m', h3, h4⟩ := h2
      rw [pure_ok] at h4
      obtain ⟨rfl, rfl⟩ := h4
      obtain ⟨v, rfl, hl, hne, hv⟩ := ih (i + 1) m as m' h3
      refine ⟨u ++ v, by rw [List.append_assoc], by simp; omega, by simp, ?_⟩
      intro fuel' r' hf
      cases fuel' with
      | zero => simp at hf
      | succ f =>
        rw [List.append_assoc, repeatLoop, bind_run (hu _), if_neg hs,
          bind_run (hv f r' (by simpa using hf))]
        rfl

/-- The items consume at least as many bytes as there are items. -/
theorem repeatLoop_count {α} (p : Nat → Parser α) (stop : α → Bool) (hg : ∀ i, Progress (p i)) :
    ∀ fuel i s l r, repeatLoop p stop fuel i s = .ok (l, r) → l.length + r.length ≤ s.length := by
  intro fuel
  induction fuel with
  | zero => intro i s l r h; exact absurd h fail_ok
  | succ fuel ih =>
    intro i s l r h
    rw [repeatLoop, bind_ok] at h
    obtain ⟨a, m, h1, h2⟩ := h
    have := hg i s a m h1
    split at h2
    · rw [pure_ok] at h2
      obtain ⟨rfl, rfl⟩ := h2
      simp; omega
    · rw [bind_ok] at h2
      obtain ⟨as, m', h3, h4⟩ := h2
      rw [pure_ok] at h4
      obtain ⟨rfl, rfl⟩ := h4
      have := ih (i + 1) m as m' h3
      simp; omega

theorem local_repeatUntil {α} (p : Nat → Parser α) (stop : α → Bool) (hp : ∀ i, Local (p i))
    (hg : ∀ i, Progress (p i)) : Local (repeatUntil p stop) := by
  intro s l r h
  unfold repeatUntil at h
  have hc := repeatLoop_count p stop hg _ _ _ _ _ h
  obtain ⟨u, rfl, hl, _, hu⟩ := repeatLoop_ok p stop hp _ _ _ _ _ h
  refine ⟨u, rfl, fun r' => ?_⟩
  unfold repeatUntil
  apply hu
  simp at hc ⊢
  omega

/-- The fuel never runs out: the loop's own failure value is unreachable. -/
theorem repeatLoop_fuel {α} (p : Nat → Parser α) (stop : α → Bool) (hg : ∀ i, Progress (p i))
    (hne : ∀ i s, p i s ≠ .error .recursion) :
    ∀ fuel i s, s.length < fuel → repeatLoop p stop fuel i s ≠ .error .recursion := by
  intro fuel
  induction fuel with
  | zero => intro i s h; omega
  | succ fuel ih =>
    intro i s h
    rw [repeatLoop]
    cases hp : p i s with
    | error e =>
      rw [bind_err hp]
      intro h2
      injection h2 with h2
      subst h2
      exact hne i s hp
    | ok x =>
      obtain ⟨a, m⟩ := x
      rw [bind_run hp]
      have := hg i s a m hp
      split
      · intro h2; cases h2
      · cases hr : repeatLoop p stop fuel (i + 1) m with
        | error e =>
          rw [bind_err hr]
          intro h2
          injection h2 with h2
          subst h2
          exact ih (i + 1) m (by omega) hr
        | ok y => rw [bind_run hr]; intro h2; cases h2

/-- Unfolding of one item on success of the item. -/
theorem repeatLoop_step {α} (p : Nat → Parser α) (stop : α → Bool) (fuel i : Nat) (s m r : Bytes)
    (a : α) (as : List α) (h : p i s = .ok (a, m)) (hs : stop a = false)
    (hr : repeatLoop p stop fuel (i + 1) m = .ok (as, r)) :
    repeatLoop p stop (fuel + 1) i s = .ok (a :: as, r) := by
  rw [repeatLoop, bind_run h, if_neg (by simp [hs]), bind_run hr]
  rfl

theorem repeatLoop_last {α} (p : Nat → Parser α) (stop : α → Bool) (fuel i : Nat) (s m : Bytes)
    (a : α) (h : p i s = .ok (a, m)) (hs : stop a = true) :
    repeatLoop p stop (fuel + 1) i s = .ok ([a], m) := by
  rw [repeatLoop, bind_run h, if_pos hs]
  rfl

end Parser
end Verif
