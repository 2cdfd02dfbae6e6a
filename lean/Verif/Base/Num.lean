import Verif.Base.Py
/-!
# Decimal numerals: `str(n)` and the digits read back
-/
namespace Verif

/-- The digit `d < 10`. -/
def digitChar (d : Nat) : Char := Char.ofNat (48 + d)

/-- Digits of `n` before `acc`; the fuel is at least the number of digits. -/
def natDigits : Nat → Nat → Str → Str
  | 0, _, acc => acc
  | f + 1, n, acc =>
    if n / 10 = 0 then digitChar (n % 10) :: acc else natDigits f (n / 10) (digitChar (n % 10) :: acc)

/-- `str(n)` for a natural number. -/
def natStr (n : Nat) : Str := natDigits (n + 1) n []

/-- Decimal digit? -/
def isDigit (c : Char) : Bool := 48 ≤ c.toNat && c.toNat ≤ 57

/-- Value of a decimal digit. -/
def digitVal (c : Char) : Nat := c.toNat - 48

/-- Value of a string of digits. -/
def digitsVal (s : Str) : Nat := s.foldl (fun a c => a * 10 + digitVal c) 0

theorem digitChar_isDigit : ∀ d, d < 10 → isDigit (digitChar d) = true := by decide
theorem digitVal_digitChar : ∀ d, d < 10 → digitVal (digitChar d) = d := by decide

theorem natDigits_spec (f n : Nat) (acc : Str) (h : n < f) :
    ∃ ds, natDigits f n acc = ds ++ acc ∧ ds ≠ [] ∧ (∀ c ∈ ds, isDigit c = true) ∧
      digitsVal ds = n := by
  induction f generalizing n acc with
  | zero => omega
  | succ f ih =>
    have hd : n % 10 < 10 := by omega
    unfold natDigits
    split
    · next h0 =>
      refine ⟨[digitChar (n % 10)], rfl, by simp, ?_, ?_⟩
      · intro c hc
        rw [List.mem_singleton] at hc
        rw [hc]; exact digitChar_isDigit _ hd
      · simp only [digitsVal, List.foldl_cons, List.foldl_nil, digitVal_digitChar _ hd]; omega
    · next h0 =>
      obtain ⟨ds, h1, h2, h3, h4⟩ := ih (n / 10) (digitChar (n % 10) :: acc) (by omega)
      refine ⟨ds ++ [digitChar (n % 10)], by rw [h1, List.append_assoc]; rfl, by simp, ?_, ?_⟩
      · intro c hc
        rcases List.mem_append.mp hc with hc | hc
        · exact h3 c hc
        · rw [List.mem_singleton] at hc
          rw [hc]; exact digitChar_isDigit _ hd
      · unfold digitsVal at h4 ⊢
        simp only [List.foldl_append, List.foldl_cons, List.foldl_nil, digitVal_digitChar _ hd, h4]
        omega

theorem natStr_spec (n : Nat) :
    natStr n ≠ [] ∧ (∀ c ∈ natStr n, isDigit c = true) ∧ digitsVal (natStr n) = n := by
  obtain ⟨ds, h1, h2, h3, h4⟩ := natDigits_spec (n + 1) n [] (by omega)
  rw [List.append_nil] at h1
  unfold natStr
  rw [h1]
  exact ⟨h2, h3, h4⟩

theorem natStr_inj {a b : Nat} (h : natStr a = natStr b) : a = b := by
  rw [← (natStr_spec a).2.2, ← (natStr_spec b).2.2, h]

end Verif
