import Verif.Base.Text
/-!
# Which texts are numbers

What Python's `int` accepts, for ASCII digits.
-/
namespace Verif.Spec
open Verif

/-- The code points of white space: tab to carriage return, the four separators and the blank, then
those beyond ASCII. -/
def whiteList : List Nat :=
  [9, 10, 11, 12, 13, 28, 29, 30, 31, 32, 0x85, 0xA0, 0x1680, 0x2000, 0x2001, 0x2002, 0x2003, 0x2004, 0x2005, 0x2006, 0x2007,
   0x2008, 0x2009, 0x200A, 0x2028, 0x2029, 0x202F, 0x205F, 0x3000]

def digitList : Str := "0123456789".toList

/-- The value of digits: each one times its power of ten. -/
def decimal : Str → Nat
  | [] => 0
  | c :: cs => digitList.idxOf c * 10 ^ cs.length + decimal cs

/-- White space, a sign, groups of digits with single underscores between them, white space. -/
def Numeral (t : Str) (n : Int) : Prop :=
  ∃ l sign first rest r, t = l ++ sign ++ (first ++ rest.flatMap ('_' :: ·)) ++ r ∧
    (∀ c ∈ l ++ r, c.toNat ∈ whiteList) ∧
    (∀ g ∈ first :: rest, g ≠ [] ∧ ∀ c ∈ g, c ∈ digitList) ∧
    ((sign = [] ∨ sign = ['+']) ∧ n = decimal (first ++ rest.flatten) ∨ sign = ['-'] ∧ n = -(decimal (first ++ rest.flatten) : Int))

end Verif.Spec
