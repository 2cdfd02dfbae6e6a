import Verif.Session.Power
/-!
# Power loss
-/
namespace Verif

def Io.isRename : Io → Bool
  | .rename _ _ => true
  | _ => false

/-- What has reached the medium if the file system never lets a renaming overtake anything that came before it: everything up to some
renaming, and any part of what came later, but no renaming (for ext4, data=ordered with auto_da_alloc). -/
def Ordered (ks cs : List Io) : Prop :=
  ∃ pre later rest, cs = pre ++ later ∧ ks = pre ++ rest ∧ rest.Sublist later ∧ (∀ c ∈ rest, c.isRename = false) ∧
    (pre = [] ∨ ∃ p c, pre = p ++ [c] ∧ c.isRename = true)

/-- What these saves leave in `q`, if one of them has succeeded to save there: the output of the last. -/
def savedIn (q : PPath) : List Saving → Option Bytes
  | [] => none
  | s :: r => (savedIn q r).or (if s.target = q ∧ s.fails = none then some s.pieces.flatten else none)

end Verif
