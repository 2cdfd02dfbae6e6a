import Verif.Base.Bytes
/-!
# Block streams as the format documentation prescribes them
-/
namespace Verif.Spec
open Verif

/-- KDBX4: every block is its MAC, its length (4 bytes) and its data; the MAC of block `i` is
`mac i data`. -/
def stream4 (mac : Nat → Bytes → Bytes) : Nat → List Bytes → Bytes
  | _, [] => []
  | i, d :: ds => mac i d ++ (leBytes 4 d.length ++ (d ++ stream4 mac (i + 1) ds))

/-- KDBX3: every block is its index, the hash of its data (zeros when empty), its length and its
data. -/
def stream3 (hash : Bytes → Bytes) : Nat → List Bytes → Bytes
  | _, [] => []
  | i, d :: ds => leBytes 4 i ++ ((if d = [] then List.replicate 32 0 else hash d) ++
      (leBytes 4 d.length ++ (d ++ stream3 hash (i + 1) ds)))

/-- A terminated list of blocks: the last is empty, the others are not. -/
def Terminated (bs : List Bytes) : Prop := ∃ as : List Bytes, bs = as ++ [[]] ∧ ∀ a ∈ as, a ≠ []

end Verif.Spec
