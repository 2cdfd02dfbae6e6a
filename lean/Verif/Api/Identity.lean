import Verif.Api.Entry
/-!
# Equality of entries and groups
-/
namespace Verif.Api
open Verif

/-- A Python object for an element: `Group`, `Entry`, or `HistoryEntry` (made by `Entry.history`, `entry.py:271-277`). -/
structure Obj where
  el : Nat
  history : Bool := false

/-- The parts of CPython's `hash` that the code relies on and that are left open: of a tuple, given the hashes of its items,
and of a `datetime` or `None`. -/
structure Hashes where
  tuple : List Nat → Int
  time : Option DateTime → Nat

/-- `UUID.int` of the Python library: the 16 bytes as a big endian number. -/
def uuidInt (u : Bytes) : Nat := u.foldl (fun n b => n * 256 + b.toNat) 0

/-- `UUID.__hash__` of the Python library: the hash of the number, which CPython on 64 bits takes modulo `2 ^ 61 - 1`. -/
def uuidHash (u : Bytes) : Nat := uuidInt u % (2 ^ 61 - 1)

/-- `__hash__`: `baseelement.py:171-172`, and `entry.py:455-458` for history entries. -/
def hashOf (H : Hashes) (o : Obj) : M Int := do
  let u ← getUuid o.el
  if o.history then
    let t ← getTime o.el "LastModificationTime".toList
    pure (H.tuple [uuidHash u, H.time t])
  else pure (H.tuple [uuidHash u])

/-- `__eq__` with another entry or group: `baseelement.py:174-177`. -/
def eqObj (H : Hashes) (a b : Obj) : M Bool := do
  let x ← hashOf H a
  let y ← hashOf H b
  pure (x == y)

end Verif.Api
