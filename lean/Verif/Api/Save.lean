import Verif.Api.Entry
import Verif.Kdbx.File
import Verif.Spec.Reach
/-!
# Writing the tree
-/
namespace Verif.Api
open Verif Spec

/-- The elements `//Value[@Protected='True']` of the tree below an element, in document order: `common.py:210`. The query is
not run through the XPath model. -/
def protectedBelow (c : Nat) : M (List Nat) := fun s =>
  match s.world.get? c with
  | none => (.error .unmodelled, s)
  | some n => (.ok ((n.nodes.filter fun m => Verif.isProtected m.tag m.attrs).map Node.id), s)

/-- The loop of `_encode`, `common.py:239-245`; the number is the position in the key stream. -/
def protectLoop (ks : Nat → UInt8) : Nat → List Nat → M Unit
  | _, [] => pure ()
  | o, i :: l => do
    match ← textOf i with
    | none => protectLoop ks o l
    | some t =>
      setText i (some (b64encode (ksXor ks o (utf8Enc t))))
      protectLoop ks (o + (utf8Enc t).length) l

/-- `UnprotectedStream._encode`, `common.py:236-246`, on the document element `d`: returns the copy. The copy is
a new tree beside the document; in lxml it is a new document. -/
def encodeTree (cipher : Except PyErr (Nat → UInt8)) (d : Nat) : M Nat := do
  let x ← contentOf d
  let c ← make 0 x
  let ks ← lift cipher
  let els ← protectedBelow c
  protectLoop ks 0 els
  pure c

/-- What `save` does with the tree, `kdbx3.py:158-179`, `kdbx4.py:272-281`: the adapter for the stream cipher, if any, then
`XML._encode`, `common.py:201-202`. -/
def dumpTree (P : Prims) (sid : StreamId) (key : Except PyErr Bytes) : M Bytes := do
  let d ← orAttr (← reads fun s => docEl s.heap)
  match innerStream P sid key with
  | .ok none =>
    let x ← contentOf d
    pure (P.xmlSer x)
  | .ok (some ks) =>
    let c ← encodeTree (.ok ks) d
    let x ← contentOf c
    pure (P.xmlSer x)
  | .error e =>
    let _ ← encodeTree (.error e) d
    fail e

end Verif.Api
