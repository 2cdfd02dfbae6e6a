import Verif.Session.Session
import Verif.Api.KeePass
import Verif.Spec.Reach
/-!
# From the parsed file to the elements the API works on, and back

`PyKeePass` keeps the parsed file in `self.kdbx`; the methods work on the tree and the binaries inside it.
-/
namespace Verif
open Api Spec

/-- `payload.inner_header.binary`, `pykeepass.py:770-775`; KDBX3 files have none. -/
def Kdbx.innerBinaries (k : Kdbx) : List Bytes :=
  match k.body.bind fun b => b.payload.bind Payload.inner with
  | some ih => ih.binaries
  | none => []

/-- The state of the API with one numbered tree. -/
def Api.Db.start (n : Node × Nat) (version : Nat × Nat) (bs : List Bytes) (ticks uuids : Nat) : Db :=
  { world := .mk 0 [] [] none [n.1], next := n.2, version := version, binaries := bs,
    password := none, keyfile := none, ticks := ticks, uuids := uuids }

/-- The elements of a parsed file, `pykeepass.py:231-244`. Ids are given in document order; `ticks` and `uuids` say how often the
clock and the uuid source were used before. -/
def Kdbx.load (k : Kdbx) (ticks uuids : Nat) : Except PyErr Db :=
  k.tree.map fun x => Db.start (Node.ofXml 1 x) k.version k.innerBinaries ticks uuids

/-- The parsed file after the methods have worked on its tree and binaries: `pykeepass.py:143-182` hands
`self.kdbx`, which holds both, to the builder. -/
def Payload.store (p : Payload) (x : Xml) (bs : List Bytes) : Payload :=
  { inner := p.inner.map fun ih => { ih with binaries := bs }, xml := x }
def Body.store (b : Body) (x : Xml) (bs : List Bytes) : Body := { b with payload := b.payload.map fun p => p.store x bs }
def Kdbx.store (k : Kdbx) (s : Db) : Kdbx :=
  match s.world.kids with
  | n :: _ => { k with body := k.body.map fun b => b.store n.xml s.binaries }
  | [] => k

end Verif
