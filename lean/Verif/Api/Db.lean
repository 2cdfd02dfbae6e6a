import Verif.Tree.Edit
import Verif.XPath.Find
import Verif.Time.Clock
/-!
# The open database and the element operations of lxml

State of a `PyKeePass` object between calls, and the primitive operations on elements that the
methods of `Entry`, `Group`, `Attachment` and `PyKeePass` are built from.
-/
namespace Verif.Api
open Verif XPath

/-- What the methods take from outside: the regular-expression engine, the results of the `n`-th call
of `datetime.now(timezone.utc)` and of `uuid.uuid1()`, the local UTC offset used for naive times, and
zlib with gzip framing. -/
structure Env where
  re : Regex
  now : Nat → DateTime
  uuid1 : Nat → Bytes
  localOff : DateTime → Int
  gzip : Bytes → Bytes
  gunzip : Bytes → Except PyErr Bytes

/-- An open database: the element tree (see `Verif.Tree.Node`), the next unused element id, the version,
the binaries of the inner header (KDBX4: flag byte and data), the credentials, and how often the clock
and the uuid source were used. -/
structure Db where
  world : Node
  next : Nat
  version : Nat × Nat
  binaries : List Bytes
  password : Option Str
  keyfile : Option Str
  ticks : Nat
  uuids : Nat
  deriving Repr

/-- A method call: a value or an exception, and the state afterwards (also after an exception). -/
def M (α : Type) := Db → Except PyErr α × Db

def M.pure {α} (a : α) : M α := fun s => (.ok a, s)
def M.bind {α β} (m : M α) (f : α → M β) : M β := fun s =>
  match m s with
  | (.ok a, s') => f a s'
  | (.error e, s') => (.error e, s')

instance : Monad M where
  pure := M.pure
  bind := M.bind

def fail {α} (e : PyErr) : M α := fun s => (.error e, s)
def reads {α} (f : Db → α) : M α := fun s => (.ok (f s), s)
def lift {α} (x : Except PyErr α) : M α := fun s => (x, s)
def change (f : Db → Db) : M Unit := fun s => (.ok (), f s)

/-- What every element holds. -/
abbrev Heap := Nat → Option Node.Rec

def Db.heap (s : Db) : Heap := s.world.view

def Heap.tag (h : Heap) (i : Nat) : Str := ((h i).map Node.Rec.tag).getD []
def Heap.text (h : Heap) (i : Nat) : Option Str := (h i).bind Node.Rec.text
def Heap.kids (h : Heap) (i : Nat) : List Nat := ((h i).map Node.Rec.kids).getD []
def Heap.attr (h : Heap) (i : Nat) (k : Str) : Option Str := (h i).bind fun r => r.attrs.lookup k
/-- `elem.findall(tag)`. -/
def Heap.all (h : Heap) (i : Nat) (t : Str) : List Nat := (h.kids i).filter fun k => h.tag k == t
/-- `elem.find(tag)`. -/
def Heap.find (h : Heap) (i : Nat) (t : Str) : Option Nat := (h.all i t).head?

/-! ## Reading elements -/

def tagOf (i : Nat) : M Str := reads fun s => s.heap.tag i
def textOf (i : Nat) : M (Option Str) := reads fun s => s.heap.text i
def attrOf (i : Nat) (k : Str) : M (Option Str) := reads fun s => s.heap.attr i k
/-- `elem.getchildren()`. -/
def childrenOf (i : Nat) : M (List Nat) := reads fun s => s.heap.kids i
/-- `elem.find(tag)`. -/
def findKid (i : Nat) (t : Str) : M (Option Nat) := reads fun s => s.heap.find i t
/-- `elem.findall(tag)`. -/
def findKids (i : Nat) (t : Str) : M (List Nat) := reads fun s => s.heap.all i t
/-- `elem.find(t1 + '/' + t2 + ...)`: the first element reached by the path of tags. -/
def findDeep (i : Nat) (p : List Str) : M (Option Nat) := reads fun s => (go s.heap p i).head?
where
  go (h : Heap) : List Str → Nat → List Nat
    | [], i => [i]
    | t :: p, i => (h.all i t).flatMap (go h p)
/-- `elem.getparent()`: `None` for the document element and for detached elements, whose parent in
the model is the virtual root. -/
def parentOf (i : Nat) : M (Option Nat) := reads fun s =>
  match s.world.parent? i with
  | none => none
  | some p => if p.id = 0 then none else some p.id
/-- Use of an attribute of `None` raises `AttributeError`. -/
def orAttr {α} : Option α → M α
  | none => fail .attribute
  | some a => pure a

/-- `tree.xpath(query)` without casts, `/repo/pykeepass/pykeepass.py:348-373`. -/
def xpath (env : Env) (ctx : Option Nat) (q : Str) : M (List Nat) := fun s =>
  ((query env.re s.world ctx q).map fun ls => ls.map fun l => l.node.id, s)
/-- The same with `first=True`. -/
def xpathFirst (env : Env) (ctx : Option Nat) (q : Str) : M (Option Nat) := do
  let r ← xpath env ctx q
  pure r.head?

/-- A search that returns one element or `None`. -/
def foundOne (r : Except PyErr Found) : Except PyErr (Option Nat) :=
  match r with
  | .error e => .error e
  | .ok (.one o) => .ok o
  | .ok (.list _) => .error .unmodelled
/-- A search that returns a list. -/
def foundList (r : Except PyErr Found) : Except PyErr (List Nat) :=
  match r with
  | .error e => .error e
  | .ok (.list l) => .ok l
  | .ok (.one _) => .error .unmodelled

/-! ## Changing elements -/

instance (s : Str) : Decidable (XmlText s) := by unfold XmlText; infer_instance

/-- The text argument of `E.Tag(value)`: `None` raises `TypeError`, characters that XML does not allow
raise `ValueError`. -/
def argText : Option Str → Except PyErr Str
  | none => .error .type
  | some s => if XmlText s then .ok s else .error .value

/-- `E.Tag(value, attr=...)` from `lxml.builder`. -/
def textEl (tag : Str) (attrs : List (Str × Str)) (value : Option Str) : Except PyErr Xml := do
  let s ← argText value
  pure (Xml.mk tag attrs (some s) [])

/-- `elem.text = value`. -/
def setText (i : Nat) (value : Option Str) : M Unit := fun s =>
  match value with
  | none => (.ok (), { s with world := s.world.update i (Node.setText none) })
  | some t =>
    if XmlText t then (.ok (), { s with world := s.world.update i (Node.setText (some t)) })
    else (.error .value, s)

/-- `elem.attrib[k] = v`. -/
def setAttr (i : Nat) (k v : Str) : M Unit := fun s =>
  if XmlText v then (.ok (), { s with world := s.world.update i (Node.setAttr k v) })
  else (.error .value, s)

/-- `parent.remove(child)`: the child is detached; not a child: `ValueError`. -/
def removeKid (p c : Nat) : M Unit := fun s =>
  if c ∈ s.heap.kids p then (.ok (), { s with world := s.world.move c 0 }) else (.error .value, s)

/-- Removing a child if there is one. -/
def removeOld (p : Nat) : Option Nat → M Unit
  | none => pure ()
  | some c => removeKid p c

/-- `parent.append(child)`: moves the child; `ValueError` if the parent is the child or below it. -/
def appendEl (p c : Nat) : M Unit := fun s =>
  match s.world.get? c with
  | none => (.error .unmodelled, s)
  | some n => if p ∈ n.ids then (.error .value, s) else (.ok (), { s with world := s.world.move c p })

/-- `parent.insert(pos, child)` of a detached child; negative positions count from the end. -/
def insertEl (p : Nat) (pos : Int) (c : Nat) : M Unit := fun s =>
  match s.world.get? c with
  | none => (.error .unmodelled, s)
  | some n =>
    if p ∈ n.ids then (.error .value, s) else
    let len := (s.heap.kids p).length
    let k : Nat := if 0 ≤ pos then pos.toNat else if 0 ≤ pos + len then (pos + len).toNat else len
    (.ok (), { s with world := s.world.moveTo c p k })

/-- `parent.append(new)` for a newly built element; the handle of the new element. -/
def make (p : Nat) (x : Xml) : M Nat := fun s =>
  let r := Node.ofXml s.next x
  (.ok s.next, { s with world := s.world.update p (Node.appendKid r.1), next := r.2 })

/-- `datetime.now(timezone.utc)`. -/
def nowUtc (env : Env) : M DateTime := fun s => (.ok (env.now s.ticks), { s with ticks := s.ticks + 1 })

/-- `uuid.uuid1()`. -/
def newUuid (env : Env) : M Bytes := fun s => (.ok (env.uuid1 s.uuids), { s with uuids := s.uuids + 1 })

/-- `str(b)` of a `bool`. -/
def pyBool (b : Bool) : Str := if b then "True".toList else "False".toList

/-- `str(n)` of an `int`. -/
def intStr : Int → Str
  | .ofNat n => natStr n
  | .negSucc n => '-' :: natStr (n + 1)

/-- Decimal digits with single underscores between them. -/
def digitsOk (prev : Bool) : Str → Bool
  | [] => prev
  | c :: cs => if isDigit c then digitsOk true cs else c == '_' && prev && cs != [] && digitsOk false cs

/-- The sign of a numeral and the rest. -/
def signSplit : Str → Bool × Str
  | [] => (false, [])
  | c :: r => if c = '-' then (true, r) else if c = '+' then (false, r) else (false, c :: r)

/-- `int(text)`: surrounding white space, a sign, digits. Simplification: ASCII digits only. -/
def pyInt (s : Str) : Except PyErr Int :=
  let p := signSplit (pyStrip s)
  if digitsOk false p.2 then
    let n : Nat := digitsVal (p.2.filter isDigit)
    .ok (if p.1 then -(n : Int) else n)
  else .error .value

end Verif.Api
