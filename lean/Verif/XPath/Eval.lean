import Verif.XPath.Syntax
import Verif.Tree.Node
import Verif.Base.Num
/-!
# Evaluation of XPath queries

What lxml's `xpath()` returns for the paths of `Verif.XPath.Syntax`, as called from
`/repo/pykeepass/pykeepass.py:349-351`.
-/
namespace Verif.XPath
open Verif

/-- An element together with its ancestors, nearest first. -/
structure Loc where
  node : Node
  anc : List Node
  deriving Repr

/-- The regular-expression engine: `re.compile(pattern, re.IGNORECASE?)`, then `search(s) is not
None`; `none` when the pattern does not compile. A parameter of the model. -/
abbrev Regex := Str → Bool → Option (Str → Bool)

def Loc.kids (l : Loc) : List Loc := l.node.kids.map fun k => ⟨k, l.node :: l.anc⟩

def Loc.parent (l : Loc) : Option Loc :=
  match l.anc with
  | [] => none
  | p :: r => some ⟨p, r⟩

mutual
/-- An element and everything below it, in document order. -/
def locs : List Node → Node → List Loc
  | anc, .mk i t a x ks => ⟨.mk i t a x ks, anc⟩ :: locsL (.mk i t a x ks :: anc) ks
def locsL : List Node → List Node → List Loc
  | _, [] => []
  | anc, k :: ks => locs anc k ++ locsL anc ks
end

/-- The strings of a value: the text node of the element if it has one, the attribute if present. -/
def Prim.strs (l : Loc) : Prim → List Str
  | .text => l.node.text.toList
  | .attr n => (l.node.attr n).toList
  | .lit s => [s]

/-- The digits before and after the decimal point. -/
def numDigits (neg : Bool) (ip f : Str) : Option (Int × Nat) :=
  if f.all isDigit && decide (0 < ip.length + f.length) then
    let m : Nat := digitsVal (ip ++ f)
    some (if neg then -(m : Int) else m, f.length)
  else none

/-- A number after its sign. -/
def numBody (neg : Bool) (s : Str) : Option (Int × Nat) :=
  match s.drop (s.takeWhile isDigit).length with
  | '.' :: f => numDigits neg (s.takeWhile isDigit) f
  | [] => numDigits neg (s.takeWhile isDigit) []
  | _ => none

/-- Without white space at both ends. -/
def trimSpace (s : Str) : Str := ((s.dropWhile isSpace).reverse.dropWhile isSpace).reverse

/-- XPath 1.0 section 4.4 `number()` of a string, as (mantissa, number of decimals); `none` is NaN.
Simplification: exact decimals instead of IEEE doubles; libxml2 also reads exponents such as `1e3`, which are NaN here. -/
def number (s : Str) : Option (Int × Nat) :=
  match trimSpace s with
  | '-' :: r => numBody true r
  | r => numBody false r

/-- `a > b` on numbers; false if one is NaN. -/
def numGt (a b : Option (Int × Nat)) : Bool :=
  match a, b with
  | some (m, k), some (n, j) => decide (n * 10 ^ k < m * 10 ^ j)
  | _, _ => false

/-- `s` occurs in `t`. -/
def isInfix (s : Str) : Str → Bool
  | [] => s.isEmpty
  | c :: t => s.isPrefixOf (c :: t) || isInfix s t

/-- `re:test(value, pattern, flags)` (lxml `_ExsltRegExp.test`): the first string of the value (or
the empty string), the pattern, and whether `i` occurs among the flags. -/
def reTest (re : Regex) (vals : List Str) (pat flags : Str) : Except PyErr Bool :=
  match re pat (flags.any (· == 'i')) with
  | none => .error .regex
  | some f => .ok (f (vals.headD []))

/-- Truth of a predicate at an element. -/
def Ex.eval (re : Regex) (l : Loc) : Ex → Except PyErr Bool
  | .or a b => do
    let x ← a.eval re l
    if x then pure true else b.eval re l
  | .and a b => do
    let x ← a.eval re l
    if x then b.eval re l else pure false
  | .eq a b => .ok ((a.strs l).any fun x => (b.strs l).any fun y => x == y)
  | .gt a b => .ok ((a.strs l).any fun x => (b.strs l).any fun y => numGt (number x) (number y))
  | .nonempty (.lit s) => .ok (!s.isEmpty)
  | .nonempty a => .ok (!(a.strs l).isEmpty)
  | .notAncestor n => .ok (l.anc.all fun p => p.tag != n)
  | .contains s => .ok (isInfix s (l.node.text.getD []))
  | .test a p f => reTest re (a.strs l) p f

/-- Keep the elements for which the test is true; the first error ends the evaluation. -/
def filterE (p : Loc → Except PyErr Bool) : List Loc → Except PyErr (List Loc)
  | [] => .ok []
  | l :: ls => do
    let b ← p l
    let r ← filterE p ls
    pure (if b then l :: r else r)

def Instr.eval (re : Regex) (i : Instr) (ls : List Loc) : Except PyErr (List Loc) :=
  match i with
  | .child n => .ok ((ls.flatMap Loc.kids).filter fun l => l.node.tag == n)
  | .desc n => .ok ((ls.flatMap fun l => (locs l.anc l.node).flatMap Loc.kids).filter fun l => l.node.tag == n)
  | .parent => .ok (ls.filterMap Loc.parent)
  | .filter e => filterE (e.eval re) ls

def evalInstrs (re : Regex) : List Instr → List Loc → Except PyErr (List Loc)
  | [], ls => .ok ls
  | i :: is, ls => do
    let r ← i.eval re ls
    evalInstrs re is r

/-! ## Queries on a world -/

/-- The document node: what `/` denotes. -/
def docNode (w : Node) : Node := .mk 0 [] [] none (w.kids.take 1)

/-- All elements of a world: those of the document, then those detached. -/
def allLocs (w : Node) : List Loc :=
  locs [] (docNode w) ++ (w.kids.drop 1).flatMap (locs [])

/-- The place of element `i`. -/
def locOf (w : Node) (i : Nat) : Option Loc := (allLocs w).find? fun l => l.node.id == i

/-- `tree.xpath(query)`: without duplicates, in document order. `ctx` is the element the query is
evaluated at (`none`: the document element). An absolute path starts at the document also when
the element is detached, since lxml keeps removed elements in their document. The document itself, to which `/KeePassFile/..` leads, is
no element and is left out of the result (lxml, `_unpackNodeSetEntry`). -/
def query (re : Regex) (w : Node) (ctx : Option Nat) (q : Str) : Except PyErr (List Loc) := do
  let p ← parse q
  let start :=
    if p.abs then [(⟨docNode w, []⟩ : Loc)]
    else match ctx with
      | some i => (locOf w i).toList
      | none => (⟨docNode w, []⟩ : Loc).kids
  let r ← evalInstrs re p.instrs start
  pure ((allLocs w).filter fun l => l.node.id != 0 && r.any fun m => m.node.id == l.node.id)

end Verif.XPath
