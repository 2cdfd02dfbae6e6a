import Verif.Base.Text
/-!
# XPath expressions

The fragment of XPath 1.0 that pykeepass builds (`/repo/pykeepass/xpath.py`, `_find`, and the
queries in `entry.py`, `group.py`, `attachment.py`, `baseelement.py`): the text of a query is split
into tokens and read as a location path, as libxml2 does.  Both passes are folds over their input.
A query outside the fragment is reported as `PyErr.unmodelled`, never silently misread.
-/
namespace Verif.XPath
open Verif

/-- XPath 1.0 section 3.7, tokens. -/
inductive Tok where
  | slash | dslash | dot | ddot | at | lpar | rpar | lbr | rbr | comma | axis | eq | gt
  | name (s : Str) | num (s : Str) | lit (s : Str) | other (c : Char)
  deriving DecidableEq, Repr

/-- What the tokenizer is in the middle of. -/
inductive LMode where
  | normal | slash | dot | name (acc : Str) | colon (acc : Str) | num (acc : Str)
  | lit (q : Char) (acc : Str)
  deriving DecidableEq, Repr

structure Lex where
  mode : LMode
  out : List Tok
  deriving DecidableEq, Repr

def isNameStart (c : Char) : Bool := c.isAlpha || c == '_'
def isNameChar (c : Char) : Bool := isNameStart c || c.isDigit || c == '-' || c == '.'
def isSpace (c : Char) : Bool := c == ' ' || c == '\t' || c == '\n' || c == '\r'

/-- A character outside any token. XPath 1.0 section 3.7. -/
def lexNormal (out : List Tok) (c : Char) : Lex :=
  if c = '/' then ⟨.slash, out⟩
  else if c = '.' then ⟨.dot, out⟩
  else if c = '"' then ⟨.lit '"' [], out⟩
  else if c = '\'' then ⟨.lit '\'' [], out⟩
  else if c = '@' then ⟨.normal, out ++ [.at]⟩
  else if c = '(' then ⟨.normal, out ++ [.lpar]⟩
  else if c = ')' then ⟨.normal, out ++ [.rpar]⟩
  else if c = '[' then ⟨.normal, out ++ [.lbr]⟩
  else if c = ']' then ⟨.normal, out ++ [.rbr]⟩
  else if c = ',' then ⟨.normal, out ++ [.comma]⟩
  else if c = '=' then ⟨.normal, out ++ [.eq]⟩
  else if c = '>' then ⟨.normal, out ++ [.gt]⟩
  else if isNameStart c then ⟨.name [c], out⟩
  else if c.isDigit then ⟨.num [c], out⟩
  else if isSpace c then ⟨.normal, out⟩
  else ⟨.normal, out ++ [.other c]⟩

/-- One character. A literal ends at the quote it began with; there is no escape. -/
def lexStep (l : Lex) (c : Char) : Lex :=
  match l.mode with
  | .normal => lexNormal l.out c
  | .slash => if c = '/' then ⟨.normal, l.out ++ [.dslash]⟩ else lexNormal (l.out ++ [.slash]) c
  | .dot =>
    if c = '.' then ⟨.normal, l.out ++ [.ddot]⟩
    else if c.isDigit then ⟨.normal, l.out ++ [.other '.']⟩
    else lexNormal (l.out ++ [.dot]) c
  | .name acc =>
    if isNameChar c then ⟨.name (acc ++ [c]), l.out⟩
    else if c = ':' then ⟨.colon acc, l.out⟩
    else lexNormal (l.out ++ [.name acc]) c
  | .colon acc =>
    if c = ':' then ⟨.normal, l.out ++ [.name acc, .axis]⟩
    else if isNameStart c then ⟨.name (acc ++ [':', c]), l.out⟩
    else lexNormal (l.out ++ [.name acc, .other ':']) c
  | .num acc =>
    if c.isDigit || c == '.' then ⟨.num (acc ++ [c]), l.out⟩
    else lexNormal (l.out ++ [.num acc]) c
  | .lit q acc =>
    if c = q then ⟨.normal, l.out ++ [.lit acc]⟩ else ⟨.lit q (acc ++ [c]), l.out⟩

def lexRun (l : Lex) (s : Str) : Lex := s.foldl lexStep l

/-- At the end of the text an unterminated literal is an error (`XPathEvalError`). -/
def lexEnd (l : Lex) : Except PyErr (List Tok) :=
  match l.mode with
  | .normal => .ok l.out
  | .slash => .ok (l.out ++ [.slash])
  | .dot => .ok (l.out ++ [.dot])
  | .name acc => .ok (l.out ++ [.name acc])
  | .colon acc => .ok (l.out ++ [.name acc, .other ':'])
  | .num acc => .ok (l.out ++ [.num acc])
  | .lit _ _ => .error .xpathEval

def lex (s : Str) : Except PyErr (List Tok) := lexEnd (lexRun ⟨.normal, []⟩ s)

/-- `text()`, `@n` and literals. -/
inductive Prim where
  | text | attr (n : Str) | lit (s : Str)
  deriving DecidableEq, Repr

/-- Predicates. -/
inductive Ex where
  | or (a b : Ex) | and (a b : Ex)
  | eq (a b : Prim) | gt (a b : Prim) | nonempty (a : Prim)
  | notAncestor (n : Str) | contains (s : Str) | test (a : Prim) (pat flags : Str)
  deriving DecidableEq, Repr

/-- Steps of a location path; `desc n` is `//n`. -/
inductive Instr where
  | child (n : Str) | desc (n : Str) | parent | filter (e : Ex)
  deriving DecidableEq, Repr

structure Path where
  abs : Bool
  instrs : List Instr
  deriving DecidableEq, Repr

def parsePrim : List Tok → Except PyErr (Prim × List Tok)
  | .name f :: .lpar :: .rpar :: ts => if f = "text".toList then .ok (.text, ts) else .error .unmodelled
  | .at :: .name n :: ts => .ok (.attr n, ts)
  | .lit s :: ts => .ok (.lit s, ts)
  | _ => .error .unmodelled

/-- A comparison or a single value. -/
def parseCmp (ts : List Tok) : Except PyErr Ex := do
  let (a, r) ← parsePrim ts
  match r with
  | [] => pure (.nonempty a)
  | .eq :: r => do
    let (b, r) ← parsePrim r
    if r = [] then pure (.eq a b) else throw .unmodelled
  | .gt :: r => do
    let (b, r) ← parsePrim r
    if r = [] then pure (.gt a b) else throw .unmodelled
  | _ => throw .unmodelled

def parseAtom (ts : List Tok) : Except PyErr Ex :=
  match ts with
  | [.name f, .lpar, .name a, .axis, .name n, .rpar] =>
    if f = "not".toList ∧ a = "ancestor".toList then .ok (.notAncestor n) else .error .unmodelled
  | [.name f, .lpar, .name g, .lpar, .rpar, .comma, .lit s, .rpar] =>
    if f = "contains".toList ∧ g = "text".toList then .ok (.contains s) else .error .unmodelled
  | [.name f, .lpar, .name g, .lpar, .rpar, .comma, .lit p, .comma, .lit fl, .rpar] =>
    if f = "re:test".toList ∧ g = "text".toList then .ok (.test .text p fl) else .error .unmodelled
  | [.name f, .lpar, .at, .name n, .comma, .lit p, .comma, .lit fl, .rpar] =>
    if f = "re:test".toList then .ok (.test (.attr n) p fl) else .error .unmodelled
  | ts => parseCmp ts

/-- The operands between the operators named `op`. -/
def splitOn (op : Str) : List Tok → List (List Tok)
  | [] => [[]]
  | t :: ts =>
    if t = .name op then [] :: splitOn op ts
    else match splitOn op ts with
      | [] => [[t]]
      | g :: gs => (t :: g) :: gs

def parseAnd : List (List Tok) → Except PyErr Ex
  | [] => .error .unmodelled
  | [g] => parseAtom g
  | g :: gs => do
    let a ← parseAtom g
    let b ← parseAnd gs
    pure (.and a b)

def parseOr : List (List Tok) → Except PyErr Ex
  | [] => .error .unmodelled
  | [g] => parseAnd (splitOn "and".toList g)
  | g :: gs => do
    let a ← parseAnd (splitOn "and".toList g)
    let b ← parseOr gs
    pure (.or a b)

/-- The tokens between `[` and `]`. An empty predicate is an error. -/
def parsePred (ts : List Tok) : Except PyErr Ex :=
  if ts = [] then .error .xpathEval else parseOr (splitOn "or".toList ts)

inductive PMode where
  | start | sep (desc : Bool) | dot | step | pred (acc : List Tok)
  deriving DecidableEq, Repr

structure PSt where
  mode : PMode
  abs : Bool
  instrs : List Instr
  deriving DecidableEq, Repr

def pathStep (p : PSt) (t : Tok) : Except PyErr PSt :=
  match p.mode, t with
  | .start, .slash => .ok { p with mode := .sep false, abs := true }
  | .start, .dslash => .ok { p with mode := .sep true, abs := true }
  | .start, .dot => .ok { p with mode := .dot }
  | .start, .ddot => .ok { p with mode := .step, instrs := p.instrs ++ [.parent] }
  | .start, .name n => .ok { p with mode := .step, instrs := p.instrs ++ [.child n] }
  | .sep false, .name n => .ok { p with mode := .step, instrs := p.instrs ++ [.child n] }
  | .sep true, .name n => .ok { p with mode := .step, instrs := p.instrs ++ [.desc n] }
  | .sep false, .ddot => .ok { p with mode := .step, instrs := p.instrs ++ [.parent] }
  | .dot, .slash => .ok { p with mode := .sep false }
  | .dot, .dslash => .ok { p with mode := .sep true }
  | .step, .slash => .ok { p with mode := .sep false }
  | .step, .dslash => .ok { p with mode := .sep true }
  | .step, .lbr => .ok { p with mode := .pred [] }
  | .pred acc, .rbr => do
    let e ← parsePred acc
    pure { p with mode := .step, instrs := p.instrs ++ [.filter e] }
  | .pred _, .lbr => .error .unmodelled
  | .pred acc, t => .ok { p with mode := .pred (acc ++ [t]) }
  | _, _ => .error .unmodelled

def pathRun (p : PSt) : List Tok → Except PyErr PSt
  | [] => .ok p
  | t :: ts => do
    let p ← pathStep p t
    pathRun p ts

def pathEnd (p : PSt) : Except PyErr Path :=
  match p.mode with
  | .step => .ok ⟨p.abs, p.instrs⟩
  | .dot => .ok ⟨p.abs, p.instrs⟩
  | .pred _ => .error .xpathEval
  | .sep _ => .error .unmodelled
  | .start => .error .xpathEval

/-- The location path a query text denotes. lxml's `xpath()` first refuses a text with characters that XML does not allow
(`ValueError`). -/
def parse (s : Str) : Except PyErr Path :=
  if XmlText s then do
    let ts ← lex s
    let p ← pathRun ⟨.start, false, []⟩ ts
    pathEnd p
  else .error .value

/-- `str.format` for templates with positional `{}` and one keyword `{flags}`.
Simplification: an argument missing for a `{}` leaves it as is (Python raises `IndexError`; no
template of pykeepass has more `{}` than arguments). -/
def fmt : Str → List Str → Str → Str
  | [], _, _ => []
  | '{' :: '{' :: t, as, fl => '{' :: fmt t as fl
  | '}' :: '}' :: t, as, fl => '}' :: fmt t as fl
  | '{' :: '}' :: t, a :: as, fl => a ++ fmt t as fl
  | '{' :: 'f' :: 'l' :: 'a' :: 'g' :: 's' :: '}' :: t, as, fl => fl ++ fmt t as fl
  | c :: t, as, fl => c :: fmt t as fl

end Verif.XPath
