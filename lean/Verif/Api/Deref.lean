import Verif.Api.KeePass
/-!
# `deref`: following `{REF:...}` placeholders
-/
namespace Verif.Api
open Verif XPath

/-- One match of the pattern at `/repo/pykeepass/pykeepass.py:891`: the second, third and fourth group. The first
group is `text`. -/
structure Token where
  wanted : Char
  search : Char
  value : Str
  deriving DecidableEq, Repr

/-- The first group of the match, the whole reference. -/
def Token.text (r : Token) : Str := "{REF:".toList ++ [r.wanted, '@', r.search, ':'] ++ r.value ++ ['}']

/-- The class `[TUPANI]` in the pattern, `pykeepass.py:891`. -/
def isLetter (c : Char) : Bool := c ∈ ['T', 'U', 'P', 'A', 'N', 'I']

/-- The pattern `({REF:([TUPANI])@([TUPANI]):([^}]+)})` tried at the beginning of a text, `pykeepass.py:891`. The
class `[^}]` does not contain the closing brace, so there is at most one way to match. -/
def matchRef (s : Str) : Option Token :=
  if "{REF:".toList.isPrefixOf s then
    match s.drop 5 with
    | w :: a :: i :: b :: rest =>
      if isLetter w && a == '@' && isLetter i && b == ':' && rest.contains '}' && !(rest.takeWhile (· != '}')).isEmpty then
        some ⟨w, i, rest.takeWhile (· != '}')⟩
      else none
    | _ => none
  else none

/-- `re.findall`, `pykeepass.py:891`: the matches from left to right; after a match the search goes on behind it. The
first argument is the number of characters still to be passed over. -/
def findRefs : Nat → Str → List Token
  | _, [] => []
  | k + 1, _ :: cs => findRefs k cs
  | 0, c :: cs =>
    match matchRef (c :: cs) with
    | some r => r :: findRefs (r.text.length - 1) cs
    | none => findRefs 0 cs

/-- `s.replace(old, new)` for a non-empty `old`: the occurrences from left to right that do not overlap. The number is
that of characters of the last occurrence still to be passed over. -/
def pyReplace (old new : Str) : Nat → Str → Str
  | _, [] => []
  | k + 1, _ :: cs => pyReplace old new k cs
  | 0, c :: cs =>
    if old.isPrefixOf (c :: cs) then new ++ pyReplace old new (old.length - 1) cs
    else c :: pyReplace old new 0 cs

/-- `s.strip('{}')`. -/
def stripBraces (s : Str) : Str :=
  ((s.dropWhile fun c => c == '{' || c == '}').reverse.dropWhile fun c => c == '{' || c == '}').reverse

/-- `uuid.UUID(s)` (CPython `Lib/uuid.py`), called at `pykeepass.py:906`. Simplification: texts of 32 characters which
`int(_, 16)` accepts although they are not 32 hexadecimal digits (signs, blanks, underscores, `0x`, other scripts) give
`unmodelled`. -/
def uuidOfHex (s : Str) : Except PyErr Bytes :=
  let h := pyReplace ['-'] [] 0 (stripBraces (pyReplace "uuid:".toList [] 0 (pyReplace "urn:".toList [] 0 s)))
  if h.length ≠ 32 then .error .value
  else if h.all fun c => (hexVal c).isSome then fromHex h
  else if (h.all fun c => c.toNat < 128) && !intHexOk (asciiBytes h) then .error .value
  else .error .unmodelled

/-- `field_to_attribute`, `pykeepass.py:894-901`, without `uuid`. -/
def letterField (c : Char) : Option Field :=
  [('T', .title), ('U', .username), ('P', .password), ('A', .url), ('N', .notes)].lookup c

/-- The keyword of `find_entries` for a field. -/
def Field.kw : Field → Str
  | .title => "title".toList
  | .username => "username".toList
  | .password => "password".toList
  | .url => "url".toList
  | .notes => "notes".toList
  | .otp => "otp".toList

/-- The search argument, `pykeepass.py:904-907`. -/
def refKw (r : Token) : Except PyErr Kw :=
  match letterField r.search with
  | some f => .ok (.attr f.kw (some r.value))
  | none =>
    match uuidOfHex r.value with
    | .error e => .error e
    | .ok b => .ok (.uuid b)

/-- `ref_entry`, `pykeepass.py:907`. -/
def refTarget (env : Env) (r : Token) : M (Option Nat) := do
  let k ← lift (refKw r)
  findEntry env true { first := true, kwargs := [k] }

/-- `getattr(ref_entry, wanted_field)` as the second argument of `str.replace`, `pykeepass.py:910`: anything but a text
raises `TypeError`. -/
def wantedText (env : Env) (e : Nat) (c : Char) : M Str := do
  match letterField c with
  | some f =>
    match ← getStd env e f with
    | some t => pure t
    | none => fail .type
  | none =>
    let _ ← getUuid e
    fail .type

/-- The loop, `pykeepass.py:902-910`; `none` is the early `return None`. -/
def substAll (env : Env) : List Token → Str → M (Option Str)
  | [], v => pure (some v)
  | r :: rs, v => do
    match ← refTarget env r with
    | none => pure none
    | some e =>
      let t ← wantedText env e r.wanted
      substAll env rs (pyReplace r.text t 0 v)

/-- `set(...)`: each match once. -/
def distinct : List Token → List Token
  | [] => []
  | r :: rs => if r ∈ rs then distinct rs else r :: distinct rs

/-- `deref`, `/repo/pykeepass/pykeepass.py:877-911`. The iteration order of the set is given by `ord`, which may be
different in every call (`ord n` in the `n`-th nested call). The number of nested calls is limited by the third
argument; going beyond raises `RecursionError` as in Python. -/
def deref (env : Env) : (Nat → List Token → List Token) → Nat → Option Str → M (Option Str)
  | _, 0, _ => fail .recursion
  | _, _ + 1, none => pure none
  | ord, n + 1, some v =>
    if findRefs 0 v = [] then pure (some v)
    else do
      match ← substAll env (ord 0 (distinct (findRefs 0 v))) v with
      | none => pure none
      | some v' => deref env (fun i => ord (i + 1)) n (some v')

/-- `Entry.deref`, `/repo/pykeepass/entry.py:186-188`, for the text attributes. -/
def entryDeref (env : Env) (ord : Nat → List Token → List Token) (n : Nat) (e : Nat) (f : Field) : M (Option Str) := do
  deref env ord n (← getStd env e f)

end Verif.Api
