import Verif.XPath.Find
/-!
# `None` as a search argument
-/
namespace Verif.XPath
open Verif

/-- A keyword argument of a search: with a value, or `None`. -/
inductive Given where
  | some (k : Kw)
  | none (key : Str)
  deriving DecidableEq, Repr

/-- What is left of it when the query is built, `/repo/pykeepass/pykeepass.py:424-429`. -/
def Given.kw : Given → Kw
  | .some k => k
  | .none k => .attr k Option.none

/-- What `_find` does with `None` before it builds the query, `/repo/pykeepass/pykeepass.py:408-422`: `kwargs['string'].items()` (line 410)
and `kwargs['uuid'].bytes` (line 417) are attribute accesses, line 422 iterates over `kwargs['tags']`. With a path the keywords are
not looked at (lines 386-403). -/
def findWith (re : Regex) (w : Node) (pre : Str) (xp : Bool → List (Str × Str)) (a : FindArgs) (gs : List Given) : Except PyErr Found :=
  match a.path with
  | .some _ => find re w pre xp a
  | .none =>
    if .none "string".toList ∈ gs then .error .attribute
    else do
      let _ ← addString xp a a.kwargs []
      if .none "uuid".toList ∈ gs then .error .attribute
      else if .none "tags".toList ∈ gs then .error .type
      else find re w pre xp a

/-- `_find` where values may be `None`, `/repo/pykeepass/pykeepass.py:377-439`. -/
def findAny (re : Regex) (w : Node) (pre : Str) (xp : Bool → List (Str × Str)) (a : FindArgs) (gs : List Given) : Except PyErr Found :=
  findWith re w pre xp { a with kwargs := gs.map Given.kw } gs

/-- `find_groups`, `/repo/pykeepass/pykeepass.py:506-508`. -/
def findGroupsAny (re : Regex) (w : Node) (recursive : Bool) (a : FindArgs) (gs : List Given) : Except PyErr Found :=
  findAny re w (if recursive then "//Group".toList else "/Group".toList) groupXp a gs

/-- `find_entries`, `/repo/pykeepass/pykeepass.py:644-647`. -/
def findEntriesAny (re : Regex) (w : Node) (recursive : Bool) (a : FindArgs) (gs : List Given) : Except PyErr Found :=
  findAny re w (if recursive then "//Entry".toList else "/Entry".toList) entryXp a gs

/-- `find_attachments`, `/repo/pykeepass/pykeepass.py:760-763`. -/
def findAttachmentsAny (re : Regex) (w : Node) (recursive : Bool) (a : FindArgs) (gs : List Given) : Except PyErr Found :=
  findAny re w (if recursive then "//Binary".toList else "/Binary".toList) attachmentXp a gs

end Verif.XPath
