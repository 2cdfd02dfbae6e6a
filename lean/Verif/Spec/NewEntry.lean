import Verif.Spec.Content
import Verif.Api.Replace
/-!
# The content of a new entry
-/
namespace Verif.Spec
open Verif Api

def leafX (t : String) (v : Str) : Xml := Xml.mk t.toList [] (some v) []

/-- A string field that is left out when empty. -/
def optX (key : Str) (v : Option Str) (p : Option Str) : List Xml :=
  match v with
  | none => []
  | some t => if t = [] then [] else [stringXml key t p]

/-- A text child that is left out when empty. -/
def optLeaf (t : String) (v : Option Str) : List Xml :=
  match v with
  | none => []
  | some x => if x = [] then [] else [leafX t x]

/-- The text of `tags`, or nothing for no tags. -/
def tagsText : Option (List Str) → Option Str
  | none => none
  | some ts => if ts = [] then none else some (joinTags ts)

/-- The tags element of a new entry. -/
def tagsX (v : Option (List Str)) : List Xml :=
  match tagsText v with
  | none => []
  | some t => [leafX "Tags" t]

/-- The time stamps of a new element. -/
def timesX (now exp : Str) (expires : Bool) : Xml := Xml.mk "Times".toList [] none [
  leafX "CreationTime" now, leafX "LastModificationTime" now, leafX "LastAccessTime" now,
  leafX "ExpiryTime" exp, leafX "Expires" (pyBool expires), leafX "UsageCount" ['0'], leafX "LocationChanged" now]

def autoX : Xml := Xml.mk "AutoType".toList [] none [leafX "Enabled" "True".toList,
  leafX "DataTransferObfuscation" ['0'], leafX "DefaultSequence" [],
  Xml.mk "Association".toList [] none [leafX "Window" [], leafX "KeystrokeSequence" []]]

/-- What the arguments of `add_entry` ask for. -/
def entryXml (u : Bytes) (now exp : Str) (a : EntryArgs) (t n p : Str) : Xml :=
  Xml.mk "Entry".toList [] none (
    [leafX "UUID" (b64encode u)] ++ optLeaf "IconID" a.icon ++ [timesX now exp a.expiry.isSome] ++
    [stringXml "Title".toList t none, stringXml "UserName".toList n none, stringXml "Password".toList p (some "True".toList)] ++
    optX "URL".toList a.url none ++ optX "Notes".toList a.notes none ++ optX "otp".toList a.otp (some "True".toList) ++
    tagsX a.tags ++ [autoX])

/-- The expiry time written: the one given, in UTC, or the current time. -/
def expiryText (env : Env) (ver : Nat × Nat) (e : Option DateTime) (now : Str) : Except PyErr Str :=
  match e with
  | none => .ok now
  | some t =>
    match t.astimezoneUtc env.localOff with
    | .error x => .error x
    | .ok z => encodeTime ver z

/-- The empty value is left out. -/
def nonEmpty : Option Str → Option Str
  | none => none
  | some t => if t = [] then none else some t

end Verif.Spec
