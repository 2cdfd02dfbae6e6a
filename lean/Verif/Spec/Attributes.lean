import Verif.Api.Attributes
import Verif.Spec.Fields
import Verif.XPath.Uses
/-!
# Where the KeePass XML format keeps the attributes of entries and groups
-/
namespace Verif.Spec
open Verif Api

/-- A place below an entry or group: the names of the elements on the way down, or the value of a string field. -/
inductive Spot where
  | path (p : List Str)
  | string (key : Str)
  deriving DecidableEq

/-- The place of every attribute in the format. -/
def spot : Attr → Spot
  | .uuid => .path ["UUID".toList]
  | .icon => .path ["IconID".toList]
  | .name => .path ["Name".toList]
  | .groupNotes => .path ["Notes".toList]
  | .tags => .path ["Tags".toList]
  | .expires => .path ["Times".toList, "Expires".toList]
  | .time .expiry => .path ["Times".toList, "ExpiryTime".toList]
  | .time .ctime => .path ["Times".toList, "CreationTime".toList]
  | .time .atime => .path ["Times".toList, "LastAccessTime".toList]
  | .time .mtime => .path ["Times".toList, "LastModificationTime".toList]
  | .autoEnabled => .path ["AutoType".toList, "Enabled".toList]
  | .autoText false => .path ["AutoType".toList, "DefaultSequence".toList]
  | .autoText true => .path ["AutoType".toList, "Association".toList, "Window".toList]
  | .field .title => .string "Title".toList
  | .field .username => .string "UserName".toList
  | .field .password => .string "Password".toList
  | .field .url => .string "URL".toList
  | .field .notes => .string "Notes".toList
  | .field .otp => .string "otp".toList
  | .custom k => .string k

/-- The elements reached by the names. -/
def elsAt (h : Heap) : List Str → Nat → List Nat
  | [], e => [e]
  | t :: p, e => (h.all e t).flatMap (elsAt h p)

/-- There is at most one element at each step. -/
def Single (h : Heap) : List Str → Nat → Prop
  | [], _ => True
  | t :: p, e => (h.all e t).length ≤ 1 ∧ ∀ k ∈ h.all e t, Single h p k

/-- What is written at a place: `none` if there is no element, else its text. -/
def written (h : Heap) (e : Nat) : Spot → Option (Option Str)
  | .path p => (elsAt h p e).head?.map h.text
  | .string k => prop h e k

/-- Nothing is there twice. -/
def Once (h : Heap) (e : Nat) : Spot → Prop
  | .path p => Single h p e
  | .string _ => Fields h e

/-- The meaning of what is written: texts, the words True and False, times, base64, and tags between separators. -/
def meaning (ver : Nat × Nat) : Attr → Option (Option Str) → Except PyErr AttrVal
  | .uuid, w =>
    match w.join with
    | none => .error .type
    | some t => match b64decode t with
      | .error e => .error e
      | .ok b => if b.length = 16 then .ok (.uuid b) else .error .value
  | .icon, w | .name, w | .groupNotes, w | .field _, w => .ok (.text w.join)
  | .custom k, w => if k ∈ reservedKeys then .error .assertion else .ok (.text w.join)
  | .expires, w | .autoEnabled, w =>
    match w with
    | none => .error .attribute
    | some t => .ok (.flag (t.map (· == "True".toList)))
  | .time _, w =>
    match w.join with
    | none => .ok (.time none)
    | some t => (decodeTime ver (some t)).map fun d => .time (some d)
  | .autoText _, w => .ok (.text (if w.join = some [] then none else w.join))
  | .tags, w =>
    .ok (.tags (match w.join with
      | none => []
      | some v => if v = [] then [] else Api.splitOn ';' (v.map fun c => if c = ',' then ';' else c)))

/-- What has to be written for a value. -/
def spelled (ver : Nat × Nat) : AttrVal → Except PyErr (Option Str)
  | .text v => .ok v
  | .flag none => .ok none
  | .flag (some true) => .ok (some "True".toList)
  | .flag (some false) => .ok (some "False".toList)
  | .time none => .error .unmodelled
  | .time (some d) => (encodeTime ver d).map some
  | .uuid b => .ok (some (b64encode b))
  | .tags l => .ok (some (joinTags l))

/-- Attribute and value have the same type. -/
def Fits : Attr → AttrVal → Prop
  | .uuid, .uuid _ | .icon, .text _ | .name, .text _ | .groupNotes, .text _ | .field _, .text _ | .custom _, .text _
  | .autoText _, .text _ | .expires, .flag (some _) | .autoEnabled, .flag _ | .time _, .time (some _) | .tags, .tags _ => True
  | _, _ => False

/-- The attributes that are texts of elements already there; the others are replaced as a whole. -/
def InPlace : Attr → Prop
  | .expires | .time _ | .autoEnabled | .autoText _ => True
  | _ => False

/-- The value can be stored: there is an element for it if the attribute is a text of one, else it is not `None`; it has only characters XML
allows; keys can be put into a query, are XML text, and are no reserved key when given by the caller. -/
structure Storable (h : Heap) (e : Nat) (a : Attr) (w : Option Str) : Prop where
  there : InPlace a → written h e (spot a) ≠ none
  given : ¬ InPlace a → w ≠ none
  xml : ∀ t, w = some t → XmlText t
  key : ∀ k, a = .custom k → k ∉ reservedKeys ∧ XPath.Plain k ∧ XmlText k

end Verif.Spec
