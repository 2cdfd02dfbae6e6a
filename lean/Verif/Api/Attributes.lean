import Verif.Api.Entry
/-!
# The attributes of entries and groups that can be assigned
-/
namespace Verif.Api
open Verif XPath

/-- `expiry_time`, `ctime`, `atime`, `mtime`: `/repo/pykeepass/baseelement.py:127-160`. -/
inductive TimeAttr where
  | expiry | ctime | atime | mtime
  deriving DecidableEq, Repr

/-- The argument of `_get_times_property` and `_set_times_property`, `/repo/pykeepass/baseelement.py:127-160`. -/
def TimeAttr.tag : TimeAttr → Str
  | .expiry => "ExpiryTime".toList
  | .ctime => "CreationTime".toList
  | .atime => "LastAccessTime".toList
  | .mtime => "LastModificationTime".toList

/-- What can be assigned: the attributes of both classes (`/repo/pykeepass/baseelement.py:67-160`), of groups
(`/repo/pykeepass/group.py:43-59`), of entries (`/repo/pykeepass/entry.py:190-320`), and custom properties
(`/repo/pykeepass/entry.py:346-352`). -/
inductive Attr where
  | uuid | icon | expires
  | time (t : TimeAttr)
  | name | groupNotes
  | field (f : Field)
  | tags | autoEnabled
  | autoText (window : Bool)
  | custom (key : Str)
  deriving DecidableEq, Repr

/-- The values of attributes, by type. -/
inductive AttrVal where
  | text (v : Option Str)
  | flag (v : Option Bool)
  | time (v : Option DateTime)
  | uuid (b : Bytes)
  | tags (l : List Str)
  deriving DecidableEq, Repr

/-- `element.attribute`, by the getters at `/repo/pykeepass/baseelement.py:67-160`, `/repo/pykeepass/group.py:43-59`,
`/repo/pykeepass/entry.py:190-320,350-352`. -/
def getAttr (env : Env) (e : Nat) : Attr → M AttrVal
  | .uuid => do pure (.uuid (← getUuid e))
  | .icon => do pure (.text (← getIcon e))
  | .expires => do pure (.flag (← getExpires e))
  | .time t => do pure (.time (← getTime e t.tag))
  | .name => do pure (.text (← getName e))
  | .groupNotes => do pure (.text (← getGroupNotes e))
  | .field f => do pure (.text (← getStd env e f))
  | .tags => do pure (.tags (← getTags e))
  | .autoEnabled => do pure (.flag (← getAutoEnabled e))
  | .autoText w => do pure (.text (← getAuto e w))
  | .custom k => do pure (.text (← getCustom env e k))

/-- `element.attribute = value`, by the setters at the same places; custom properties by `set_custom_property` with its default
`protect=False`. Simplification: values of another type than the attribute has are not modelled. -/
def assign (env : Env) (e : Nat) : Attr → AttrVal → M Unit
  | .uuid, .uuid b => setUuid e b
  | .icon, .text v => setIcon e v
  | .expires, .flag (some b) => setExpires e b
  | .time t, .time (some d) => setTime e t.tag d
  | .name, .text v => setName e v
  | .groupNotes, .text v => setGroupNotes e v
  | .field f, .text v => setStd env e f v
  | .tags, .tags l => setTags e l
  | .autoEnabled, .flag v => setAutoEnabled e v
  | .autoText w, .text v => setAuto e w v
  | .custom k, .text v => setCustom env e k v false
  | _, _ => fail .unmodelled

end Verif.Api
