import Verif.XPath.Find
/-!
# `/repo/pykeepass/deprecated.py`: the older search functions
-/
namespace Verif.XPath.Deprecated
open Verif

/-- The arguments all these functions have: `regex`, `flags`, `group`, `history`, `first`, with their defaults;
`/repo/pykeepass/deprecated.py:4-5` and the other signatures. -/
structure Opts where
  regex : Bool := false
  flags : Option Str := none
  group : Option Nat := none
  history : Bool := false
  first : Bool := false

/-- `find_groups_by_name`, `/repo/pykeepass/deprecated.py:4-13`. It has no `history` argument. -/
def findGroupsByName (re : Regex) (w : Node) (name : Option Str) (o : Opts) : Except PyErr Found :=
  findGroups re w true { regex := o.regex, flags := o.flags, tree := o.group, first := o.first, kwargs := [.attr "name".toList name] }

/-- `find_groups_by_path`, `/repo/pykeepass/deprecated.py:15-24`. It has no `history` argument. -/
def findGroupsByPath (re : Regex) (w : Node) (path : Option (List Str)) (o : Opts) : Except PyErr Found :=
  findGroups re w true { regex := o.regex, flags := o.flags, tree := o.group, first := o.first, path := path }

/-- `find_groups_by_uuid`, `/repo/pykeepass/deprecated.py:26-36`. -/
def findGroupsByUuid (re : Regex) (w : Node) (uuid : Bytes) (o : Opts) : Except PyErr Found :=
  findGroups re w true { regex := o.regex, flags := o.flags, tree := o.group, history := o.history, first := o.first, kwargs := [.uuid uuid] }

/-- `find_groups_by_notes`, `/repo/pykeepass/deprecated.py:38-48`. -/
def findGroupsByNotes (re : Regex) (w : Node) (notes : Option Str) (o : Opts) : Except PyErr Found :=
  findGroups re w true { regex := o.regex, flags := o.flags, tree := o.group, history := o.history, first := o.first, kwargs := [.attr "notes".toList notes] }

/-- `find_entries_by_title`, `/repo/pykeepass/deprecated.py:50-60`. -/
def findEntriesByTitle (re : Regex) (w : Node) (title : Option Str) (o : Opts) : Except PyErr Found :=
  findEntries re w true { regex := o.regex, flags := o.flags, tree := o.group, history := o.history, first := o.first, kwargs := [.attr "title".toList title] }

/-- `find_entries_by_username`, `/repo/pykeepass/deprecated.py:62-72`. -/
def findEntriesByUsername (re : Regex) (w : Node) (username : Option Str) (o : Opts) : Except PyErr Found :=
  findEntries re w true { regex := o.regex, flags := o.flags, tree := o.group, history := o.history, first := o.first, kwargs := [.attr "username".toList username] }

/-- `find_entries_by_password`, `/repo/pykeepass/deprecated.py:74-84`. -/
def findEntriesByPassword (re : Regex) (w : Node) (password : Option Str) (o : Opts) : Except PyErr Found :=
  findEntries re w true { regex := o.regex, flags := o.flags, tree := o.group, history := o.history, first := o.first, kwargs := [.attr "password".toList password] }

/-- `find_entries_by_url`, `/repo/pykeepass/deprecated.py:86-96`. -/
def findEntriesByUrl (re : Regex) (w : Node) (url : Option Str) (o : Opts) : Except PyErr Found :=
  findEntries re w true { regex := o.regex, flags := o.flags, tree := o.group, history := o.history, first := o.first, kwargs := [.attr "url".toList url] }

/-- `find_entries_by_notes`, `/repo/pykeepass/deprecated.py:98-108`. -/
def findEntriesByNotes (re : Regex) (w : Node) (notes : Option Str) (o : Opts) : Except PyErr Found :=
  findEntries re w true { regex := o.regex, flags := o.flags, tree := o.group, history := o.history, first := o.first, kwargs := [.attr "notes".toList notes] }

/-- `find_entries_by_path`, `/repo/pykeepass/deprecated.py:110-120`. -/
def findEntriesByPath (re : Regex) (w : Node) (path : Option (List Str)) (o : Opts) : Except PyErr Found :=
  findEntries re w true { regex := o.regex, flags := o.flags, tree := o.group, history := o.history, first := o.first, path := path }

/-- `find_entries_by_uuid`, `/repo/pykeepass/deprecated.py:122-132`. -/
def findEntriesByUuid (re : Regex) (w : Node) (uuid : Bytes) (o : Opts) : Except PyErr Found :=
  findEntries re w true { regex := o.regex, flags := o.flags, tree := o.group, history := o.history, first := o.first, kwargs := [.uuid uuid] }

/-- `find_entries_by_string`, `/repo/pykeepass/deprecated.py:134-144`. -/
def findEntriesByString (re : Regex) (w : Node) (string : List (Str × Str)) (o : Opts) : Except PyErr Found :=
  findEntries re w true { regex := o.regex, flags := o.flags, tree := o.group, history := o.history, first := o.first, kwargs := [.string string] }

end Verif.XPath.Deprecated
