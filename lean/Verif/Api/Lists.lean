import Verif.Api.Entry
import Verif.Api.KeePass
/-!
# The lists of groups and entries
-/
namespace Verif.Api
open Verif XPath

/-- `PyKeePass.groups`, `pykeepass.py:258-262`: `find_groups()`. -/
def allGroups (env : Env) : M (List Nat) := findGroupList env true {}

/-- `PyKeePass.entries`, `pykeepass.py:264-268`: `find_entries()`. -/
def allEntries (env : Env) : M (List Nat) := findEntryList env true {}

/-- `is_root_group`, `group.py:71-74`. -/
def isRootGroup (g : Nat) : M Bool := do
  let l ← placeOf g
  lift (isRootIn l.anc)

end Verif.Api
