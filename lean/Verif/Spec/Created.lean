import Verif.Session.Create
import Verif.Spec.Tidy
import Verif.Api.Queries
/-!
# What `create_database` should do
-/
namespace Verif.Spec
open Verif Api

mutual
/-- The tree without the date at which the master key was changed. -/
def undated : Xml → Xml
  | .mk t a x ks => .mk t a (if t = "MasterKeyChanged".toList then none else x) (undatedL ks)
def undatedL : List Xml → List Xml
  | [] => []
  | k :: ks => undated k :: undatedL ks
end

/-- The credentials of the blank database. -/
def blankCreds : Creds := { password := some "password".toList, keyfile := .none, transformedKey := none }

/-- The blank database is in its place: a KDBX4 file, `k` when opened, whose tree `x` has the element for the date of the change
of the master key. -/
structure Blank (P : Prims) (fs : Fs) (blank : Str) (k : Kdbx) (x : Xml) : Prop where
  named : blank ≠ []
  file : ∃ b, fs (PPath.ofStr blank) = some b ∧ openBytes P blankCreds true b = .ok k
  major : k.header.value.major = 4
  tree : k.tree = .ok x
  root : x.tag = "KeePassFile".toList
  tidy : TidyXml x
  date : ∀ s, k.load 0 0 = .ok s → metaEls s.heap "MasterKeyChanged".toList ≠ []

/-- The clock gives times the format can hold. -/
def ClockOk (env : Env) (v : Nat × Nat) : Prop := ∀ n, ∃ t, encodeTime v (env.now n) = .ok t

end Verif.Spec
