import Verif.Api.KeepDb
import Verif.Spec.Structure
/-!
# The root group
-/
namespace Verif.Api
open Verif XPath Spec

variable {s : Db}

/-- The first group in `Root` cannot be moved to the recycle bin. -/
theorem canBeTrashed_root (env : Env) (hs : Inv s) {g : Nat} (hg : (rootEls s.heap).head? = some g) :
    canBeTrashed env g s ≠ (.ok true, s) := by
  intro h
  unfold canBeTrashed at h
  rw [bind_of (rootGroup_run env hs), hg] at h
  cases hu : getUuid g s with
  | mk r t =>
    have ht : t = s := by have := (still_getUuid g).eq s; rw [hu] at this; exact this
    subst ht
    cases r with
    | error e =>
      have : eqOpt g (some g) t = (.error e, t) := bind_err hu
      rw [bind_err this] at h
      cases h
    | ok u =>
      have : eqOpt g (some g) t = (.ok true, t) := by
        show (getUuid g >>= _) t = _
        rw [bind_of hu, bind_of hu]
        show (Except.ok (u == u), t) = _
        rw [beq_self_eq_true]
      rw [bind_of this] at h
      cases h

end Verif.Api
