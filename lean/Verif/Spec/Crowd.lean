import Verif.Spec.Life
/-!
# Several objects for one file
-/
namespace Verif.Spec
open Verif Api

/-- The objects that are in use, by number. -/
abbrev Objs := Nat → Option Obj

/-- One object replaced, added (`some`) or dropped (`none`). -/
def Objs.put (xs : Objs) (i : Nat) (x : Option Obj) : Objs := fun j => if j = i then x else xs j

/-- Things done with any of several objects that work on the database at `p`, in any order: one of them does something, or a
further one is opened from the file as it is now, or one is no longer used. `v` is the state in which the object that last saved
to `p` without error, whichever that was, saved it. -/
inductive Crowd (P : Prims) (env : Env) (p : PPath) (hdr : Header) : Fs → Objs → Shown → Fs → Objs → Shown → Prop where
  | refl (fs xs v) : Crowd P env p hdr fs xs v fs xs v
  | act {fs0 xs0 v0 fs xs v} (i : Nat) (x : Obj) (a : Act) : Crowd P env p hdr fs0 xs0 v0 fs xs v → xs i = some x →
      Act.Ok P env p v fs x a →
      Crowd P env p hdr fs0 xs0 v0 (a.run P env fs x).fs (xs.put i (some (a.run P env fs x).obj))
        (match Act.saves P env p fs x a with
          | some tk => shownBy x tk
          | none => v)
  | join {fs0 xs0 v0 fs xs v} (i : Nat) (x : Obj) (w : Shown) : Crowd P env p hdr fs0 xs0 v0 fs xs v → xs i = none →
      Opened P p hdr fs x w → Crowd P env p hdr fs0 xs0 v0 fs (xs.put i (some x)) v
  | leave {fs0 xs0 v0 fs xs v} (i : Nat) : Crowd P env p hdr fs0 xs0 v0 fs xs v →
      Crowd P env p hdr fs0 xs0 v0 fs (xs.put i none) v

/-- One object. -/
def Objs.only (x : Obj) : Objs := fun j => if j = 0 then some x else none

end Verif.Spec
