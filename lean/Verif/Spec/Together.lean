import Verif.Session.Share
/-!
# Specification: saves that take turns

Saving uses a temporary file next to the database (pykeepass.py:169); two saves with the same
temporary file take turns when one ends before the other begins.  Nothing is asked of other
programs.
-/
namespace Verif

/-- `q` is the temporary file of one of the saves. -/
def IsTmp (ps : List Prog) (q : PPath) : Prop :=
  ∃ (i : Nat) (t : PPath) (a : List Bytes) (e : Option PyErr), ps[i]? = some (Prog.save t q a e)

/-- No two saves through the same temporary file are under way together. -/
def Orderly (ps : List Prog) (c : Scene) : Prop :=
  ∀ i j t t' tmp a a' e e', i ≠ j → ps[i]? = some (Prog.save t tmp a e) → ps[j]? = some (Prog.save t' tmp a' e') →
    (c.phase i).saving = true → (c.phase j).saving = true → False

/-- The scenes an orderly interleaving goes through. -/
inductive Interleaved (ps : List Prog) (c0 : Scene) : Scene → Prop
  | start : Interleaved ps c0 c0
  | step {c : Scene} (i n : Nat) : Interleaved ps c0 c → Orderly ps (c.step ps i n) →
      Interleaved ps c0 (c.step ps i n)

/-- The output of the latest of these saves that replaced `q`. -/
def lastSaved (ps : List Prog) (q : PPath) : List Nat → Option Bytes
  | [] => none
  | i :: is =>
    match ps[i]? with
    | some (Prog.save t _ a _) => if t = q then some a.flatten else lastSaved ps q is
    | _ => lastSaved ps q is

/-- What a version of `p` may be, given which saves have replaced their target. -/
def Version (ps : List Prog) (d : Disk) (log : List Nat) (p : PPath) (v : Bytes) : Prop :=
  d.content p = some v ∨ ∃ j t a e, j ∈ log ∧ ps[j]? = some (Prog.save p t a e) ∧ v = a.flatten

/-- The program alone for `n` system calls. -/
def soloRun (p : Prog) (c : Scene) (n : Nat) : Scene := c.run [p] (List.replicate n (0, 0))

/-- How the end of `save` looks to the caller. -/
def asResult : Except PyErr Unit → Except PyErr Bytes
  | .ok _ => .ok []
  | .error e => .error e

/-- A schedule in which programs run one after the other, each for a number of system calls. -/
def inTurn (order : List (Nat × Nat)) : List (Nat × Nat) := order.flatMap fun x => List.replicate x.2 (x.1, 0)

end Verif
