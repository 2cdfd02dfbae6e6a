import Verif.XPath.Find
import Verif.XPath.Sample
/-!
# C33: `first=True` is the head of the full result
-/
namespace Verif.Props
open Verif XPath

/-- The first element of a list result. -/
def headOf : Found → Found
  | .list l => .one l.head?
  | .one o => .one o

/-- For every search, database and arguments (also those that raise). -/
theorem C33_first (re : Regex) (w : Node) (pre : Str) (xp : Bool → List (Str × Str)) (a : FindArgs) :
    find re w pre xp { a with first := true } = (find re w pre xp { a with first := false }).map headOf := by
  have hA : ∀ (f : Bool) (ks : List Kw) q, addKws xp { a with first := f } ks q = addKws xp a ks q := by
    intro f ks
    induction ks with
    | nil => intro q; rfl
    | cons k ks ih =>
      intro q
      cases k with
      | attr k v =>
        cases v with
        | none => simp only [addKws, ih]
        | some v => simp only [addKws, addKey, ih]
      | uuid b => simp only [addKws, addKey, ih]
      | tags ts => simp only [addKws, addKey, ih]
      | string d => simp only [addKws, ih]
  have hS : ∀ (f : Bool) (d : List (Str × Str)) q, addStrings xp { a with first := f } d q = addStrings xp a d q := by
    intro f d
    induction d with
    | nil => intro q; rfl
    | cons p d ih => intro q; simp only [addStrings, addKey, ih]
  have hT : ∀ (f : Bool) (ks : List Kw) q, addString xp { a with first := f } ks q = addString xp a ks q := by
    intro f ks
    induction ks with
    | nil => intro q; rfl
    | cons k ks ih =>
      intro q
      cases k with
      | string d => simp only [addString, hS, ih]
      | attr k v => simp only [addString, ih]
      | uuid b => simp only [addString, ih]
      | tags ts => simp only [addString, ih]
  have hP : ∀ (f : Bool) (gs : List Str) q, pathGroups { a with first := f } gs q = pathGroups a gs q := by
    intro f gs
    induction gs with
    | nil => intro q; rfl
    | cons g gs ih => intro q; simp only [pathGroups, addKey, ih]
  have hb : ∀ f, buildQuery pre xp { a with first := f } = buildQuery pre xp a := by
    intro f
    unfold buildQuery
    simp only [hA, hT, hP, addKey]
  unfold find
  rw [hb true, hb false]
  cases buildQuery pre xp a with
  | error e => rfl
  | ok q =>
    show (query re w a.tree q).bind _ = Except.map headOf ((query re w a.tree q).bind _)
    cases query re w a.tree q with
    | error e => rfl
    | ok ls =>
      show (castAll ls).bind _ = Except.map headOf ((castAll ls).bind _)
      cases castAll ls with
      | error e => rfl
      | ok u =>
        cases hp : a.path <;> simp [Except.bind, pure, Except.pure, Except.map, headOf]

example : find Sample.engine Sample.world "//Entry".toList entryXp { first := false } = .ok (.list [9, 39, 58]) ∧
    find Sample.engine Sample.world "//Entry".toList entryXp { first := true } = .ok (.one (some 9)) :=
  ⟨by decide +kernel, by decide +kernel⟩

end Verif.Props
