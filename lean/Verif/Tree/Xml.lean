import Verif.Base.Text
/-!
# XML content (without element identity)

The content of an lxml element: tag, attributes in order, text before the first child, children.
Simplification: tails (text after a child), comments, processing instructions and namespaces are
not modelled; KeePass files do not contain them, and whitespace tails are removed on reading
(`XMLParser(remove_blank_text=True)`, common.py:198).
-/
namespace Verif

/-- Content of an element. -/
inductive Xml where
  | mk (tag : Str) (attrs : List (Str × Str)) (text : Option Str) (kids : List Xml)
  deriving Repr

namespace Xml

def tag : Xml → Str | mk t _ _ _ => t
def attrs : Xml → List (Str × Str) | mk _ a _ _ => a
def text : Xml → Option Str | mk _ _ t _ => t
def kids : Xml → List Xml | mk _ _ _ k => k

/-- `elem.get(name)`. -/
def attr (x : Xml) (name : Str) : Option Str := x.attrs.lookup name

/-- lxml text that consists of blanks only. -/
def blank (s : Str) : Bool := s.all fun c => c == ' ' || c == '\t' || c == '\n' || c == '\r'

/-- Every element of the tree satisfies `p` (applied to tag, attributes, text, children). -/
inductive All (p : Str → List (Str × Str) → Option Str → List Xml → Prop) : Xml → Prop where
  | mk {t a x ks} (h : p t a x ks) (hk : ∀ k ∈ ks, All p k) : All p (Xml.mk t a x ks)

/-- A text as read back after writing: an empty text becomes no text. -/
def normText : Option Str → Option Str
  | some (c :: cs) => some (c :: cs)
  | _ => none

theorem normText_of_ne {s : Str} (h : s ≠ []) : normText (some s) = some s := by
  cases s with
  | nil => exact absurd rfl h
  | cons => rfl

mutual
/-- What is read back after writing: an empty text becomes no text. -/
def norm : Xml → Xml
  | mk t a x ks => mk t a (normText x) (normList ks)
def normList : List Xml → List Xml
  | [] => []
  | k :: ks => norm k :: normList ks
end

theorem normList_eq_map (ks : List Xml) : normList ks = ks.map norm := by
  induction ks with
  | nil => rfl
  | cons k ks ih => simp [normList, ih]

theorem norm_mk (t a x ks) :
    norm (mk t a x ks) = mk t a (normText x) (ks.map norm) := by
  rw [norm, normList_eq_map]

/-- A name that can be serialised: starts with a letter or underscore, then letters, digits,
`_`, `-`, `.` (the ASCII part of XML names; enough for KeePass tags and attributes). -/
def nameStart (c : Char) : Bool := c.isAlpha || c == '_'
def nameChar (c : Char) : Bool := c.isAlphanum || c == '_' || c == '-' || c == '.'
def isName (s : Str) : Bool :=
  match s with
  | [] => false
  | c :: cs => nameStart c && cs.all nameChar

/-- Local condition for a tree that lxml can write and read back: names are names, attribute names
distinct, texts and attribute values are XML text, and an element with children has no
whitespace-only text (such text is dropped by `remove_blank_text`). -/
def OkNode (t : Str) (a : List (Str × Str)) (x : Option Str) (ks : List Xml) : Prop :=
  isName t = true ∧ (∀ p ∈ a, isName p.1 = true ∧ XmlText p.2) ∧ (a.map Prod.fst).Nodup ∧
  (∀ s, x = some s → XmlText s) ∧ (ks ≠ [] → ∀ s, x = some s → s = [] ∨ blank s = false)

/-- The trees lxml writes and reads back. -/
def Valid (x : Xml) : Prop := All OkNode x

theorem all_root {p : Str → List (Str × Str) → Option Str → List Xml → Prop} {t a x ks}
    (h : All p (Xml.mk t a x ks)) : p t a x ks ∧ ∀ k ∈ ks, All p k := by
  cases h with
  | mk h hk => exact ⟨h, hk⟩

/-- Induction on trees. -/
theorem ind {P : Xml → Prop} (h : ∀ t a x ks, (∀ k ∈ ks, P k) → P (mk t a x ks)) :
    ∀ x, P x := by
  intro x
  refine Xml.rec (motive_1 := P) (motive_2 := fun ks => ∀ k ∈ ks, P k) ?_ ?_ ?_ x
  · intro t a x ks ih; exact h t a x ks ih
  · intro k hk; cases hk
  · intro k ks hk hks k' hk'
    cases hk' with
    | head => exact hk
    | tail _ h => exact hks k' h

mutual
def decEq : (x y : Xml) → Decidable (x = y)
  | mk t a x ks, mk t' a' x' ks' =>
    if h : t = t' ∧ a = a' ∧ x = x' then
      match decEqList ks ks' with
      | .isTrue h2 => .isTrue (by obtain ⟨rfl, rfl, rfl⟩ := h; rw [h2])
      | .isFalse h2 => .isFalse (by intro e; injection e with _ _ _ e; exact h2 e)
    else .isFalse (by intro e; injection e with e1 e2 e3 _; exact h ⟨e1, e2, e3⟩)
def decEqList : (x y : List Xml) → Decidable (x = y)
  | [], [] => .isTrue rfl
  | [], _ :: _ => .isFalse (by simp)
  | _ :: _, [] => .isFalse (by simp)
  | k :: ks, k' :: ks' =>
    match decEq k k', decEqList ks ks' with
    | .isTrue h, .isTrue h2 => .isTrue (by rw [h, h2])
    | .isFalse h, _ => .isFalse (by intro e; injection e with e _; exact h e)
    | _, .isFalse h => .isFalse (by intro e; injection e with _ e; exact h e)
end

instance : DecidableEq Xml := decEq

/-- `elem.find('a/b')` (ElementPath with child steps): all matches in document order. -/
def findAllPath : List Str → Xml → List Xml
  | [], x => [x]
  | t :: ts, x => (x.kids.filter fun k => k.tag == t).flatMap (findAllPath ts)

/-- `elem.find('a/b')`. -/
def findPath (p : List Str) (x : Xml) : Option Xml := (findAllPath p x).head?

end Xml
end Verif
