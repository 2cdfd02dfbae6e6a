import Verif.XPath.Find
/-!
# What a search should return

Written without XPath: an element matches a filter when one of the values it keeps at the place the
filter names passes the test.
-/
namespace Verif.Spec
open Verif XPath

/-- Where an element keeps a searchable value. -/
inductive Place where
  /-- the `Value` of the `String` child whose `Key` is given -/
  | field (key : Str)
  /-- the text at a path of tags -/
  | sub (path : List Str)
  /-- the `Ref` of the `Value` child of an attachment -/
  | ref
  deriving DecidableEq

/-- The elements reached by a path of tags. -/
def descend : List Str → Node → List Node
  | [], e => [e]
  | t :: p, e => (e.kids.filter fun k => k.tag == t).flatMap (descend p)

/-- The `Value` elements of the `String` children with the given key. -/
def fieldNodes (e : Node) (key : Str) : List Node :=
  (e.kids.filter fun s => s.tag == "String".toList &&
      s.kids.any fun c => c.tag == "Key".toList && c.text == some key).flatMap
    fun s => s.kids.filter fun v => v.tag == "Value".toList

/-- The values an element keeps at a place; `none` is an element without text. -/
def valuesAt (e : Node) : Place → List (Option Str)
  | .field k => (fieldNodes e k).map Node.text
  | .sub p => (descend p e).map Node.text
  | .ref => (e.kids.filter fun k => k.tag == "Value".toList).map fun k => k.attr "Ref".toList

/-- Does the value searched for fit the value kept? -/
abbrev Test := Str → Option Str → Prop

/-- Exact search. -/
def exact : Test := fun v t => t = some v

/-- Regular expression search: the engine accepts the text (the empty text if there is none). -/
def regexTest (re : Regex) (ignoreCase : Bool) : Test := fun v t => ∃ f, re v ignoreCase = some f ∧ f (t.getD []) = true

/-- The search arguments of `find_entries`. -/
def entryPlace (k : Str) : Option Place :=
  if k = "title".toList then some (.field "Title".toList)
  else if k = "username".toList then some (.field "UserName".toList)
  else if k = "password".toList then some (.field "Password".toList)
  else if k = "url".toList then some (.field "URL".toList)
  else if k = "notes".toList then some (.field "Notes".toList)
  else if k = "otp".toList then some (.field "otp".toList)
  else if k = "autotype_sequence".toList then some (.sub ["AutoType".toList, "DefaultSequence".toList])
  else if k = "autotype_window".toList then some (.sub ["AutoType".toList, "Association".toList, "Window".toList])
  else if k = "autotype_enabled".toList then some (.sub ["AutoType".toList, "Enabled".toList])
  else none

/-- The search arguments of `find_groups`. -/
def groupPlace (k : Str) : Option Place :=
  if k = "name".toList then some (.sub ["Name".toList])
  else if k = "notes".toList then some (.sub ["Notes".toList])
  else none

/-- The search arguments of `find_attachments`. -/
def attachmentPlace (k : Str) : Option Place :=
  if k = "id".toList then some .ref
  else if k = "filename".toList then some (.sub ["Key".toList])
  else none

/-- Some value at the place passes the test. -/
def HasValue (T : Test) (e : Node) (p : Place) (v : Str) : Prop := ∃ t ∈ valuesAt e p, T v t

/-- An element satisfies a search argument. -/
def KwHolds (place : Str → Option Place) (T : Test) (e : Node) : Kw → Prop
  | .attr _ none => True
  | .attr k (some v) => ∃ p, place k = some p ∧ HasValue T e p v
  | .uuid b => HasValue T e (.sub ["UUID".toList]) (b64encode b)
  | .tags ts => ∃ n ∈ e.kids, n.tag = "Tags".toList ∧ ∀ t ∈ ts, t <:+: n.text.getD []
  | .string d => ∀ p ∈ d, HasValue T e (.field p.1) p.2

/-- `x` is strictly below `h`. -/
def Below (h x : Node) : Prop := x ∈ h.kids.flatMap Node.nodes

instance (h x : Node) [DecidableEq Node] : Decidable (Below h x) := by unfold Below; infer_instance

/-- The part of the world a search looks at. `group` is given by id. -/
def InScope (w : Node) (recursive : Bool) (group : Option Nat) (x : Node) : Prop :=
  match group, recursive with
  | none, true => ∃ d ∈ w.kids.head?, x ∈ d.nodes
  | none, false => some x = w.kids.head?
  | some g, true => ∃ n ∈ w.nodes, n.id = g ∧ Below n x
  | some g, false => ∃ n ∈ w.nodes, n.id = g ∧ x ∈ n.kids

/-- `x` is below a `History` element. -/
def InHistory (w : Node) (x : Node) : Prop := ∃ h ∈ w.nodes, h.tag = "History".toList ∧ Below h x

/-- What a search for elements with the given tag should find. -/
structure Matches (tag : Str) (place : Str → Option Place) (re : Regex) (w : Node) (recursive : Bool)
    (a : FindArgs) (x : Node) : Prop where
  scope : InScope w recursive a.tree x
  tag : x.tag = tag
  history : a.history = false → ¬ InHistory w x
  filters : ∀ k ∈ a.kwargs, KwHolds place
    (if a.regex then regexTest re ((flagsStr a.flags).any (· == 'i')) else exact) x k

end Verif.Spec

namespace Verif.XPath
open Verif Spec

/-- No double quote, and only characters that XML allows. -/
def Plain (v : Str) : Prop := ∀ c ∈ v, c ≠ '"' ∧ xmlChar c = true

instance (v : Str) : Decidable (Plain v) := by unfold Plain; infer_instance

/-- The engine can run the pattern. -/
def Compiles (re : Regex) (rg : Bool) (fl v : Str) : Prop := rg = true → (re v (fl.any (· == 'i'))).isSome

/-- The three kinds of search. -/
inductive Kind where
  | entry | group | attachment
  deriving DecidableEq

def Kind.tag : Kind → Str
  | .entry => "Entry".toList
  | .group => "Group".toList
  | .attachment => "Binary".toList

def Kind.place : Kind → Str → Option Place
  | .entry => entryPlace
  | .group => groupPlace
  | .attachment => attachmentPlace

/-- A search argument that is accepted: a known name, no double quote and no character XML refuses. -/
def KwOk (K : Kind) : Kw → Prop
  | .attr k none => (K.place k).isSome
  | .attr k (some v) => (K.place k).isSome ∧ Plain v
  | .uuid _ => K ≠ .attachment
  | .tags ts => K = .entry ∧ ts ≠ [] ∧ ∀ t ∈ ts, Plain t
  | .string d => K = .entry ∧ ∀ p ∈ d, Plain p.1 ∧ Plain p.2

/-- In a regular expression search: the patterns compile. -/
def KwCompiles (re : Regex) (rg : Bool) (fl : Str) : Kw → Prop
  | .attr _ none => True
  | .attr _ (some v) => Compiles re rg fl v
  | .uuid b => Compiles re rg fl (b64encode b)
  | .tags _ => True
  | .string d => ∀ p ∈ d, Compiles re rg fl p.2

end Verif.XPath

namespace Verif.Spec
open Verif XPath

/-- Following group names downwards. -/
def Follow (T : Test) : List Str → Node → Node → Prop
  | [], g, x => x = g
  | n :: ns, g, x => ∃ k ∈ g.kids, k.tag = "Group".toList ∧ HasValue T k (.sub ["Name".toList]) n ∧ Follow T ns k x

/-- A top group of the document: `KeePassFile/Root/Group`. -/
def TopGroup (w : Node) (r : Node) : Prop :=
  ∃ d, some d = w.kids.head? ∧ d.tag = "KeePassFile".toList ∧ r ∈ descend ["Root".toList, "Group".toList] d

/-- The groups a path names. An empty last name stands for the group itself. -/
def GroupAt (T : Test) (w : Node) (p : List Str) (x : Node) : Prop :=
  ∃ r, TopGroup w r ∧ Follow T (if p.getLastD [] = [] then p.dropLast else p) r x

/-- The entries a path names: the last name is the title. -/
def EntryAt (T : Test) (w : Node) (p : List Str) (x : Node) : Prop :=
  ∃ r g, TopGroup w r ∧ Follow T p.dropLast r g ∧ x ∈ g.kids ∧ x.tag = "Entry".toList ∧
    HasValue T x (.field "Title".toList) (p.getLastD [])

end Verif.Spec
