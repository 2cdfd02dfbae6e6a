import Verif.Spec.Fields
import Verif.Spec.Reach
import Verif.Spec.Search
import Verif.Base.Text
/-!
# What a text with references stands for

A text with references is a list of pieces. A reference stands for a field of the first entry, in document order,
whose field has a given value; the value of that field is again a text with references.
-/
namespace Verif.Spec
open Verif XPath Api

/-- A reference `{REF:w@s:value}`: the field `w` of the entry whose field `s` is `value`. -/
structure Reference where
  wanted : Char
  search : Char
  value : Str
  deriving DecidableEq, Repr

/-- How it is written. -/
def Reference.text (r : Reference) : Str := "{REF:".toList ++ [r.wanted, '@', r.search, ':'] ++ r.value ++ "}".toList

/-- The letters for fields. `I` is the uuid. -/
def refKey (c : Char) : Option Str :=
  if c = 'T' then some "Title".toList
  else if c = 'U' then some "UserName".toList
  else if c = 'P' then some "Password".toList
  else if c = 'A' then some "URL".toList
  else if c = 'N' then some "Notes".toList
  else none

/-- Written correctly. -/
structure Reference.WellFormed (r : Reference) : Prop where
  wanted : r.wanted = 'I' ∨ (refKey r.wanted).isSome
  search : r.search = 'I' ∨ (refKey r.search).isSome
  value : r.value ≠ []
  brace : '}' ∉ r.value

/-- No reference begins in the text, whatever follows it. -/
def Safe (t : Str) : Prop := ∀ p q, t = p ++ q → q ≠ [] → ∀ rest, ¬ "{REF:".toList <+: q ++ rest

inductive Piece where
  | text (t : Str)
  | ref (r : Reference)
  deriving DecidableEq, Repr

def Piece.render : Piece → Str
  | .text t => t
  | .ref r => r.text

def render (ps : List Piece) : Str := ps.flatMap Piece.render

def refsOf : List Piece → List Reference
  | [] => []
  | .text _ :: ps => refsOf ps
  | .ref r :: ps => r :: refsOf ps

/-- The references are written correctly and not inside of each other, and none begins elsewhere. -/
structure Written (ps : List Piece) : Prop where
  text : ∀ t, .text t ∈ ps → Safe t
  ref : ∀ r ∈ refsOf ps, r.WellFormed ∧ ¬ "{REF:".toList <:+: r.value

/-- 32 hexadecimal digits for the 16 bytes. -/
def HexOf (v : Str) (b : Bytes) : Prop :=
  b.length = 16 ∧ v.map hexVal = b.flatMap fun x => [some (x.toNat / 16), some (x.toNat % 16)]

/-- The value can be searched for. -/
def Reference.Searchable (r : Reference) : Prop :=
  if r.search = 'I' then ∃ b, HexOf r.value b else (refKey r.search).isSome ∧ Plain r.value

/-- A current entry of the document. -/
structure Current (h : Heap) (i : Nat) : Prop where
  doc : InDoc h i
  tag : h.tag i = "Entry".toList
  hist : ¬ InHist h i

/-- The entry has the value the reference gives. -/
def Bears (h : Heap) (r : Reference) (i : Nat) : Prop :=
  if r.search = 'I' then ∃ b, HexOf r.value b ∧ ∃ k ∈ h.all i "UUID".toList, h.text k = some (b64encode b)
  else ∃ key, refKey r.search = some key ∧ ∃ k ∈ valueEls h i key, h.text k = some r.value

/-- The entries a reference may mean, in document order. -/
structure Means (s : Db) (r : Reference) (is : List Nat) : Prop where
  order : is.Sublist s.world.ids
  mem : ∀ i, i ∈ is ↔ Current s.heap i ∧ Bears s.heap r i

/-- There is no entry with that value. -/
def Unanswered (s : Db) (r : Reference) : Prop := r.Searchable ∧ ∀ i, ¬ (Current s.heap i ∧ Bears s.heap r i)

/-- The wanted field of the first entry with that value has the text `t`. -/
def Answered (s : Db) (r : Reference) (t : Str) : Prop :=
  r.Searchable ∧ ∃ is e key, Means s r is ∧ is.head? = some e ∧ refKey r.wanted = some key ∧ field s.heap e key = some t

/-- What a text with references stands for, if following the references comes to an end: a text, or nothing if some
reference has no answer. The number is that of references followed. -/
inductive Stands (s : Db) : Nat → List Piece → Option Str → Prop
  | nil : Stands s 0 [] (some [])
  | text {n ps o t} : Safe t → Stands s n ps o → Stands s n (.text t :: ps) (o.map (t ++ ·))
  | missing {n ps o r} : r.WellFormed → ¬ "{REF:".toList <:+: r.value → Unanswered s r → Stands s n ps o →
      Stands s n (.ref r :: ps) none
  | found {m n ps qs o o' r} : r.WellFormed → ¬ "{REF:".toList <:+: r.value → Answered s r (render qs) →
      Stands s m qs o → Stands s n ps o' → Stands s (m + n + 1) (.ref r :: ps) (o.bind fun a => o'.map (a ++ ·))

end Verif.Spec
