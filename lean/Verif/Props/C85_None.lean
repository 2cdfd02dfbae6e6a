import Verif.XPath.Given
import Verif.XPath.Uses
import Verif.Api.Sample
/-!
# C85: `None` as a search argument
-/
namespace Verif.Props
open Verif XPath Spec

/-- The three searches. -/
def lookFor (K : Kind) (re : Regex) (w : Node) (recursive : Bool) (a : FindArgs) (gs : List Given) : Except PyErr Found :=
  match K with
  | .entry => findEntriesAny re w recursive a gs
  | .group => findGroupsAny re w recursive a gs
  | .attachment => findAttachmentsAny re w recursive a gs

/-- The same searches with values only. -/
def lookUp (K : Kind) (re : Regex) (w : Node) (recursive : Bool) (a : FindArgs) : Except PyErr Found :=
  match K with
  | .entry => findEntries re w recursive a
  | .group => findGroups re w recursive a
  | .attachment => findAttachments re w recursive a

/-- Arguments that fill templates alike. -/
def Alike (a b : FindArgs) : Prop := a.regex = b.regex ∧ a.flags = b.flags

theorem addKey_alike {a b : FindArgs} (h : Alike a b) (xp : Bool → List (Str × Str)) (e : PyErr) (key : Str) (vals : List Str) :
    addKey xp a e key vals = addKey xp b e key vals := by
  funext q
  unfold addKey
  rw [h.1, h.2]

theorem addStrings_alike {a b : FindArgs} (h : Alike a b) (xp : Bool → List (Str × Str)) (d : List (Str × Str)) :
    addStrings xp a d = addStrings xp b d := by
  induction d with
  | nil => rfl
  | cons p d ih =>
    obtain ⟨k, v⟩ := p
    funext q
    rw [addStrings, addStrings, addKey_alike h, ih]

theorem addString_alike {a b : FindArgs} (h : Alike a b) (xp : Bool → List (Str × Str)) (l : List Kw) :
    addString xp a l = addString xp b l := by
  induction l with
  | nil => rfl
  | cons k l ih =>
    funext q
    cases k with
    | string d => rw [addString, addString, addStrings_alike h, ih]
    | attr k v => exact congrFun ih q
    | uuid b => exact congrFun ih q
    | tags ts => exact congrFun ih q

theorem addKws_alike {a b : FindArgs} (h : Alike a b) (xp : Bool → List (Str × Str)) (l : List Kw) :
    addKws xp a l = addKws xp b l := by
  induction l with
  | nil => rfl
  | cons k l ih =>
    funext q
    cases k with
    | string d => exact congrFun ih q
    | attr k v =>
      cases v with
      | none => rw [addKws, addKws, h.1, ih]
      | some v => rw [addKws, addKws, addKey_alike h, ih]
    | uuid b => rw [addKws, addKws, addKey_alike h, ih]
    | tags ts => rw [addKws, addKws, addKey_alike h, ih]

theorem pathGroups_alike {a b : FindArgs} (h : Alike a b) (gs : List Str) : pathGroups a gs = pathGroups b gs := by
  induction gs with
  | nil => rfl
  | cons g gs ih =>
    funext q
    rw [pathGroups, pathGroups, addKey_alike h, ih]

theorem addString_drop (xp : Bool → List (Str × Str)) (a : FindArgs) (l1 l2 : List Kw) (k : Str) :
    addString xp a (l1 ++ .attr k none :: l2) = addString xp a (l1 ++ l2) := by
  induction l1 with
  | nil => rfl
  | cons x l ih =>
    funext q
    cases x with
    | string d => rw [List.cons_append, List.cons_append, addString, addString, ih]
    | attr k v => exact congrFun ih q
    | uuid b => exact congrFun ih q
    | tags ts => exact congrFun ih q

theorem addKws_drop {xp : Bool → List (Str × Str)} {a : FindArgs} (l1 l2 : List Kw) {k : Str} (hk : (xp a.regex).lookup k ≠ none) :
    addKws xp a (l1 ++ .attr k none :: l2) = addKws xp a (l1 ++ l2) := by
  induction l1 with
  | nil =>
    funext q
    rw [List.nil_append, List.nil_append, addKws, if_neg]
    cases h : (xp a.regex).lookup k with
    | none => exact absurd h hk
    | some t => exact fun e => nomatch e
  | cons x l ih =>
    funext q
    rw [List.cons_append, List.cons_append]
    cases x with
    | string d => exact congrFun ih q
    | attr k v => cases v <;> rw [addKws, addKws, ih]
    | uuid b => rw [addKws, addKws, ih]
    | tags ts => rw [addKws, addKws, ih]

/-- Whether the custom strings can be written does not depend on what stands before them. -/
theorem addStrings_error {xp : Bool → List (Str × Str)} {a : FindArgs} {d : List (Str × Str)} {q : Str} {e : PyErr}
    (h : addStrings xp a d q = .error e) (q' : Str) : addStrings xp a d q' = .error e := by
  induction d generalizing q q' with
  | nil => cases h
  | cons p d ih =>
    obtain ⟨k, v⟩ := p
    rw [addStrings] at h ⊢
    unfold addKey at h ⊢
    cases hl : (xp a.regex).lookup "string".toList with
    | none => rw [hl] at h; exact h
    | some t => rw [hl] at h; exact ih h _

theorem addStrings_ok_any {xp : Bool → List (Str × Str)} {a : FindArgs} {d : List (Str × Str)} {q q1 : Str}
    (h : addStrings xp a d q = .ok q1) (q' : Str) : ∃ q2, addStrings xp a d q' = .ok q2 := by
  cases hx : addStrings xp a d q' with
  | ok q2 => exact ⟨q2, rfl⟩
  | error e => rw [addStrings_error hx q] at h; cases h

theorem addString_error {xp : Bool → List (Str × Str)} {a : FindArgs} {l : List Kw} {q : Str} {e : PyErr}
    (h : addString xp a l q = .error e) (q' : Str) : addString xp a l q' = .error e := by
  induction l generalizing q q' with
  | nil => cases h
  | cons k l ih =>
    cases k with
    | string d =>
      rw [addString] at h ⊢
      cases hd : addStrings xp a d q with
      | error e' => rw [hd] at h; rw [addStrings_error hd q']; exact h
      | ok q1 =>
        obtain ⟨q2, h2⟩ := addStrings_ok_any hd q'
        rw [hd] at h
        rw [h2]
        exact ih h q2
    | attr k v => exact ih h q'
    | uuid b => exact ih h q'
    | tags ts => exact ih h q'

/-- With a path the keywords are not looked at. -/
theorem find_path_any (re : Regex) (w : Node) (pre : Str) (xp : Bool → List (Str × Str)) (a : FindArgs) (hp : a.path ≠ none) (ks ks' : List Kw) :
    find re w pre xp { a with kwargs := ks } = find re w pre xp { a with kwargs := ks' } := by
  have h : buildQuery pre xp { a with kwargs := ks } = buildQuery pre xp { a with kwargs := ks' } := by
    obtain ⟨path, tree, first, history, regex, flags, kw⟩ := a
    cases path with
    | none => exact absurd rfl hp
    | some p =>
      have e : Alike (⟨some p, tree, first, history, regex, flags, ks⟩ : FindArgs) ⟨some p, tree, first, history, regex, flags, ks'⟩ := ⟨rfl, rfl⟩
      unfold buildQuery
      simp only
      rw [pathGroups_alike e, addKey_alike e, addKey_alike e]
  unfold find
  rw [h]

theorem find_drop (re : Regex) (w : Node) (pre : Str) (xp : Bool → List (Str × Str)) (a : FindArgs) (l1 l2 : List Kw) {k : Str}
    (hk : (xp a.regex).lookup k ≠ none) :
    find re w pre xp { a with kwargs := l1 ++ .attr k none :: l2 } = find re w pre xp { a with kwargs := l1 ++ l2 } := by
  by_cases hp : a.path = none
  · have h : buildQuery pre xp { a with kwargs := l1 ++ .attr k none :: l2 } = buildQuery pre xp { a with kwargs := l1 ++ l2 } := by
      obtain ⟨path, tree, first, history, regex, flags, kw⟩ := a
      cases hp
      have e : Alike (⟨none, tree, first, history, regex, flags, l1 ++ .attr k none :: l2⟩ : FindArgs)
        ⟨none, tree, first, history, regex, flags, l1 ++ l2⟩ := ⟨rfl, rfl⟩
      unfold buildQuery
      simp only
      rw [addString_alike e, addKws_alike e, addString_drop,
        addKws_drop (a := ⟨none, tree, first, history, regex, flags, l1 ++ l2⟩) l1 l2 hk]
    unfold find
    rw [h]
  · exact find_path_any re w pre xp a hp _ _

theorem findAny_path (re : Regex) (w : Node) (pre : Str) (xp : Bool → List (Str × Str)) {a : FindArgs} (hp : a.path ≠ none) (gs : List Given) :
    findAny re w pre xp a gs = find re w pre xp { a with kwargs := gs.map Given.kw } := by
  unfold findAny findWith
  split
  · rfl
  · next h => exact absurd h hp

theorem findAny_none (re : Regex) (w : Node) (pre : Str) (xp : Bool → List (Str × Str)) {a : FindArgs} (hp : a.path = none) (gs : List Given) :
    findAny re w pre xp a gs = if .none "string".toList ∈ gs then .error .attribute
      else (addString xp a (gs.map Given.kw) []).bind fun _ => if .none "uuid".toList ∈ gs then .error .attribute
        else if .none "tags".toList ∈ gs then .error .type else find re w pre xp { a with kwargs := gs.map Given.kw } := by
  unfold findAny findWith
  split
  · next h => exact absurd (h.symm.trans hp) (fun e => nomatch e)
  · rw [addString_alike (a := { a with kwargs := gs.map Given.kw }) (b := a) ⟨rfl, rfl⟩]
    rfl

theorem findAny_drop (re : Regex) (w : Node) (pre : Str) (xp : Bool → List (Str × Str)) (a : FindArgs) (g1 g2 : List Given) {k : Str}
    (hk : (xp a.regex).lookup k ≠ none) (hs : k ≠ "string".toList) (hu : k ≠ "uuid".toList) (ht : k ≠ "tags".toList) :
    findAny re w pre xp a (g1 ++ .none k :: g2) = findAny re w pre xp a (g1 ++ g2) := by
  have hm : ∀ n : Str, k ≠ n → (Given.none n ∈ g1 ++ .none k :: g2 ↔ Given.none n ∈ g1 ++ g2) := by
    intro n hn
    simp only [List.mem_append, List.mem_cons]
    constructor
    · rintro (h | h | h)
      · exact .inl h
      · exact absurd (Given.none.inj h).symm hn
      · exact .inr h
    · rintro (h | h)
      · exact .inl h
      · exact .inr (.inr h)
  have e : (g1 ++ .none k :: g2).map Given.kw = g1.map Given.kw ++ .attr k none :: g2.map Given.kw := by
    rw [List.map_append, List.map_cons]; rfl
  have hd := find_drop re w pre xp a (g1.map Given.kw) (g2.map Given.kw) hk
  by_cases hp : a.path = none
  · rw [findAny_none re w pre xp hp, findAny_none re w pre xp hp, e, List.map_append, hd, addString_drop]
    simp only [hm _ hs, hm _ hu, hm _ ht]
  · rw [findAny_path re w pre xp hp, findAny_path re w pre xp hp, e, List.map_append, hd]

theorem lookFor_eq (K : Kind) (re : Regex) (w : Node) (recursive : Bool) (a : FindArgs) (gs : List Given) :
    lookFor K re w recursive a gs = findAny re w (preText K recursive) K.xp a gs := by
  cases K <;> cases recursive <;> rfl

theorem lookUp_eq (K : Kind) (re : Regex) (w : Node) (recursive : Bool) (a : FindArgs) :
    lookUp K re w recursive a = find re w (preText K recursive) K.xp a := by
  cases K <;> cases recursive <;> rfl

theorem place_names {K : Kind} {k : Str} (h : (K.place k).isSome) : k ≠ "string".toList ∧ k ≠ "uuid".toList ∧ k ≠ "tags".toList := by
  refine ⟨?_, ?_, ?_⟩ <;> (rintro rfl; revert h; cases K <;> decide)

/-- An argument that is `None` is as if it had not been given: title, user name and so on of entries, name and notes of groups, id and file
name of attachments. -/
theorem C85_ignored {K : Kind} {k : Str} (hk : (K.place k).isSome) (re : Regex) (w : Node) (recursive : Bool) (a : FindArgs) (g1 g2 : List Given) :
    lookFor K re w recursive a (g1 ++ .none k :: g2) = lookFor K re w recursive a (g1 ++ g2) := by
  obtain ⟨p, hp⟩ := Option.isSome_iff_exists.mp hk
  obtain ⟨t, ht, _⟩ := table_attr (rg := a.regex) hp
  obtain ⟨h1, h2, h3⟩ := place_names hk
  rw [lookFor_eq, lookFor_eq]
  exact findAny_drop re w _ _ a g1 g2 (by rw [ht]; exact fun h => nomatch h) h1 h2 h3

/-- Without such arguments the search is the one the other properties are about. -/
theorem C85_values (K : Kind) (re : Regex) (w : Node) (recursive : Bool) (a : FindArgs) :
    lookFor K re w recursive a (a.kwargs.map Given.some) = lookUp K re w recursive a := by
  rw [lookFor_eq, lookUp_eq]
  have hm : (a.kwargs.map Given.some).map Given.kw = a.kwargs := by
    rw [List.map_map]; exact (List.map_congr_left fun _ _ => rfl).trans (List.map_id _)
  have hn : ∀ n, Given.none n ∉ a.kwargs.map Given.some := by
    intro n h
    obtain ⟨x, _, hx⟩ := List.mem_map.mp h
    cases hx
  by_cases hp : a.path = none
  · rw [findAny_none re w _ _ hp, hm]
    simp only [hn, if_false]
    cases hq : addString K.xp a a.kwargs [] with
    | ok q => rfl
    | error e =>
      have h1 : find re w (preText K recursive) K.xp a = .error e := by
        unfold find buildQuery
        rw [hp]
        simp only
        rw [addString_error hq]
        rfl
      exact h1.symm
  · rw [findAny_path re w _ _ hp, hm]

/-- With a path no other argument is looked at, `None` or not. -/
theorem C85_path (K : Kind) (re : Regex) (w : Node) (recursive : Bool) {a : FindArgs} (hp : a.path ≠ none) (gs : List Given) :
    lookFor K re w recursive a gs = lookUp K re w recursive a := by
  rw [lookFor_eq, lookUp_eq]
  rw [findAny_path re w _ _ hp]
  exact find_path_any re w _ _ a hp _ a.kwargs

/-- `string=None` raises AttributeError. -/
theorem C85_string (K : Kind) (re : Regex) (w : Node) (recursive : Bool) {a : FindArgs} (hp : a.path = none) {gs : List Given}
    (h : .none "string".toList ∈ gs) : lookFor K re w recursive a gs = .error .attribute := by
  rw [lookFor_eq]
  rw [findAny_none re w _ _ hp]
  rw [if_pos h]

/-- Custom strings are accepted: only entries have them. -/
def StringsFine (K : Kind) (gs : List Given) : Prop := K = .entry ∨ ∀ d, .some (.string d) ∈ gs → d = []

theorem strings_fine {K : Kind} {gs : List Given} (h : StringsFine K gs) (a : FindArgs) (q : Str) :
    ∃ q', addString K.xp a (gs.map Given.kw) q = .ok q' := by
  rcases h with rfl | h
  · exact addString_entry a _ q
  · induction gs generalizing q with
    | nil => exact ⟨q, rfl⟩
    | cons g gs ih =>
      have ih : ∀ q, ∃ q', addString K.xp a (gs.map Given.kw) q = .ok q' := fun q => ih q fun d hd => h d (List.mem_cons_of_mem _ hd)
      cases g with
      | none k => exact ih q
      | some k =>
        cases k with
        | string d =>
          cases h d List.mem_cons_self
          exact ih q
        | attr k v => exact ih q
        | uuid b => exact ih q
        | tags ts => exact ih q

/-- `uuid=None` raises AttributeError. -/
theorem C85_uuid {K : Kind} (re : Regex) (w : Node) (recursive : Bool) {a : FindArgs} (hp : a.path = none) {gs : List Given}
    (hs : StringsFine K gs) (h : .none "uuid".toList ∈ gs) : lookFor K re w recursive a gs = .error .attribute := by
  rw [lookFor_eq]
  rw [findAny_none re w _ _ hp]
  obtain ⟨q, hq⟩ := strings_fine hs a []
  rw [hq]
  show (if _ then _ else if _ then _ else _) = _
  rw [if_pos h, ite_self]

/-- `tags=None` raises TypeError. -/
theorem C85_tags {K : Kind} (re : Regex) (w : Node) (recursive : Bool) {a : FindArgs} (hp : a.path = none) {gs : List Given}
    (hs : StringsFine K gs) (h0 : .none "string".toList ∉ gs) (h1 : .none "uuid".toList ∉ gs) (h : .none "tags".toList ∈ gs) :
    lookFor K re w recursive a gs = .error .type := by
  rw [lookFor_eq]
  rw [findAny_none re w _ _ hp]
  obtain ⟨q, hq⟩ := strings_fine hs a []
  rw [hq, if_neg h0]
  show (if _ then _ else if _ then _ else _) = _
  rw [if_neg h1, if_pos h]

/-- A name no such search has raises TypeError with `None` as with any value. -/
theorem C85_unknown {K : Kind} (re : Regex) (w : Node) (recursive : Bool) {a : FindArgs} (hp : a.path = none) {gs : List Given}
    (hs : StringsFine K gs) (h0 : .none "string".toList ∉ gs) (h1 : .none "uuid".toList ∉ gs) {k : Str} (h : .none k ∈ gs)
    (hk : (K.xp a.regex).lookup k = none) : lookFor K re w recursive a gs = .error .type := by
  rw [lookFor_eq]
  rw [findAny_none re w _ _ hp]
  obtain ⟨q, hq⟩ := strings_fine hs a []
  rw [hq, if_neg h0]
  show (if _ then _ else if _ then _ else _) = _
  rw [if_neg h1]
  split
  · rfl
  · unfold find buildQuery
    simp only [hp]
    obtain ⟨q', hq'⟩ := strings_fine hs { a with path := none, kwargs := gs.map Given.kw }
      ((if a.tree.isSome = true then ['.'] else []) ++ if a.history = true then preText K recursive else preText K recursive ++ "[not(ancestor::History)]".toList)
    rw [hq']
    show (addKws _ _ _ q').bind _ = _
    have hm : Kw.attr k none ∈ gs.map Given.kw := List.mem_map.mpr ⟨_, h, rfl⟩
    rw [addKws_unknown (a := { a with path := none, kwargs := gs.map Given.kw }) hm hk]
    rfl

/-! ## Cases -/

/-- `find_entries(title='mail', username=None)` is `find_entries(title='mail')`, and finds the entry. -/
example : findEntriesAny Sample.engine Api.Sample.db.world true {} [.some (.attr "title".toList (some "mail".toList)), .none "username".toList] =
    .ok (.list [23]) := by decide +kernel

example : StringsFine .group [.none "uuid".toList] := .inr fun d h => by simp at h

/-- `find_groups(uuid=None)`. -/
example : findGroupsAny Sample.engine Api.Sample.db.world true {} [.none "uuid".toList] = .error .attribute := by decide +kernel

end Verif.Props
