import Verif.XPath.Deprecated
import Verif.Props.C30_Path
/-!
# C65: the older search functions return exactly the elements they name
-/
namespace Verif.Props
open Verif XPath Spec Deprecated

/-- How values are compared. -/
def optTest (re : Regex) (o : Opts) : Test := if o.regex then regexTest re ((flagsStr o.flags).any (· == 'i')) else exact

/-- The elements to be found: the tag, the part of the database and the history as the arguments say, and a property. -/
structure ToFind (tag : Str) (w : Node) (group : Option Nat) (history : Bool) (P : Node → Prop) (x : Node) : Prop where
  tag : x.tag = tag
  scope : InScope w true group x
  history : history = false → ¬ InHistory w x
  prop : P x

/-- The search returns exactly the elements with a property: all of them in document order, or the first. -/
def Returns (w : Node) (first : Bool) (P : Node → Prop) (r : Except PyErr Found) : Prop :=
  ∃ is, r = .ok (if first then .one is.head? else .list is) ∧ is.Sublist w.ids ∧ is.Nodup ∧
    ∀ i, i ∈ is ↔ ∃ x ∈ w.nodes, x.id = i ∧ P x

/-- Arguments a search can be made with: a group to search in, flags without double quote. -/
structure OptsOk (o : Opts) : Prop where
  group : o.group ≠ some 0
  flags : o.regex = true → Plain (flagsStr o.flags)

/-- A value that can be searched for: no double quote, and with regular expressions a pattern the engine knows. -/
def ValueOk (re : Regex) (o : Opts) (v : Str) : Prop := Plain v ∧ Compiles re o.regex (flagsStr o.flags) v

theorem returns_one {K : Kind} {re : Regex} {w : Node} (hw : World w) {o : Opts} (ho : OptsOk o) {hist : Bool} {k : Kw}
    (hk : KwOk K k) (hc : KwCompiles re o.regex (flagsStr o.flags) k) {P : Node → Prop}
    (hcast : ∀ {a : FindArgs}, ∀ l ∈ allLocs w, Matches K.tag K.place re w true a l.node → castOk l = .ok ())
    (hP : ∀ x, KwHolds K.place (optTest re o) x k ↔ P x) :
    Returns w o.first (ToFind K.tag w o.group hist P)
      (find re w (preText K true) K.xp { regex := o.regex, flags := o.flags, tree := o.group, history := hist, first := o.first, kwargs := [k] }) := by
  let a : FindArgs := { regex := o.regex, flags := o.flags, tree := o.group, history := hist, first := o.first, kwargs := [k] }
  have hk' : ∀ q ∈ a.kwargs, KwOk K q := by intro q hq; rw [List.mem_singleton.mp hq]; exact hk
  have hc' : ∀ q ∈ a.kwargs, KwCompiles re a.regex (flagsStr a.flags) q := by intro q hq; rw [List.mem_singleton.mp hq]; exact hc
  obtain ⟨r, hr⟩ := find_ok (a := a) (recursive := true) hw rfl ho.group ho.flags hk' hc' hcast
  obtain ⟨is, rfl, hs, hm⟩ := find_partial (a := a) (recursive := true) hw rfl ho.group ho.flags hk' hr
  refine ⟨is, hr, hs, hs.nodup hw.uniq, fun i => ?_⟩
  rw [hm i]
  constructor
  · rintro ⟨x, hx, hi, h⟩
    exact ⟨x, hx, hi, h.tag, h.scope, h.history, (hP x).mp (h.filters k (List.mem_singleton.mpr rfl))⟩
  · rintro ⟨x, hx, hi, h⟩
    refine ⟨x, hx, hi, h.scope, h.tag, h.history, fun q hq => ?_⟩
    rw [List.mem_singleton.mp hq]
    exact (hP x).mpr h.prop

theorem holds_attr {pl : Str → Option Place} {T : Test} {key v : Str} {p : Place} (hp : pl key = some p) (x : Node) :
    KwHolds pl T x (.attr key (some v)) ↔ HasValue T x p v := by
  constructor
  · rintro ⟨q, e, h⟩
    rw [hp] at e
    injection e with e
    subst e
    exact h
  · exact fun h => ⟨p, hp, h⟩

variable {re : Regex} {w : Node} {o : Opts}

theorem entry_attr (hw : World w) (ho : OptsOk o) {key v : Str} {p : Place} (hp : entryPlace key = some p) (hv : ValueOk re o v) :
    Returns w o.first (ToFind "Entry".toList w o.group o.history fun x => HasValue (optTest re o) x p v)
      (findEntries re w true { regex := o.regex, flags := o.flags, tree := o.group, history := o.history, first := o.first, kwargs := [.attr key (some v)] }) := by
  rw [findEntries_eq]
  exact returns_one (K := .entry) (k := .attr key (some v)) hw ho ⟨by show (entryPlace key).isSome = true; rw [hp]; rfl, hv.1⟩ hv.2 cast_entry (holds_attr hp)

theorem group_attr (hw : World w) (ho : OptsOk o) (hist : Bool) {key v : Str} {p : Place} (hp : groupPlace key = some p) (hv : ValueOk re o v) :
    Returns w o.first (ToFind "Group".toList w o.group hist fun x => HasValue (optTest re o) x p v)
      (findGroups re w true { regex := o.regex, flags := o.flags, tree := o.group, history := hist, first := o.first, kwargs := [.attr key (some v)] }) := by
  rw [findGroups_eq]
  exact returns_one (K := .group) (k := .attr key (some v)) hw ho ⟨by show (groupPlace key).isSome = true; rw [hp]; rfl, hv.1⟩ hv.2 cast_group (holds_attr hp)

/-- `find_entries_by_title`, `_username`, `_password`, `_url`, `_notes`: the entries with this value in this field. -/
theorem C65_entries (hw : World w) (ho : OptsOk o) {v : Str} (hv : ValueOk re o v) :
    Returns w o.first (ToFind "Entry".toList w o.group o.history fun x => HasValue (optTest re o) x (.field "Title".toList) v)
      (findEntriesByTitle re w (some v) o) ∧
    Returns w o.first (ToFind "Entry".toList w o.group o.history fun x => HasValue (optTest re o) x (.field "UserName".toList) v)
      (findEntriesByUsername re w (some v) o) ∧
    Returns w o.first (ToFind "Entry".toList w o.group o.history fun x => HasValue (optTest re o) x (.field "Password".toList) v)
      (findEntriesByPassword re w (some v) o) ∧
    Returns w o.first (ToFind "Entry".toList w o.group o.history fun x => HasValue (optTest re o) x (.field "URL".toList) v)
      (findEntriesByUrl re w (some v) o) ∧
    Returns w o.first (ToFind "Entry".toList w o.group o.history fun x => HasValue (optTest re o) x (.field "Notes".toList) v)
      (findEntriesByNotes re w (some v) o) :=
  ⟨entry_attr hw ho (by decide) hv, entry_attr hw ho (by decide) hv, entry_attr hw ho (by decide) hv, entry_attr hw ho (by decide) hv,
    entry_attr hw ho (by decide) hv⟩

/-- `find_groups_by_name` (never in history) and `find_groups_by_notes`. -/
theorem C65_groups (hw : World w) (ho : OptsOk o) {v : Str} (hv : ValueOk re o v) :
    Returns w o.first (ToFind "Group".toList w o.group false fun x => HasValue (optTest re o) x (.sub ["Name".toList]) v)
      (findGroupsByName re w (some v) o) ∧
    Returns w o.first (ToFind "Group".toList w o.group o.history fun x => HasValue (optTest re o) x (.sub ["Notes".toList]) v)
      (findGroupsByNotes re w (some v) o) :=
  ⟨group_attr hw ho _ (by decide) hv, group_attr hw ho _ (by decide) hv⟩

/-- `find_entries_by_uuid` and `find_groups_by_uuid`. -/
theorem C65_uuid (hw : World w) (ho : OptsOk o) {u : Bytes} (hc : Compiles re o.regex (flagsStr o.flags) (b64encode u)) :
    Returns w o.first (ToFind "Entry".toList w o.group o.history fun x => HasValue (optTest re o) x (.sub ["UUID".toList]) (b64encode u))
      (findEntriesByUuid re w u o) ∧
    Returns w o.first (ToFind "Group".toList w o.group o.history fun x => HasValue (optTest re o) x (.sub ["UUID".toList]) (b64encode u))
      (findGroupsByUuid re w u o) := by
  constructor
  · unfold findEntriesByUuid
    rw [findEntries_eq]
    exact returns_one (K := .entry) (k := .uuid u) hw ho (show Kind.entry ≠ .attachment by decide) hc cast_entry fun x => .rfl
  · unfold findGroupsByUuid
    rw [findGroups_eq]
    exact returns_one (K := .group) (k := .uuid u) hw ho (show Kind.group ≠ .attachment by decide) hc cast_group fun x => .rfl

/-- `find_entries_by_string`: every one of the given fields has the given value. -/
theorem C65_string (hw : World w) (ho : OptsOk o) {d : List (Str × Str)} (hd : ∀ p ∈ d, Plain p.1 ∧ ValueOk re o p.2) :
    Returns w o.first (ToFind "Entry".toList w o.group o.history fun x => ∀ p ∈ d, HasValue (optTest re o) x (.field p.1) p.2)
      (findEntriesByString re w d o) := by
  unfold findEntriesByString
  rw [findEntries_eq]
  exact returns_one (K := .entry) (re := re) (k := .string d) hw ho (show Kind.entry = .entry ∧ ∀ p ∈ d, Plain p.1 ∧ Plain p.2 from ⟨rfl, fun p hp => ⟨(hd p hp).1, (hd p hp).2.1⟩⟩)
    (show ∀ p ∈ d, Compiles re o.regex (flagsStr o.flags) p.2 from fun p hp => (hd p hp).2.2) cast_entry fun x => .rfl

/-- `find_entries_by_path` and `find_groups_by_path`: the first element at this path; `group`, `history` and `first` are
ignored. -/
theorem C65_path (hw : World w) (hf : o.regex = true → Plain (flagsStr o.flags)) {p : List Str} (hp : ∀ v ∈ p, ValueOk re o v)
    (hl : Compiles re o.regex (flagsStr o.flags) []) :
    (∃ r, findEntriesByPath re w (some p) o = .ok r ∧ FirstSuch w (EntryAt (optTest re o) w p) r) ∧
    ∃ r, findGroupsByPath re w (some p) o = .ok r ∧ FirstSuch w (GroupAt (optTest re o) w p) r := by
  have hc : ∀ v, (v = p.getLastD [] ∨ v ∈ p) → Compiles re o.regex (flagsStr o.flags) v := by
    rintro v (rfl | hv)
    · by_cases hn : p = []
      · subst hn; exact hl
      · rw [List.getLastD_eq_getLast?, List.getLast?_eq_some_getLast hn]
        exact (hp _ (List.getLast_mem hn)).2
    · exact (hp v hv).2
  constructor
  · unfold findEntriesByPath
    rw [findEntries_eq]
    obtain ⟨r, hr⟩ := find_path_ok (K := .entry) (recursive := true) (re := re)
      (a := { regex := o.regex, flags := o.flags, tree := o.group, history := o.history, first := o.first, path := some p })
      hw rfl hf (fun v hv => (hp v hv).1) hc
    refine ⟨r, hr, ?_⟩
    have := find_path hw rfl hf (fun v hv => (hp v hv).1) hr
    obtain ⟨is, h1, h2, h3⟩ := this
    exact ⟨is, h1, h2, fun i => (h3 i).trans .rfl⟩
  · unfold findGroupsByPath
    rw [findGroups_eq]
    obtain ⟨r, hr⟩ := find_path_ok (K := .group) (recursive := true) (re := re)
      (a := { regex := o.regex, flags := o.flags, tree := o.group, first := o.first, path := some p })
      hw rfl hf (fun v hv => (hp v hv).1) hc
    refine ⟨r, hr, ?_⟩
    have := find_path hw rfl hf (fun v hv => (hp v hv).1) hr
    obtain ⟨is, h1, h2, h3⟩ := this
    exact ⟨is, h1, h2, fun i => (h3 i).trans .rfl⟩

/-- Without a value, `None`, all entries or groups are returned. -/
theorem C65_none (hw : World w) (ho : OptsOk o) :
    Returns w o.first (ToFind "Entry".toList w o.group o.history fun _ => True) (findEntriesByTitle re w none o) ∧
    Returns w o.first (ToFind "Group".toList w o.group false fun _ => True) (findGroupsByName re w none o) := by
  constructor
  · unfold findEntriesByTitle
    rw [findEntries_eq]
    exact returns_one (K := .entry) (k := .attr "title".toList none) hw ho (by decide) trivial cast_entry fun x => .rfl
  · unfold findGroupsByName
    rw [findGroups_eq]
    exact returns_one (K := .group) (k := .attr "name".toList none) hw ho (by decide) trivial cast_group fun x => .rfl

theorem returns_all {K : Kind} (hw : World w) (ho : OptsOk o) {hist : Bool}
    (hcast : ∀ {a : FindArgs}, ∀ l ∈ allLocs w, Matches K.tag K.place re w true a l.node → castOk l = .ok ()) :
    Returns w o.first (ToFind K.tag w o.group hist fun _ => True)
      (find re w (preText K true) K.xp { regex := o.regex, flags := o.flags, tree := o.group, history := hist, first := o.first }) := by
  let a : FindArgs := { regex := o.regex, flags := o.flags, tree := o.group, history := hist, first := o.first }
  obtain ⟨r, hr⟩ := find_ok (a := a) (K := K) (recursive := true) hw rfl ho.group ho.flags nofun nofun hcast
  obtain ⟨is, rfl, hs, hm⟩ := find_partial (a := a) (K := K) (recursive := true) hw rfl ho.group ho.flags nofun hr
  refine ⟨is, hr, hs, hs.nodup hw.uniq, fun i => ?_⟩
  rw [hm i]
  constructor
  · rintro ⟨x, hx, hi, h⟩
    exact ⟨x, hx, hi, h.tag, h.scope, h.history, trivial⟩
  · rintro ⟨x, hx, hi, h⟩
    exact ⟨x, hx, hi, h.scope, h.tag, h.history, nofun⟩

/-- Without a path, `None`, `find_entries_by_path` and `find_groups_by_path` are no searches by path: all entries or groups are returned. -/
theorem C65_path_none (hw : World w) (ho : OptsOk o) :
    Returns w o.first (ToFind "Entry".toList w o.group o.history fun _ => True) (findEntriesByPath re w none o) ∧
    Returns w o.first (ToFind "Group".toList w o.group false fun _ => True) (findGroupsByPath re w none o) := by
  constructor
  · unfold findEntriesByPath
    rw [findEntries_eq]
    exact returns_all (K := .entry) hw ho cast_entry
  · unfold findGroupsByPath
    rw [findGroups_eq]
    exact returns_all (K := .group) hw ho cast_group

/-- A text where a list of names is expected: Python takes its characters. -/
def charsOf (t : Str) : List Str := t.map fun c => [c]

/-- Finding: `find_groups_by_path('Work')`, a text as the name `group_path_str` of the argument suggests, does not find the
group `Work`; `find_groups_by_path(['Work'])` does. -/
theorem C65_path_text : findGroupsByPath Sample.engine Sample.world (some ["Work".toList]) {} = .ok (.one (some 36)) ∧
    findGroupsByPath Sample.engine Sample.world (some (charsOf "Work".toList)) {} = .ok (.one none) :=
  ⟨by decide +kernel, by decide +kernel⟩

example : World Sample.world ∧ OptsOk {} ∧ ValueOk Sample.engine {} "mail".toList ∧
    findEntriesByTitle Sample.engine Sample.world (some "mail".toList) {} = .ok (.list [9, 58]) ∧
    findEntriesByTitle Sample.engine Sample.world (some "mail".toList) { history := true } = .ok (.list [9, 25, 58]) ∧
    findGroupsByName Sample.engine Sample.world (some "Work".toList) { first := true } = .ok (.one (some 36)) ∧
    findGroupsByUuid Sample.engine Sample.world [17] {} = .ok (.list [36]) ∧
    findEntriesByString Sample.engine Sample.world [("pin".toList, "12".toList)] {} = .ok (.list [39]) :=
  ⟨Sample.world_ok, ⟨by decide, by decide⟩, ⟨by decide, fun h => by cases h⟩, by decide +kernel, by decide +kernel, by decide +kernel,
    by decide +kernel, by decide +kernel⟩

example : OptsOk { regex := true, flags := some ['i'] } ∧ ValueOk Sample.engine { regex := true, flags := some ['i'] } ".*".toList :=
  ⟨⟨by decide, by decide⟩, by decide, fun _ => by decide +kernel⟩

end Verif.Props
