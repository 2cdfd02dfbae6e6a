import Verif.XPath.PathLemmas
import Verif.XPath.Sample
/-!
# C57: a regular-expression search refines by the pattern only

The engine is a parameter: for each pattern and each setting of the `i` flag either nothing (the
pattern does not compile) or the set of texts it accepts.
-/
namespace Verif.Props
open Verif XPath Spec

/-- A search with `regex=True` that returns, returns exactly the elements all of whose filters accept
a value at their place, the empty text standing for no text. -/
theorem C57_regex {K : Kind} {re : Regex} {w : Node} (hw : World w) {a : FindArgs} {recursive : Bool}
    (hp : a.path = none) (h0 : a.tree ≠ some 0) (hx : a.regex = true) (hf : Plain (flagsStr a.flags))
    (hk : ∀ k ∈ a.kwargs, KwOk K k) {r : Found}
    (hr : (match K with
      | .entry => findEntries re w recursive a
      | .group => findGroups re w recursive a
      | .attachment => findAttachments re w recursive a) = .ok r) :
    ∃ is : List Nat, r = (if a.first then .one is.head? else .list is) ∧ is.Sublist w.ids ∧
      ∀ i, i ∈ is ↔ ∃ x ∈ w.nodes, x.id = i ∧ x.tag = K.tag ∧ InScope w recursive a.tree x ∧
        (a.history = false → ¬ InHistory w x) ∧
        ∀ k ∈ a.kwargs, KwHolds K.place (regexTest re ((flagsStr a.flags).any (· == 'i'))) x k := by
  have hr' : find re w (preText K recursive) K.xp a = .ok r := by
    cases K with
    | entry => rw [← findEntries_eq]; exact hr
    | group => rw [← findGroups_eq]; exact hr
    | attachment => rw [← findAttachments_eq]; exact hr
  obtain ⟨is, e, hs, hm⟩ := find_partial hw hp h0 (fun _ => hf) hk hr'
  refine ⟨is, e, hs, fun i => ?_⟩
  rw [hm]
  constructor
  · rintro ⟨x, hxn, hi, h⟩
    have := h.filters
    rw [hx] at this
    exact ⟨x, hxn, hi, h.tag, h.scope, h.history, this⟩
  · rintro ⟨x, hxn, hi, h1, h2, h3, h4⟩
    exact ⟨x, hxn, hi, h2, h1, h3, by rw [hx]; exact h4⟩

/-- It returns when all patterns compile. -/
theorem C57_returns {re : Regex} {w : Node} (hw : World w) {a : FindArgs} (recursive : Bool)
    (hp : a.path = none) (h0 : a.tree ≠ some 0) (hf : Plain (flagsStr a.flags))
    (hc : ∀ k ∈ a.kwargs, KwCompiles re a.regex (flagsStr a.flags) k) :
    ((∀ k ∈ a.kwargs, KwOk .entry k) → ∃ r, findEntries re w recursive a = .ok r) ∧
    ((∀ k ∈ a.kwargs, KwOk .group k) → ∃ r, findGroups re w recursive a = .ok r) := by
  constructor
  · intro hk
    rw [findEntries_eq]
    exact find_ok hw hp h0 (fun _ => hf) hk hc cast_entry
  · intro hk
    rw [findGroups_eq]
    exact find_ok hw hp h0 (fun _ => hf) hk hc cast_group

/-- Only the `i` flag has an influence: results with flag texts that agree on it are equal. -/
theorem C57_only_i {K : Kind} {re : Regex} {w : Node} (hw : World w) {a : FindArgs} {recursive : Bool} {f g : Option Str}
    (hp : a.path = none) (h0 : a.tree ≠ some 0) (hf : Plain (flagsStr f)) (hg : Plain (flagsStr g))
    (hi : (flagsStr f).any (· == 'i') = (flagsStr g).any (· == 'i')) (hk : ∀ k ∈ a.kwargs, KwOk K k) {r s : Found}
    (hr : find re w (preText K recursive) K.xp { a with flags := f } = .ok r)
    (hs : find re w (preText K recursive) K.xp { a with flags := g } = .ok s) : r = s := by
  obtain ⟨is, rfl, h1, h2⟩ := find_partial hw (a := { a with flags := f }) hp h0 (fun _ => hf) hk hr
  obtain ⟨js, rfl, h3, h4⟩ := find_partial hw (a := { a with flags := g }) hp h0 (fun _ => hg) hk hs
  have : is = js := by
    apply sublist_unique hw.uniq h1 h3
    intro i
    rw [h2, h4]
    constructor
    · rintro ⟨x, hx, e, h⟩
      exact ⟨x, hx, e, h.scope, h.tag, h.history, by have := h.filters; simp only [hi] at this; exact this⟩
    · rintro ⟨x, hx, e, h⟩
      exact ⟨x, hx, e, h.scope, h.tag, h.history, by have := h.filters; simp only [← hi] at this; exact this⟩
  rw [this]

/-- Without flags the text `None` is used; it contains no `i`. -/
theorem C57_no_flags : (flagsStr none).any (· == 'i') = false := by decide

/-- A pattern that does not compile makes the search fail unless there is nothing to test. -/
example :
    findEntries Sample.engine Sample.world true { regex := true, kwargs := [.attr "title".toList (some "(".toList)] } = .error .regex ∧
    findEntries Sample.engine Sample.world true { regex := true, kwargs := [.attr "otp".toList (some "(".toList)] } = .ok (.list []) := by
  decide +kernel

example :
    let a : FindArgs := { regex := true, flags := some "i".toList, kwargs := [.attr "title".toList (some "ma".toList)] }
    World Sample.world ∧ (∀ k ∈ a.kwargs, KwOk .entry k) ∧ Plain (flagsStr a.flags) ∧
      findEntries Sample.engine Sample.world true a = .ok (.list [9, 58]) :=
  ⟨Sample.world_ok, by decide, by decide, by decide +kernel⟩

/-! ## Searching a uuid with `regex=True` -/

/-- Finding: with `regex=True` the base64 text of the uuid is used as a pattern. What is found has a uuid whose text matches
it, which need not be the uuid itself. -/
theorem C57_uuid {re : Regex} {w : Node} (hw : World w) {u : Bytes} {r : Found}
    (hr : findEntries re w true { regex := true, kwargs := [.uuid u] } = .ok r) :
    ∃ is : List Nat, r = .list is ∧ ∀ i ∈ is, ∃ x ∈ w.nodes, x.id = i ∧
      ∃ n ∈ x.kids, n.tag = "UUID".toList ∧ ∃ f, re (b64encode u) false = some f ∧ f (n.text.getD []) = true := by
  obtain ⟨is, h1, _, h2⟩ := C57_regex (K := .entry) hw (a := { regex := true, kwargs := [.uuid u] }) rfl nofun rfl (show Plain "None".toList by decide)
    (by intro k hk; rw [List.mem_singleton.mp hk]; exact (by decide : Kind.entry ≠ .attachment)) hr
  refine ⟨is, h1, fun i hi => ?_⟩
  obtain ⟨x, hx, hi, _, _, _, hk⟩ := (h2 i).mp hi
  obtain ⟨t, ht, f, hf, hm⟩ := hk _ (List.mem_singleton.mpr rfl)
  obtain ⟨n, hn, rfl⟩ := List.mem_map.mp ht
  simp only [descend, List.mem_flatMap, List.mem_filter, List.mem_singleton] at hn
  obtain ⟨m, ⟨hm1, hm2⟩, rfl⟩ := hn
  exact ⟨x, hx, hi, n, hm1, eq_of_beq hm2, f, hf, hm⟩

/-- Patterns of characters and `c+`, at the start of a text. -/
def plusStart : Str → Str → Bool
  | [], _ => true
  | c :: '+' :: p, d :: s => c == d && (plusStart (c :: '+' :: p) s || plusStart p s)
  | c :: p, d :: s => c == d && plusStart p s
  | _ :: _, [] => false
termination_by p s => p.length + s.length

/-- The engine for these patterns: anywhere in the text; a pattern cannot begin with `+`. -/
def plusEngine : Regex := fun p _ => if p.head? = some '+' then none else some fun s => (List.range (s.length + 1)).any fun i => plusStart p (s.drop i)

def plusUuid : Bytes := [0, 15, 128] ++ List.replicate 13 0

def plusWorld : Node :=
  .mk 0 [] [] none [(Node.ofXml 1 (Sample.el "KeePassFile" [Sample.el "Root" [Sample.el "Group" [
    Sample.el "Entry" [.mk "UUID".toList [] (some (b64encode plusUuid)) [], Sample.str "Title" "mail"]]]])).1]

/-- Finding: an entry whose uuid has a `+` in base64 is found by its uuid, but not with `regex=True`. -/
theorem C57_uuid_plus : b64encode plusUuid = "AA+AAAAAAAAAAAAAAAAAAA==".toList ∧
    findEntries plusEngine plusWorld true { kwargs := [.uuid plusUuid] } = .ok (.list [4]) ∧
    findEntries plusEngine plusWorld true { regex := true, kwargs := [.uuid plusUuid] } = .ok (.list []) := by
  decide +kernel

end Verif.Props
