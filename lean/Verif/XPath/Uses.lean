import Verif.XPath.FindLemmas
/-!
# The three searches as instances of `find_ok`
-/
namespace Verif.XPath
open Verif Spec

theorem findEntries_eq (re : Regex) (w : Node) (r : Bool) (a : FindArgs) :
    findEntries re w r a = find re w (preText .entry r) Kind.entry.xp a := by cases r <;> rfl

theorem findGroups_eq (re : Regex) (w : Node) (r : Bool) (a : FindArgs) :
    findGroups re w r a = find re w (preText .group r) Kind.group.xp a := by cases r <;> rfl

theorem findAttachments_eq (re : Regex) (w : Node) (r : Bool) (a : FindArgs) :
    findAttachments re w r a = find re w (preText .attachment r) Kind.attachment.xp a := by cases r <;> rfl

theorem cast_entry {re : Regex} {w : Node} {r : Bool} {a : FindArgs} :
    ∀ l ∈ allLocs w, Matches Kind.entry.tag Kind.entry.place re w r a l.node → castOk l = .ok () := by
  intro l _ h
  have ht : l.node.tag = "Entry".toList := h.tag
  unfold castOk; rw [if_pos ht]

theorem cast_group {re : Regex} {w : Node} {r : Bool} {a : FindArgs} :
    ∀ l ∈ allLocs w, Matches Kind.group.tag Kind.group.place re w r a l.node → castOk l = .ok () := by
  intro l _ h
  have ht : l.node.tag = "Group".toList := h.tag
  unfold castOk; rw [if_neg (by rw [ht]; decide), if_pos ht]

/-- Two lists that satisfy the specification of one search are equal. -/
theorem found_unique {w : Node} (hw : World w) {a b : List Nat} {P : Node → Prop}
    (ha : a.Sublist w.ids) (hb : b.Sublist w.ids)
    (ma : ∀ i, i ∈ a ↔ ∃ x ∈ w.nodes, x.id = i ∧ P x)
    (mb : ∀ i, i ∈ b ↔ ∃ x ∈ w.nodes, x.id = i ∧ P x) : a = b :=
  sublist_unique hw.uniq ha hb fun i => by rw [ma, mb]

/-- With no patterns to compile. -/
theorem kw_compiles_exact {re : Regex} {fl : Str} (k : Kw) : KwCompiles re false fl k := by
  cases k with
  | attr k v => cases v <;> simp [KwCompiles, Compiles]
  | uuid b => simp [KwCompiles, Compiles]
  | tags ts => simp [KwCompiles]
  | string d => simp [KwCompiles, Compiles]

instance (K : Kind) (k : Kw) : Decidable (KwOk K k) := by
  cases k with
  | attr k v => cases v <;> (unfold KwOk; infer_instance)
  | uuid b => unfold KwOk; infer_instance
  | tags ts => unfold KwOk; infer_instance
  | string d => unfold KwOk; infer_instance

theorem addStrings_entry (a : FindArgs) (d : List (Str × Str)) (q : Str) : ∃ q', addStrings entryXp a d q = .ok q' := by
  induction d generalizing q with
  | nil => exact ⟨q, rfl⟩
  | cons p d ih =>
    obtain ⟨t, ht, _⟩ := table_string a.regex
    obtain ⟨k, v⟩ := p
    rw [addStrings, addKey_ok ht]
    exact ih _

theorem addString_entry (a : FindArgs) (ks : List Kw) (q : Str) : ∃ q', addString Kind.entry.xp a ks q = .ok q' := by
  induction ks generalizing q with
  | nil => exact ⟨q, rfl⟩
  | cons k ks ih =>
    cases k with
    | string d =>
      obtain ⟨q1, h1⟩ := addStrings_entry a d q
      rw [addString]
      show ∃ q', (addStrings entryXp a d q).bind _ = _
      rw [h1]; exact ih q1
    | attr k v => exact ih q
    | uuid b => exact ih q
    | tags ts => exact ih q

theorem addKey_type {xp : Bool → List (Str × Str)} {a : FindArgs} {key : Str} {vals : List Str} {q : Str} :
    addKey xp a .type key vals q = .error .type ∨ ∃ q', addKey xp a .type key vals q = .ok q' := by
  unfold addKey
  cases (xp a.regex).lookup key with
  | none => exact .inl rfl
  | some t => exact .inr ⟨_, rfl⟩

theorem addKws_unknown {xp : Bool → List (Str × Str)} {a : FindArgs} {ks : List Kw} {k : Str} {v : Option Str}
    (hk : .attr k v ∈ ks) (hn : (xp a.regex).lookup k = none) (q : Str) : addKws xp a ks q = .error .type := by
  induction ks generalizing q with
  | nil => cases hk
  | cons x ks ih =>
    rcases List.mem_cons.mp hk with e | hk
    · subst e
      cases v with
      | none => rw [addKws, if_pos (by rw [hn]; rfl)]
      | some v => rw [addKws]; unfold addKey; rw [hn]; rfl
    · have ih := ih hk
      cases x with
      | string d => exact ih q
      | attr k' v' =>
        cases v' with
        | none =>
          rw [addKws]
          by_cases h : ((xp a.regex).lookup k').isNone = true
          · rw [if_pos h]
          · rw [if_neg h]; exact ih q
        | some v' =>
          rw [addKws]
          rcases addKey_type (xp := xp) (a := a) (key := k') (vals := [v']) (q := q) with h | ⟨q', h⟩
          · rw [h]; rfl
          · rw [h]; exact ih q'
      | uuid b =>
        rw [addKws]
        rcases addKey_type (xp := xp) (a := a) (key := "uuid".toList) (vals := [b64encode b]) (q := q) with h | ⟨q', h⟩
        · rw [h]; rfl
        · rw [h]; exact ih q'
      | tags ts =>
        rw [addKws]
        rcases addKey_type (xp := xp) (a := a) (key := "tags".toList) (vals := [tagsPred ts]) (q := q) with h | ⟨q', h⟩
        · rw [h]; rfl
        · rw [h]; exact ih q'

end Verif.XPath
