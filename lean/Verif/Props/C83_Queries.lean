import Verif.Api.HopLemmas
import Verif.Api.AttachLemmas
import Verif.Api.Sample
/-!
# C83: queries written by hand
-/
namespace Verif.Props
open Verif XPath Spec Api

variable {s : Db}

/-- The result of a query: in the order of the document, without duplicates, what the parts lead to. The document itself is no element. -/
def Answers (s : Db) (x : Nat) (ps : List Hop) (l : List Nat) : Prop :=
  l.Sublist s.world.ids ∧ l.Nodup ∧ ∀ i, i ∈ l ↔ i ≠ 0 ∧ Route (docOf s.heap) x ps i

/-- Where a query starts that does not begin with `/`: at the element given, or at the outermost element of the document. -/
def StartsAt (s : Db) : Option Nat → Nat → Prop
  | some e, x => x = e ∧ e ≠ 0 ∧ e ∈ s.world.ids
  | none, x => docEl s.heap = some x

theorem start_at (hs : Inv s) {ctx : Option Nat} {x : Nat} (h : StartsAt s ctx x) : ∃ l, startLocs s.world ctx false = [l] ∧ l.node.id = x := by
  cases ctx with
  | some e =>
    obtain ⟨rfl, h0, hm⟩ := h
    obtain ⟨n, hn⟩ := Node.get?_exists hm
    obtain ⟨l, h1, rfl, _⟩ := start_rel hs.world h0 hn
    exact ⟨l, h1, (Node.get?_some hn).2⟩
  | none =>
    have h : docEl s.heap = some x := h
    unfold docEl at h
    rw [node_kids (world_get hs), List.head?_map] at h
    cases hk : s.world.kids with
    | nil => rw [hk] at h; cases h
    | cons d ks =>
      rw [hk] at h
      injection h with h
      refine ⟨⟨d, [docNode s.world]⟩, ?_, h⟩
      show (s.world.kids.take 1).map _ = _
      rw [hk]
      rfl

/-- A query that begins with `/` or `//` starts at the document, whatever element it is asked of. -/
theorem C83_absolute (env : Env) (hs : Inv s) (ctx : Option Nat) {p : Hop} {ps : List Hop} (hm : p.Moves) (hp : ∀ q ∈ p :: ps, HopOk q) :
    ∃ l, xpath env ctx (spellAll (p :: ps)) s = (.ok l, s) ∧ Answers s 0 (p :: ps) l := by
  have hq := reads_more (reads_abs hm (hp p (List.mem_cons_self ..))) fun q hq => hp q (List.mem_cons_of_mem _ hq)
  exact hops_run env hs (ps := p :: ps) (l0 := ⟨docNode s.world, []⟩) hq rfl rfl

/-- A query that begins with `.` starts at the element. -/
theorem C83_relative (env : Env) (hs : Inv s) {ctx : Option Nat} {x : Nat} (hx : StartsAt s ctx x) {p : Hop} {ps : List Hop} (hm : p.Moves)
    (hp : ∀ q ∈ p :: ps, HopOk q) : ∃ l, xpath env ctx ('.' :: spellAll (p :: ps)) s = (.ok l, s) ∧ Answers s x (p :: ps) l := by
  obtain ⟨l, h1, h2⟩ := start_at hs hx
  have hq := reads_more (reads_rel hm (hp p (List.mem_cons_self ..))) fun q hq => hp q (List.mem_cons_of_mem _ hq)
  exact hops_run env hs (ps := p :: ps) hq h1 h2

/-- So does one that begins with a name, which is the name of a child. -/
theorem C83_named (env : Env) (hs : Inv s) {ctx : Option Nat} {x : Nat} (hx : StartsAt s ctx x) {n : Str} {ps : List Hop} (hn : NameText n)
    (hp : ∀ q ∈ ps, HopOk q) : ∃ l, xpath env ctx (n ++ spellAll ps) s = (.ok l, s) ∧ Answers s x (.child n :: ps) l := by
  obtain ⟨l, h1, h2⟩ := start_at hs hx
  exact hops_run env hs (ps := .child n :: ps) (reads_more (reads_name hn) hp) h1 h2

/-- With `first=True` the first of the result, or nothing. -/
theorem C83_first (env : Env) {ctx : Option Nat} {q : Str} {l : List Nat} (h : xpath env ctx q s = (.ok l, s)) :
    xpathFirst env ctx q s = (.ok l.head?, s) := by
  unfold xpathFirst
  rw [bind_of h]
  rfl

/-- The result of a query is determined by what its parts lead to. -/
theorem C83_unique (hs : Inv s) {x : Nat} {ps : List Hop} {l l' : List Nat} (h : Answers s x ps l) (h' : Answers s x ps l') : l = l' :=
  sublist_unique hs.world.uniq h.1 h'.1 fun i => (h.2.2 i).trans (h'.2.2 i).symm

/-- What `cast=True` can make an object of: entries, groups, and attachments of entries. -/
def Castable (h : Heap) (i : Nat) : Prop :=
  h.tag i = "Entry".toList ∨ h.tag i = "Group".toList ∨ (h.tag i = "Binary".toList ∧ ∃ p, i ∈ h.kids p ∧ h.tag p = "Entry".toList)

theorem cast_iff (hs : Inv s) {l : Loc} (hl : l ∈ allLocs s.world) (h0 : l.node.id ≠ 0) : castOk l = .ok () ↔ Castable s.heap l.node.id := by
  have hg := Node.get?_mem hs.world.uniq ((allLocs_node hl).resolve_left h0)
  have ht := node_tag hg
  constructor
  · intro h
    unfold castOk at h
    split at h
    · rename_i e; exact .inl (ht.trans e)
    split at h
    · rename_i e; exact .inr (.inl (ht.trans e))
    split at h
    · rename_i e
      refine .inr (.inr ⟨ht.trans e, ?_⟩)
      cases ha : l.anc with
      | nil => rw [ha] at h; cases h
      | cons p r =>
        rw [ha] at h
        replace h : (if p.id = 0 then _ else if p.tag = "Entry".toList then _ else _) = _ := h
        split at h
        · cases h
        rename_i hp0
        split at h
        · rename_i hp
          obtain ⟨h1, h2⟩ := allLocs_parent hl ha
          have hgp := Node.get?_mem hs.world.uniq ((allLocs_node h1).resolve_left hp0)
          refine ⟨p.id, ?_, (node_tag hgp).trans hp⟩
          rw [node_kids hgp]
          exact List.mem_map_of_mem h2
        · cases h
    · cases h
  · rintro (h | h | ⟨h, p, h1, h2⟩)
    · unfold castOk; rw [if_pos (ht.symm.trans h)]
    · have := ht.symm.trans h
      unfold castOk; rw [if_neg (by rw [this]; decide), if_pos this]
    · exact cast_binary hs hl (ht.symm.trans h) h1 h2

theorem castAll_iff {S : List Loc} : castAll S = .ok () ↔ ∀ l ∈ S, castOk l = .ok () := by
  refine ⟨fun h => ?_, castAll_ok⟩
  induction S with
  | nil => exact nofun
  | cons l S ih =>
    rw [castAll] at h
    cases hc : castOk l with
    | error e => rw [hc] at h; cases h
    | ok u =>
      rw [hc] at h
      intro m hm
      rcases List.mem_cons.mp hm with rfl | hm
      · exact hc
      · exact ih h m hm

/-- With `cast=True` a query returns the same elements as objects if all of them are entries, groups or attachments; otherwise it raises. -/
theorem C83_cast (env : Env) (hs : Inv s) {q : Str} {l : List Nat} (h : xpath env none q s = (.ok l, s)) :
    ((∀ i ∈ l, Castable s.heap i) → xpathCast env q s = (.ok l, s)) ∧ ((¬ ∀ i ∈ l, Castable s.heap i) → ∃ e, xpathCast env q s = (.error e, s)) := by
  unfold xpath at h
  cases hq : query env.re s.world none q with
  | error e => rw [hq] at h; cases h
  | ok S =>
    rw [hq] at h
    have hl : S.map (fun l => l.node.id) = l := by
      have := congrArg Prod.fst h
      injection this
    subst hl
    have hS : ∀ l ∈ S, l ∈ allLocs s.world ∧ l.node.id ≠ 0 := by
      intro l hl
      rw [query_eq] at hq
      cases h1 : parse q with
      | error e => rw [h1] at hq; cases hq
      | ok p =>
        rw [h1] at hq
        replace hq : (evalInstrs env.re p.instrs (startLocs s.world none p.abs)).bind _ = _ := hq
        cases h2 : evalInstrs env.re p.instrs (startLocs s.world none p.abs) with
        | error e => rw [h2] at hq; cases hq
        | ok r =>
          rw [h2] at hq
          injection hq with hq
          rw [← hq] at hl
          have := (List.mem_filter.mp hl).2
          rw [Bool.and_eq_true, bne_iff_ne] at this
          exact ⟨(List.mem_filter.mp hl).1, this.1⟩
    have key : castAll S = .ok () ↔ ∀ i ∈ S.map (fun l => l.node.id), Castable s.heap i := by
      rw [castAll_iff]
      constructor
      · intro h i hi
        obtain ⟨l, hl, rfl⟩ := List.mem_map.mp hi
        exact (cast_iff hs (hS l hl).1 (hS l hl).2).mp (h l hl)
      · intro h l hl
        exact (cast_iff hs (hS l hl).1 (hS l hl).2).mpr (h _ (List.mem_map_of_mem (f := fun l => l.node.id) hl))
    unfold xpathCast
    rw [hq, ← key]
    constructor
    · intro h
      show ((castAll S).bind _, s) = _
      rw [h]
      rfl
    · intro h
      cases hc : castAll S with
      | ok u => exact absurd hc h
      | error e =>
        refine ⟨e, ?_⟩
        show ((castAll S).bind _, s) = _
        rw [hc]
        rfl

/-- The titles that contain `an`. -/
example : let ps : List Hop := [.below "String".toList, .child "Key".toList, .text "Title".toList, .up, .child "Value".toList, .contains "an".toList]
    (∀ p ∈ ps, HopOk p) ∧ spellAll ps = "//String/Key[text()=\"Title\"]/../Value[contains(text(), \"an\")]".toList ∧
    ∃ i, (xpath Sample.env none (spellAll ps) Sample.db).1 = .ok [i] ∧ Sample.db.heap.text i = some "bank".toList :=
  ⟨by decide, by decide, 112, by decide +kernel, by decide +kernel⟩

/-- From a group: the attachments with number 0, and the entries of its subgroups. -/
example : StartsAt Sample.db (some 14) 14 ∧
    (xpath Sample.env (some 14) (".//Binary/Value[@Ref=\"0\"]/..".toList) Sample.db).1 = .ok [47] ∧
    (xpath Sample.env (some 14) ("Group/Entry".toList) Sample.db).1 = .ok [102] ∧
    NameText "a-b.c_1".toList := ⟨⟨rfl, by decide, by decide +kernel⟩, by decide +kernel, by decide +kernel, by decide⟩

/-- A title is no entry. -/
example : (xpathCast Sample.env "//Entry".toList Sample.db).1 = .ok [23, 56, 76, 102] ∧ (xpathCast Sample.env "//Value".toList Sample.db).1 = .error .exception :=
  ⟨by decide +kernel, by decide +kernel⟩

/-- The document is not in the result. -/
example : (xpath Sample.env none ("/KeePassFile/..".toList) Sample.db).1 = .ok [] ∧
    (xpath Sample.env none ("/KeePassFile/../KeePassFile".toList) Sample.db).1 = .ok [1] := ⟨by decide +kernel, by decide +kernel⟩

end Verif.Props
