import Verif.Spec.Query
import Verif.XPath.PathLemmas
import Verif.XPath.SearchLemmas
import Verif.Api.MoveLemmas
/-!
# Reading and evaluating queries written by hand
-/
namespace Verif.Api
open Verif XPath Spec

/-! ## Names -/

theorem letter_start {c : Char} (h : Letter c) : isNameStart c = true := by
  unfold isNameStart Char.isAlpha Char.isUpper Char.isLower
  rcases h with h | h | h
  · simp only [Bool.or_eq_true, Bool.and_eq_true, decide_eq_true_eq]
    exact .inl (.inr h)
  · simp only [Bool.or_eq_true, Bool.and_eq_true, decide_eq_true_eq]
    exact .inl (.inl h)
  · subst h; decide

theorem namePart {c : Char} (h : NameChar c) : isNameChar c = true := by
  unfold isNameChar
  rcases h with h | h | h | h
  · rw [letter_start h]; rfl
  · have : c.isDigit = true := by
      unfold Char.isDigit
      simp only [Bool.and_eq_true, decide_eq_true_eq]
      exact h
    rw [this]; simp
  · subst h; decide
  · subst h; decide

theorem letter_lex {c : Char} (h : Letter c) (out : List Tok) : lexNormal out c = ⟨.name [c], out⟩ := by
  have ne : ∀ d, ¬ Letter d → c ≠ d := fun d hd e => hd (e ▸ h)
  unfold lexNormal
  rw [if_neg (ne _ (by decide)), if_neg (ne _ (by decide)), if_neg (ne _ (by decide)), if_neg (ne _ (by decide)), if_neg (ne _ (by decide)),
    if_neg (ne _ (by decide)), if_neg (ne _ (by decide)), if_neg (ne _ (by decide)), if_neg (ne _ (by decide)), if_neg (ne _ (by decide)),
    if_neg (ne _ (by decide)), if_neg (ne _ (by decide)), if_pos (letter_start h)]

theorem rest_lex {r : Str} (h : ∀ d ∈ r, NameChar d) (acc : Str) (out : List Tok) : lexRun ⟨.name acc, out⟩ r = ⟨.name (acc ++ r), out⟩ := by
  induction r generalizing acc with
  | nil => simp [lexRun]
  | cons d r ih =>
    show lexRun (lexStep ⟨.name acc, out⟩ d) r = _
    have : lexStep ⟨.name acc, out⟩ d = ⟨.name (acc ++ [d]), out⟩ := by
      show (if isNameChar d = true then _ else _) = _
      rw [if_pos (namePart (h d (List.mem_cons_self ..)))]
    rw [this, ih fun e he => h e (List.mem_cons_of_mem _ he), List.append_assoc]
    rfl

theorem name_lex {n : Str} (h : NameText n) (out : List Tok) : lexRun ⟨.normal, out⟩ n = ⟨.name n, out⟩ := by
  cases n with
  | nil => exact h.elim
  | cons c r =>
    show lexRun (lexNormal out c) r = _
    rw [letter_lex h.1, rest_lex h.2]
    rfl

theorem name_slash {n : Str} (h : NameText n) (out : List Tok) : lexRun ⟨.slash, out⟩ n = ⟨.name n, out ++ [.slash]⟩ := by
  cases n with
  | nil => exact h.elim
  | cons c r =>
    show lexRun (if c = '/' then _ else lexNormal (out ++ [.slash]) c) r = _
    rw [if_neg (show c ≠ '/' from fun e => absurd h.1 (by rw [e]; decide)), letter_lex h.1, rest_lex h.2]
    rfl

theorem name_xml {n : Str} (h : NameText n) : XmlText n := by
  have ok : ∀ c, NameChar c → xmlChar c = true := by
    intro c hc
    have le : ∀ {a b : Char}, a ≤ b → a.toNat ≤ b.toNat := fun h => UInt32.le_iff_toNat_le.mp h
    have : 32 ≤ c.toNat ∧ c.toNat ≤ 0xD7FF := by
      rcases hc with (h | h | h) | h | h | h
      · exact ⟨Nat.le_trans (by decide) (le h.1), Nat.le_trans (le h.2) (by decide)⟩
      · exact ⟨Nat.le_trans (by decide) (le h.1), Nat.le_trans (le h.2) (by decide)⟩
      · subst h; decide
      · exact ⟨Nat.le_trans (by decide) (le h.1), Nat.le_trans (le h.2) (by decide)⟩
      · subst h; decide
      · subst h; decide
    unfold xmlChar
    simp only [Bool.or_eq_true, Bool.and_eq_true, decide_eq_true_eq]
    exact .inl (.inl (.inr this))
  cases n with
  | nil => exact h.elim
  | cons c r =>
    intro d hd
    rcases List.mem_cons.mp hd with rfl | hd
    · exact ok _ (.inl h.1)
    · exact ok _ (h.2 d hd)

/-! ## Reading -/

/-- What the parts are allowed to be made of. -/
def HopOk : Hop → Prop
  | .child n => NameText n
  | .below n => NameText n
  | .up => True
  | .text v => Plain v
  | .contains v => Plain v
  | .attr a v => NameText a ∧ a ≠ "and".toList ∧ a ≠ "or".toList ∧ Plain v

instance : (p : Hop) → Decidable (HopOk p)
  | .child n => inferInstanceAs (Decidable (NameText n))
  | .below n => inferInstanceAs (Decidable (NameText n))
  | .up => isTrue trivial
  | .text v => inferInstanceAs (Decidable (Plain v))
  | .contains v => inferInstanceAs (Decidable (Plain v))
  | .attr a v => inferInstanceAs (Decidable (NameText a ∧ a ≠ "and".toList ∧ a ≠ "or".toList ∧ Plain v))

/-- The instruction for a part. -/
def hopInstr : Hop → Instr
  | .child n => .child n
  | .below n => .desc n
  | .up => .parent
  | .text v => .filter (.eq .text (.lit v))
  | .contains v => .filter (.contains v)
  | .attr a v => .filter (.eq (.attr a) (.lit v))

theorem split_attr {op a v : Str} (h : a ≠ op) : XPath.splitOn op [.at, .name a, .eq, .lit v] = [[.at, .name a, .eq, .lit v]] := by
  simp [XPath.splitOn, h]

theorem hop_piece {p : Hop} (h : HopOk p) : Piece p.spell [hopInstr p] := by
  cases p with
  | child n =>
    refine ⟨⟨'/', n, rfl, .inl rfl⟩, XmlText.append (by decide) (name_xml h), ⟨.name n, [.slash]⟩, ?_, .inr ⟨n, rfl⟩, rfl⟩
    show lexRun ⟨.normal, []⟩ ("/".toList ++ n) = _
    rw [lexRun_append]
    exact name_slash h []
  | below n =>
    refine ⟨⟨'/', '/' :: n, rfl, .inl rfl⟩, XmlText.append (by decide) (name_xml h), ⟨.name n, [.dslash]⟩, ?_, .inr ⟨n, rfl⟩, rfl⟩
    show lexRun ⟨.normal, []⟩ ("//".toList ++ n) = _
    rw [lexRun_append]
    exact name_lex h [.dslash]
  | up => exact ⟨⟨'/', "..".toList, rfl, .inl rfl⟩, by decide, ⟨.normal, [.slash, .ddot]⟩, by decide, .inl rfl, rfl⟩
  | text v =>
    exact piece_value h rfl (out := [.lbr, .name "text".toList, .lpar, .rpar, .eq]) ⟨'[', _, rfl, .inr rfl⟩ (by decide)
      (ts := [.lbr, .name "text".toList, .lpar, .rpar, .eq, .lit v, .rbr]) rfl rfl
  | contains v =>
    exact piece_value h rfl (out := [.lbr, .name "contains".toList, .lpar, .name "text".toList, .lpar, .rpar, .comma]) ⟨'[', _, rfl, .inr rfl⟩ (by decide)
      (ts := [.lbr, .name "contains".toList, .lpar, .name "text".toList, .lpar, .rpar, .comma, .lit v, .rpar, .rbr]) rfl rfl
  | attr a v =>
    obtain ⟨h1, h2, h3, h4⟩ := h
    refine ⟨⟨'[', _, rfl, .inr rfl⟩, XmlText.append (by decide) (XmlText.append (name_xml h1) (XmlText.append (by decide) (XmlText.append h4.xml (by decide)))),
      ⟨.normal, [.lbr, .at, .name a, .eq, .lit v, .rbr]⟩, ?_, .inl rfl, ?_⟩
    · show lexRun ⟨.normal, []⟩ ("[@".toList ++ (a ++ ("=\"".toList ++ (v ++ "\"]".toList)))) = _
      rw [lexRun_append, lexRun_append, show lexRun ⟨.normal, []⟩ "[@".toList = ⟨.normal, [.lbr, .at]⟩ from by decide, name_lex h1]
      rw [lexRun_value (out := [.lbr, .at, .name a, .eq]) rfl h4]
      rfl
    · have hp : parsePred [.at, .name a, .eq, .lit v] = .ok (.eq (.attr a) (.lit v)) := by
        unfold parsePred
        rw [if_neg (by simp), split_attr h3]
        show parseAnd (XPath.splitOn _ _) = _
        rw [split_attr h2]
        rfl
      show pathRun ⟨.pred [.at, .name a, .eq, .lit v], false, []⟩ [.rbr] = _
      unfold pathRun pathStep
      simp only
      rw [hp]
      rfl

/-- The text of a query. -/
def spellAll (ps : List Hop) : Str := ps.flatMap Hop.spell

theorem reads_more {s : Str} {abs : Bool} {is : List Instr} (h : Reads s abs is) {ps : List Hop} (hp : ∀ p ∈ ps, HopOk p) :
    Reads (s ++ spellAll ps) abs (is ++ ps.map hopInstr) := by
  induction ps generalizing s is with
  | nil => simpa [spellAll] using h
  | cons p ps ih =>
    have := ih (h.append (hop_piece (hp p (List.mem_cons_self ..)))) fun q hq => hp q (List.mem_cons_of_mem _ hq)
    have e : s ++ p.spell ++ spellAll ps = s ++ spellAll (p :: ps) := by simp [spellAll]
    rw [e, List.append_assoc] at this
    exact this

theorem reads_abs {p : Hop} (hm : p.Moves) (h : HopOk p) : Reads p.spell true [hopInstr p] := by
  cases p with
  | child n =>
    refine ⟨XmlText.append (by decide) (name_xml h), ⟨.name n, [.slash]⟩, ?_, .inr ⟨n, rfl⟩, rfl⟩
    show lexRun ⟨.normal, []⟩ ("/".toList ++ n) = _
    rw [lexRun_append]
    exact name_slash h []
  | below n =>
    refine ⟨XmlText.append (by decide) (name_xml h), ⟨.name n, [.dslash]⟩, ?_, .inr ⟨n, rfl⟩, rfl⟩
    show lexRun ⟨.normal, []⟩ ("//".toList ++ n) = _
    rw [lexRun_append]
    exact name_lex h [.dslash]
  | up => exact ⟨by decide, ⟨.normal, [.slash, .ddot]⟩, by decide, .inl rfl, rfl⟩
  | text | contains | attr => exact hm.elim

/-- A query that begins with `.`. -/
theorem reads_rel {p : Hop} (hm : p.Moves) (h : HopOk p) : Reads ('.' :: p.spell) false [hopInstr p] := by
  cases p with
  | child n =>
    refine ⟨XmlText.append (a := "./".toList) (by decide) (name_xml h), ⟨.name n, [.dot, .slash]⟩, ?_, .inr ⟨n, rfl⟩, rfl⟩
    show lexRun ⟨.normal, []⟩ ("./".toList ++ n) = _
    rw [lexRun_append]
    exact name_slash h [.dot]
  | below n =>
    refine ⟨XmlText.append (a := ".//".toList) (by decide) (name_xml h), ⟨.name n, [.dot, .dslash]⟩, ?_, .inr ⟨n, rfl⟩, rfl⟩
    show lexRun ⟨.normal, []⟩ (".//".toList ++ n) = _
    rw [lexRun_append]
    exact name_lex h [.dot, .dslash]
  | up => exact ⟨by decide, ⟨.normal, [.dot, .slash, .ddot]⟩, by decide, .inl rfl, rfl⟩
  | text | contains | attr => exact hm.elim

/-- A query that begins with a name. -/
theorem reads_name {n : Str} (h : NameText n) : Reads n false [.child n] :=
  ⟨name_xml h, ⟨.name n, []⟩, name_lex h [], .inr ⟨n, rfl⟩, rfl⟩

/-! ## Evaluation -/

variable {s : Db}

theorem doc_loc (hs : Inv s) {l : Loc} (hl : l ∈ allLocs s.world) : docOf s.heap l.node.id = some l.node.rec' := by
  unfold docOf
  by_cases h0 : l.node.id = 0
  · rw [if_pos h0, allLocs_inj hs.world hl (docNode_mem _) h0, node_kids (world_get hs)]
    show _ = some (⟨[], [], none, (s.world.kids.take 1).map Node.id⟩ : Node.Rec)
    rw [List.map_take]
  · rw [if_neg h0]
    exact node_rec (Node.get?_mem hs.world.uniq ((allLocs_node hl).resolve_left h0))

theorem doc_kids (hs : Inv s) {l : Loc} (hl : l ∈ allLocs s.world) : (docOf s.heap).kids l.node.id = l.node.kids.map Node.id := by
  unfold Heap.kids; rw [doc_loc hs hl]; rfl
theorem doc_tag (hs : Inv s) {l : Loc} (hl : l ∈ allLocs s.world) : (docOf s.heap).tag l.node.id = l.node.tag := by
  unfold Heap.tag; rw [doc_loc hs hl]; rfl
theorem doc_text (hs : Inv s) {l : Loc} (hl : l ∈ allLocs s.world) : (docOf s.heap).text l.node.id = l.node.text := by
  unfold Heap.text; rw [doc_loc hs hl]; rfl
theorem doc_attr (hs : Inv s) {l : Loc} (hl : l ∈ allLocs s.world) (k : Str) : (docOf s.heap).attr l.node.id k = l.node.attr k := by
  unfold Heap.attr; rw [doc_loc hs hl]; rfl

/-- Only places have children. -/
theorem doc_place (hs : Inv s) {i c : Nat} (h : c ∈ (docOf s.heap).kids i) : ∃ l ∈ allLocs s.world, l.node.id = i := by
  have hi : i ∈ s.world.ids := by
    by_cases h0 : i = 0
    · rw [h0]; exact hs.zero_mem
    · have : c ∈ s.heap.kids i := by
        have e : docOf s.heap i = s.heap i := if_neg h0
        unfold Heap.kids at h ⊢
        rwa [e] at h
      exact (kid_mem hs this).2
  rw [← allLocs_ids hs.world.id] at hi
  exact List.mem_map.mp hi

theorem doc_kid (hs : Inv s) {l : Loc} (hl : l ∈ allLocs s.world) {c : Nat} (h : c ∈ (docOf s.heap).kids l.node.id) :
    ∃ k ∈ l.node.kids, k.id = c ∧ (⟨k, l.node :: l.anc⟩ : Loc) ∈ allLocs s.world := by
  rw [doc_kids hs hl] at h
  obtain ⟨k, hk, e⟩ := List.mem_map.mp h
  exact ⟨k, hk, e, allLocs_kid hl hk⟩

theorem doc_up (hs : Inv s) {l : Loc} (hl : l ∈ allLocs s.world) {y : Nat} :
    l.node.id ∈ (docOf s.heap).kids y ↔ ∃ m ∈ allLocs s.world, m.node.id = y ∧ l.parent = some m := by
  constructor
  · intro h
    obtain ⟨m, hm, rfl⟩ := doc_place hs h
    obtain ⟨k, hk, e, hkl⟩ := doc_kid hs hm h
    refine ⟨m, hm, rfl, parent_some.mpr ?_⟩
    rw [← allLocs_inj hs.world hkl hl e]
  · rintro ⟨m, hm, rfl, hp⟩
    rw [doc_kids hs hm]
    exact List.mem_map_of_mem (allLocs_parent hl (parent_some.mp hp)).2

theorem doc_reach (hs : Inv s) {m : Loc} (hm : m ∈ allLocs s.world) {z : Nat} :
    Reach (docOf s.heap) m.node.id z ↔ ∃ l ∈ locs m.anc m.node, l.node.id = z := by
  constructor
  · intro h
    induction h with
    | refl => exact ⟨m, self_mem_locs _ _, rfl⟩
    | snoc _ hk ih =>
      obtain ⟨l, hl, rfl⟩ := ih
      obtain ⟨k, hk1, rfl, _⟩ := doc_kid hs (allLocs_sub hm hl) hk
      exact ⟨_, locs_kid hl hk1, rfl⟩
  · rintro ⟨l, hl, rfl⟩
    obtain ⟨n, anc⟩ := m
    induction n using Node.ind generalizing anc with
    | h i t a x ks ih =>
      rcases mem_locs.mp hl with rfl | ⟨k, hk, hl'⟩
      · exact .refl
      · refine Reach.trans (.snoc .refl ?_) (ih k hk _ (allLocs_kid hm hk) hl')
        rw [doc_kids hs hm]
        exact List.mem_map_of_mem hk

theorem hop_eval (re : Regex) (hs : Inv s) {p : Hop} {L R : List Loc} (hL : ∀ l ∈ L, l ∈ allLocs s.world)
    (h : evalInstrs re [hopInstr p] L = .ok R) (i : Nat) : (∃ l ∈ R, l.node.id = i) ↔ ∃ m ∈ L, p.Leads (docOf s.heap) m.node.id i := by
  have flt : ∀ {e : Ex} {q : Loc → Bool}, hopInstr p = .filter e → (∀ l b, e.eval re l = .ok b → b = q l) →
      ((∃ l ∈ R, l.node.id = i) ↔ ∃ m ∈ L, m.node.id = i ∧ q m = true) := by
    intro e q he hq
    rw [he] at h
    have := selects_filter hq L R h
    constructor
    · rintro ⟨l, hl, e⟩; exact ⟨l, ((this l).mp hl).1, e, ((this l).mp hl).2⟩
    · rintro ⟨m, hm, e, hq⟩; exact ⟨m, (this m).mpr ⟨hm, hq⟩, e⟩
  cases p with
  | child n =>
    have hm := leads_child re n L R h
    constructor
    · rintro ⟨l, hl, rfl⟩
      obtain ⟨m, hmL, ht, k, hk, rfl⟩ := (hm l).mp hl
      refine ⟨m, hmL, ?_, ?_⟩
      · rw [doc_kids hs (hL m hmL)]; exact List.mem_map_of_mem hk
      · exact (doc_tag hs (allLocs_kid (hL m hmL) hk)).trans ht
    · rintro ⟨m, hmL, hk, ht⟩
      obtain ⟨k, hk1, rfl, hkl⟩ := doc_kid hs (hL m hmL) hk
      exact ⟨_, (hm _).mpr ⟨m, hmL, (doc_tag hs hkl).symm.trans ht, k, hk1, rfl⟩, rfl⟩
  | below n =>
    have h : Except.ok ((L.flatMap fun l => (locs l.anc l.node).flatMap Loc.kids).filter fun l => l.node.tag == n) = Except.ok (ε := PyErr) R := h
    injection h with h
    subst h
    constructor
    · rintro ⟨l, hl, rfl⟩
      obtain ⟨hl, ht⟩ := List.mem_filter.mp hl
      obtain ⟨m, hmL, hl⟩ := List.mem_flatMap.mp hl
      obtain ⟨z, hz, hk⟩ := List.mem_flatMap.mp hl
      obtain ⟨k, hk1, rfl⟩ := mem_kids.mp hk
      have hza := allLocs_sub (hL m hmL) hz
      refine ⟨m, hmL, ⟨z.node.id, (doc_reach hs (hL m hmL)).mpr ⟨z, hz, rfl⟩, ?_⟩, ?_⟩
      · rw [doc_kids hs hza]; exact List.mem_map_of_mem hk1
      · exact (doc_tag hs (allLocs_kid hza hk1)).trans (beq_iff_eq.mp ht)
    · rintro ⟨m, hmL, ⟨z, hz, hk⟩, ht⟩
      obtain ⟨l, hl, rfl⟩ := (doc_reach hs (hL m hmL)).mp hz
      obtain ⟨k, hk1, rfl, hkl⟩ := doc_kid hs (allLocs_sub (hL m hmL) hl) hk
      refine ⟨⟨k, l.node :: l.anc⟩, List.mem_filter.mpr ⟨?_, ?_⟩, rfl⟩
      · exact List.mem_flatMap.mpr ⟨m, hmL, List.mem_flatMap.mpr ⟨l, hl, mem_kids.mpr ⟨k, hk1, rfl⟩⟩⟩
      · exact beq_iff_eq.mpr ((doc_tag hs hkl).symm.trans ht)
  | up =>
    have h : Except.ok (L.filterMap Loc.parent) = Except.ok (ε := PyErr) R := h
    injection h with h
    subst h
    constructor
    · rintro ⟨l, hl, rfl⟩
      obtain ⟨m, hmL, hp⟩ := List.mem_filterMap.mp hl
      refine ⟨m, hmL, (doc_up hs (hL m hmL)).mpr ⟨l, ?_, rfl, hp⟩⟩
      exact (allLocs_parent (hL m hmL) (parent_some.mp hp)).1
    · rintro ⟨m, hmL, hk⟩
      obtain ⟨l, _, rfl, hp⟩ := (doc_up hs (hL m hmL)).mp hk
      exact ⟨l, List.mem_filterMap.mpr ⟨m, hmL, hp⟩, rfl⟩
  | text v =>
    rw [flt (q := fun l => l.node.text == some v) rfl (by
      intro l b hb
      injection hb with hb
      rw [← hb]
      show (l.node.text.toList.any fun x => [v].any fun y => x == y) = _
      cases l.node.text <;> simp)]
    constructor
    · rintro ⟨m, hm, e, hq⟩; exact ⟨m, hm, e.symm, by rw [doc_text hs (hL m hm)]; exact beq_iff_eq.mp hq⟩
    · rintro ⟨m, hm, e, hq⟩; exact ⟨m, hm, e.symm, by rw [doc_text hs (hL m hm)] at hq; exact beq_iff_eq.mpr hq⟩
  | contains v =>
    rw [flt (q := fun l => isInfix v (l.node.text.getD [])) rfl (by intro l b hb; injection hb with hb; exact hb.symm)]
    constructor
    · rintro ⟨m, hm, e, hq⟩
      obtain ⟨a, b, h⟩ := isInfix_iff.mp hq
      exact ⟨m, hm, e.symm, a, b, by rw [doc_text hs (hL m hm)]; exact h.symm⟩
    · rintro ⟨m, hm, e, a, b, hq⟩
      rw [doc_text hs (hL m hm)] at hq
      exact ⟨m, hm, e.symm, isInfix_iff.mpr ⟨a, b, hq.symm⟩⟩
  | attr a v =>
    rw [flt (q := fun l => l.node.attr a == some v) rfl (by
      intro l b hb
      injection hb with hb
      rw [← hb]
      show ((l.node.attr a).toList.any fun x => [v].any fun y => x == y) = _
      cases l.node.attr a <;> simp)]
    constructor
    · rintro ⟨m, hm, e, hq⟩; exact ⟨m, hm, e.symm, by rw [doc_attr hs (hL m hm)]; exact beq_iff_eq.mp hq⟩
    · rintro ⟨m, hm, e, hq⟩; exact ⟨m, hm, e.symm, by rw [doc_attr hs (hL m hm)] at hq; exact beq_iff_eq.mpr hq⟩

theorem hops_eval (re : Regex) (hs : Inv s) {ps : List Hop} {L R : List Loc} (hL : ∀ l ∈ L, l ∈ allLocs s.world)
    (h : evalInstrs re (ps.map hopInstr) L = .ok R) (i : Nat) : (∃ l ∈ R, l.node.id = i) ↔ ∃ m ∈ L, Route (docOf s.heap) m.node.id ps i := by
  induction ps generalizing L with
  | nil =>
    injection h with h
    subst h
    exact ⟨fun ⟨l, hl, e⟩ => ⟨l, hl, e.symm⟩, fun ⟨l, hl, e⟩ => ⟨l, hl, e.symm⟩⟩
  | cons p ps ih =>
    obtain ⟨M, h1, h2⟩ := evalInstrs_append_ok (is := [hopInstr p]) (js := ps.map hopInstr) h
    have hM := eval_closed h1 hL
    rw [ih hM h2]
    have hp := hop_eval re hs hL h1
    constructor
    · rintro ⟨z, hz, hr⟩
      obtain ⟨m, hm, hl⟩ := (hp z.node.id).mp ⟨z, hz, rfl⟩
      exact ⟨m, hm, z.node.id, hl, hr⟩
    · rintro ⟨m, hm, z, hl, hr⟩
      obtain ⟨l, hlM, rfl⟩ := (hp z).mpr ⟨m, hm, hl⟩
      exact ⟨l, hlM, hr⟩

theorem hops_total (re : Regex) (ps : List Hop) (L : List Loc) : ∃ R, evalInstrs re (ps.map hopInstr) L = .ok R := by
  refine total_of (fun e he l => ?_) L
  obtain ⟨p, _, hp⟩ := List.mem_map.mp he
  cases p with
  | child | below | up => cases hp
  | text | contains | attr => cases hp; exact ⟨_, rfl⟩

/-- A query that reads as parts returns what the parts lead to. -/
theorem hops_run (env : Env) (hs : Inv s) {q : Str} {abs : Bool} {ps : List Hop} (hq : Reads q abs (ps.map hopInstr)) {ctx : Option Nat} {x : Nat}
    {l0 : Loc} (hl : startLocs s.world ctx abs = [l0]) (hx : l0.node.id = x) :
    ∃ l, xpath env ctx q s = (.ok l, s) ∧ l.Sublist s.world.ids ∧ l.Nodup ∧ ∀ i, i ∈ l ↔ i ≠ 0 ∧ Route (docOf s.heap) x ps i := by
  obtain ⟨R, hR⟩ := hops_total env.re ps [l0]
  have hcl : ∀ l ∈ [l0], l ∈ allLocs s.world := by rw [← hl]; exact startLocs_mem _ _ _
  obtain ⟨S, hS, hsub, hm⟩ := query_ok hs.world hq.parse (ctx := ctx) (by rw [hl]; exact hR)
  have hsub' : (S.map fun l => l.node.id).Sublist s.world.ids := by rw [← allLocs_ids hs.world.id]; exact hsub.map _
  refine ⟨S.map fun l => l.node.id, by unfold xpath; rw [hS]; rfl, hsub', hsub'.nodup hs.world.uniq, fun i => ?_⟩
  have := hops_eval env.re hs hcl hR i
  rw [List.mem_map]
  constructor
  · rintro ⟨l, hlS, rfl⟩
    obtain ⟨h0, hlR⟩ := (hm l).mp hlS
    obtain ⟨m, hmm, hr⟩ := this.mp ⟨l, hlR, rfl⟩
    rw [List.mem_singleton.mp hmm, hx] at hr
    exact ⟨h0, hr⟩
  · rintro ⟨h0, hr⟩
    obtain ⟨l, hlR, rfl⟩ := this.mpr ⟨l0, List.mem_singleton.mpr rfl, by rw [hx]; exact hr⟩
    exact ⟨l, (hm l).mpr ⟨h0, hlR⟩, rfl⟩

end Verif.Api
