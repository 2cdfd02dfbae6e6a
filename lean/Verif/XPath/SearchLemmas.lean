import Verif.XPath.Pieces
import Verif.Base.Base64
/-!
# From queries to search specifications
-/
namespace Verif.XPath
open Verif Spec

/-! ## Tags -/

/-- The tokens of one tag condition. -/
def tagToks1 (t : Str) : List Tok :=
  [.name "contains".toList, .lpar, .name "text".toList, .lpar, .rpar, .comma, .lit t, .rpar]

def tagToks : List Str → List Tok
  | [] => []
  | [t] => tagToks1 t
  | t :: ts => tagToks1 t ++ .name "and".toList :: tagToks ts

def tagsEx : List Str → Ex
  | [] => .contains []
  | [t] => .contains t
  | t :: ts => .and (.contains t) (tagsEx ts)

theorem tagToks_cons {t : Str} {ts : List Str} (h : ts ≠ []) :
    tagToks (t :: ts) = tagToks1 t ++ .name "and".toList :: tagToks ts := by
  cases ts with
  | nil => exact absurd rfl h
  | cons => rfl

theorem tagsEx_cons {t : Str} {ts : List Str} (h : ts ≠ []) :
    tagsEx (t :: ts) = .and (.contains t) (tagsEx ts) := by
  cases ts with
  | nil => exact absurd rfl h
  | cons => rfl

theorem tagsPred_one (t : Str) : tagsPred [t] = "contains(text(),\"".toList ++ t ++ "\")".toList := rfl

theorem tagsPred_cons {t : Str} {ts : List Str} (h : ts ≠ []) : tagsPred (t :: ts) =
    "contains(text(),\"".toList ++ t ++ "\")".toList ++ " and ".toList ++ tagsPred ts := by
  cases ts with
  | nil => exact absurd rfl h
  | cons => rfl

theorem lexRun_tag1 {t : Str} (h : Plain t) (s : Str) (out : List Tok) :
    lexRun ⟨.normal, out⟩ ("contains(text(),\"".toList ++ (t ++ ("\")".toList ++ s))) =
      lexRun ⟨.normal, out ++ tagToks1 t⟩ s := by
  have hA : lexRun ⟨.normal, []⟩ "contains(text(),\"".toList =
      ⟨.lit '"' [], [.name "contains".toList, .lpar, .name "text".toList, .lpar, .rpar, .comma]⟩ := by
    decide +kernel
  rw [lexRun_append, lexRun_frame .normal out "contains(text(),\"".toList, hA, lexRun_append,
    lexRun_lit h, lexRun_append]
  congr 1
  show Lex.mk .normal (((out ++ [_, _, _, _, _, _]) ++ [.lit ([] ++ t)]) ++ [.rpar]) = _
  simp [tagToks1]

theorem lexRun_tags {ts : List Str} (hne : ts ≠ []) (h : ∀ t ∈ ts, Plain t) (out : List Tok) (s : Str) :
    lexRun ⟨.normal, out⟩ (tagsPred ts ++ s) = lexRun ⟨.normal, out ++ tagToks ts⟩ s := by
  induction ts generalizing out with
  | nil => exact absurd rfl hne
  | cons t ts ih =>
    cases ts with
    | nil =>
      have := lexRun_tag1 (h t (List.mem_cons_self ..)) s out
      rw [tagsPred_one, List.append_assoc, List.append_assoc, this]
      rfl
    | cons u us =>
      rw [tagsPred_cons (ts := u :: us) (by simp), List.append_assoc, List.append_assoc,
        List.append_assoc, List.append_assoc, lexRun_tag1 (h t (List.mem_cons_self ..)), lexRun_append, lexRun_frame .normal _ " and ".toList]
      have hs : lexRun ⟨.normal, []⟩ " and ".toList = ⟨.normal, [.name "and".toList]⟩ := by decide +kernel
      rw [hs, ih (by simp) fun x hx => h x (List.mem_cons_of_mem _ hx), tagToks_cons (ts := u :: us) (by simp),
        List.append_assoc, List.append_assoc]
      rfl

theorem pathRun_pred {a : List Tok} (h : ∀ t ∈ a, t ≠ .lbr ∧ t ≠ .rbr) (acc : List Tok) (ab : Bool)
    (is : List Instr) (b : List Tok) :
    pathRun ⟨.pred acc, ab, is⟩ (a ++ b) = pathRun ⟨.pred (acc ++ a), ab, is⟩ b := by
  induction a generalizing acc with
  | nil => simp
  | cons t a ih =>
    have ht := h t (List.mem_cons_self ..)
    have hs : pathStep ⟨.pred acc, ab, is⟩ t = .ok ⟨.pred (acc ++ [t]), ab, is⟩ := by
      cases t <;> first | rfl | (exact absurd rfl ht.1) | (exact absurd rfl ht.2)
    rw [List.cons_append, pathRun, hs]
    show pathRun ⟨.pred (acc ++ [t]), ab, is⟩ (a ++ b) = _
    rw [ih fun x hx => h x (List.mem_cons_of_mem _ hx)]
    simp

theorem splitOn_none {op : Str} {ts : List Tok} (h : Tok.name op ∉ ts) : splitOn op ts = [ts] := by
  induction ts with
  | nil => rfl
  | cons t ts ih =>
    rw [List.mem_cons, not_or] at h
    rw [splitOn, if_neg (Ne.symm h.1), ih h.2]

theorem splitOn_append {op : Str} {a : List Tok} (h : Tok.name op ∉ a) (b : List Tok) :
    splitOn op (a ++ .name op :: b) = a :: splitOn op b := by
  induction a with
  | nil => rw [List.nil_append, splitOn, if_pos rfl]
  | cons t a ih =>
    rw [List.mem_cons, not_or] at h
    rw [List.cons_append, splitOn, if_neg (Ne.symm h.1), ih h.2]

theorem tagToks_mem {ts : List Str} {x : Tok} (h : x ∈ tagToks ts) :
    x = .name "and".toList ∨ ∃ t, x ∈ tagToks1 t := by
  induction ts with
  | nil => cases h
  | cons t ts ih =>
    cases ts with
    | nil => exact Or.inr ⟨t, h⟩
    | cons u us =>
      rw [tagToks_cons (by simp)] at h
      rcases List.mem_append.mp h with h | h
      · exact Or.inr ⟨t, h⟩
      · rcases List.mem_cons.mp h with h | h
        · exact Or.inl h
        · exact ih h

theorem parsePred_tags {ts : List Str} (hne : ts ≠ []) : parsePred (tagToks ts) = .ok (tagsEx ts) := by
  have hor : Tok.name "or".toList ∉ tagToks ts := by
    intro h
    rcases tagToks_mem h with h | ⟨t, h⟩
    · exact absurd h (by decide)
    · simp [tagToks1] at h
  have hne2 : tagToks ts ≠ [] := by
    cases ts with
    | nil => exact absurd rfl hne
    | cons t ts => cases ts <;> simp [tagToks, tagToks1]
  rw [parsePred, if_neg hne2, splitOn_none hor]
  show parseAnd (splitOn "and".toList (tagToks ts)) = _
  clear hor hne2
  have h1 : ∀ t, Tok.name "and".toList ∉ tagToks1 t := by intro t h; simp [tagToks1] at h
  have ha : ∀ t, parseAtom (tagToks1 t) = .ok (.contains t) := fun t => rfl
  induction ts with
  | nil => exact absurd rfl hne
  | cons t ts ih =>
    cases ts with
    | nil =>
      show parseAnd (splitOn _ (tagToks1 t)) = _
      rw [splitOn_none (h1 t)]
      exact ha t
    | cons u us =>
      rw [tagToks_cons (by simp), splitOn_append (h1 t), tagsEx_cons (by simp)]
      have ih := ih (by simp)
      cases hs : splitOn "and".toList (tagToks (u :: us)) with
      | nil => rw [hs] at ih; cases ih
      | cons g gs =>
        rw [hs] at ih
        rw [parseAnd, ha t]
        · show (parseAnd (g :: gs)).bind _ = _
          rw [ih]; rfl
        · exact fun h => by cases h

theorem tagsPred_xml {ts : List Str} (h : ∀ t ∈ ts, Plain t) : XmlText (tagsPred ts) := by
  have hw : ∀ {t : Str}, Plain t → XmlText ("contains(text(),\"".toList ++ t ++ "\")".toList) := fun ht =>
    ((by decide : XmlText "contains(text(),\"".toList).append ht.xml).append (by decide)
  induction ts with
  | nil => exact (by decide : XmlText [])
  | cons t ts ih =>
    have ht := hw (h t (List.mem_cons_self ..))
    cases ts with
    | nil => exact ht
    | cons u us =>
      rw [tagsPred_cons (by simp)]
      exact (ht.append (by decide)).append (ih fun x hx => h x (List.mem_cons_of_mem _ hx))

theorem piece_tags {ts : List Str} (hne : ts ≠ []) (h : ∀ t ∈ ts, Plain t) (fl : Str) :
    Piece (fmt "/Tags[{}]/..".toList [tagsPred ts] fl) [.child "Tags".toList, .filter (tagsEx ts), .parent] := by
  have e : fmt "/Tags[{}]/..".toList [tagsPred ts] fl = "/Tags[".toList ++ (tagsPred ts ++ "]/..".toList) := rfl
  rw [e]
  refine ⟨⟨'/', _, rfl, Or.inl rfl⟩,
    (by decide : XmlText "/Tags[".toList).append ((tagsPred_xml h).append (by decide)), ?_⟩
  have h1 : lexRun ⟨.normal, []⟩ "/Tags[".toList = ⟨.normal, [.slash, .name "Tags".toList, .lbr]⟩ := by decide +kernel
  have h2 : lexRun ⟨.normal, []⟩ "]/..".toList = ⟨.normal, [.rbr, .slash, .ddot]⟩ := by decide +kernel
  refine ⟨_, rfl, ?_⟩
  rw [lexRun_append, h1, lexRun_tags hne h, lexRun_frame, h2]
  refine ⟨Or.inl rfl, ?_⟩
  show pathRun _ (([.slash, .name "Tags".toList, .lbr] ++ tagToks ts) ++ [.rbr, .slash, .ddot]) = _
  show pathRun ⟨.pred [], false, [.child "Tags".toList]⟩ (tagToks ts ++ [.rbr, .slash, .ddot]) = _
  rw [pathRun_pred]
  · rw [pathRun]
    show ((parsePred (tagToks ts)).bind _).bind _ = _
    rw [parsePred_tags hne]
    rfl
  · intro t ht
    rcases tagToks_mem ht with rfl | ⟨u, hu⟩
    · decide
    · simp only [tagToks1, List.mem_cons, List.not_mem_nil, or_false] at hu
      rcases hu with rfl | rfl | rfl | rfl | rfl | rfl | rfl | rfl <;> exact ⟨Tok.noConfusion, Tok.noConfusion⟩

theorem isInfix_iff {s t : Str} : isInfix s t = true ↔ s <:+: t := by
  induction t with
  | nil => simp [isInfix, List.isEmpty_iff]
  | cons c t ih =>
    rw [isInfix, Bool.or_eq_true, ih, List.infix_cons_iff, List.isPrefixOf_iff_prefix]

theorem tagsEx_eval (re : Regex) (l : Loc) {ts : List Str} (hne : ts ≠ []) :
    (tagsEx ts).eval re l = .ok (ts.all fun t => isInfix t (l.node.text.getD [])) := by
  induction ts with
  | nil => exact absurd rfl hne
  | cons t ts ih =>
    cases ts with
    | nil => simp [tagsEx, Ex.eval]
    | cons u us =>
      rw [tagsEx_cons (by simp), Ex.eval, ih (by simp)]
      show (if isInfix t (l.node.text.getD []) then _ else _) = _
      rw [List.all_cons (l := u :: us)]
      cases isInfix t (l.node.text.getD []) <;> rfl

theorem selects_tags (re : Regex) {ts : List Str} (hne : ts ≠ []) :
    Selects re [.child "Tags".toList, .filter (tagsEx ts), .parent] fun l =>
      ∃ n ∈ l.node.kids, n.tag = "Tags".toList ∧ ∀ t ∈ ts, t <:+: n.text.getD [] := by
  refine ((selects_filter (q := fun l => ts.all fun t => isInfix t (l.node.text.getD []))
    fun l b h => by rw [tagsEx_eval re l hne] at h; injection h with h; exact h.symm).nest "Tags".toList).congr ?_
  intro l
  simp only [List.all_eq_true, isInfix_iff]

/-! ## Values at a place -/

/-- The test a search makes. -/
def testOf (re : Regex) (rg : Bool) (fl : Str) : Test :=
  if rg then regexTest re (fl.any (· == 'i')) else exact

def testBool (re : Regex) (rg : Bool) (fl v : Str) (t : Option Str) : Bool :=
  if rg then
    match re v (fl.any (· == 'i')) with
    | some f => f (t.getD [])
    | none => false
  else t == some v

theorem testBool_iff (re : Regex) (rg : Bool) (fl v : Str) (t : Option Str) :
    testBool re rg fl v t = true ↔ testOf re rg fl v t := by
  unfold testBool testOf
  cases rg with
  | false => simp [exact]
  | true =>
    simp only [if_true, regexTest]
    cases h : re v (fl.any (· == 'i')) with
    | none => simp
    | some f => simp

/-- The string a primitive denotes. -/
def Prim.val (n : Node) : Prim → Option Str
  | .text => n.text
  | .attr k => n.attr k
  | .lit s => some s

theorem testEx_eval {re : Regex} {rg : Bool} {fl v : Str} (hc : Compiles re rg fl v) (p : Prim) (l : Loc) :
    (testEx rg fl v p).eval re l = .ok (testBool re rg fl v (p.val l.node)) := by
  have hs : p.strs l = (p.val l.node).toList := by cases p <;> rfl
  unfold testEx testBool
  cases rg with
  | false =>
    simp only [Bool.false_eq_true, if_false]
    show Except.ok ((p.strs l).any fun x => [v].any fun y => x == y) = _
    rw [hs]
    cases p.val l.node with
    | none => rfl
    | some s => simp
  | true =>
    simp only [if_true]
    show reTest re (p.strs l) v fl = _
    unfold reTest
    obtain ⟨f, hf⟩ := Option.isSome_iff_exists.mp (hc rfl)
    rw [hf, hs]
    cases p.val l.node <;> rfl

/-- Whatever the engine does, a test that succeeds in being made gives the right answer. -/
theorem testEx_eval' {re : Regex} {rg : Bool} {fl v : Str} (p : Prim) (l : Loc) (b : Bool)
    (h : (testEx rg fl v p).eval re l = .ok b) : b = testBool re rg fl v (p.val l.node) := by
  by_cases hc : Compiles re rg fl v
  · rw [testEx_eval hc] at h; injection h with h; exact h.symm
  · unfold Compiles at hc
    have hrg : rg = true := by
      cases rg with
      | true => rfl
      | false => exact absurd (fun h => by cases h) hc
    subst hrg
    have hn : re v (fl.any (· == 'i')) = none := by
      cases hr : re v (fl.any (· == 'i')) with
      | none => rfl
      | some f => exact absurd (fun _ => by rw [hr]; rfl) hc
    have h : reTest re (p.strs l) v fl = .ok b := h
    unfold reTest at h
    rw [hn] at h
    cases h

theorem mem_descend_cons {t : Str} {p : List Str} {e x : Node} : x ∈ descend (t :: p) e ↔
    ∃ k ∈ e.kids, k.tag = t ∧ x ∈ descend p k := by
  rw [descend, List.mem_flatMap]
  simp only [List.mem_filter, beq_iff_eq, and_assoc]

theorem selects_downUp {re : Regex} {e : Ex} {q : Node → Bool} (h : ∀ l b, e.eval re l = .ok b → b = q l.node)
    (p : List Str) : Selects re (downUp p e) fun l => ∃ n ∈ descend p l.node, q n = true := by
  induction p with
  | nil =>
    refine (selects_filter h).congr fun l => ?_
    simp [descend]
  | cons t p ih =>
    refine (ih.nest t).congr fun l => ?_
    simp only [mem_descend_cons]
    constructor
    · rintro ⟨k, hk, ht, n, hn, hq⟩; exact ⟨n, ⟨k, hk, ht, hn⟩, hq⟩
    · rintro ⟨n, ⟨k, hk, ht, hn⟩, hq⟩; exact ⟨k, hk, ht, n, hn, hq⟩

theorem mem_descend_one {t : Str} {e x : Node} : x ∈ descend [t] e ↔ x ∈ e.kids ∧ x.tag = t := by
  rw [mem_descend_cons]
  simp [descend]

theorem mem_fieldNodes {e : Node} {key : Str} {v : Node} : v ∈ fieldNodes e key ↔
    ∃ s ∈ e.kids, s.tag = "String".toList ∧
      (∃ c ∈ s.kids, c.tag = "Key".toList ∧ c.text = some key) ∧ v ∈ s.kids ∧ v.tag = "Value".toList := by
  unfold fieldNodes
  rw [List.mem_flatMap]
  simp only [List.mem_filter, Bool.and_eq_true, beq_iff_eq, List.any_eq_true]
  constructor
  · rintro ⟨s, ⟨hs, ht, c, hc, hk⟩, hv⟩; exact ⟨s, hs, ht, ⟨c, hc, hk⟩, hv⟩
  · rintro ⟨s, hs, ht, ⟨c, hc, hk⟩, hv⟩; exact ⟨s, ⟨hs, ht, c, hc, hk⟩, hv⟩

/-- The key test of a field. -/
theorem selects_key (re : Regex) (k : Str) :
    Selects re (downUp ["Key".toList] (.eq .text (.lit k))) fun l =>
      ∃ n ∈ l.node.kids, n.tag = "Key".toList ∧ n.text = some k := by
  refine (selects_downUp (q := fun n => n.text == some k) (fun l b h => ?_) ["Key".toList]).congr fun l => ?_
  · have h : Except.ok (l.node.text.toList.any fun x => [k].any fun y => x == y) = Except.ok (ε := PyErr) b := h
    injection h with h
    rw [← h]
    cases l.node.text <;> simp
  · simp only [mem_descend_one, and_assoc, beq_iff_eq]

theorem selects_place (re : Regex) (rg : Bool) (fl v : Str) (p : Place) :
    Selects re (placeInstrs rg fl v p) fun l => HasValue (testOf re rg fl) l.node p v := by
  cases p with
  | field k =>
    have h1 := selects_key re k
    have h2 := selects_downUp (re := re) (q := fun n => testBool re rg fl v n.text)
      (fun l b h => testEx_eval' .text l b h) ["Value".toList]
    refine ((h1.append h2).nest "String".toList).congr fun l => ?_
    simp only [HasValue, valuesAt, List.mem_map, mem_fieldNodes, mem_descend_one, testBool_iff]
    constructor
    · rintro ⟨s, hs, ht, hk, n, ⟨hn, hn2⟩, hq⟩
      exact ⟨n.text, ⟨n, ⟨s, hs, ht, hk, hn, hn2⟩, rfl⟩, hq⟩
    · rintro ⟨t, ⟨n, ⟨s, hs, ht, hk, hn, hn2⟩, rfl⟩, hq⟩
      exact ⟨s, hs, ht, hk, n, ⟨hn, hn2⟩, hq⟩
  | sub p =>
    refine (selects_downUp (re := re) (q := fun n => testBool re rg fl v n.text)
      (fun l b h => testEx_eval' .text l b h) p).congr fun l => ?_
    simp only [HasValue, valuesAt, List.mem_map, testBool_iff]
    constructor
    · rintro ⟨n, hn, hq⟩; exact ⟨n.text, ⟨n, hn, rfl⟩, hq⟩
    · rintro ⟨t, ⟨n, hn, rfl⟩, hq⟩; exact ⟨n, hn, hq⟩
  | ref =>
    refine (selects_downUp (re := re) (q := fun n => testBool re rg fl v (n.attr "Ref".toList))
      (fun l b h => testEx_eval' (.attr "Ref".toList) l b h) ["Value".toList]).congr fun l => ?_
    simp only [HasValue, valuesAt, List.mem_map, testBool_iff, mem_descend_one, List.mem_filter, beq_iff_eq]
    constructor
    · rintro ⟨n, hn, hq⟩; exact ⟨_, ⟨n, hn, rfl⟩, hq⟩
    · rintro ⟨t, ⟨n, hn, rfl⟩, hq⟩; exact ⟨n, hn, hq⟩

/-! ## Totality -/

/-- Predicates never fail on these instructions. -/
def Safe (re : Regex) (is : List Instr) : Prop := ∀ e, Instr.filter e ∈ is → ∀ l, ∃ b, e.eval re l = .ok b

theorem Safe.append {re : Regex} {is js : List Instr} (h : Safe re is) (h' : Safe re js) : Safe re (is ++ js) := by
  intro e he
  rcases List.mem_append.mp he with he | he
  · exact h e he
  · exact h' e he

theorem safe_downUp {re : Regex} {e : Ex} (h : ∀ l, ∃ b, e.eval re l = .ok b) (p : List Str) : Safe re (downUp p e) := by
  induction p with
  | nil =>
    intro e' he
    rw [downUp, List.mem_singleton] at he
    cases he; exact h
  | cons t p ih =>
    intro e' he
    rw [downUp] at he
    rcases List.mem_append.mp he with he | he
    · rcases List.mem_cons.mp he with he | he
      · cases he
      · exact ih e' he
    · rw [List.mem_singleton] at he; cases he

theorem safe_place {re : Regex} {rg : Bool} {fl v : Str} (hc : Compiles re rg fl v) (p : Place) :
    Safe re (placeInstrs rg fl v p) := by
  cases p with
  | field k =>
    have h1 : Safe re (downUp ["Key".toList] (.eq .text (.lit k))) := safe_downUp (fun l => ⟨_, rfl⟩) _
    have h2 : Safe re (downUp ["Value".toList] (testEx rg fl v .text)) := safe_downUp (fun l => ⟨_, testEx_eval hc _ l⟩) _
    intro e he
    rw [placeInstrs] at he
    rcases List.mem_append.mp he with he | he
    · rcases List.mem_cons.mp he with he | he
      · cases he
      · exact h1.append h2 e he
    · rw [List.mem_singleton] at he; cases he
  | sub p => exact safe_downUp (fun l => ⟨_, testEx_eval hc _ l⟩) _
  | ref => exact safe_downUp (fun l => ⟨_, testEx_eval hc _ l⟩) _

theorem safe_tags (re : Regex) {ts : List Str} (hne : ts ≠ []) :
    Safe re [.child "Tags".toList, .filter (tagsEx ts), .parent] := by
  intro e he l
  simp only [List.mem_cons, List.not_mem_nil, or_false] at he
  rcases he with he | he | he
  · cases he
  · cases he; exact ⟨_, tagsEx_eval re l hne⟩
  · cases he

end Verif.XPath
