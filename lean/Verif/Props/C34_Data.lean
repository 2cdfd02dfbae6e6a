import Verif.XPath.PathLemmas
import Verif.XPath.Sample
/-!
# C34: search values are treated as data

The text of a query is read back as a sequence of steps.  When no value contains a double quote,
this sequence is fixed by which arguments are given: the values occur in it as literals only.
-/
namespace Verif.Props
open Verif XPath Spec

/-- Forget the literals of a predicate. -/
def blankPrim : Prim → Prim
  | .lit _ => .lit []
  | p => p

def blankEx : Ex → Ex
  | .or a b => .or (blankEx a) (blankEx b)
  | .and a b => .and (blankEx a) (blankEx b)
  | .eq a b => .eq (blankPrim a) (blankPrim b)
  | .gt a b => .gt (blankPrim a) (blankPrim b)
  | .nonempty a => .nonempty (blankPrim a)
  | .notAncestor n => .notAncestor n
  | .contains _ => .contains []
  | .test a _ _ => .test (blankPrim a) [] []

def blankInstr : Instr → Instr
  | .filter e => .filter (blankEx e)
  | i => i

/-- The steps of a path without its literals. -/
def shape (p : Path) : Bool × List Instr := (p.abs, p.instrs.map blankInstr)

/-- The same arguments with possibly other values. -/
def SameForm : Kw → Kw → Prop
  | .attr k v, .attr k' v' => k = k' ∧ v.isSome = v'.isSome
  | .uuid _, .uuid _ => True
  | .tags ts, .tags ts' => ts.length = ts'.length
  | .string d, .string d' => d.length = d'.length
  | _, _ => False

theorem shape_test (rg : Bool) (fl fl' v v' : Str) (p : Prim) :
    blankEx (testEx rg fl v p) = blankEx (testEx rg fl' v' p) := by cases rg <;> rfl

theorem shape_downUp {e e' : Ex} (h : blankEx e = blankEx e') (p : List Str) :
    (downUp p e).map blankInstr = (downUp p e').map blankInstr := by
  induction p with
  | nil => simp [downUp, blankInstr, h]
  | cons t p ih => simp [downUp, ih]

/-- Places that differ in the key of a field only. -/
def SamePlace : Place → Place → Prop
  | .field _, .field _ => True
  | p, q => p = q

theorem shape_place (rg : Bool) (fl fl' v v' : Str) {p p' : Place} (h : SamePlace p p') :
    (placeInstrs rg fl v p).map blankInstr = (placeInstrs rg fl' v' p').map blankInstr := by
  cases p with
  | field k =>
    cases p' with
    | field k' =>
      have h1 : (downUp ["Key".toList] (.eq .text (.lit k))).map blankInstr =
        (downUp ["Key".toList] (.eq .text (.lit k'))).map blankInstr := shape_downUp rfl _
      have h2 := shape_downUp (shape_test rg fl fl' v v' .text) ["Value".toList]
      simp only [placeInstrs, List.map_append, List.map_cons, h1, h2]
    | sub q => cases h
    | ref => cases h
  | sub q =>
    cases h
    exact shape_downUp (shape_test rg fl fl' v v' .text) q
  | ref =>
    cases h
    exact shape_downUp (shape_test rg fl fl' v v' _) _

theorem shape_tags : ∀ {ts ts' : List Str}, ts.length = ts'.length → blankEx (tagsEx ts) = blankEx (tagsEx ts')
  | [], [], _ => rfl
  | [t], [t'], _ => rfl
  | t :: u :: ts, t' :: u' :: ts', h => by
    have ih := shape_tags (ts := u :: ts) (ts' := u' :: ts') (by simpa using h)
    show Ex.and (.contains []) (blankEx (tagsEx (u :: ts))) = Ex.and (.contains []) (blankEx (tagsEx (u' :: ts')))
    rw [ih]

theorem shape_kw (K : Kind) (rg : Bool) (fl fl' : Str) {k k' : Kw} (h : SameForm k k') :
    (kwInstrs K rg fl k).map blankInstr = (kwInstrs K rg fl' k').map blankInstr := by
  cases k with
  | attr key v =>
    cases k' with
    | attr key' v' =>
      obtain ⟨rfl, hv⟩ := h
      cases v with
      | none =>
        cases v' with
        | none => rfl
        | some v' => cases hv
      | some v =>
        cases v' with
        | none => cases hv
        | some v' =>
          cases hp : K.place key with
          | none => simp only [kwInstrs, hp]
          | some p =>
            simp only [kwInstrs, hp]
            exact shape_place rg fl fl' v v' (by cases p <;> simp [SamePlace])
    | _ => cases h
  | uuid b =>
    cases k' with
    | uuid b' => exact shape_place rg fl fl' _ _ (p := .sub _) rfl
    | _ => cases h
  | tags ts =>
    cases k' with
    | tags ts' => simp [kwInstrs, blankInstr, shape_tags h]
    | _ => cases h
  | string d =>
    cases k' with
    | string d' =>
      replace h : d.length = d'.length := h
      show (d.flatMap fun p => placeInstrs rg fl p.2 (.field p.1)).map blankInstr =
        (d'.flatMap fun p => placeInstrs rg fl' p.2 (.field p.1)).map blankInstr
      induction d generalizing d' with
      | nil =>
        cases d' with
        | nil => rfl
        | cons x d' => cases h
      | cons x d ih =>
        cases d' with
        | nil => cases h
        | cons x' d' =>
          rw [List.flatMap_cons, List.flatMap_cons, List.map_append, List.map_append,
            ih d' (by simpa using h), shape_place rg fl fl' x.2 x'.2 (p := .field x.1) (p' := .field x'.1) trivial]
    | _ => cases h

/-- The same arguments, one by one. -/
inductive SameForms : List Kw → List Kw → Prop
  | nil : SameForms [] []
  | cons {k k' ks ks'} : SameForm k k' → SameForms ks ks' → SameForms (k :: ks) (k' :: ks')

/-- Two searches that differ in their values only, none of which contains a double quote, run the
same steps: the values never change which elements are examined. -/
theorem C34_values_are_data {K : Kind} {a b : FindArgs} (recursive : Bool)
    (hpa : a.path = none) (hpb : b.path = none) (ht : a.tree.isSome = b.tree.isSome) (hh : a.history = b.history)
    (hx : a.regex = b.regex)
    (hfa : a.regex = true → Plain (flagsStr a.flags)) (hfb : b.regex = true → Plain (flagsStr b.flags))
    (hka : ∀ k ∈ a.kwargs, KwOk K k) (hkb : ∀ k ∈ b.kwargs, KwOk K k)
    (hs : SameForms a.kwargs b.kwargs) :
    ∃ qa qb pa pb, buildQuery (preText K recursive) K.xp a = .ok qa ∧ buildQuery (preText K recursive) K.xp b = .ok qb ∧
      parse qa = .ok pa ∧ parse qb = .ok pb ∧ shape pa = shape pb := by
  obtain ⟨qa, ha, hra, _⟩ := search_keeps (K := K) (fun _ _ => none) recursive hpa hfa hka
  obtain ⟨qb, hb, hrb, _⟩ := search_keeps (K := K) (fun _ _ => none) recursive hpb hfb hkb
  refine ⟨qa, qb, _, _, ha, hb, hra.parse, hrb.parse, ?_⟩
  unfold shape searchInstrs
  have h1 : ∀ (ks ks' : List Kw), SameForms ks ks' → ∀ (f : Bool),
      ((ks.filter fun k => k.isString == f).flatMap (kwInstrs K a.regex (flagsStr a.flags))).map blankInstr =
      ((ks'.filter fun k => k.isString == f).flatMap (kwInstrs K b.regex (flagsStr b.flags))).map blankInstr := by
    intro ks ks' h f
    induction h with
    | nil => rfl
    | @cons k k' ks ks' h _ ih =>
      have hstr : k.isString = k'.isString := by
        cases k <;> cases k' <;> first | rfl | cases h
      simp only [List.filter_cons, hstr]
      split
      · rw [List.flatMap_cons, List.flatMap_cons, List.map_append, List.map_append, ih, ← hx,
          shape_kw K a.regex (flagsStr a.flags) (flagsStr b.flags) h]
      · exact ih
  have e1 := h1 _ _ hs true
  have e2 := h1 _ _ hs false
  have c1 : (fun k : Kw => k.isString == true) = Kw.isString := by funext k; cases k.isString <;> rfl
  have c2 : (fun k : Kw => k.isString == false) = fun k => !k.isString := by funext k; cases k.isString <;> rfl
  rw [c1] at e1
  rw [c2] at e2
  simp only [List.map_append, e1, e2, ht, hh]

/-- The same for path searches: the names are literals of a fixed sequence of steps. -/
theorem C34_path_names_are_data {K : Kind} {a : FindArgs} {p : List Str} (recursive : Bool)
    (hp : a.path = some p) (hf : a.regex = true → Plain (flagsStr a.flags)) (hk : ∀ x ∈ p, Plain x) :
    ∃ q, buildQuery (preText K recursive) K.xp a = .ok q ∧ parse q = .ok ⟨true, pathInstrs K a p⟩ := by
  obtain ⟨q, h1, h2⟩ := path_reads K recursive hp hf hk
  exact ⟨q, h1, h2.parse⟩

/-- The hypotheses are met by values full of XPath syntax, which then match nothing. -/
example :
    let a : FindArgs := { kwargs := [.attr "title".toList (some "mail' or '1'='1".toList), .tags ["]/..".toList]] }
    let b : FindArgs := { kwargs := [.attr "title".toList (some "mail".toList), .tags ["home".toList]] }
    (∀ k ∈ a.kwargs, KwOk .entry k) ∧ (∀ k ∈ b.kwargs, KwOk .entry k) ∧ SameForms a.kwargs b.kwargs ∧
      findEntries Sample.engine Sample.world true a = .ok (.list []) ∧
      findEntries Sample.engine Sample.world true b = .ok (.list [9]) := by
  refine ⟨by decide, by decide, ?_, by decide +kernel, by decide +kernel⟩
  exact .cons ⟨rfl, rfl⟩ (.cons rfl .nil)

/-- Finding: a title containing a double quote is read as part of the query. This search returns the
entry titled `bank` although no entry of the database has the title searched for. -/
theorem C34_quote_changes_query :
    let v := "x\" or text()=\"bank".toList
    findEntries Sample.engine Sample.world true { kwargs := [.attr "title".toList (some v)] } = .ok (.list [39]) ∧
    ∀ n ∈ Sample.world.nodes, n.text ≠ some v := by
  decide +kernel

/-- Finding: or it is rejected as a syntax error. -/
theorem C34_quote_fails :
    findEntries Sample.engine Sample.world true
      { kwargs := [.attr "title".toList (some "6\" pipe".toList)] } = .error .xpathEval ∧
    findGroups Sample.engine Sample.world true { path := some ["6\" pipe".toList] } = .error .xpathEval := by
  decide +kernel

/-- Finding: an empty list of tags is a syntax error too. -/
theorem C34_no_tags : findEntries Sample.engine Sample.world true { kwargs := [.tags []] } = .error .xpathEval := by
  decide +kernel

/-! ## Characters XML does not allow -/

/-- The number of places for values in a template. -/
def holes : Str → Nat
  | [] => 0
  | '{' :: '{' :: t => holes t
  | '}' :: '}' :: t => holes t
  | '{' :: '}' :: t => holes t + 1
  | '{' :: 'f' :: 'l' :: 'a' :: 'g' :: 's' :: '}' :: t => holes t
  | _ :: t => holes t

theorem mem_fmt {t v fl : Str} {vs : List Str} (h : vs.length ≤ holes t) (hv : v ∈ vs) {c : Char} (hc : c ∈ v) :
    c ∈ fmt t vs fl := by
  fun_induction holes t generalizing vs with
  | case1 => cases vs with
    | nil => cases hv
    | cons a as => cases h
  | case2 t ih => rw [fmt]; exact List.mem_cons_of_mem _ (ih h hv)
  | case3 t ih => rw [fmt]; exact List.mem_cons_of_mem _ (ih h hv)
  | case4 t ih =>
    cases vs with
    | nil => cases hv
    | cons a as =>
      rw [fmt]
      rcases List.mem_cons.mp hv with e | hv
      · exact List.mem_append_left _ (e ▸ hc)
      · exact List.mem_append_right _ (ih (Nat.le_of_succ_le_succ h) hv)
  | case5 t ih => rw [fmt]; exact List.mem_append_right _ (ih h hv)
  | case6 d t h1 h2 h3 h4 ih =>
    rw [fmt]
    · exact List.mem_cons_of_mem _ (ih h hv)
    all_goals first | assumption | exact fun t _ _ _ => h3 t

theorem holes_table (K : Kind) (rg : Bool) : ∀ p ∈ K.xp rg, 1 ≤ holes p.2 ∧ (p.1 = "string".toList → 2 ≤ holes p.2) := by
  cases K <;> cases rg <;> decide +kernel

theorem table_lookup {α β} [BEq α] [LawfulBEq α] {l : List (α × β)} {k : α} {v : β} (h : l.lookup k = some v) : (k, v) ∈ l := by
  induction l with
  | nil => cases h
  | cons p l ih =>
    obtain ⟨a, b⟩ := p
    rw [List.lookup_cons] at h
    split at h
    · next e => injection h with h; rw [← h, eq_of_beq e]; exact List.mem_cons_self ..
    · exact List.mem_cons_of_mem _ (ih h)

/-- The texts in a search argument. -/
def kwTexts : Kw → List Str
  | .attr _ none => []
  | .attr _ (some v) => [v]
  | .uuid _ => []
  | .tags ts => ts
  | .string d => d.flatMap fun p => [p.1, p.2]

theorem addKey_mem {K : Kind} {a : FindArgs} {e : PyErr} {key : Str} {vs : List Str} {q q' : Str}
    (hn : vs.length ≤ 1 ∨ key = "string".toList ∧ vs.length ≤ 2)
    (h : addKey K.xp a e key vs q = .ok q') : q ⊆ q' ∧ ∀ v ∈ vs, v ⊆ q' := by
  unfold addKey at h
  split at h
  · cases h
  · next t ht =>
    injection h with h
    rw [← h]
    obtain ⟨h1, h2⟩ := holes_table K a.regex _ (table_lookup ht)
    have hl : vs.length ≤ holes t := by
      rcases hn with hn | ⟨hk, hn⟩
      · exact Nat.le_trans hn h1
      · exact Nat.le_trans hn (h2 hk)
    exact ⟨List.subset_append_left .., fun v hv c hc => List.mem_append_right _ (mem_fmt hl hv hc)⟩

theorem addStrings_mem {K : Kind} {a : FindArgs} {d : List (Str × Str)} {q q' : Str} (h : addStrings K.xp a d q = .ok q') :
    q ⊆ q' ∧ ∀ p ∈ d, p.1 ⊆ q' ∧ p.2 ⊆ q' := by
  induction d generalizing q with
  | nil => injection h with h; rw [← h]; exact ⟨fun _ h => h, fun _ h => nomatch h⟩
  | cons p d ih =>
    obtain ⟨k, v⟩ := p
    replace h : (addKey K.xp a .key "string".toList [k, v] q).bind _ = _ := h
    cases h1 : addKey K.xp a .key "string".toList [k, v] q with
    | error e => rw [h1] at h; cases h
    | ok q1 =>
      rw [h1] at h
      obtain ⟨s1, t1⟩ := addKey_mem (Or.inr ⟨rfl, Nat.le_refl _⟩) h1
      obtain ⟨s2, t2⟩ := ih h
      refine ⟨fun _ hc => s2 (s1 hc), fun p hp => ?_⟩
      rcases List.mem_cons.mp hp with rfl | hp
      · exact ⟨fun _ hc => s2 (t1 k (by simp) hc), fun _ hc => s2 (t1 v (by simp) hc)⟩
      · exact t2 p hp

theorem addString_mem {K : Kind} {a : FindArgs} {ks : List Kw} {q q' : Str} (h : addString K.xp a ks q = .ok q') :
    q ⊆ q' ∧ ∀ d, .string d ∈ ks → ∀ p ∈ d, p.1 ⊆ q' ∧ p.2 ⊆ q' := by
  induction ks generalizing q with
  | nil => injection h with h; rw [← h]; exact ⟨fun _ h => h, fun _ h => nomatch h⟩
  | cons k ks ih =>
    cases k with
    | string d =>
      replace h : (addStrings K.xp a d q).bind _ = _ := h
      cases h1 : addStrings K.xp a d q with
      | error e => rw [h1] at h; cases h
      | ok q1 =>
        rw [h1] at h
        obtain ⟨s1, t1⟩ := addStrings_mem h1
        obtain ⟨s2, t2⟩ := ih h
        refine ⟨fun _ hc => s2 (s1 hc), fun d' hd p hp => ?_⟩
        rcases List.mem_cons.mp hd with e | hd
        · cases e
          exact ⟨fun _ hc => s2 ((t1 p hp).1 hc), fun _ hc => s2 ((t1 p hp).2 hc)⟩
        · exact t2 d' hd p hp
    | _ =>
      obtain ⟨s2, t2⟩ := ih h
      refine ⟨s2, fun d' hd p hp => ?_⟩
      rcases List.mem_cons.mp hd with e | hd
      · cases e
      · exact t2 d' hd p hp

theorem mem_tagsPred {ts : List Str} {t : Str} (h : t ∈ ts) : t ⊆ tagsPred ts := by
  induction ts with
  | nil => cases h
  | cons u us ih =>
    cases us with
    | nil =>
      rw [List.mem_singleton] at h
      rw [tagsPred_one, h]
      intro c hc
      simp [hc]
    | cons w ws =>
      rw [tagsPred_cons (by simp)]
      intro c hc
      rcases List.mem_cons.mp h with rfl | h
      · simp only [List.mem_append, hc, or_true, true_or]
      · exact List.mem_append_right _ (ih h hc)

theorem addKws_mem {K : Kind} {a : FindArgs} {ks : List Kw} {q q' : Str} (h : addKws K.xp a ks q = .ok q') :
    q ⊆ q' ∧ ∀ k ∈ ks, k.isString = false → ∀ v ∈ kwTexts k, v ⊆ q' := by
  induction ks generalizing q with
  | nil => injection h with h; rw [← h]; exact ⟨fun _ h => h, fun _ h => nomatch h⟩
  | cons k ks ih =>
    have step : ∀ {key : Str} {w : Str}, (∀ v ∈ kwTexts k, v ⊆ w) →
        (addKey K.xp a .type key [w] q).bind (addKws K.xp a ks) = .ok q' →
        q ⊆ q' ∧ ∀ k' ∈ k :: ks, k'.isString = false → ∀ v ∈ kwTexts k', v ⊆ q' := by
      intro key w hw h
      cases h1 : addKey K.xp a .type key [w] q with
      | error e => rw [h1] at h; cases h
      | ok q1 =>
        rw [h1] at h
        obtain ⟨s1, t1⟩ := addKey_mem (Or.inl (Nat.le_refl _)) h1
        obtain ⟨s2, t2⟩ := ih h
        refine ⟨fun _ hc => s2 (s1 hc), fun k' hk hs v hv => ?_⟩
        rcases List.mem_cons.mp hk with rfl | hk
        · exact fun c hc => s2 (t1 w (by simp) (hw v hv hc))
        · exact t2 k' hk hs v hv
    have skip : (kwTexts k = [] ∨ k.isString = true) → addKws K.xp a ks q = .ok q' →
        q ⊆ q' ∧ ∀ k' ∈ k :: ks, k'.isString = false → ∀ v ∈ kwTexts k', v ⊆ q' := by
      intro hk0 h
      obtain ⟨s2, t2⟩ := ih h
      refine ⟨s2, fun k' hk hs v hv => ?_⟩
      rcases List.mem_cons.mp hk with rfl | hk
      · rcases hk0 with e | e
        · rw [e] at hv; cases hv
        · rw [e] at hs; cases hs
      · exact t2 k' hk hs v hv
    cases k with
    | string d => exact skip (Or.inr rfl) h
    | uuid b => exact step (fun v hv => nomatch hv) h
    | tags ts => exact step (fun v hv => mem_tagsPred hv) h
    | attr key v =>
      cases v with
      | none =>
        rw [addKws] at h
        split at h
        · cases h
        · exact skip (Or.inl rfl) h
      | some v => exact step (fun x hx => by rw [List.mem_singleton.mp hx]; exact fun _ h => h) h

/-- A search argument with a name the search knows, whatever its text. -/
def KwKnown (K : Kind) : Kw → Prop
  | .attr k _ => (K.place k).isSome
  | .uuid _ => K ≠ .attachment
  | .tags _ => K = .entry
  | .string _ => K = .entry

theorem addStrings_known {a : FindArgs} (d : List (Str × Str)) : ∀ q, ∃ q', addStrings entryXp a d q = .ok q' := by
  induction d with
  | nil => exact fun q => ⟨q, rfl⟩
  | cons p d ih =>
    intro q
    obtain ⟨t, ht, -⟩ := table_string a.regex
    obtain ⟨q', h⟩ := ih (q ++ fmt t [p.1, p.2] (flagsStr a.flags))
    refine ⟨q', ?_⟩
    show (addKey entryXp a .key "string".toList [p.1, p.2] q).bind _ = _
    rw [addKey_ok ht]
    exact h

theorem addString_known {K : Kind} {a : FindArgs} (ks : List Kw) (hk : ∀ k ∈ ks, KwKnown K k) :
    ∀ q, ∃ q', addString K.xp a ks q = .ok q' := by
  induction ks with
  | nil => exact fun q => ⟨q, rfl⟩
  | cons k ks ih =>
    intro q
    have ih := ih fun x hx => hk x (List.mem_cons_of_mem _ hx)
    have h1 := hk k (List.mem_cons_self ..)
    cases k with
    | string d =>
      cases (h1 : K = .entry)
      obtain ⟨q1, h⟩ := addStrings_known (a := a) d q
      obtain ⟨q2, h'⟩ := ih q1
      refine ⟨q2, ?_⟩
      show (addStrings entryXp a d q).bind _ = _
      rw [h]
      exact h'
    | _ => exact ih q

theorem addKws_known {K : Kind} {a : FindArgs} (ks : List Kw) (hk : ∀ k ∈ ks, KwKnown K k) :
    ∀ q, ∃ q', addKws K.xp a ks q = .ok q' := by
  induction ks with
  | nil => exact fun q => ⟨q, rfl⟩
  | cons k ks ih =>
    intro q
    have ih := ih fun x hx => hk x (List.mem_cons_of_mem _ hx)
    have h1 := hk k (List.mem_cons_self ..)
    have step : ∀ {key : Str} {v : Str}, (∃ t, (K.xp a.regex).lookup key = some t) →
        ∃ q', (addKey K.xp a .type key [v] q).bind (addKws K.xp a ks) = .ok q' := by
      rintro key v ⟨t, ht⟩
      rw [addKey_ok ht]
      exact ih _
    cases k with
    | string d => exact ih q
    | uuid b => obtain ⟨t, ht, -⟩ := table_uuid h1 a.regex; exact step ⟨t, ht⟩
    | tags ts => cases (h1 : K = .entry); exact step ⟨_, table_tags a.regex⟩
    | attr key v =>
      obtain ⟨p, hp⟩ := Option.isSome_iff_exists.mp (h1 : (K.place key).isSome = true)
      obtain ⟨t, ht, -⟩ := table_attr (rg := a.regex) hp
      cases v with
      | none =>
        obtain ⟨q', h⟩ := ih q
        refine ⟨q', ?_⟩
        rw [addKws, ht]
        exact h
      | some v => exact step ⟨t, ht⟩

/-- Finding: a search with a text that contains a character XML does not allow raises `ValueError`. -/
theorem C34_not_xml {K : Kind} (re : Regex) (w : Node) (recursive : Bool) {a : FindArgs} (hp : a.path = none)
    (hall : ∀ k ∈ a.kwargs, KwKnown K k)
    {k : Kw} (hk : k ∈ a.kwargs) {v : Str} (hv : v ∈ kwTexts k) {c : Char} (hc : c ∈ v) (hx : xmlChar c = false) :
    find re w (preText K recursive) K.xp a = .error .value := by
  obtain ⟨q, h1⟩ : ∃ q, buildQuery (preText K recursive) K.xp a = .ok q := by
    unfold buildQuery
    simp only [hp]
    obtain ⟨q1, h⟩ := addString_known a.kwargs hall (a := a)
      ((if a.tree.isSome then ['.'] else []) ++
        if a.history then preText K recursive else preText K recursive ++ "[not(ancestor::History)]".toList)
    obtain ⟨q2, h'⟩ := addKws_known a.kwargs hall (a := a) q1
    refine ⟨q2, ?_⟩
    show (addString K.xp a a.kwargs _).bind _ = _
    rw [h]
    exact h'
  have hq : c ∈ q := by
    unfold buildQuery at h1
    simp only [hp] at h1
    obtain ⟨q0, h1⟩ : ∃ q0, (addString K.xp a a.kwargs q0).bind (addKws K.xp a a.kwargs) = .ok q := ⟨_, h1⟩
    cases h2 : addString K.xp a a.kwargs q0 with
    | error e => rw [h2] at h1; cases h1
    | ok q1 =>
      rw [h2] at h1
      obtain ⟨s2, t2⟩ := addKws_mem h1
      cases hs : k.isString with
      | false => exact t2 k hk hs v hv hc
      | true =>
        cases k with
        | string d =>
          obtain ⟨p, hpd, hvp⟩ := List.mem_flatMap.mp hv
          have := (addString_mem h2).2 d hk p hpd
          simp only [List.mem_cons, List.not_mem_nil, or_false] at hvp
          rcases hvp with rfl | rfl
          · exact s2 (this.1 hc)
          · exact s2 (this.2 hc)
        | _ => cases hs
  have hn : ¬ XmlText q := fun hxq => by rw [hxq c hq] at hx; cases hx
  have hpq : parse q = .error .value := by unfold parse; rw [if_neg hn]
  show (buildQuery (preText K recursive) K.xp a).bind _ = _
  rw [h1]
  show (query re w a.tree q).bind _ = _
  rw [query_eq, hpq]
  rfl

/-- It raises `ValueError`. -/
example : findEntries Sample.engine Sample.world true { kwargs := [.attr "title".toList (some [Char.ofNat 7])] } = .error .value ∧
    findGroups Sample.engine Sample.world true { path := some [[Char.ofNat 7]] } = .error .value := by decide +kernel

end Verif.Props
