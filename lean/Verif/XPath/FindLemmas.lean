import Verif.XPath.SearchLemmas
/-!
# `_find` returns what the specification says
-/
namespace Verif.XPath
open Verif Spec

/-- The query templates of a kind of search. -/
def Kind.xp : Kind → Bool → List (Str × Str)
  | .entry => entryXp
  | .group => groupXp
  | .attachment => attachmentXp

/-- The steps a search argument contributes. Its values occur as literals only. -/
def kwInstrs (K : Kind) (rg : Bool) (fl : Str) : Kw → List Instr
  | .attr _ none => []
  | .attr k (some v) =>
    match K.place k with
    | some p => placeInstrs rg fl v p
    | none => []
  | .uuid b => placeInstrs rg fl (b64encode b) (.sub ["UUID".toList])
  | .tags ts => [.child "Tags".toList, .filter (tagsEx ts), .parent]
  | .string d => d.flatMap fun p => placeInstrs rg fl p.2 (.field p.1)

/-- The text of the beginning of a search. -/
def preText (K : Kind) (recursive : Bool) : Str :=
  (if recursive then ['/', '/'] else ['/']) ++ K.tag

theorem table_attr {K : Kind} {rg : Bool} {key : Str} {p : Place} (h : K.place key = some p) :
    ∃ t, (K.xp rg).lookup key = some t ∧
      ∀ {v fl : Str}, Plain v → (rg = true → Plain fl) → Piece (fmt t [v] fl) (placeInstrs rg fl v p) := by
  cases K with
  | entry =>
    have h : entryPlace key = some p := h
    have hne : key ≠ "tags".toList ∧ key ≠ "string".toList ∧ key ≠ "uuid".toList := by
      refine ⟨?_, ?_, ?_⟩ <;> (rintro rfl; exact absurd h (by simp [entryPlace]))
    have hl : ∃ t, (entryXp rg).lookup key = some t := by
      unfold entryPlace at h
      have f : ∀ k, key = k → ((entryXp rg).lookup k).isSome → ∃ t, (entryXp rg).lookup key = some t := by
        rintro k rfl h; exact Option.isSome_iff_exists.mp h
      repeat' split at h
      all_goals first
        | (rename_i e; exact f _ e (by cases rg <;> rfl))
        | cases h
    obtain ⟨t, ht⟩ := hl
    obtain ⟨p', hp', hpc⟩ := piece_entry ht hne.1 hne.2.1
    rw [entryPlace', if_neg hne.2.2, h] at hp'
    cases hp'
    exact ⟨t, ht, hpc⟩
  | group =>
    have h : groupPlace key = some p := h
    have hne : key ≠ "uuid".toList := by rintro rfl; exact absurd h (by simp [groupPlace])
    have hl : ∃ t, (groupXp rg).lookup key = some t := by
      unfold groupPlace at h
      have f : ∀ k, key = k → ((groupXp rg).lookup k).isSome → ∃ t, (groupXp rg).lookup key = some t := by
        rintro k rfl h; exact Option.isSome_iff_exists.mp h
      repeat' split at h
      all_goals first
        | (rename_i e; exact f _ e (by cases rg <;> rfl))
        | cases h
    obtain ⟨t, ht⟩ := hl
    obtain ⟨p', hp', hpc⟩ := piece_group ht
    rw [groupPlace', if_neg hne, h] at hp'
    cases hp'
    exact ⟨t, ht, hpc⟩
  | attachment =>
    have h : attachmentPlace key = some p := h
    have hl : ∃ t, (attachmentXp rg).lookup key = some t := by
      unfold attachmentPlace at h
      have f : ∀ k, key = k → ((attachmentXp rg).lookup k).isSome → ∃ t, (attachmentXp rg).lookup key = some t := by
        rintro k rfl h; exact Option.isSome_iff_exists.mp h
      repeat' split at h
      all_goals first
        | (rename_i e; exact f _ e (by cases rg <;> rfl))
        | cases h
    obtain ⟨t, ht⟩ := hl
    obtain ⟨p', hp', hpc⟩ := piece_attachment ht
    rw [h] at hp'
    cases hp'
    exact ⟨t, ht, hpc⟩

theorem table_uuid {K : Kind} (hK : K ≠ .attachment) (rg : Bool) :
    ∃ t, (K.xp rg).lookup "uuid".toList = some t ∧
      ∀ {v fl : Str}, Plain v → (rg = true → Plain fl) →
        Piece (fmt t [v] fl) (placeInstrs rg fl v (.sub ["UUID".toList])) := by
  cases K with
  | entry =>
    cases rg with
    | false => exact ⟨_, rfl, fun hv _ => piece_entry_ex_uuid hv _⟩
    | true => exact ⟨_, rfl, fun hv hf => piece_entry_re_uuid hv (hf rfl)⟩
  | group =>
    cases rg with
    | false => exact ⟨_, rfl, fun hv _ => piece_group_ex_uuid hv _⟩
    | true => exact ⟨_, rfl, fun hv hf => piece_group_re_uuid hv (hf rfl)⟩
  | attachment => exact absurd rfl hK

theorem table_string (rg : Bool) :
    ∃ t, (entryXp rg).lookup "string".toList = some t ∧
      ∀ {k v fl : Str}, Plain k → Plain v → (rg = true → Plain fl) →
        Piece (fmt t [k, v] fl) (placeInstrs rg fl v (.field k)) := by
  cases rg with
  | false => exact ⟨_, rfl, fun hk hv _ => piece_entry_ex_string hk hv _⟩
  | true => exact ⟨_, rfl, fun hk hv hf => piece_entry_re_string hk hv (hf rfl)⟩

theorem table_tags (rg : Bool) : (entryXp rg).lookup "tags".toList = some "/Tags[{}]/..".toList := by
  cases rg <;> rfl

theorem addKey_ok {xp : Bool → List (Str × Str)} {a : FindArgs} {e : PyErr} {key t : Str} {vals : List Str}
    {q : Str} (h : (xp a.regex).lookup key = some t) :
    addKey xp a e key vals q = .ok (q ++ fmt t vals (flagsStr a.flags)) := by
  unfold addKey; rw [h]

def Kw.isString : Kw → Bool
  | .string _ => true
  | _ => false

/-- A query that reads as the given steps, of which the last ones keep the elements satisfying `c`. -/
def Keeps (re : Regex) (abs : Bool) (is js : List Instr) (q : Str) (c : Loc → Prop) : Prop :=
  Reads q abs (is ++ js) ∧ Selects re js c

theorem Keeps.step {re : Regex} {abs : Bool} {is js : List Instr} {q s : Str} {c d : Loc → Prop}
    {ks : List Instr} (h : Keeps re abs is js q c) (hp : Piece s ks) (hs : Selects re ks d) :
    Keeps re abs is (js ++ ks) (q ++ s) fun l => c l ∧ d l := by
  obtain ⟨h1, h2⟩ := h
  exact ⟨by rw [← List.append_assoc]; exact h1.append hp, h2.append hs⟩

theorem Keeps.congr {re : Regex} {abs : Bool} {is js : List Instr} {q : Str} {c d : Loc → Prop}
    (h : Keeps re abs is js q c) (e : ∀ l, c l ↔ d l) : Keeps re abs is js q d :=
  ⟨h.1, h.2.congr e⟩

theorem b64Char_allowed : ∀ v, v < 64 → xmlChar (b64Char v) = true := by decide +kernel

theorem b64_plain (b : Bytes) : Plain (b64encode b) := by
  refine fun c hc => ⟨fun h => b64encode_no_quote b (h ▸ hc), ?_⟩
  obtain ⟨v, ⟨hv, rfl⟩ | rfl⟩ := b64encode_mem b c hc
  · exact b64Char_allowed v hv
  · decide

theorem addStrings_ok {re : Regex} {a : FindArgs} (hf : a.regex = true → Plain (flagsStr a.flags)) {abs : Bool}
    {is js : List Instr} {d : List (Str × Str)}
    (hd : ∀ p ∈ d, Plain p.1 ∧ Plain p.2) {q : Str} {c : Loc → Prop}
    (h : Keeps re abs is js q c) : ∃ q', addStrings entryXp a d q = .ok q' ∧
      Keeps re abs is (js ++ d.flatMap fun p => placeInstrs a.regex (flagsStr a.flags) p.2 (.field p.1)) q' fun l => c l ∧
        ∀ p ∈ d, HasValue (testOf re a.regex (flagsStr a.flags)) l.node (.field p.1) p.2 := by
  induction d generalizing q c js with
  | nil => exact ⟨q, rfl, by simpa using h⟩
  | cons p d ih =>
    obtain ⟨k, v⟩ := p
    obtain ⟨t, ht, hpc⟩ := table_string a.regex
    obtain ⟨h1, h2⟩ := hd _ (List.mem_cons_self ..)
    obtain ⟨q', e, hq'⟩ := ih (fun p hp => hd p (List.mem_cons_of_mem _ hp))
      (h.step (hpc h1 h2 hf) (selects_place re a.regex (flagsStr a.flags) v (.field k)))
    rw [List.append_assoc] at hq'
    refine ⟨q', ?_, hq'.congr fun l => ?_⟩
    · rw [addStrings, addKey_ok ht]; exact e
    · simp only [List.forall_mem_cons, and_assoc]

theorem addString_ok {K : Kind} {re : Regex} {a : FindArgs} (hf : a.regex = true → Plain (flagsStr a.flags))
    {abs : Bool} {is js : List Instr} {ks : List Kw} (hk : ∀ k ∈ ks, KwOk K k) {q : Str} {c : Loc → Prop}
    (h : Keeps re abs is js q c) : ∃ q', addString K.xp a ks q = .ok q' ∧
      Keeps re abs is (js ++ (ks.filter Kw.isString).flatMap (kwInstrs K a.regex (flagsStr a.flags))) q' fun l => c l ∧
        ∀ k ∈ ks, k.isString = true → KwHolds K.place (testOf re a.regex (flagsStr a.flags)) l.node k := by
  induction ks generalizing q c js with
  | nil => exact ⟨q, rfl, by simpa using h⟩
  | cons k ks ih =>
    have hks := fun x hx => hk x (List.mem_cons_of_mem _ hx)
    have h0 := hk k (List.mem_cons_self ..)
    cases k with
    | string d =>
      obtain ⟨rfl, hd⟩ := h0
      obtain ⟨q1, e1, h1⟩ := addStrings_ok hf hd h
      obtain ⟨q2, e2, h2⟩ := ih hks h1
      rw [List.append_assoc] at h2
      refine ⟨q2, ?_, h2.congr fun l => ?_⟩
      · rw [addString]
        show (addStrings entryXp a d q).bind _ = _
        rw [e1]; exact e2
      · simp only [List.forall_mem_cons, and_assoc]
        simp [Kw.isString, KwHolds]
    | attr key v =>
      obtain ⟨q2, e2, h2⟩ := ih hks h
      exact ⟨q2, e2, h2.congr fun l => by simp [Kw.isString]⟩
    | uuid b =>
      obtain ⟨q2, e2, h2⟩ := ih hks h
      exact ⟨q2, e2, h2.congr fun l => by simp [Kw.isString]⟩
    | tags ts =>
      obtain ⟨q2, e2, h2⟩ := ih hks h
      exact ⟨q2, e2, h2.congr fun l => by simp [Kw.isString]⟩

theorem addKws_ok {K : Kind} {re : Regex} {a : FindArgs} (hf : a.regex = true → Plain (flagsStr a.flags))
    {abs : Bool} {is js : List Instr} {ks : List Kw} (hk : ∀ k ∈ ks, KwOk K k) {q : Str} {c : Loc → Prop}
    (h : Keeps re abs is js q c) : ∃ q', addKws K.xp a ks q = .ok q' ∧
      Keeps re abs is (js ++ (ks.filter fun k => !k.isString).flatMap (kwInstrs K a.regex (flagsStr a.flags))) q' fun l => c l ∧
        ∀ k ∈ ks, k.isString = false → KwHolds K.place (testOf re a.regex (flagsStr a.flags)) l.node k := by
  induction ks generalizing q c js with
  | nil => exact ⟨q, rfl, by simpa using h⟩
  | cons k ks ih =>
    have hks := fun x hx => hk x (List.mem_cons_of_mem _ hx)
    have h0 := hk k (List.mem_cons_self ..)
    cases k with
    | string d =>
      obtain ⟨q2, e2, h2⟩ := ih hks h
      exact ⟨q2, e2, h2.congr fun l => by simp [Kw.isString]⟩
    | attr key v =>
      cases v with
      | none =>
        obtain ⟨p, hp⟩ := Option.isSome_iff_exists.mp h0
        obtain ⟨t, ht, _⟩ := table_attr (rg := a.regex) hp
        obtain ⟨q2, e2, h2⟩ := ih hks h
        refine ⟨q2, ?_, h2.congr fun l => by simp [Kw.isString, KwHolds]⟩
        rw [addKws, if_neg (by rw [ht]; simp)]; exact e2
      | some v =>
        obtain ⟨hpl, hv⟩ := h0
        obtain ⟨p, hp⟩ := Option.isSome_iff_exists.mp hpl
        obtain ⟨t, ht, hpc⟩ := table_attr (rg := a.regex) hp
        obtain ⟨q2, e2, h2⟩ := ih hks (h.step (hpc hv hf) (selects_place re a.regex (flagsStr a.flags) v p))
        rw [List.append_assoc] at h2
        have ei : kwInstrs K a.regex (flagsStr a.flags) (.attr key (some v)) = placeInstrs a.regex (flagsStr a.flags) v p := by
          simp only [kwInstrs, hp]
        refine ⟨q2, ?_, ?_⟩
        · rw [addKws, addKey_ok ht]; exact e2
        · rw [show ((Kw.attr key (some v) :: ks).filter fun k => !k.isString) =
            .attr key (some v) :: ks.filter fun k => !k.isString from rfl, List.flatMap_cons, ei]
          refine h2.congr fun l => ?_
          simp [and_assoc, Kw.isString, KwHolds, hp]
    | uuid b =>
      have hK : K ≠ .attachment := h0
      obtain ⟨t, ht, hpc⟩ := table_uuid hK a.regex
      obtain ⟨q2, e2, h2⟩ := ih hks (h.step (hpc (b64_plain b) hf)
        (selects_place re a.regex (flagsStr a.flags) (b64encode b) (.sub ["UUID".toList])))
      rw [List.append_assoc] at h2
      refine ⟨q2, ?_, h2.congr fun l => ?_⟩
      · rw [addKws, addKey_ok ht]; exact e2
      · simp [and_assoc, Kw.isString, KwHolds]
    | tags ts =>
      obtain ⟨rfl, hne, hp⟩ := h0
      obtain ⟨q2, e2, h2⟩ := ih hks (h.step (piece_tags hne hp (flagsStr a.flags)) (selects_tags re hne))
      rw [List.append_assoc] at h2
      refine ⟨q2, ?_, h2.congr fun l => ?_⟩
      · rw [addKws, addKey_ok (xp := Kind.entry.xp) (table_tags a.regex)]; exact e2
      · simp [and_assoc, Kw.isString, KwHolds]

theorem safe_kw {K : Kind} {re : Regex} {rg : Bool} {fl : Str} {k : Kw} (hk : KwOk K k)
    (hc : KwCompiles re rg fl k) : Safe re (kwInstrs K rg fl k) := by
  cases k with
  | attr key v =>
    cases v with
    | none => intro e he; cases he
    | some v =>
      cases hp : K.place key with
      | none => intro e he; simp only [kwInstrs, hp] at he; cases he
      | some p => intro e he; simp only [kwInstrs, hp] at he; exact safe_place hc p e he
  | uuid b => exact safe_place (v := b64encode b) hc (.sub ["UUID".toList])
  | tags ts => exact safe_tags re hk.2.1
  | string d =>
    intro e he
    obtain ⟨p, hp, he⟩ := List.mem_flatMap.mp he
    exact safe_place (hc p hp) _ e he

/-! ## The beginning of a query -/

/-- The steps at the beginning of a query. -/
def preInstrs (K : Kind) (recursive history : Bool) : List Instr :=
  (if recursive then .desc K.tag else .child K.tag) ::
    if history then [] else [.filter (.notAncestor "History".toList)]

def dotted (tree : Bool) : Str := if tree then ['.'] else []

def histText (history : Bool) : Str := if history then [] else "[not(ancestor::History)]".toList

theorem reads_pre (K : Kind) (tree recursive history : Bool) :
    Reads (dotted tree ++ (preText K recursive ++ histText history)) (!tree) (preInstrs K recursive history) := by
  have key : ∀ l : Lex, l = lexRun ⟨.normal, []⟩ (dotted tree ++ (preText K recursive ++ histText history)) →
      (match l.mode with | .normal => true | .name _ => true | _ => false) = true →
      pathRun ⟨.start, false, []⟩ (flush l) = .ok ⟨.step, !tree, preInstrs K recursive history⟩ →
      XmlText (dotted tree ++ (preText K recursive ++ histText history)) →
      Reads (dotted tree ++ (preText K recursive ++ histText history)) (!tree) (preInstrs K recursive history) := by
    intro l hl hc hp hx
    refine ⟨hx, l, hl.symm, ?_, hp⟩
    unfold Clean
    cases hm : l.mode with
    | normal => exact Or.inl rfl
    | name n => exact Or.inr ⟨n, rfl⟩
    | _ => rw [hm] at hc; cases hc
  revert key
  cases K <;> cases tree <;> cases recursive <;> cases history <;> intro key <;>
    exact key _ rfl (by decide +kernel) (by decide +kernel) (by decide +kernel)

/-! ## Places and the specification -/

theorem below_locs {w : Node} (hw : World w) {g : Loc} (hg : g ∈ allLocs w) {l : Loc} (hl : l ∈ allLocs w) :
    (∃ k ∈ g.node.kids, l ∈ locs (g.node :: g.anc) k) ↔ Below g.node l.node := by
  constructor
  · rintro ⟨k, hk, h⟩
    refine List.mem_flatMap.mpr ⟨k, hk, ?_⟩
    rw [← locs_nodes k (g.node :: g.anc)]
    exact List.mem_map_of_mem h
  · intro h
    obtain ⟨k, hk, hx⟩ := List.mem_flatMap.mp h
    obtain ⟨m, hm, e⟩ := mem_nodes_loc (g.node :: g.anc) hx
    have hm' : m ∈ allLocs w := allLocs_sub (allLocs_kid hg hk) hm
    rw [allLocs_inj hw hl hm' (by rw [e])]
    exact ⟨k, hk, hm⟩

theorem kid_locs {w : Node} (hw : World w) {g : Loc} (hg : g ∈ allLocs w) {l : Loc} (hl : l ∈ allLocs w) :
    (∃ k ∈ g.node.kids, l = ⟨k, g.node :: g.anc⟩) ↔ l.node ∈ g.node.kids := by
  constructor
  · rintro ⟨k, hk, rfl⟩; exact hk
  · intro h
    exact ⟨l.node, h, allLocs_inj hw hl (allLocs_kid hg h) rfl⟩

/-- Ancestors of a place are the elements it is below. -/
theorem anc_below {w : Node} (hw : World w) {l : Loc} (hl : l ∈ allLocs w) {g : Loc} (hg : g ∈ allLocs w) :
    g.node ∈ l.anc ↔ Below g.node l.node := by
  constructor
  · intro h
    rcases mem_allLocs.mp hl with h1 | ⟨t, _, h1⟩
    all_goals
      obtain ⟨r, e, hr⟩ := locs_anc h1
      rw [List.append_nil] at e
      exact (hr _ (e ▸ h)).2
  · intro h
    rcases mem_allLocs.mp hg with h1 | ⟨t, ht, h1⟩
    · obtain ⟨m, hm, e, ha⟩ := locs_below h1 h
      rw [allLocs_inj hw hl (mem_allLocs.mpr (Or.inl hm)) (by rw [e])]
      exact ha
    · obtain ⟨m, hm, e, ha⟩ := locs_below h1 h
      rw [allLocs_inj hw hl (mem_allLocs.mpr (Or.inr ⟨t, ht, hm⟩)) (by rw [e])]
      exact ha

/-- Every ancestor of a place is at a place. -/
theorem anc_loc {w : Node} {l : Loc} (hl : l ∈ allLocs w) {p : Node} (hp : p ∈ l.anc) :
    ∃ r, (⟨p, r⟩ : Loc) ∈ allLocs w := by
  obtain ⟨n, anc⟩ := l
  simp only at hp
  induction anc generalizing n with
  | nil => cases hp
  | cons q r ih =>
    have := (allLocs_parent hl (p := q) (r := r) rfl).1
    rcases List.mem_cons.mp hp with rfl | hp
    · exact ⟨r, this⟩
    · exact ih q this hp

theorem world_nodes {w : Node} : ∀ {x : Node}, x ∈ w.nodes → x = w ∨ x ∈ w.kids.flatMap Node.nodes := by
  intro x hx
  rw [Node.nodes_eq] at hx
  exact List.mem_cons.mp hx

theorem history_iff {w : Node} (hw : World w) {l : Loc} (hl : l ∈ allLocs w) :
    (l.anc.all fun p => p.tag != "History".toList) = true ↔ ¬ InHistory w l.node := by
  rw [List.all_eq_true]
  constructor
  · rintro h ⟨p, hp, ht, hb⟩
    rcases world_nodes hp with rfl | hp
    · rw [hw.tag] at ht; exact absurd ht (by decide)
    · obtain ⟨g, hg, rfl⟩ := node_allLocs hp
      have := h _ ((anc_below hw hl hg).mpr hb)
      rw [ht] at this
      exact absurd this (by decide)
  · intro h p hp
    obtain ⟨r, hr⟩ := anc_loc hl hp
    rw [bne_iff_ne]
    intro ht
    refine h ⟨p, ?_, ht, (anc_below hw hl hr).mp hp⟩
    rcases mem_allLocs.mp hr with h1 | ⟨t, ht', h1⟩
    · have := List.mem_map_of_mem (f := Loc.node) h1
      rw [locs_nodes, Node.nodes_eq] at this
      rcases List.mem_cons.mp this with h2 | h2
      · simp only at h2
        rw [h2] at ht; exact absurd ht (by simp [docNode, Node.tag])
      · obtain ⟨k, hk, h3⟩ := List.mem_flatMap.mp h2
        rw [Node.nodes_eq]
        exact List.mem_cons_of_mem _ (List.mem_flatMap.mpr ⟨k, List.mem_of_mem_take hk, h3⟩)
    · have := List.mem_map_of_mem (f := Loc.node) h1
      rw [locs_nodes] at this
      rw [Node.nodes_eq]
      exact List.mem_cons_of_mem _ (List.mem_flatMap.mpr ⟨t, List.mem_of_mem_drop ht', this⟩)

/-- The part of the world the first step of a query reaches. -/
theorem scope_iff {re : Regex} {w : Node} (hw : World w) (tree : Option Nat) (h0 : tree ≠ some 0)
    (recursive : Bool) (T : Str) :
    ∃ R, Instr.eval re (if recursive then .desc T else .child T) (startLocs w tree (!tree.isSome)) = .ok R ∧
      ∀ l, l ∈ R ↔ l ∈ allLocs w ∧ l.node.tag = T ∧ InScope w recursive tree l.node := by
  have hdoc := docNode_mem w
  have hhead : ∀ x, x ∈ (docNode w).kids ↔ some x = w.kids.head? := by
    intro x
    show x ∈ w.kids.take 1 ↔ _
    cases w.kids with
    | nil => simp
    | cons k ks => simp
  have hwn : ∀ g : Loc, g ∈ allLocs w → g.node.id ≠ 0 → g.node ∈ w.nodes := fun g hg h0 =>
    (allLocs_node hg).resolve_left h0
  cases tree with
  | none =>
    cases recursive with
    | true =>
      refine ⟨_, rfl, fun l => ?_⟩
      rw [mem_desc (re := re) rfl]
      simp only [startLocs, Option.isSome_none, Bool.not_false, if_true, List.mem_singleton, exists_eq_left]
      constructor
      · rintro ⟨ht, k, hk, h⟩
        refine ⟨allLocs_sub (allLocs_kid hdoc hk) h, ht, k, ((hhead k).mp hk).symm, ?_⟩
        rw [← locs_nodes k [docNode w]]
        exact List.mem_map_of_mem h
      · rintro ⟨hl, ht, d, hd, hx⟩
        have hk := (hhead d).mpr hd.symm
        refine ⟨ht, (below_locs hw hdoc hl).mpr (List.mem_flatMap.mpr ⟨d, hk, hx⟩)⟩
    | false =>
      refine ⟨_, rfl, fun l => ?_⟩
      rw [mem_child (re := re) rfl]
      simp only [startLocs, Option.isSome_none, Bool.not_false, if_true, List.mem_singleton, exists_eq_left]
      constructor
      · rintro ⟨ht, k, hk, rfl⟩
        exact ⟨allLocs_kid hdoc hk, ht, (hhead k).mp hk⟩
      · rintro ⟨hl, ht, hx⟩
        exact ⟨ht, (kid_locs hw hdoc hl).mpr ((hhead _).mpr hx)⟩
  | some g =>
    have hs : startLocs w (some g) (!(some g).isSome) = (locOf w g).toList := rfl
    rw [hs]
    have hin : ∀ l ∈ (locOf w g).toList, l ∈ allLocs w ∧ l.node.id = g := fun l hl =>
      locOf_some (Option.mem_toList.mp hl)
    have h0 : g ≠ 0 := fun h => h0 (by rw [h])
    have hfind : ∀ n ∈ w.nodes, n.id = g → ∃ l ∈ (locOf w g).toList, l.node = n := by
      intro n hn hi
      rcases world_nodes hn with rfl | hn
      · exact absurd (hi ▸ hw.id) h0
      · obtain ⟨l, hl, rfl⟩ := node_allLocs hn
        exact ⟨l, Option.mem_toList.mpr (hi ▸ locOf_mem hw hl), rfl⟩
    cases recursive with
    | true =>
      refine ⟨_, rfl, fun l => ?_⟩
      rw [mem_desc (re := re) rfl]
      constructor
      · rintro ⟨m, hm, ht, k, hk, h⟩
        obtain ⟨h1, h2⟩ := hin m hm
        have hl := allLocs_sub (allLocs_kid h1 hk) h
        exact ⟨hl, ht, m.node, hwn m h1 (by rw [h2]; exact h0), h2, (below_locs hw h1 hl).mp ⟨k, hk, h⟩⟩
      · rintro ⟨hl, ht, n, hn, hi, hb⟩
        obtain ⟨m, hm, rfl⟩ := hfind n hn hi
        exact ⟨m, hm, ht, (below_locs hw (hin m hm).1 hl).mpr hb⟩
    | false =>
      refine ⟨_, rfl, fun l => ?_⟩
      rw [mem_child (re := re) rfl]
      constructor
      · rintro ⟨m, hm, ht, k, hk, rfl⟩
        obtain ⟨h1, h2⟩ := hin m hm
        exact ⟨allLocs_kid h1 hk, ht, m.node, hwn m h1 (by rw [h2]; exact h0), h2, hk⟩
      · rintro ⟨hl, ht, n, hn, hi, hb⟩
        obtain ⟨m, hm, rfl⟩ := hfind n hn hi
        exact ⟨m, hm, ht, (kid_locs hw (hin m hm).1 hl).mpr hb⟩

/-! ## The search -/

theorem preText_eq (K : Kind) (recursive history : Bool) :
    (if history then preText K recursive else preText K recursive ++ "[not(ancestor::History)]".toList) =
      preText K recursive ++ histText history := by
  cases history <;> simp [histText]

/-- The whole path of a search. -/
def searchInstrs (K : Kind) (recursive : Bool) (a : FindArgs) : List Instr :=
  preInstrs K recursive a.history ++
    ((a.kwargs.filter Kw.isString).flatMap (kwInstrs K a.regex (flagsStr a.flags)) ++
      (a.kwargs.filter fun k => !k.isString).flatMap (kwInstrs K a.regex (flagsStr a.flags)))

/-- How the query text of a search is read. -/
theorem search_keeps {K : Kind} (re : Regex) {a : FindArgs} (recursive : Bool)
    (hp : a.path = none) (hf : a.regex = true → Plain (flagsStr a.flags))
    (hk : ∀ k ∈ a.kwargs, KwOk K k) :
    ∃ q, buildQuery (preText K recursive) K.xp a = .ok q ∧
      Reads q (!a.tree.isSome) (searchInstrs K recursive a) ∧
      Selects re ((a.kwargs.filter Kw.isString).flatMap (kwInstrs K a.regex (flagsStr a.flags)) ++
        (a.kwargs.filter fun k => !k.isString).flatMap (kwInstrs K a.regex (flagsStr a.flags)))
        fun l => ∀ k ∈ a.kwargs, KwHolds K.place (testOf re a.regex (flagsStr a.flags)) l.node k := by
  have hpre := reads_pre K a.tree.isSome recursive a.history
  have hkeep : Keeps re (!a.tree.isSome) (preInstrs K recursive a.history) []
      (dotted a.tree.isSome ++ (preText K recursive ++ histText a.history)) fun _ => True :=
    ⟨by rw [List.append_nil]; exact hpre, selects_nil re⟩
  obtain ⟨q1, e1, h1⟩ := addString_ok hf hk hkeep
  obtain ⟨q2, e2, h2⟩ := addKws_ok hf hk h1
  obtain ⟨hr, hsel⟩ := h2
  refine ⟨q2, ?_, hr, hsel.congr fun l => ?_⟩
  · unfold buildQuery
    simp only [hp, preText_eq]
    show (addString K.xp a a.kwargs (dotted a.tree.isSome ++ (preText K recursive ++ histText a.history))).bind _ = _
    rw [e1]; exact e2
  · constructor
    · rintro ⟨⟨_, hs1⟩, hs2⟩ k hk
      cases hks : k.isString with
      | true => exact hs1 k hk hks
      | false => exact hs2 k hk hks
    · intro hfil
      exact ⟨⟨trivial, fun k hk _ => hfil k hk⟩, fun k hk _ => hfil k hk⟩

/-- The elements a search reaches, before the casts. -/
theorem search_locs {K : Kind} {re : Regex} {w : Node} (hw : World w) {a : FindArgs} (recursive : Bool)
    (hp : a.path = none) (h0 : a.tree ≠ some 0) (hf : a.regex = true → Plain (flagsStr a.flags))
    (hk : ∀ k ∈ a.kwargs, KwOk K k) :
    ∃ q, buildQuery (preText K recursive) K.xp a = .ok q ∧
      ((∀ k ∈ a.kwargs, KwCompiles re a.regex (flagsStr a.flags) k) → ∃ S, query re w a.tree q = .ok S) ∧
      ∀ S, query re w a.tree q = .ok S → S.Sublist (allLocs w) ∧
        ∀ l, l ∈ S ↔ l ∈ allLocs w ∧ Matches K.tag K.place re w recursive a l.node := by
  obtain ⟨q, hb, hr, hsel⟩ := search_keeps re recursive hp hf hk
  refine ⟨q, hb, ?_⟩
  obtain ⟨R0, hR0, hm0⟩ := scope_iff (re := re) hw a.tree h0 recursive K.tag
  -- the history condition
  have hhist : ∃ R1, evalInstrs re (preInstrs K recursive a.history) (startLocs w a.tree (!a.tree.isSome)) = .ok R1 ∧
      ∀ l, l ∈ R1 ↔ l ∈ R0 ∧ (a.history = false → ¬ InHistory w l.node) := by
    unfold preInstrs
    rw [evalInstrs, hR0]
    show ∃ R1, evalInstrs re _ R0 = .ok R1 ∧ _
    cases hh : a.history with
    | true => exact ⟨R0, rfl, fun l => by simp⟩
    | false =>
      refine ⟨R0.filter fun l => l.anc.all fun p => p.tag != "History".toList, ?_, fun l => ?_⟩
      · show (filterE _ R0).bind _ = _
        rw [filterE_ok (p := fun l => Ex.eval re l (Ex.notAncestor "History".toList))
          (q := fun l => l.anc.all fun p => p.tag != "History".toList) fun l _ => rfl]
        rfl
      · rw [List.mem_filter]
        constructor
        · rintro ⟨h1, h2⟩
          exact ⟨h1, fun _ => (history_iff hw ((hm0 l).mp h1).1).mp h2⟩
        · rintro ⟨h1, h2⟩
          exact ⟨h1, (history_iff hw ((hm0 l).mp h1).1).mpr (h2 rfl)⟩
  obtain ⟨R1, hR1, hm1⟩ := hhist
  constructor
  · intro hc
    have hsafe : Safe re ((a.kwargs.filter Kw.isString).flatMap (kwInstrs K a.regex (flagsStr a.flags)) ++
        (a.kwargs.filter fun k => !k.isString).flatMap (kwInstrs K a.regex (flagsStr a.flags))) := by
      have : ∀ ks : List Kw, (∀ k ∈ ks, k ∈ a.kwargs) → Safe re (ks.flatMap (kwInstrs K a.regex (flagsStr a.flags))) := by
        intro ks hks e he
        obtain ⟨k, hk', he⟩ := List.mem_flatMap.mp he
        exact safe_kw (hk k (hks k hk')) (hc k (hks k hk')) e he
      exact (this _ fun k hk => (List.mem_filter.mp hk).1).append (this _ fun k hk => (List.mem_filter.mp hk).1)
    obtain ⟨R2, hR2⟩ := total_of hsafe R1
    obtain ⟨S, hS, _⟩ := query_ok (p := ⟨!a.tree.isSome, searchInstrs K recursive a⟩) (R := R2) hw hr.parse (by
      show evalInstrs re (searchInstrs K recursive a) _ = _
      unfold searchInstrs
      rw [evalInstrs_append, hR1]; exact hR2)
    exact ⟨S, hS⟩
  · intro S hS
    have hS' := hS
    rw [query_eq, hr.parse] at hS'
    have hS' : (evalInstrs re (searchInstrs K recursive a) (startLocs w a.tree (!a.tree.isSome))).bind _ = .ok S := hS'
    cases hev : evalInstrs re (searchInstrs K recursive a) (startLocs w a.tree (!a.tree.isSome)) with
    | error e => rw [hev] at hS'; cases hS'
    | ok R2 =>
      obtain ⟨M, h1, h2⟩ := evalInstrs_append_ok (is := preInstrs K recursive a.history) hev
      rw [hR1] at h1
      cases h1
      have hm2 := hsel R1 R2 h2
      obtain ⟨S', hS'', hsub, hmS⟩ := query_ok (p := ⟨!a.tree.isSome, searchInstrs K recursive a⟩) hw hr.parse hev
      rw [hS] at hS''
      cases hS''
      refine ⟨hsub, fun l => ?_⟩
      rw [hmS, hm2, hm1, hm0]
      constructor
      · rintro ⟨_, ⟨⟨hl, ht, hsc⟩, hh⟩, hfil⟩
        exact ⟨hl, hsc, ht, hh, hfil⟩
      · rintro ⟨hl, hsc, ht, hh, hfil⟩
        exact ⟨loc_pos hw hl (by rw [ht]; cases K <;> decide), ⟨⟨hl, ht, hsc⟩, hh⟩, hfil⟩

theorem castAll_ok {S : List Loc} (h : ∀ l ∈ S, castOk l = .ok ()) : castAll S = .ok () := by
  induction S with
  | nil => rfl
  | cons l S ih =>
    rw [castAll, h l (List.mem_cons_self ..)]
    exact ih fun m hm => h m (List.mem_cons_of_mem _ hm)

/-- The ids of a search result. -/
theorem search_ids {K : Kind} {re : Regex} {w : Node} (hw : World w) {a : FindArgs} {recursive : Bool}
    {S : List Loc} (hsub : S.Sublist (allLocs w))
    (hm : ∀ l, l ∈ S ↔ l ∈ allLocs w ∧ Matches K.tag K.place re w recursive a l.node) :
    (S.map fun l => l.node.id).Sublist w.ids ∧
      ∀ i, (i ∈ S.map fun l => l.node.id) ↔ ∃ x ∈ w.nodes, x.id = i ∧ Matches K.tag K.place re w recursive a x := by
  have hT : K.tag ≠ [] := by cases K <;> decide
  refine ⟨?_, fun i => ?_⟩
  · rw [← allLocs_ids hw.id]; exact hsub.map _
  · rw [List.mem_map]
    constructor
    · rintro ⟨l, hl, rfl⟩
      obtain ⟨h1, h2⟩ := (hm l).mp hl
      refine ⟨l.node, ?_, rfl, h2⟩
      rcases mem_allLocs.mp h1 with h3 | ⟨t, ht', h3⟩
      · have := List.mem_map_of_mem (f := Loc.node) h3
        rw [locs_nodes, Node.nodes_eq] at this
        rcases List.mem_cons.mp this with h4 | h4
        · have ht := h2.tag
          rw [h4] at ht; exact absurd ht.symm hT
        · obtain ⟨k, hk, h5⟩ := List.mem_flatMap.mp h4
          rw [Node.nodes_eq]
          exact List.mem_cons_of_mem _ (List.mem_flatMap.mpr ⟨k, List.mem_of_mem_take hk, h5⟩)
      · have := List.mem_map_of_mem (f := Loc.node) h3
        rw [locs_nodes] at this
        rw [Node.nodes_eq]
        exact List.mem_cons_of_mem _ (List.mem_flatMap.mpr ⟨t, List.mem_of_mem_drop ht', this⟩)
    · rintro ⟨x, hx, rfl, h2⟩
      rcases world_nodes hx with rfl | hx
      · have ht := h2.tag
        rw [hw.tag] at ht; exact absurd ht.symm hT
      · obtain ⟨l, hl, rfl⟩ := node_allLocs hx
        exact ⟨l, (hm l).mpr ⟨hl, h2⟩, rfl⟩

/-- The list or its head, as `first` asks. -/
def result (first : Bool) (is : List Nat) : Found := if first then .one is.head? else .list is

/-- A search that returns, returns exactly the matching elements, in document order, without
duplicates, for every engine. -/
theorem find_partial {K : Kind} {re : Regex} {w : Node} (hw : World w) {a : FindArgs} {recursive : Bool}
    (hp : a.path = none) (h0 : a.tree ≠ some 0) (hf : a.regex = true → Plain (flagsStr a.flags))
    (hk : ∀ k ∈ a.kwargs, KwOk K k) {r : Found} (hr : find re w (preText K recursive) K.xp a = .ok r) :
    ∃ is, r = result a.first is ∧
      is.Sublist w.ids ∧ ∀ i, i ∈ is ↔ ∃ x ∈ w.nodes, x.id = i ∧ Matches K.tag K.place re w recursive a x := by
  obtain ⟨q, hb, _, hS⟩ := search_locs (re := re) hw recursive hp h0 hf hk
  unfold find at hr
  rw [hb] at hr
  have hr : (query re w a.tree q).bind _ = _ := hr
  cases hq : query re w a.tree q with
  | error e => rw [hq] at hr; cases hr
  | ok S =>
    rw [hq] at hr
    have hr : (castAll S).bind _ = _ := hr
    obtain ⟨hsub, hm⟩ := hS S hq
    obtain ⟨h1, h2⟩ := search_ids hw hsub hm
    refine ⟨_, ?_, h1, h2⟩
    cases hc : castAll S with
    | error e => rw [hc] at hr; cases hr
    | ok u =>
      rw [hc] at hr
      simp only [hp] at hr
      injection hr with hr
      rw [← hr]
      unfold result
      cases a.first <;> rfl

/-- A search whose patterns compile and whose matches can be cast returns. -/
theorem find_ok {K : Kind} {re : Regex} {w : Node} (hw : World w) {a : FindArgs} {recursive : Bool}
    (hp : a.path = none) (h0 : a.tree ≠ some 0) (hf : a.regex = true → Plain (flagsStr a.flags))
    (hk : ∀ k ∈ a.kwargs, KwOk K k) (hc : ∀ k ∈ a.kwargs, KwCompiles re a.regex (flagsStr a.flags) k)
    (hcast : ∀ l ∈ allLocs w, Matches K.tag K.place re w recursive a l.node → castOk l = .ok ()) :
    ∃ r, find re w (preText K recursive) K.xp a = .ok r := by
  obtain ⟨q, hb, ht, hS⟩ := search_locs (re := re) hw recursive hp h0 hf hk
  obtain ⟨S, hq⟩ := ht hc
  obtain ⟨_, hm⟩ := hS S hq
  unfold find
  rw [hb]
  show ∃ r, (query re w a.tree q).bind _ = _
  rw [hq]
  show ∃ r, (castAll S).bind _ = _
  rw [castAll_ok fun l hl => hcast l ((hm l).mp hl).1 ((hm l).mp hl).2]
  exact ⟨_, rfl⟩

/-- A part of a list without duplicates is the list without the elements that are not in the part. -/
theorem sublist_filter_self {L c : List Nat} (hL : L.Nodup) (hc : c.Sublist L) : c = L.filter fun i => c.contains i := by
  induction hc with
  | slnil => rfl
  | cons x hc ih =>
    rename_i l1 l2
    rw [List.nodup_cons] at hL
    have hx : x ∉ l1 := fun hx => hL.1 (hc.subset hx)
    rw [List.filter_cons, if_neg (by simpa using hx)]
    exact ih hL.2
  | cons_cons x hc ih =>
    rename_i l1 l2
    rw [List.nodup_cons] at hL
    rw [List.filter_cons, if_pos (by simp)]
    congr 1
    rw [ih hL.2]
    apply List.filter_congr
    intro i hi
    have hne : i ≠ x := fun h => hL.1 (h ▸ hi)
    rw [← ih hL.2]
    simp [hne]

/-- A part that is contained in another part is a part of it. -/
theorem sublist_filter {L as bs : List Nat} (hL : L.Nodup) (hb : bs.Sublist L) (ha : as.Sublist L)
    (h : ∀ i ∈ as, i ∈ bs) : as = bs.filter fun i => as.contains i := by
  have : (bs.filter fun i => as.contains i) = L.filter fun i => as.contains i := by
    rw [sublist_filter_self hL hb, List.filter_filter]
    apply List.filter_congr
    intro i _
    cases hi : as.contains i with
    | false => simp
    | true => simpa using h i (by simpa using hi)
  rw [this]
  exact sublist_filter_self hL ha

/-- Parts of a list without duplicates are determined by their members. -/
theorem sublist_unique {L a b : List Nat} (hL : L.Nodup) (ha : a.Sublist L) (hb : b.Sublist L)
    (h : ∀ i, i ∈ a ↔ i ∈ b) : a = b := by
  rw [sublist_filter_self hL ha, sublist_filter_self hL hb]
  apply List.filter_congr
  intro i _
  rw [Bool.eq_iff_iff, List.contains_iff_mem, List.contains_iff_mem]
  exact h i

end Verif.XPath
