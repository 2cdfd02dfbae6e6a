import Verif.Tree.XmlText
/-!
# XML text as lxml writes it for people

`etree.tostring(..., pretty_print=True)` (pykeepass.py:303-314, baseelement.py:64-65), read back by
the parser of `XmlText`.  libxml2 puts every child on a line of its own unless the element has text;
inside an element with text nothing is added at any depth.
-/
namespace Verif
namespace Xml

/-- A character of a text: with `encoding='utf-8'` only markup and `\r` are escaped, otherwise the
output is ASCII. -/
def outChar (utf : Bool) (c : Char) : Str := if utf = true ∧ 128 ≤ c.toNat then [c] else escTextChar c

/-- A character of an attribute. -/
def outAttrChar (utf : Bool) (c : Char) : Str := if utf = true ∧ 128 ≤ c.toNat then [c] else escAttrChar c

def outText (utf : Bool) (s : Str) : Str := s.flatMap (outChar utf)
def outAttr (utf : Bool) (s : Str) : Str := s.flatMap (outAttrChar utf)

/-- ` name="value"` for each attribute. -/
def outAttrs (utf : Bool) : List (Str × Str) → Str
  | [] => []
  | (n, v) :: as => ' ' :: (n ++ '=' :: '"' :: (outAttr utf v ++ '"' :: outAttrs utf as))

/-- A new line at that depth: two blanks per level, at most sixty. -/
def newLine (fmt : Bool) (depth : Nat) : Str :=
  if fmt then '\n' :: List.replicate (2 * min depth 30) ' ' else []

mutual
/-- `etree.tostring` of an element at that depth; `fmt` is `pretty_print`. -/
def pretty (utf fmt : Bool) (depth : Nat) : Xml → Str
  | mk t a x ks =>
    '<' :: (t ++ (outAttrs utf a ++
      if x = none ∧ ks.isEmpty = true then "/>".toList
      else '>' :: (outText utf (x.getD []) ++ (prettyList utf (fmt && x.isNone) (depth + 1) ks ++
        (newLine (fmt && x.isNone && !ks.isEmpty) depth ++ '<' :: '/' :: (t ++ ['>']))))))
/-- Its children, each on a new line. -/
def prettyList (utf fmt : Bool) (depth : Nat) : List Xml → Str
  | [] => []
  | k :: ks => newLine fmt depth ++ (pretty utf fmt depth k ++ prettyList utf fmt depth ks)
end

/-- The XML declaration lxml writes for `standalone=True, encoding='utf-8'`. -/
def declaration : Str := "<?xml version='1.0' encoding='utf-8' standalone='yes'?>\n".toList

/-- `etree.tostring(tree, pretty_print=True, standalone=True, encoding='utf-8')`,
pykeepass.py:309-314. -/
def exportDoc (x : Xml) : Bytes := utf8Enc (declaration ++ (pretty true true 0 x ++ ['\n']))

/-- `etree.tostring(element, pretty_print=...)`, baseelement.py:64-65. -/
def exportElement (fmt : Bool) (x : Xml) : Bytes := utf8Enc (pretty false fmt 0 x ++ if fmt then ['\n'] else [])

/-! ## Reading it back -/

theorem unesc_outChar (utf : Bool) (c : Char) (h : xmlChar c = true) (s : Str) :
    unesc none (outChar utf c ++ s) = (unesc none s).map (c :: ·) := by
  unfold outChar
  split
  · next hc =>
    rw [List.cons_append, List.nil_append, unesc, if_neg]
    rintro rfl
    exact absurd hc.2 (by decide)
  · exact unesc_escTextChar c h s

theorem unesc_outAttrChar (utf : Bool) (c : Char) (h : xmlChar c = true) (s : Str) :
    unesc none (outAttrChar utf c ++ s) = (unesc none s).map (c :: ·) := by
  unfold outAttrChar
  split
  · next hc =>
    rw [List.cons_append, List.nil_append, unesc, if_neg]
    rintro rfl
    exact absurd hc.2 (by decide)
  · exact unesc_escAttrChar c h s

theorem unesc_outText (utf : Bool) (s r : Str) (h : XmlText s) :
    unesc none (outText utf s ++ r) = (unesc none r).map (s ++ ·) := by
  induction s with
  | nil =>
    show unesc none r = _
    cases unesc none r <;> rfl
  | cons c cs ih =>
    show unesc none ((outChar utf c ++ outText utf cs) ++ r) = _
    rw [List.append_assoc, unesc_outChar utf c (h c List.mem_cons_self),
      ih (fun d hd => h d (List.mem_cons_of_mem _ hd))]
    cases unesc none r <;> rfl

theorem unesc_outAttr (utf : Bool) (s : Str) (h : XmlText s) : unesc none (outAttr utf s) = some s := by
  induction s with
  | nil => rfl
  | cons c cs ih =>
    show unesc none (outAttrChar utf c ++ outAttr utf cs) = _
    rw [unesc_outAttrChar utf c (h c List.mem_cons_self),
      ih (fun d hd => h d (List.mem_cons_of_mem _ hd))]
    rfl

theorem outText_no_lt (utf : Bool) (s : Str) : ∀ c ∈ outText utf s, (decide (c ≠ '<')) = true := by
  intro c hc
  obtain ⟨d, _, hd⟩ := List.mem_flatMap.mp hc
  refine decide_eq_true fun e => ?_
  subst e
  unfold outChar at hd
  split at hd
  · next h =>
    rw [List.mem_singleton] at hd
    subst hd
    exact absurd h.2 (by decide)
  · exact lt_not_mem_escTextChar d hd

theorem outAttr_ok (utf : Bool) (v : Str) : (∀ c ∈ outAttr utf v, (decide (c ≠ '"')) = true) ∧
    ((outAttr utf v).map fun c => if c = '\n' ∨ c = '\t' then ' ' else c) = outAttr utf v := by
  have h : ∀ c ∈ outAttr utf v, c ≠ '"' ∧ c ≠ '\n' ∧ c ≠ '\t' := by
    intro c hc
    obtain ⟨d, _, hd⟩ := List.mem_flatMap.mp hc
    unfold outAttrChar at hd
    split at hd
    · next hh =>
      rw [List.mem_singleton] at hd
      subst hd
      refine ⟨?_, ?_, ?_⟩ <;> rintro rfl <;> exact absurd hh.2 (by decide)
    · exact mem_escAttrChar d c hd
  refine ⟨fun c hc => decide_eq_true (h c hc).1, ?_⟩
  refine Eq.trans (List.map_congr_left (g := id) fun c hc => ?_) (List.map_id _)
  rw [if_neg]
  · rfl
  · rintro (e | e)
    · exact (h c hc).2.1 e
    · exact (h c hc).2.2 e

theorem outAttrs_run (utf : Bool) (as : List (Str × Str)) (h : ∀ p ∈ as, isName p.1 = true ∧ XmlText p.2)
    (hn : (as.map Prod.fst).Nodup) (c : Char) (r : Str) (hc : nameStart c = false)
    (hw : isWs c = false) (f : Nat) (hf : (outAttrs utf as).length < f) :
    pAttrs f (outAttrs utf as ++ c :: r) = some (as, c :: r) := by
  induction as generalizing f with
  | nil =>
    cases f with
    | zero => simp at hf
    | succ f =>
      simp only [outAttrs, List.nil_append, pAttrs, skipWs, List.dropWhile_cons, hw,
        Bool.false_eq_true, if_false, hc]
  | cons a as ih =>
    obtain ⟨n, v⟩ := a
    cases f with
    | zero => simp at hf
    | succ f =>
      have h0 := h (n, v) List.mem_cons_self
      obtain ⟨d, ds, hd, hns, hall⟩ := isName_cons h0.1
      simp only at hd hall
      have hsk : skipWs (outAttrs utf ((n, v) :: as) ++ c :: r) =
          n ++ '=' :: '"' :: (outAttr utf v ++ '"' :: (outAttrs utf as ++ c :: r)) := by
        simp only [outAttrs, List.cons_append, List.append_assoc, skipWs, List.dropWhile_cons]
        rw [if_pos (by decide)]
        rw [hd, List.cons_append, List.dropWhile_cons, if_neg (by rw [nameStart_not_ws hns]; simp)]
      have hlen : (outAttrs utf as).length < f := by
        simp only [outAttrs, List.length_cons, List.length_append] at hf
        omega
      have hsp : (n ++ '=' :: '"' :: (outAttr utf v ++ '"' :: (outAttrs utf as ++ c :: r))).span nameChar =
          (n, '=' :: '"' :: (outAttr utf v ++ '"' :: (outAttrs utf as ++ c :: r))) :=
        span_append _ _ hall (fun x xs e => by injection e with e _; subst e; decide)
      have hsp2 : (outAttr utf v ++ '"' :: (outAttrs utf as ++ c :: r)).span (· ≠ '"') =
          (outAttr utf v, '"' :: (outAttrs utf as ++ c :: r)) :=
        span_append _ _ (outAttr_ok utf v).1 (fun x xs e => by injection e with e _; subst e; decide)
      rw [pAttrs]
      simp only [hsk]
      rw [hd, List.cons_append]
      simp only [hns, if_true]
      rw [← List.cons_append, ← hd, hsp]
      simp only [hsp2]
      rw [(outAttr_ok utf v).2, unesc_outAttr utf v h0.2,
        ih (fun p hp => h p (List.mem_cons_of_mem _ hp)) (List.nodup_cons.mp hn).2 f hlen]
      simp only
      rw [if_neg (List.nodup_cons.mp hn).1]

theorem newLine_ws (fmt : Bool) (n : Nat) : ∀ c ∈ newLine fmt n, isWs c = true := by
  intro c hc
  unfold newLine at hc
  split at hc
  · rcases List.mem_cons.mp hc with rfl | hc
    · decide
    · rw [(List.mem_replicate.mp hc).2]
      decide
  · cases hc

theorem skipWs_append {w : Str} (h : ∀ c ∈ w, isWs c = true) (r : Str) : skipWs (w ++ r) = skipWs r := by
  induction w with
  | nil => rfl
  | cons c cs ih =>
    show List.dropWhile isWs (c :: (cs ++ r)) = _
    rw [List.dropWhile_cons, if_pos (h c List.mem_cons_self)]
    exact ih fun d hd => h d (List.mem_cons_of_mem _ hd)

theorem skipWs_lt (r : Str) : skipWs ('<' :: r) = '<' :: r := by
  unfold skipWs
  rw [List.dropWhile_cons, if_neg (by decide)]

theorem pKids_ws {w : Str} (h : ∀ c ∈ w, isWs c = true) (f : Nat) (r : Str) : pKids f (w ++ r) = pKids f r := by
  cases f with
  | zero => rw [pKids, pKids]
  | succ f => rw [pKids, pKids, skipWs_append h]

theorem pretty_head (utf fmt : Bool) (n : Nat) (x : Xml) : ∃ y, pretty utf fmt n x = '<' :: y := by
  obtain ⟨t, a, tx, ks⟩ := x
  exact ⟨_, by rw [pretty]⟩

theorem pretty_head2 (utf fmt : Bool) (n : Nat) {x : Xml} (h : x.Valid) :
    ∃ c y, pretty utf fmt n x = '<' :: c :: y ∧ nameStart c = true := by
  obtain ⟨t, a, tx, ks⟩ := x
  obtain ⟨c, cs, rfl, h1, _⟩ := isName_cons (all_root h).1.1
  exact ⟨c, _, by rw [pretty]; rfl, h1⟩

theorem prettyKids_run (utf fmt : Bool) (n : Nat) (ks : List Xml) (hv : ∀ k ∈ ks, k.Valid)
    (ih : ∀ k ∈ ks, ∀ f r, (pretty utf fmt n k).length ≤ f → pElem f (pretty utf fmt n k ++ r) = some (k.norm, r))
    (w r : Str) (hw : ∀ c ∈ w, isWs c = true) :
    ∀ f, (prettyList utf fmt n ks).length < f →
      pKids f (prettyList utf fmt n ks ++ (w ++ '<' :: '/' :: r)) = some (ks.map norm, '<' :: '/' :: r) := by
  induction ks with
  | nil =>
    intro f hf
    rw [prettyList, List.nil_append, pKids_ws hw]
    cases f with
    | zero => simp at hf
    | succ f =>
      rw [pKids, skipWs_lt]
      rfl
  | cons k ks ihk =>
    intro f hf
    rw [prettyList] at hf ⊢
    rw [List.append_assoc, List.append_assoc, pKids_ws (newLine_ws fmt n)]
    cases f with
    | zero => simp at hf
    | succ f =>
      obtain ⟨c, y, hy, hns⟩ := pretty_head2 utf fmt n (hv k List.mem_cons_self)
      rw [List.length_append, List.length_append] at hf
      have hlen : 2 ≤ (pretty utf fmt n k).length := by rw [hy]; simp
      rw [pKids]
      have hsk : skipWs (pretty utf fmt n k ++ (prettyList utf fmt n ks ++ (w ++ '<' :: '/' :: r))) =
          pretty utf fmt n k ++ (prettyList utf fmt n ks ++ (w ++ '<' :: '/' :: r)) := by
        rw [hy, List.cons_append, skipWs_lt]
      rw [hsk]
      have hrun := ih k List.mem_cons_self f (prettyList utf fmt n ks ++ (w ++ '<' :: '/' :: r)) (by omega)
      have hrest := ihk (fun x hx => hv x (List.mem_cons_of_mem _ hx))
        (fun x hx => ih x (List.mem_cons_of_mem _ hx)) f (by omega)
      have hc : c ≠ '/' := by intro e; subst e; revert hns; decide
      split
      · next r' heq =>
        rw [hy] at heq
        injection heq with _ heq
        injection heq with heq _
        exact absurd heq hc
      · rw [hrun]
        simp only [hrest, List.map_cons]

theorem unesc_ws {w : Str} (h : ∀ c ∈ w, isWs c = true) : unesc none w = some w := by
  induction w with
  | nil => rfl
  | cons c cs ih =>
    rw [unesc, if_neg, ih fun d hd => h d (List.mem_cons_of_mem _ hd)]
    · rfl
    · rintro rfl
      exact absurd (h '&' List.mem_cons_self) (by decide)

theorem pElem_pretty (utf : Bool) (x : Xml) : x.Valid → ∀ fmt n f r, (pretty utf fmt n x).length ≤ f →
    pElem f (pretty utf fmt n x ++ r) = some (x.norm, r) := by
  refine ind (P := fun x => x.Valid → ∀ fmt n f r, (pretty utf fmt n x).length ≤ f →
    pElem f (pretty utf fmt n x ++ r) = some (x.norm, r)) ?_ x
  intro t a tx ks ih hv fmt n f r hf
  obtain ⟨⟨hname, hattrs, hnd, htext, hblank⟩, hk⟩ := all_root hv
  obtain ⟨c, cs, hcs, hns, hall⟩ := isName_cons hname
  rw [pretty] at hf ⊢
  cases f with
  | zero => simp at hf
  | succ f =>
    simp only [List.length_cons, List.length_append] at hf
    simp only [List.cons_append, List.append_assoc]
    rw [pElem]
    have hrest : ∀ (b : Str) (d : Char) (ds : Str), (∀ d ds, b = d :: ds → nameChar d = false) →
        outAttrs utf a ++ b = d :: ds → nameChar d = false := by
      intro b d ds hb e
      cases a with
      | nil => exact hb d ds e
      | cons p ps =>
        obtain ⟨m, v⟩ := p
        rw [outAttrs, List.cons_append] at e
        injection e with e _
        subst e
        decide
    by_cases hempty : tx = none ∧ ks = []
    · obtain ⟨rfl, rfl⟩ := hempty
      have hb : (if (none : Option Str) = none ∧ ([] : List Xml).isEmpty = true then "/>".toList else
          '>' :: (outText utf ((none : Option Str).getD []) ++ (prettyList utf (fmt && (none : Option Str).isNone) (n + 1) [] ++
          (newLine (fmt && (none : Option Str).isNone && !([] : List Xml).isEmpty) n ++ '<' :: '/' :: (t ++ ['>']))))) = ['/', '>'] :=
        if_pos ⟨rfl, rfl⟩
      rw [hb] at hf ⊢
      rw [span_append t _ hall (fun d ds e => hrest _ d ds (fun d ds e => by cases e; decide) e)]
      simp only [hname, if_true]
      rw [List.cons_append, outAttrs_run utf a hattrs hnd '/' _ (by decide) (by decide) f
        (by simp only [List.length_cons] at hf; omega)]
      rw [norm_mk]
      rfl
    · have hne : ¬ (tx = none ∧ ks.isEmpty = true) := fun h => hempty ⟨h.1, List.isEmpty_iff.mp h.2⟩
      rw [if_neg hne] at hf ⊢
      simp only [List.length_cons, List.length_append] at hf
      rw [span_append t _ hall (fun d ds e => hrest _ d ds (fun d ds e => by cases e; decide) e)]
      simp only [hname, if_true]
      rw [List.cons_append, outAttrs_run utf a hattrs hnd '>' _ (by decide) (by decide) f (by omega)]
      simp only [List.append_assoc, List.cons_append, List.nil_append]
      generalize hfm : (fmt && tx.isNone) = fm at hf ⊢
      -- the white space before the first child
      have hw2 := newLine_ws (fm && !ks.isEmpty) n
      have hsplit : ∃ w rest, (∀ c ∈ w, isWs c = true) ∧ (fm = false → w = []) ∧
          prettyList utf fm (n + 1) ks ++ (newLine (fm && !ks.isEmpty) n ++ '<' :: '/' :: (t ++ '>' :: r)) = w ++ '<' :: rest := by
        cases ks with
        | nil =>
          refine ⟨[], '/' :: (t ++ '>' :: r), by simp, fun _ => rfl, ?_⟩
          rw [prettyList]
          have : newLine (fm && !([] : List Xml).isEmpty) n = [] := by
            unfold newLine
            simp
          rw [this]
          rfl
        | cons k ks' =>
          obtain ⟨y, hy⟩ := pretty_head utf fm (n + 1) k
          refine ⟨newLine fm (n + 1), y ++ prettyList utf fm (n + 1) ks' ++
            (newLine (fm && !(k :: ks').isEmpty) n ++ '<' :: '/' :: (t ++ '>' :: r)), newLine_ws fm (n + 1), fun h => by rw [h]; rfl, ?_⟩
          rw [prettyList, hy, List.append_assoc, List.cons_append, List.cons_append]
      obtain ⟨w, rest, hw, hw0, hsp⟩ := hsplit
      have hkk := prettyKids_run utf fm (n + 1) ks hk (fun k hk' => ih k hk' (hk k hk') fm (n + 1))
        (newLine (fm && !ks.isEmpty) n) (t ++ '>' :: r) hw2 f (by omega)
      rw [hsp, pKids_ws hw] at hkk
      rw [hsp, ← List.append_assoc]
      have hspan : ((outText utf (tx.getD []) ++ w) ++ '<' :: rest).span (· ≠ '<') = (outText utf (tx.getD []) ++ w, '<' :: rest) := by
        refine span_append _ _ ?_ (fun d ds e => by cases e; decide)
        intro c hc
        rcases List.mem_append.mp hc with hc | hc
        · exact outText_no_lt utf _ c hc
        · refine decide_eq_true fun e => ?_
          subst e
          exact absurd (hw '<' hc) (by decide)
      rw [hspan]
      have hun : unesc none (outText utf (tx.getD []) ++ w) = some (tx.getD [] ++ w) := by
        rw [unesc_outText utf _ _ ?_, unesc_ws hw]
        · rfl
        · cases tx with
          | none => intro c hc; cases hc
          | some s => exact htext s rfl
      simp only [hun, hkk, dropPrefix?_append]
      have hie : (ks.map norm).isEmpty = ks.isEmpty := by cases ks <;> rfl
      rw [norm_mk, hie]
      cases fm with
      | false =>
        rw [hw0 rfl, List.append_nil, mkText_norm]
        intro hne' s hs
        refine hblank ?_ s hs
        intro e; subst e; cases hne'
      | true =>
        have htx : tx = none := by
          cases tx with
          | none => rfl
          | some s => simp at hfm
        subst htx
        have hks : ks.isEmpty = false := by
          cases hks : ks.isEmpty with
          | false => rfl
          | true => exact absurd ⟨rfl, hks⟩ hne
        rw [hks]
        show some (mk t a (mkText w false) _, r) = _
        have : mkText w false = none := by
          cases w with
          | nil => rfl
          | cons c cs =>
            show (if blank (c :: cs) && !false then none else some (c :: cs)) = none
            rw [if_pos]
            simp only [Bool.not_false, Bool.and_true]
            refine List.all_eq_true.mpr fun d hd => ?_
            exact hw d hd
        rw [this]
        rfl

/-- The exported document reads back as the tree, empty texts as no text. -/
theorem parseDoc_exportDoc (x : Xml) (h : x.Valid) : parseDoc (exportDoc x) = .ok x.norm := by
  unfold parseDoc exportDoc
  rw [utf8Dec_utf8Enc]
  simp only
  have hd : skipWs (skipDecl (declaration ++ (pretty true true 0 x ++ ['\n']))) = pretty true true 0 x ++ ['\n'] := by
    have : skipDecl (declaration ++ (pretty true true 0 x ++ ['\n'])) = '\n' :: (pretty true true 0 x ++ ['\n']) := rfl
    rw [this]
    obtain ⟨y, hy⟩ := pretty_head true true 0 x
    rw [hy]
    exact skipWs_append (w := ['\n']) (by simp [isWs]) _ |>.trans (skipWs_lt _)
  rw [hd, pElem_pretty true x h true 0 _ _ (by simp; omega)]
  rfl

/-- So does an exported element. -/
theorem parseDoc_exportElement (fmt : Bool) (x : Xml) (h : x.Valid) : parseDoc (exportElement fmt x) = .ok x.norm := by
  unfold parseDoc exportElement
  rw [utf8Dec_utf8Enc]
  simp only
  obtain ⟨c, y, hy, hns⟩ := pretty_head2 false fmt 0 h
  have hd : skipWs (skipDecl (pretty false fmt 0 x ++ if fmt then ['\n'] else [])) =
      pretty false fmt 0 x ++ if fmt then ['\n'] else [] := by
    rw [hy, List.cons_append, List.cons_append]
    have : ∀ z, skipDecl ('<' :: c :: z) = '<' :: c :: z := by
      intro z
      unfold skipDecl
      split
      · next r heq =>
        injection heq with _ heq
        injection heq with heq _
        subst heq; exact absurd hns (by decide)
      · rfl
    rw [this, skipWs_lt]
  rw [hd, pElem_pretty false x h fmt 0 _ _ (by simp; omega)]
  cases fmt <;> rfl

/-- Without `pretty_print` the text of an element is that of `ser`. -/
theorem pretty_plain (x : Xml) : ∀ n, pretty false false n x = ser x := by
  have ha : ∀ as, outAttrs false as = serAttrs as := by
    intro as
    induction as with
    | nil => rfl
    | cons p ps ih =>
      obtain ⟨m, v⟩ := p
      rw [outAttrs, serAttrs, ih]
      rfl
  refine ind (P := fun x => ∀ n, pretty false false n x = ser x) ?_ x
  intro t a tx ks ih n
  have hk : ∀ n, prettyList false false n ks = serList ks := by
    intro n
    clear ha
    induction ks with
    | nil => rw [prettyList, serList]
    | cons k ks ihk =>
      rw [prettyList, serList, ih k List.mem_cons_self, ihk fun k' hk' => ih k' (List.mem_cons_of_mem _ hk')]
      rfl
  rw [pretty, ser, ha]
  congr 3
  unfold serBody
  split
  · next h => rw [h.1, h.2]
  · next h =>
    split
    · next h1 h2 => exact absurd ⟨rfl, h2⟩ h
    · rw [Bool.false_and, hk]
      rfl

end Xml
end Verif
