import Verif.Tree.Xml
import Verif.Base.Num
/-!
# XML text: a serialiser and a parser for the element fragment

`etree.tostring(tree)` (common.py:202) writes ASCII with character references; the parser
`XMLParser(remove_blank_text=True)` (common.py:198-199) reads it.  This is the concrete instance
showing that the law `xml_inverse` of `Prims.Lawful` is about something that exists; the theorems
about files hold for every parser and serialiser with that law.

Supported by the parser: an optional XML declaration, elements, attributes in double quotes, text,
the five named entities, decimal character references.  Anything else is a syntax error here.
-/
namespace Verif
namespace Xml

/-- `&#N;` -/
def charRef (c : Char) : Str := '&' :: '#' :: (natStr c.toNat ++ [';'])

/-- Escaping of text by libxml2 (`xmlEscapeContent` with ASCII output). -/
def escTextChar (c : Char) : Str :=
  if c = '&' then "&amp;".toList
  else if c = '<' then "&lt;".toList
  else if c = '>' then "&gt;".toList
  else if c = '\r' ∨ 128 ≤ c.toNat then charRef c
  else [c]

/-- Escaping of attribute values. -/
def escAttrChar (c : Char) : Str :=
  if c = '"' then "&quot;".toList
  else if c = '\n' ∨ c = '\t' then charRef c
  else escTextChar c

def escText (s : Str) : Str := s.flatMap escTextChar
def escAttr (s : Str) : Str := s.flatMap escAttrChar

/-- ` name="value"` for each attribute. -/
def serAttrs : List (Str × Str) → Str
  | [] => []
  | (n, v) :: as => ' ' :: (n ++ '=' :: '"' :: (escAttr v ++ '"' :: serAttrs as))

/-- The part of an element after the attributes, given its children already written. -/
def serBody (t : Str) (x : Option Str) (noKids : Bool) (inner : Str) : Str :=
  match x, noKids with
  | none, true => "/>".toList
  | _, _ => '>' :: (escText (x.getD []) ++ (inner ++ '<' :: '/' :: (t ++ ['>'])))

mutual
/-- `etree.tostring` of an element. -/
def ser : Xml → Str
  | mk t a x ks => '<' :: (t ++ (serAttrs a ++ serBody t x ks.isEmpty (serList ks)))
def serList : List Xml → Str
  | [] => []
  | k :: ks => ser k ++ serList ks
end

/-! ## Parser -/

/-- The character a reference stands for. -/
def refChar (r : Str) : Option Char :=
  if r = "amp".toList then some '&'
  else if r = "lt".toList then some '<'
  else if r = "gt".toList then some '>'
  else if r = "quot".toList then some '"'
  else if r = "apos".toList then some '\''
  else match r with
    | '#' :: ds =>
      if ds ≠ [] ∧ ds.all isDigit = true then
        let n := digitsVal ds
        if h : n.isValidChar then
          let c := Char.ofNatAux n h
          if xmlChar c then some c else none
        else none
      else none
    | _ => none

/-- Resolve references; the first argument holds the reference being read. -/
def unesc : Option Str → Str → Option Str
  | none, [] => some []
  | some _, [] => none
  | none, c :: cs => if c = '&' then unesc (some []) cs else (unesc none cs).map (c :: ·)
  | some r, c :: cs =>
    if c = ';' then
      match refChar r with
      | some ch => (unesc none cs).map (ch :: ·)
      | none => none
    else unesc (some (r ++ [c])) cs

/-- XML white space. -/
def isWs (c : Char) : Bool := c == ' ' || c == '\t' || c == '\n' || c == '\r'

def skipWs (s : Str) : Str := s.dropWhile isWs

/-- Attributes up to `>` or `/>`. -/
def pAttrs : Nat → Str → Option (List (Str × Str) × Str)
  | 0, _ => none
  | f + 1, s =>
    let s := skipWs s
    match s with
    | [] => none
    | c :: cs =>
      if nameStart c then
        match (c :: cs).span nameChar with
        | (n, '=' :: '"' :: r) =>
          match r.span (· ≠ '"') with
          | (raw, '"' :: r) =>
            match unesc none (raw.map fun c => if c = '\n' ∨ c = '\t' then ' ' else c), pAttrs f r with
            | some v, some (as, r) => if n ∈ as.map Prod.fst then none else some ((n, v) :: as, r)
            | _, _ => none
          | _ => none
        | _ => none
      else some ([], c :: cs)

/-- `s` without the prefix `p`. -/
def dropPrefix? : Str → Str → Option Str
  | [], s => some s
  | _ :: _, [] => none
  | p :: ps, c :: cs => if p = c then dropPrefix? ps cs else none

/-- Text of an element: none if empty, dropped if blank before children. -/
def mkText (s : Str) (noKids : Bool) : Option Str :=
  match s with
  | [] => none
  | c :: cs => if blank (c :: cs) && !noKids then none else some (c :: cs)

mutual
/-- An element. -/
def pElem : Nat → Str → Option (Xml × Str)
  | 0, _ => none
  | f + 1, '<' :: s =>
    match s.span nameChar with
    | (n, s) =>
      if isName n then
        match pAttrs f s with
        | some (as, '/' :: '>' :: r) => some (mk n as none [], r)
        | some (as, '>' :: r) =>
          match r.span (· ≠ '<') with
          | (raw, r) =>
            match unesc none raw, pKids f r with
            | some txt, some (ks, '<' :: '/' :: r) =>
              match dropPrefix? n r with
              | some ('>' :: r) => some (mk n as (mkText txt ks.isEmpty) ks, r)
              | _ => none
            | _, _ => none
        | _ => none
      else none
  | _ + 1, _ => none
/-- Elements up to an end tag. -/
def pKids : Nat → Str → Option (List Xml × Str)
  | 0, _ => none
  | f + 1, s =>
    match skipWs s with
    | '<' :: '/' :: r => some ([], '<' :: '/' :: r)
    | s =>
      match pElem f s with
      | some (k, r) =>
        match pKids f r with
        | some (ks, r) => some (k :: ks, r)
        | none => none
      | none => none
end

/-- Skip an XML declaration. -/
def skipDecl (s : Str) : Str :=
  match s with
  | '<' :: '?' :: r => (r.dropWhile (· ≠ '>')).drop 1
  | _ => s

/-- `etree.parse`: a document with one root element. -/
def parseDoc (b : Bytes) : Except PyErr Xml :=
  match utf8Dec b with
  | none => .error .xmlSyntax
  | some s =>
    let s := skipWs (skipDecl s)
    match pElem (s.length + 1) s with
    | some (x, r) => if skipWs r = [] then .ok x else .error .xmlSyntax
    | none => .error .xmlSyntax

/-- `etree.tostring`. -/
def serDoc (x : Xml) : Bytes := utf8Enc (ser x)

/-! ## Round trip -/

theorem span_append {p : Char → Bool} (a r : Str) (h : ∀ c ∈ a, p c = true)
    (hr : ∀ c cs, r = c :: cs → p c = false) : (a ++ r).span p = (a, r) := by
  have loop : ∀ a acc, (∀ c ∈ a, p c = true) →
      List.span.loop p (a ++ r) acc = (acc.reverse ++ a, r) := by
    intro a
    induction a with
    | nil =>
      intro acc _
      cases r with
      | nil => simp [List.span.loop]
      | cons c cs => simp [List.span.loop, hr c cs rfl]
    | cons c cs ih =>
      intro acc h
      rw [List.cons_append, List.span.loop, h c List.mem_cons_self]
      simp only
      rw [ih _ (fun d hd => h d (List.mem_cons_of_mem _ hd))]
      simp
  exact loop a [] h

theorem not_mem_of_digits {c : Char} (hc : isDigit c = false) (n : Nat) : c ∉ natStr n :=
  fun h => by have := (natStr_spec n).2.1 c h; rw [hc] at this; cases this

theorem unesc_ref (r : Str) (c : Char) (hr : ';' ∉ r) (hc : refChar r = some c) (s : Str) :
    unesc none ('&' :: (r ++ ';' :: s)) = (unesc none s).map (c :: ·) := by
  have aux : ∀ r acc, ';' ∉ r → unesc (some acc) (r ++ ';' :: s) = unesc (some (acc ++ r)) (';' :: s) := by
    intro r
    induction r with
    | nil => intro acc _; simp
    | cons d ds ih =>
      intro acc h
      rw [List.cons_append, unesc, if_neg (fun e : d = ';' => h (by rw [e]; exact List.mem_cons_self)),
        ih _ (fun e => h (List.mem_cons_of_mem _ e)), List.append_assoc]
      rfl
  rw [unesc, if_pos rfl, aux r [] hr, List.nil_append, unesc, if_pos rfl, hc]

theorem refChar_charRef (c : Char) (h : xmlChar c = true) : refChar ('#' :: natStr c.toNat) = some c := by
  obtain ⟨h1, h2, h3⟩ := natStr_spec c.toNat
  have hne : ∀ {t : Str}, t.head? ≠ some '#' → ('#' :: natStr c.toNat) ≠ t := by
    intro t ht e; subst e; exact ht rfl
  unfold refChar
  rw [if_neg (hne (by decide)), if_neg (hne (by decide)), if_neg (hne (by decide)),
    if_neg (hne (by decide)), if_neg (hne (by decide))]
  simp only
  rw [if_pos ⟨h1, List.all_eq_true.mpr h2⟩, dif_pos (by rw [h3]; exact c.valid)]
  have : Char.ofNatAux (digitsVal (natStr c.toNat)) (by rw [h3]; exact c.valid) = c := by
    apply Char.ext
    apply UInt32.toNat_inj.mp
    show digitsVal _ = _
    rw [h3]; rfl
  rw [this, if_pos h]

theorem unesc_charRef (c : Char) (h : xmlChar c = true) (s : Str) :
    unesc none (charRef c ++ s) = (unesc none s).map (c :: ·) := by
  unfold charRef
  rw [List.cons_append, List.cons_append, List.append_assoc]
  refine unesc_ref ('#' :: natStr c.toNat) c ?_ (refChar_charRef c h) s
  intro hm
  rcases List.mem_cons.mp hm with hm | hm
  · exact absurd hm (by decide)
  · exact not_mem_of_digits (by decide) _ hm

theorem unesc_escTextChar (c : Char) (h : xmlChar c = true) (s : Str) :
    unesc none (escTextChar c ++ s) = (unesc none s).map (c :: ·) := by
  unfold escTextChar
  split
  · next h => subst h; exact unesc_ref "amp".toList '&' (by decide) (by decide) s
  · next hamp =>
    split
    · next h => subst h; exact unesc_ref "lt".toList '<' (by decide) (by decide) s
    · split
      · next h => subst h; exact unesc_ref "gt".toList '>' (by decide) (by decide) s
      · split
        · exact unesc_charRef c h s
        · rw [List.cons_append, List.nil_append, unesc, if_neg hamp]

theorem unesc_escAttrChar (c : Char) (h : xmlChar c = true) (s : Str) :
    unesc none (escAttrChar c ++ s) = (unesc none s).map (c :: ·) := by
  unfold escAttrChar
  split
  · next h => subst h; exact unesc_ref "quot".toList '"' (by decide) (by decide) s
  · split
    · exact unesc_charRef c h s
    · exact unesc_escTextChar c h s

theorem unesc_escText (s : Str) (h : XmlText s) : unesc none (escText s) = some s := by
  induction s with
  | nil => rfl
  | cons c cs ih =>
    show unesc none (escTextChar c ++ escText cs) = _
    rw [unesc_escTextChar c (h c List.mem_cons_self),
      ih (fun d hd => h d (List.mem_cons_of_mem _ hd))]
    rfl

theorem unesc_escAttr (s : Str) (h : XmlText s) : unesc none (escAttr s) = some s := by
  induction s with
  | nil => rfl
  | cons c cs ih =>
    show unesc none (escAttrChar c ++ escAttr cs) = _
    rw [unesc_escAttrChar c (h c List.mem_cons_self),
      ih (fun d hd => h d (List.mem_cons_of_mem _ hd))]
    rfl

theorem mem_charRef {c d : Char} (h : d ∈ charRef c) : d = '&' ∨ d = '#' ∨ d = ';' ∨ isDigit d = true := by
  unfold charRef at h
  simp only [List.mem_cons, List.mem_append, List.not_mem_nil, or_false] at h
  rcases h with h | h | h | h
  · exact .inl h
  · exact .inr (.inl h)
  · exact .inr (.inr (.inr ((natStr_spec _).2.1 d h)))
  · exact .inr (.inr (.inl h))

/-- Escaped text contains no `<`. -/
theorem lt_not_mem_escTextChar (c : Char) : '<' ∉ escTextChar c := by
  unfold escTextChar
  split
  · decide
  · split
    · decide
    · next h =>
      split
      · decide
      · split
        · intro hm
          rcases mem_charRef hm with h | h | h | h <;> revert h <;> decide
        · intro hm; rw [List.mem_singleton] at hm; exact h hm.symm

theorem mem_escAttrChar (c d : Char) (h : d ∈ escAttrChar c) : d ≠ '"' ∧ d ≠ '\n' ∧ d ≠ '\t' := by
  have key : ∀ x : Str, (x.all fun d => d ≠ '"' && d ≠ '\n' && d ≠ '\t') = true → d ∈ x →
      d ≠ '"' ∧ d ≠ '\n' ∧ d ≠ '\t' := by
    intro x hx hd
    have := List.all_eq_true.mp hx d hd
    simpa [and_assoc] using this
  have hcr : d ∈ charRef c → d ≠ '"' ∧ d ≠ '\n' ∧ d ≠ '\t' := by
    intro hm
    refine ⟨?_, ?_, ?_⟩ <;>
    · intro e
      subst e
      rcases mem_charRef hm with h | h | h | h <;> revert h <;> decide
  unfold escAttrChar at h
  split at h
  · exact key _ (by decide) h
  · next h1 =>
    split at h
    · exact hcr h
    · next h2 =>
      unfold escTextChar at h
      split at h
      · exact key _ (by decide) h
      · split at h
        · exact key _ (by decide) h
        · split at h
          · exact key _ (by decide) h
          · split at h
            · exact hcr h
            · rw [List.mem_singleton] at h
              subst h
              exact ⟨h1, fun e => h2 (.inl e), fun e => h2 (.inr e)⟩

theorem escAttr_ok (v : Str) : (∀ c ∈ escAttr v, (decide (c ≠ '"')) = true) ∧
    ((escAttr v).map fun c => if c = '\n' ∨ c = '\t' then ' ' else c) = escAttr v := by
  have h : ∀ c ∈ escAttr v, c ≠ '"' ∧ c ≠ '\n' ∧ c ≠ '\t' := by
    intro c hc
    obtain ⟨d, _, hd⟩ := List.mem_flatMap.mp hc
    exact mem_escAttrChar d c hd
  refine ⟨fun c hc => decide_eq_true (h c hc).1, ?_⟩
  refine Eq.trans (List.map_congr_left (g := id) fun c hc => ?_) (List.map_id _)
  rw [if_neg]
  · rfl
  · rintro (e | e)
    · exact (h c hc).2.1 e
    · exact (h c hc).2.2 e

theorem isName_cons {t : Str} (h : isName t = true) :
    ∃ c cs, t = c :: cs ∧ nameStart c = true ∧ ∀ d ∈ t, nameChar d = true := by
  cases t with
  | nil => cases h
  | cons c cs =>
    simp only [isName, Bool.and_eq_true] at h
    refine ⟨c, cs, rfl, h.1, fun d hd => ?_⟩
    rcases List.mem_cons.mp hd with rfl | hd
    · have := h.1
      simp only [nameStart, nameChar, Char.isAlphanum, Bool.or_eq_true] at this ⊢
      rcases this with h | h
      · exact .inl (.inl (.inl (.inl h)))
      · exact .inl (.inl (.inr h))
    · exact List.all_eq_true.mp h.2 d hd

theorem nameStart_not_ws {c : Char} (h : nameStart c = true) : isWs c = false := by
  cases hw : isWs c with
  | false => rfl
  | true =>
    simp only [isWs, Bool.or_eq_true, beq_iff_eq] at hw
    rcases hw with ((rfl | rfl) | rfl) | rfl <;> revert h <;> decide

theorem serAttrs_run (as : List (Str × Str)) (h : ∀ p ∈ as, isName p.1 = true ∧ XmlText p.2)
    (hn : (as.map Prod.fst).Nodup) (c : Char) (r : Str) (hc : nameStart c = false)
    (hw : isWs c = false) (f : Nat) (hf : (serAttrs as).length < f) :
    pAttrs f (serAttrs as ++ c :: r) = some (as, c :: r) := by
  induction as generalizing f with
  | nil =>
    cases f with
    | zero => simp at hf
    | succ f =>
      simp only [serAttrs, List.nil_append, pAttrs, skipWs, List.dropWhile_cons, hw,
        Bool.false_eq_true, if_false, hc]
  | cons a as ih =>
    obtain ⟨n, v⟩ := a
    cases f with
    | zero => simp at hf
    | succ f =>
      have h0 := h (n, v) List.mem_cons_self
      obtain ⟨d, ds, hd, hns, hall⟩ := isName_cons h0.1
      simp only at hd hall
      have hsk : skipWs (serAttrs ((n, v) :: as) ++ c :: r) =
          n ++ '=' :: '"' :: (escAttr v ++ '"' :: (serAttrs as ++ c :: r)) := by
        simp only [serAttrs, List.cons_append, List.append_assoc, skipWs, List.dropWhile_cons]
        rw [if_pos (by decide)]
        rw [hd, List.cons_append, List.dropWhile_cons, if_neg (by rw [nameStart_not_ws hns]; simp)]
      have hlen : (serAttrs as).length < f := by
        simp only [serAttrs, List.length_cons, List.length_append] at hf
        omega
      have hsp : (n ++ '=' :: '"' :: (escAttr v ++ '"' :: (serAttrs as ++ c :: r))).span nameChar =
          (n, '=' :: '"' :: (escAttr v ++ '"' :: (serAttrs as ++ c :: r))) :=
        span_append _ _ hall (fun x xs e => by injection e with e _; subst e; decide)
      have hsp2 : (escAttr v ++ '"' :: (serAttrs as ++ c :: r)).span (· ≠ '"') =
          (escAttr v, '"' :: (serAttrs as ++ c :: r)) :=
        span_append _ _ (escAttr_ok v).1 (fun x xs e => by injection e with e _; subst e; decide)
      rw [pAttrs]
      simp only [hsk]
      rw [hd, List.cons_append]
      simp only [hns, if_true]
      rw [← List.cons_append, ← hd, hsp]
      simp only [hsp2]
      rw [(escAttr_ok v).2, unesc_escAttr v h0.2,
        ih (fun p hp => h p (List.mem_cons_of_mem _ hp)) (List.nodup_cons.mp hn).2 f hlen]
      simp only
      rw [if_neg (List.nodup_cons.mp hn).1]

theorem dropPrefix?_append (p r : Str) : dropPrefix? p (p ++ r) = some r := by
  induction p with
  | nil => cases r <;> rfl
  | cons c cs ih => simp [dropPrefix?, ih]

theorem ser_head (x : Xml) : ∃ y, ser x = '<' :: y := by
  obtain ⟨t, a, tx, ks⟩ := x
  exact ⟨_, by rw [ser]⟩

/-- `ser` of a valid element starts with `<` and a name character. -/
theorem ser_head2 {x : Xml} (h : x.Valid) : ∃ c y, ser x = '<' :: c :: y ∧ nameStart c = true := by
  obtain ⟨t, a, tx, ks⟩ := x
  obtain ⟨c, cs, rfl, h1, _⟩ := isName_cons (all_root h).1.1
  exact ⟨c, _, by rw [ser]; rfl, h1⟩

theorem mkText_norm (x : Option Str) (b : Bool)
    (h : b = false → ∀ s, x = some s → s = [] ∨ blank s = false) :
    mkText (x.getD []) b = normText x := by
  cases x with
  | none => rfl
  | some s =>
    cases s with
    | nil => rfl
    | cons c cs =>
      show (if blank (c :: cs) && !b then none else some (c :: cs)) = some (c :: cs)
      rw [if_neg]
      cases b with
      | true => simp
      | false =>
        rcases h rfl _ rfl with h | h
        · cases h
        · simp [h]

theorem serBody_head (t x b i) : ∃ y, serBody t x b i = '/' :: '>' :: y ∨ serBody t x b i = '>' :: y := by
  unfold serBody
  split
  · exact ⟨[], .inl rfl⟩
  · exact ⟨_, .inr rfl⟩

theorem escText_all (s : Str) : ∀ c ∈ escText s, (decide (c ≠ '<')) = true := by
  intro c hc
  obtain ⟨d, _, hd⟩ := List.mem_flatMap.mp hc
  refine decide_eq_true fun e => ?_
  subst e
  exact lt_not_mem_escTextChar d hd

theorem pKids_run (ks : List Xml) (hv : ∀ k ∈ ks, k.Valid)
    (ih : ∀ k ∈ ks, ∀ f r, (ser k).length ≤ f → pElem f (ser k ++ r) = some (k.norm, r)) (r : Str) :
    ∀ f, (serList ks).length < f →
      pKids f (serList ks ++ '<' :: '/' :: r) = some (ks.map norm, '<' :: '/' :: r) := by
  induction ks with
  | nil =>
    intro f hf
    cases f with
    | zero => simp at hf
    | succ f =>
      rw [serList, List.nil_append, pKids]
      have : skipWs ('<' :: '/' :: r) = '<' :: '/' :: r := by
        unfold skipWs; rw [List.dropWhile_cons, if_neg (by decide)]
      rw [this]
      rfl
  | cons k ks ihk =>
    intro f hf
    cases f with
    | zero => simp at hf
    | succ f =>
      obtain ⟨c, y, hy, hns⟩ := ser_head2 (hv k List.mem_cons_self)
      rw [serList, List.length_append] at hf
      have hlen : 2 ≤ (ser k).length := by rw [hy]; simp
      rw [serList, List.append_assoc, pKids]
      have hsk : skipWs (ser k ++ (serList ks ++ '<' :: '/' :: r)) =
          ser k ++ (serList ks ++ '<' :: '/' :: r) := by
        rw [hy, List.cons_append]
        unfold skipWs; rw [List.dropWhile_cons, if_neg (by decide)]
      rw [hsk]
      have hrun := ih k List.mem_cons_self f (serList ks ++ '<' :: '/' :: r) (by omega)
      have hrest := ihk (fun x hx => hv x (List.mem_cons_of_mem _ hx))
        (fun x hx => ih x (List.mem_cons_of_mem _ hx)) f (by omega)
      have hc : c ≠ '/' := by intro e; subst e; revert hns; decide
      split
      · next r' heq =>
        rw [hy] at heq
        injection heq with _ heq
        injection heq with heq _
        exact absurd heq hc
      · next s hs =>
        rw [hrun]
        simp only [hrest, List.map_cons]

theorem pElem_ser (x : Xml) : x.Valid → ∀ f r, (ser x).length ≤ f →
    pElem f (ser x ++ r) = some (x.norm, r) := by
  refine ind (P := fun x => x.Valid → ∀ f r, (ser x).length ≤ f →
    pElem f (ser x ++ r) = some (x.norm, r)) ?_ x
  intro t a tx ks ih hv f r hf
  obtain ⟨⟨hname, hattrs, hnd, htext, hblank⟩, hk⟩ := all_root hv
  obtain ⟨c, cs, hcs, hns, hall⟩ := isName_cons hname
  rw [ser] at hf ⊢
  cases f with
  | zero => simp at hf
  | succ f =>
    simp only [List.length_cons, List.length_append] at hf
    simp only [List.cons_append, List.append_assoc]
    rw [pElem]
    have hrest : ∀ d ds, serAttrs a ++ (serBody t tx ks.isEmpty (serList ks) ++ r) = d :: ds →
        nameChar d = false := by
      intro d ds e
      cases a with
      | nil =>
        obtain ⟨y, hy⟩ := serBody_head t tx ks.isEmpty (serList ks)
        rw [serAttrs, List.nil_append] at e
        rcases hy with hy | hy <;> rw [hy] at e <;> injection e with e _ <;> subst e <;> decide
      | cons p ps =>
        obtain ⟨n, v⟩ := p
        rw [serAttrs, List.cons_append] at e
        injection e with e _; subst e; decide
    rw [span_append t _ hall hrest]
    simp only [hname, if_true]
    by_cases hempty : tx = none ∧ ks = []
    · obtain ⟨rfl, rfl⟩ := hempty
      have hb : serBody t none ([] : List Xml).isEmpty (serList []) = ['/', '>'] := rfl
      rw [hb] at hf ⊢
      rw [List.cons_append, serAttrs_run a hattrs hnd '/' _ (by decide) (by decide) f
        (by simp only [List.length_cons] at hf; omega)]
      rw [norm_mk]
      rfl
    · have hb : serBody t tx ks.isEmpty (serList ks) =
          '>' :: (escText (tx.getD []) ++ (serList ks ++ '<' :: '/' :: (t ++ ['>']))) := by
        unfold serBody
        split
        · next h1 h2 => exact absurd ⟨rfl, List.isEmpty_iff.mp h2⟩ hempty
        · rfl
      rw [hb] at hf ⊢
      simp only [List.length_cons, List.length_append] at hf
      rw [List.cons_append, serAttrs_run a hattrs hnd '>' _ (by decide) (by decide) f (by omega)]
      simp only [List.append_assoc, List.cons_append, List.nil_append]
      have hsp : (escText (tx.getD []) ++ (serList ks ++ '<' :: '/' :: (t ++ '>' :: r))).span (· ≠ '<')
          = (escText (tx.getD []), serList ks ++ '<' :: '/' :: (t ++ '>' :: r)) := by
        refine span_append _ _ (escText_all _) ?_
        intro d ds e
        cases ks with
        | nil => rw [serList, List.nil_append] at e; injection e with e _; subst e; decide
        | cons k ks' =>
          obtain ⟨y, hy⟩ := ser_head k
          rw [serList, hy] at e
          injection e with e _; subst e; decide
      rw [hsp]
      have hun : unesc none (escText (tx.getD [])) = some (tx.getD []) := by
        cases tx with
        | none => rfl
        | some s => exact unesc_escText s (htext s rfl)
      have hkk := pKids_run ks hk (fun k hk' => ih k hk' (hk k hk')) (t ++ '>' :: r) f (by omega)
      simp only [hun, hkk, dropPrefix?_append]
      have hie : (ks.map norm).isEmpty = ks.isEmpty := by cases ks <;> rfl
      rw [norm_mk, hie, mkText_norm]
      intro hne s hs
      refine hblank ?_ s hs
      intro e; subst e; cases hne

theorem skipWs_ser (x : Xml) (r : Str) : skipWs (ser x ++ r) = ser x ++ r := by
  obtain ⟨y, hy⟩ := ser_head x
  rw [hy, List.cons_append]
  unfold skipWs; rw [List.dropWhile_cons, if_neg (by decide)]

/-- Writing a valid tree and reading the text gives the tree back, with empty texts read as no
text. -/
theorem parseDoc_serDoc (x : Xml) (h : x.Valid) : parseDoc (serDoc x) = .ok x.norm := by
  unfold parseDoc serDoc
  rw [utf8Dec_utf8Enc]
  simp only
  obtain ⟨c, y, hy, hns⟩ := ser_head2 h
  have hd : skipDecl (ser x) = ser x := by
    rw [hy]
    unfold skipDecl
    split
    · next r heq =>
      injection heq with _ heq
      injection heq with heq _
      subst heq; exact absurd hns (by decide)
    · rfl
  have hs := skipWs_ser x []
  rw [List.append_nil] at hs
  rw [hd, hs]
  have := pElem_ser x h ((ser x).length + 1) [] (by omega)
  rw [List.append_nil] at this
  rw [this]
  rfl

end Xml
end Verif
