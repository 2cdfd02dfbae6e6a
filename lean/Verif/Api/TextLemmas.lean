import Verif.Api.ContentLemmas
import Verif.Api.Queries
import Verif.Time.Lemmas
/-!
# Changing one text; texts the library writes itself
-/
namespace Verif.Spec
open Verif Api

/-- Only the text of one element changed. -/
structure TextChanged (s s' : Db) (i : Nat) (v : Option Str) : Prop where
  inv : Inv s'
  state : s' = { s with world := s'.world }
  heap : ∀ j, s'.heap j = (s.heap j).map fun r => if j = i then { r with text := v } else r

end Verif.Spec

namespace Verif.Api
open Verif XPath Spec

theorem text_changed {s : Db} (hs : Inv s) (i : Nat) {v : Option Str} (hv : ∀ t, v = some t → XmlText t) :
    ∃ s', setText i v s = (.ok (), s') ∧ TextChanged s s' i v := by
  obtain ⟨s', h1, h2, h3, h4⟩ := setText_ok hs i v hv
  exact ⟨s', h1, h2, h3, h4⟩

end Verif.Api

namespace Verif.Spec.TextChanged
open Verif XPath Spec Api
variable {s s' : Db} {i : Nat} {v : Option Str}

theorem tag (h : TextChanged s s' i v) (j : Nat) : s'.heap.tag j = s.heap.tag j := by
  unfold Heap.tag; rw [h.heap j]
  cases s.heap j with
  | none => rfl
  | some r => simp only [Option.map_some]; split <;> rfl

theorem kids (h : TextChanged s s' i v) (j : Nat) : s'.heap.kids j = s.heap.kids j := by
  unfold Heap.kids; rw [h.heap j]
  cases s.heap j with
  | none => rfl
  | some r => simp only [Option.map_some]; split <;> rfl

theorem attr (h : TextChanged s s' i v) (j : Nat) (k : Str) : s'.heap.attr j k = s.heap.attr j k := by
  unfold Heap.attr; rw [h.heap j]
  cases s.heap j with
  | none => rfl
  | some r => simp only [Option.map_some]; split <;> rfl

theorem text (h : TextChanged s s' i v) {j : Nat} (hj : j ≠ i) : s'.heap.text j = s.heap.text j := by
  unfold Heap.text; rw [h.heap j]
  cases s.heap j with
  | none => rfl
  | some r => simp only [Option.map_some, if_neg hj]

theorem other (h : TextChanged s s' i v) {j : Nat} (hj : j ≠ i) : s'.heap j = s.heap j := by
  rw [h.heap j]
  cases s.heap j with
  | none => rfl
  | some r => simp only [Option.map_some, if_neg hj]

theorem here (h : TextChanged s s' i v) (hm : i ∈ s.world.ids) : s'.heap.text i = v := by
  obtain ⟨r, hr⟩ := heap_some.mpr hm
  unfold Heap.text; rw [h.heap i, hr]; simp

theorem all (h : TextChanged s s' i v) (j : Nat) (t : Str) : s'.heap.all j t = s.heap.all j t := by
  unfold Heap.all
  rw [h.kids j]
  exact List.filter_congr fun k _ => by rw [h.tag k]

theorem find (h : TextChanged s s' i v) (j : Nat) (t : Str) : s'.heap.find j t = s.heap.find j t := by
  unfold Heap.find; rw [h.all]

theorem metaEls (h : TextChanged s s' i v) (n : Str) : Api.metaEls s'.heap n = Api.metaEls s.heap n := by
  unfold Api.metaEls
  rw [h.kids 0]
  congr 1
  funext d
  rw [h.tag d, h.all d]
  split
  · congr 1
    funext m
    rw [h.all m]
  · rfl

theorem version (h : TextChanged s s' i v) : s'.version = s.version := by rw [h.state]

theorem ids (h : TextChanged s s' i v) (j : Nat) : j ∈ s'.world.ids ↔ j ∈ s.world.ids := by
  rw [← heap_some, ← heap_some]
  unfold Db.heap at *
  constructor
  · rintro ⟨r, hr⟩
    have := h.heap j
    cases hj : s.heap j with
    | none => rw [hj] at this; unfold Db.heap at this; rw [hr] at this; cases this
    | some r => exact ⟨r, hj⟩
  · rintro ⟨r, hr⟩
    have := h.heap j
    unfold Db.heap at this
    rw [hr] at this
    exact ⟨_, this⟩

end Verif.Spec.TextChanged

namespace Verif.Api
open Verif XPath Spec

theorem metaEls_mem {s : Db} (hs : Inv s) {n : Str} {i : Nat} (h : i ∈ metaEls s.heap n) :
    i ∈ s.world.ids ∧ s.heap.tag i = n := by
  unfold metaEls at h
  obtain ⟨d, _, h⟩ := List.mem_flatMap.mp h
  split at h
  · obtain ⟨m, _, h⟩ := List.mem_flatMap.mp h
    obtain ⟨h1, h2⟩ := all_sub h
    exact ⟨(kid_mem hs h1).1, h2⟩
  · cases h

/-! ## Texts written by the library -/

theorem digit_xml {c : Char} (h : isDigit c = true) : xmlChar c = true := by
  unfold isDigit at h
  rw [Bool.and_eq_true, decide_eq_true_iff, decide_eq_true_iff] at h
  unfold xmlChar
  simp only [Bool.or_eq_true, Bool.and_eq_true, decide_eq_true_iff, beq_iff_eq]
  omega

theorem b64Char_xml : ∀ v, v < 64 → xmlChar (b64Char v) = true := by decide +kernel

theorem b64_xml (b : Bytes) : XmlText (b64encode b) := by
  intro c hc
  obtain ⟨v, ⟨hv, rfl⟩ | rfl⟩ := b64encode_mem b c hc
  · exact b64Char_xml v hv
  · decide

theorem padNat_xml (k n : Nat) : XmlText (padNat k n) := fun c hc => digit_xml (padNat_isDigit k n c hc)

theorem xml_append {a b : Str} (ha : XmlText a) (hb : XmlText b) : XmlText (a ++ b) := by
  intro c hc
  rcases List.mem_append.mp hc with h | h
  · exact ha c h
  · exact hb c h

theorem isoOffset_xml (o : Int) : XmlText (isoOffset o) := by
  unfold isoOffset
  have hd : XmlText [':'] := by decide
  have hp : XmlText ['.'] := by decide
  have hn : XmlText [] := by decide
  repeat' first
    | exact padNat_xml _ _
    | apply xml_append
    | exact hd
    | exact hp
    | exact hn
    | split
    | decide

theorem iso_xml (v : DateTime) : XmlText (isoformat v) := by
  unfold isoformat
  have p2 := padNat_xml 2
  have d1 : XmlText ['-'] := by decide
  have d2 : XmlText ['T'] := by decide
  have d3 : XmlText [':'] := by decide
  have f : XmlText (if v.micro = 0 then [] else ['.'] ++ padNat 6 v.micro) := by
    split
    · exact (by decide : XmlText [])
    · exact xml_append (by decide) (padNat_xml _ _)
  have z : XmlText (match v.tz with
     | none => []
     | some o => isoOffset o) := by
    split
    · exact (by decide : XmlText [])
    · exact isoOffset_xml _
  exact xml_append (xml_append (xml_append (xml_append (xml_append (xml_append (xml_append (xml_append (xml_append (xml_append
    (xml_append (xml_append (padNat_xml 4 _) d1) (p2 _)) d1) (p2 _)) d2) (p2 _)) d3) (p2 _)) d3) (p2 _)) f) z

theorem encode_xml {ver : Nat × Nat} {v : DateTime} {t : Str} (h : encodeTime ver v = .ok t) : XmlText t := by
  unfold encodeTime at h
  split at h
  · cases hi : v.instant with
    | none => rw [hi] at h; cases h
    | some n =>
      rw [hi] at h
      simp only at h
      split at h
      · cases h
      · injection h with h; rw [← h]; exact b64_xml _
  · injection h with h; rw [← h]; exact iso_xml v

theorem natStr_xml (n : Nat) : XmlText (natStr n) := fun c hc => digit_xml ((natStr_spec n).2.1 c hc)

theorem intStr_xml (n : Int) : XmlText (intStr n) := by
  cases n with
  | ofNat n => exact natStr_xml n
  | negSucc n => exact xml_append (a := ['-']) (by decide) (natStr_xml _)

theorem digit_space {c : Char} (h : isDigit c = true) : pySpace c = false := by
  unfold isDigit at h
  rw [Bool.and_eq_true, decide_eq_true_iff, decide_eq_true_iff] at h
  unfold pySpace
  simp only [Bool.or_eq_false_iff, Bool.and_eq_false_iff, decide_eq_false_iff_not, beq_eq_false_iff_ne]
  omega

theorem dropWhile_none {α} (p : α → Bool) (l : List α) (h : ∀ c ∈ l, p c = false) : l.dropWhile p = l := by
  cases l with
  | nil => rfl
  | cons a l => rw [List.dropWhile_cons, if_neg (by rw [h a (List.mem_cons_self ..)]; decide)]

theorem strip_none (s : Str) (h : ∀ c ∈ s, pySpace c = false) : pyStrip s = s := by
  unfold pyStrip
  rw [dropWhile_none _ _ h, dropWhile_none _ _ fun c hc => h c (List.mem_reverse.mp hc), List.reverse_reverse]

theorem digits_ok (ds : Str) (b : Bool) (h : ∀ c ∈ ds, isDigit c = true) : digitsOk b ds = (b || ds != []) := by
  induction ds generalizing b with
  | nil => cases b <;> rfl
  | cons c cs ih =>
    rw [digitsOk, if_pos (h c (List.mem_cons_self ..)), ih true fun x hx => h x (List.mem_cons_of_mem _ hx)]
    cases b <;> rfl

theorem filter_digits (ds : Str) (h : ∀ c ∈ ds, isDigit c = true) : ds.filter isDigit = ds :=
  List.filter_eq_self.mpr h

/-- `int(str(n)) == n`. -/
theorem pyInt_intStr (n : Int) : pyInt (intStr n) = .ok n := by
  cases n with
  | ofNat n =>
    obtain ⟨h1, h2, h3⟩ := natStr_spec n
    have hs : pyStrip (intStr (.ofNat n)) = natStr n := strip_none _ fun c hc => digit_space (h2 c hc)
    have hsplit : signSplit (natStr n) = (false, natStr n) := by
      cases hn : natStr n with
      | nil => rfl
      | cons c cs =>
        have hc : isDigit c = true := h2 c (by rw [hn]; exact List.mem_cons_self ..)
        have n1 : c ≠ '-' := by rintro rfl; revert hc; decide
        have n2 : c ≠ '+' := by rintro rfl; revert hc; decide
        rw [signSplit, if_neg n1, if_neg n2]
    unfold pyInt
    simp only
    rw [hs, hsplit]
    simp only
    rw [digits_ok _ _ h2, if_pos (by simpa using h1), filter_digits _ h2, h3]
    rfl
  | negSucc n =>
    obtain ⟨h1, h2, h3⟩ := natStr_spec (n + 1)
    have hs : pyStrip (intStr (.negSucc n)) = '-' :: natStr (n + 1) := by
      refine strip_none _ fun c hc => ?_
      rcases List.mem_cons.mp hc with rfl | hc
      · decide
      · exact digit_space (h2 c hc)
    unfold pyInt
    simp only
    rw [hs, show signSplit ('-' :: natStr (n + 1)) = (true, natStr (n + 1)) from rfl]
    simp only
    rw [digits_ok _ _ h2, if_pos (by simpa using h1), filter_digits _ h2, h3]
    rfl

end Verif.Api
