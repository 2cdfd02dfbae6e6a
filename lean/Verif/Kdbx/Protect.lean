import Verif.Kdbx.Prims
import Verif.Base.Base64
/-!
# Protected values: `UnprotectedStream`, common.py:205-286
-/
namespace Verif

/-- The elements selected by `//Value[@Protected='True']`, common.py:210. -/
def isProtected (tag : Str) (attrs : List (Str × Str)) : Bool :=
  tag == "Value".toList && attrs.lookup "Protected".toList == some "True".toList

/-- The text of one selected element on writing, common.py:240-245: new text and bytes of key
stream consumed. -/
def protectText (ks : Nat → UInt8) (o : Nat) : Option Str → Option Str × Nat
  | none => (none, o)
  | some s =>
    let b := utf8Enc s
    (some (b64encode (ksXor ks o b)), o + b.length)

/-- The text of one selected element on reading, common.py:219-233. The key stream has advanced
also when the result is not UTF-8; it has not when base64 decoding fails. -/
def unprotectText (ks : Nat → UInt8) (o : Nat) : Option Str → Option Str × Nat
  | none => (none, o)
  | some s =>
    match b64decode s with
    | .error _ => (some s, o)
    | .ok b =>
      match utf8Dec (ksXor ks o b) with
      | none => (some s, o + b.length)
      | some t => (some (stripInvalid t), o + b.length)

mutual
/-- Walks the tree in document order, rewriting the text of selected elements with `f`
(the loops common.py:218 and common.py:239). -/
def mapProtected (f : Nat → Option Str → Option Str × Nat) (o : Nat) : Xml → Xml × Nat
  | .mk t a x ks =>
    let r := if isProtected t a then f o x else (x, o)
    let rk := mapProtectedList f r.2 ks
    (.mk t a r.1 rk.1, rk.2)
def mapProtectedList (f : Nat → Option Str → Option Str × Nat) (o : Nat) :
    List Xml → List Xml × Nat
  | [] => ([], o)
  | k :: ks =>
    let r := mapProtected f o k
    let rs := mapProtectedList f r.2 ks
    (r.1 :: rs.1, rs.2)
end

/-- `UnprotectedStream._encode`, common.py:236-246 (the copy; the original is not touched). -/
def protect (ks : Nat → UInt8) (t : Xml) : Xml := (mapProtected (protectText ks) 0 t).1

/-- `UnprotectedStream._decode`, common.py:216-234. -/
def unprotect (ks : Nat → UInt8) (t : Xml) : Xml := (mapProtected (unprotectText ks) 0 t).1

/-! ## Lemmas -/

theorem xmlChar_b64 : ∀ v, v < 64 → xmlChar (b64Char v) = true := by decide +kernel

theorem xmlText_b64encode (b : Bytes) : XmlText (b64encode b) := by
  intro c hc
  obtain ⟨v, h | h⟩ := b64encode_mem b c hc
  · rw [h.2]; exact xmlChar_b64 v h.1
  · rw [h]; decide

theorem not_blank_b64 : ∀ v, v < 64 → Xml.blank [b64Char v] = false := by decide +kernel

theorem blank_b64encode (b : Bytes) (h : b ≠ []) : Xml.blank (b64encode b) = false := by
  cases hb : b64encode b with
  | nil => exact absurd ((b64encode_eq_nil b).mp hb) h
  | cons c cs =>
    have hc : c ∈ b64encode b := by rw [hb]; simp
    have h1 : Xml.blank [c] = false := by
      obtain ⟨v, h | h⟩ := b64encode_mem b c hc
      · rw [h.2]; exact not_blank_b64 v h.1
      · rw [h]; decide
    unfold Xml.blank at h1 ⊢
    rw [List.all_cons]
    rw [List.all_cons, List.all_nil, Bool.and_true] at h1
    rw [h1, Bool.false_and]

theorem utf8Enc_eq_nil {s : Str} (h : utf8Enc s = []) : s = [] :=
  utf8Enc_inj (a := s) (b := []) h

/-- One text written and read back: an empty text comes back as no text, and both sides move the
key stream by the same amount. -/
theorem unprotectText_protectText (ks : Nat → UInt8) (o : Nat) (x : Option Str)
    (hx : ∀ s, x = some s → XmlText s) :
    unprotectText ks o (Xml.normText (protectText ks o x).1)
      = (Xml.normText x, (protectText ks o x).2) := by
  cases x with
  | none => rfl
  | some s =>
    simp only [protectText]
    by_cases hs : s = []
    · subst hs; rfl
    · have hb : b64encode (ksXor ks o (utf8Enc s)) ≠ [] := by
        rw [ne_eq, b64encode_eq_nil]
        intro h
        have : (ksXor ks o (utf8Enc s)).length = 0 := by rw [h]; rfl
        rw [ksXor_length, List.length_eq_zero_iff] at this
        exact hs (utf8Enc_eq_nil this)
      rw [Xml.normText_of_ne hb, Xml.normText_of_ne hs]
      simp only [unprotectText, b64decode_b64encode, ksXor_ksXor, utf8Dec_utf8Enc,
        stripInvalid_id (hx s rfl), ksXor_length]

mutual
theorem mapProtected_roundtrip (ks : Nat → UInt8) (o : Nat) : ∀ t : Xml, t.Valid →
    mapProtected (unprotectText ks) o (mapProtected (protectText ks) o t).1.norm
      = (t.norm, (mapProtected (protectText ks) o t).2)
  | .mk t a x kids, h => by
    obtain ⟨h1, h2⟩ := Xml.all_root h
    by_cases hp : isProtected t a = true
    · have ht := unprotectText_protectText ks o x h1.2.2.2.1
      have hk := mapProtectedList_roundtrip ks (protectText ks o x).2 kids h2
      simp only [mapProtected, hp, if_true, Xml.norm_mk, ht, ← Xml.normList_eq_map] at hk ⊢
      rw [hk]
    · have hk := mapProtectedList_roundtrip ks o kids h2
      simp only [mapProtected, hp, Xml.norm_mk, ← Xml.normList_eq_map, Bool.false_eq_true, if_false]
        at hk ⊢
      rw [hk]
theorem mapProtectedList_roundtrip (ks : Nat → UInt8) (o : Nat) : ∀ l : List Xml,
    (∀ t ∈ l, t.Valid) →
    mapProtectedList (unprotectText ks) o (Xml.normList (mapProtectedList (protectText ks) o l).1)
      = (Xml.normList l, (mapProtectedList (protectText ks) o l).2)
  | [], _ => rfl
  | t :: l, h => by
    have h1 := mapProtected_roundtrip ks o t (h t (by simp))
    have h2 := mapProtectedList_roundtrip ks (mapProtected (protectText ks) o t).2 l
      (fun x hx => h x (by simp [hx]))
    simp only [mapProtectedList, Xml.normList, h1, h2]
end

theorem protectText_ok (ks : Nat → UInt8) (o : Nat) (x : Option Str) :
    (∀ s, (protectText ks o x).1 = some s → XmlText s ∧ (s = [] ∨ Xml.blank s = false)) := by
  intro s hs
  cases x with
  | none => cases hs
  | some s' =>
    simp only [protectText, Option.some.injEq] at hs
    subst hs
    refine ⟨xmlText_b64encode _, ?_⟩
    by_cases h : ksXor ks o (utf8Enc s') = []
    · left; rw [h]; rfl
    · right; exact blank_b64encode _ h

mutual
theorem mapProtected_valid (ks : Nat → UInt8) (o : Nat) : ∀ t : Xml, t.Valid →
    (mapProtected (protectText ks) o t).1.Valid
  | .mk t a x kids, h => by
    obtain ⟨h1, h2⟩ := Xml.all_root h
    obtain ⟨hn, ha, hd, hx, hbl⟩ := h1
    rw [mapProtected]
    have hne : ∀ o', (mapProtectedList (protectText ks) o' kids).1 ≠ [] → kids ≠ [] := by
      intro o' h e; subst e; exact h rfl
    refine Xml.All.mk ⟨hn, ha, hd, ?_, ?_⟩ (mapProtectedList_valid ks _ kids h2)
    · intro s hs
      by_cases hp : isProtected t a = true
      · simp only [hp, if_true] at hs
        exact (protectText_ok ks o x s hs).1
      · simp only [hp, Bool.false_eq_true, if_false] at hs
        exact hx s hs
    · intro hk s hs
      by_cases hp : isProtected t a = true
      · simp only [hp, if_true] at hs
        exact (protectText_ok ks o x s hs).2
      · simp only [hp, Bool.false_eq_true, if_false] at hs
        exact hbl (hne _ hk) s hs
theorem mapProtectedList_valid (ks : Nat → UInt8) (o : Nat) : ∀ l : List Xml,
    (∀ t ∈ l, t.Valid) → ∀ t ∈ (mapProtectedList (protectText ks) o l).1, t.Valid
  | [], _ => by intro t ht; cases ht
  | k :: l, h => by
    intro t ht
    simp only [mapProtectedList, List.mem_cons] at ht
    rcases ht with rfl | ht
    · exact mapProtected_valid ks o k (h k (by simp))
    · exact mapProtectedList_valid ks _ l (fun x hx => h x (by simp [hx])) t ht
end

end Verif
