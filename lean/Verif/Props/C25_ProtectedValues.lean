import Verif.Kdbx.Toy
/-!
# C25: protected values stay synchronised with the inner stream
-/
namespace Verif.Props
open Verif

/-- Is the element marked for protection: a `Value` with attribute `Protected="True"`. -/
def marked : Xml → Bool
  | .mk t a _ _ => t == "Value".toList && a.lookup "Protected".toList == some "True".toList

mutual
/-- Texts of the marked elements in document order. -/
def protectedTexts : Xml → List (Option Str)
  | .mk t a x ks => (if marked (.mk t a x ks) then [x] else []) ++ protectedTextsList ks
def protectedTextsList : List Xml → List (Option Str)
  | [] => []
  | k :: ks => protectedTexts k ++ protectedTextsList ks
end

mutual
/-- Everything but the texts of the marked elements. -/
def skeleton : Xml → Xml
  | .mk t a x ks => .mk t a (if marked (.mk t a x ks) then none else x) (skeletonList ks)
def skeletonList : List Xml → List Xml
  | [] => []
  | k :: ks => skeleton k :: skeletonList ks
end

/-- The key-stream segment of `n` bytes from position `o`. -/
def segment (ks : Nat → UInt8) (o n : Nat) : Bytes := (List.range' o n).map ks

/-- The texts as they must be written: each value's UTF-8 bytes are combined with the segment that
starts where the values before it ended, and written in base64. -/
def written (ks : Nat → UInt8) : Nat → List (Option Str) → List (Option Str)
  | _, [] => []
  | o, none :: r => none :: written ks o r
  | o, some s :: r =>
    some (b64encode (xorBytes (utf8Enc s) (segment ks o (utf8Enc s).length))) ::
      written ks (o + (utf8Enc s).length) r

/-- The texts as they must be read: base64 that decodes takes its segment of the key stream also when
the result is no text; such and undecodable values stay as they are. -/
def readBack (ks : Nat → UInt8) : Nat → List (Option Str) → List (Option Str)
  | _, [] => []
  | o, none :: r => none :: readBack ks o r
  | o, some s :: r =>
    match b64decode s with
    | .error _ => some s :: readBack ks o r
    | .ok b =>
      (match utf8Dec (xorBytes b (segment ks o b.length)) with
        | none => some s
        | some t => some (t.filter xmlChar)) :: readBack ks (o + b.length) r

theorem ksXor_segment (ks : Nat → UInt8) (o : Nat) (b : Bytes) :
    ksXor ks o b = xorBytes b (segment ks o b.length) := by
  induction b generalizing o with
  | nil => rfl
  | cons x xs ih =>
    simp only [ksXor, segment, List.length_cons, List.range'_succ, List.map_cons, xorBytes,
      List.zipWith_cons_cons]
    rw [ih]
    rfl

theorem marked_eq (t : Str) (a : List (Str × Str)) (x : Option Str) (ks : List Xml) :
    marked (.mk t a x ks) = isProtected t a := rfl

/-- The offset after a list of texts, for a step function. -/
def after (f : Nat → Option Str → Option Str × Nat) : Nat → List (Option Str) → Nat
  | o, [] => o
  | o, x :: r => after f (f o x).2 r

def mapTexts (f : Nat → Option Str → Option Str × Nat) : Nat → List (Option Str) → List (Option Str)
  | _, [] => []
  | o, x :: r => (f o x).1 :: mapTexts f (f o x).2 r

theorem mapTexts_append (f : Nat → Option Str → Option Str × Nat) (o : Nat) (a b : List (Option Str)) :
    mapTexts f o (a ++ b) = mapTexts f o a ++ mapTexts f (after f o a) b ∧
    after f o (a ++ b) = after f (after f o a) b := by
  induction a generalizing o with
  | nil => exact ⟨rfl, rfl⟩
  | cons x a ih =>
    simp only [List.cons_append, mapTexts, after]
    exact ⟨by rw [(ih _).1], (ih _).2⟩

mutual
theorem mapProtected_texts (f : Nat → Option Str → Option Str × Nat) (o : Nat) : ∀ t : Xml,
    protectedTexts (mapProtected f o t).1 = mapTexts f o (protectedTexts t) ∧
    (mapProtected f o t).2 = after f o (protectedTexts t) ∧
    skeleton (mapProtected f o t).1 = skeleton t
  | .mk t a x ks => by
    by_cases h : isProtected t a = true
    · obtain ⟨h1, h2, h3⟩ := mapProtectedList_texts f (f o x).2 ks
      simp only [mapProtected, protectedTexts, skeleton, marked_eq, h, if_true, List.singleton_append,
        mapTexts, after]
      rw [h1, h2, h3]
      exact ⟨rfl, rfl, rfl⟩
    · obtain ⟨h1, h2, h3⟩ := mapProtectedList_texts f o ks
      simp only [mapProtected, protectedTexts, skeleton, marked_eq, h, Bool.false_eq_true, if_false,
        List.nil_append]
      rw [h1, h2, h3]
      exact ⟨rfl, rfl, rfl⟩
theorem mapProtectedList_texts (f : Nat → Option Str → Option Str × Nat) (o : Nat) : ∀ l : List Xml,
    protectedTextsList (mapProtectedList f o l).1 = mapTexts f o (protectedTextsList l) ∧
    (mapProtectedList f o l).2 = after f o (protectedTextsList l) ∧
    skeletonList (mapProtectedList f o l).1 = skeletonList l
  | [] => ⟨rfl, rfl, rfl⟩
  | k :: ks => by
    obtain ⟨h1, h2, h3⟩ := mapProtected_texts f o k
    obtain ⟨g1, g2, g3⟩ := mapProtectedList_texts f (mapProtected f o k).2 ks
    simp only [mapProtectedList, protectedTextsList, skeletonList]
    rw [g1, g2, g3, h1, h2, h3, (mapTexts_append f o _ _).1, (mapTexts_append f o _ _).2]
    exact ⟨rfl, rfl, rfl⟩
end

/-- Writing: the marked texts are the prescribed ones and nothing else differs. -/
theorem C25_written (ks : Nat → UInt8) (t : Xml) :
    protectedTexts (protect ks t) = written ks 0 (protectedTexts t) ∧
    skeleton (protect ks t) = skeleton t := by
  obtain ⟨h1, _, h3⟩ := mapProtected_texts (protectText ks) 0 t
  refine ⟨?_, h3⟩
  unfold protect
  rw [h1]
  generalize protectedTexts t = l
  generalize 0 = o
  induction l generalizing o with
  | nil => rfl
  | cons x l ih =>
    cases x with
    | none => simp only [mapTexts, protectText, written, ih]
    | some s => simp only [mapTexts, protectText, written, ih, ksXor_segment]

/-- Reading any tree: the same. -/
theorem C25_read (ks : Nat → UInt8) (t : Xml) :
    protectedTexts (unprotect ks t) = readBack ks 0 (protectedTexts t) ∧
    skeleton (unprotect ks t) = skeleton t := by
  obtain ⟨h1, _, h3⟩ := mapProtected_texts (unprotectText ks) 0 t
  refine ⟨?_, h3⟩
  unfold unprotect
  rw [h1]
  generalize protectedTexts t = l
  generalize 0 = o
  induction l generalizing o with
  | nil => rfl
  | cons x l ih =>
    cases x with
    | none => simp only [mapTexts, unprotectText, readBack, ih]
    | some s =>
      simp only [mapTexts, unprotectText, readBack]
      cases hb : b64decode s with
      | error e => simp only [ih]
      | ok b =>
        simp only [← ksXor_segment]
        cases hu : utf8Dec (ksXor ks o b) with
        | none => simp only [ih]
        | some s' => simp only [ih]; rfl

/-- Unprotecting the protected tree, as it is read back from the file, returns the tree (an empty
text is read back as no text). -/
theorem C25_roundtrip (ks : Nat → UInt8) (t : Xml) (h : t.Valid) :
    unprotect ks (protect ks t).norm = t.norm := by
  unfold unprotect protect
  rw [mapProtected_roundtrip ks 0 t h]

/-- The same through the file: for each inner stream setting for which writing succeeds. -/
theorem C25_file (P : Prims) (hP : P.Lawful) (s : StreamId) (key : Except PyErr Bytes) (t : Xml)
    (h : t.Valid) (out : Bytes) (hw : writeXml P s key t = .ok out) : readXml P s key out = .ok t.norm := by
  unfold writeXml at hw
  obtain ⟨o, h1, h2⟩ := exc_bind_ok.mp hw
  cases o with
  | none =>
    simp only at h2
    have := exc_pure_ok.mp h2
    subst this
    unfold readXml
    rw [exc_bind_run (hP.xml_inverse t h), exc_bind_run h1]
    rfl
  | some ks =>
    simp only at h2
    have := exc_pure_ok.mp h2
    subst this
    unfold readXml
    rw [exc_bind_run (hP.xml_inverse (protect ks t) (mapProtected_valid ks 0 t h)), exc_bind_run h1]
    show Except.ok (unprotect ks (protect ks t).norm) = _
    rw [C25_roundtrip ks t h]

/-- The example tree: two protected values, one of them empty. -/
example : protectedTexts Toy.tree ≠ [] ∧ Toy.tree.Valid ∧
    unprotect (fun i => UInt8.ofNat (7 * i)) (protect (fun i => UInt8.ofNat (7 * i)) Toy.tree).norm = Toy.tree.norm ∧
    protect (fun i => UInt8.ofNat (7 * i)) Toy.tree ≠ Toy.tree :=
  ⟨by decide +kernel, Toy.tree_valid, C25_roundtrip _ _ Toy.tree_valid, by decide +kernel⟩

end Verif.Props
