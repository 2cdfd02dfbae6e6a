import Verif.Session.Dump
import Verif.Props.C06_Signature
import Verif.Props.C10_HeaderOnly
import Verif.Props.C11_CrashSafeSave
/-!
# C87: export as XML text
-/
namespace Verif.Props
open Verif

/-- `y` is `x` or below it. -/
inductive PartOf : Xml → Xml → Prop
  | here (x : Xml) : PartOf x x
  | kid {y t a v ks} (k : Xml) : k ∈ ks → PartOf y k → PartOf y (.mk t a v ks)

/-- `b` has `part` in it. -/
def Contains (part b : Bytes) : Prop := ∃ pre post, b = pre ++ (part ++ post)

/-- The text `xml` returns is the whole database: an XML parser reads the tree from it (empty texts
as no text). -/
theorem C87_whole (s : Session) (x : Xml) (ht : s.tree = .ok x) (hx : x.Valid) :
    ∃ b, s.xml = .ok b ∧ Xml.parseDoc b = .ok x.norm :=
  ⟨_, by unfold Session.xml; rw [ht]; rfl, Xml.parseDoc_exportDoc x hx⟩

/-- It is UTF-8 and says so in its first line. -/
theorem C87_declared (s : Session) (x : Xml) (ht : s.tree = .ok x) :
    ∃ text, s.xml = .ok (utf8Enc ("<?xml version='1.0' encoding='utf-8' standalone='yes'?>".toList ++ '\n' :: text)) := by
  refine ⟨Xml.pretty true true 0 x ++ ['\n'], ?_⟩
  have e : Xml.declaration = "<?xml version='1.0' encoding='utf-8' standalone='yes'?>".toList ++ ['\n'] := by decide +kernel
  unfold Session.xml
  rw [ht]
  show Except.ok (Xml.exportDoc x) = _
  rw [Xml.exportDoc, e, List.append_assoc, List.singleton_append]

/-- So is the text `dump_xml` of an entry or group returns, with and without `pretty_print`. -/
theorem C87_element (x : Xml) (hx : x.Valid) (fmt : Bool) :
    Xml.parseDoc (Xml.exportElement fmt x) = .ok x.norm :=
  Xml.parseDoc_exportElement fmt x hx

theorem outText_plain {v : Str} (h : ∀ c ∈ v, c ≠ '&' ∧ c ≠ '<' ∧ c ≠ '>' ∧ c ≠ '\r') : Xml.outText true v = v := by
  induction v with
  | nil => rfl
  | cons c cs ih =>
    show Xml.outChar true c ++ Xml.outText true cs = _
    rw [ih fun d hd => h d (List.mem_cons_of_mem _ hd)]
    have h0 := h c List.mem_cons_self
    have : Xml.outChar true c = [c] := by
      unfold Xml.outChar
      split
      · rfl
      · next hc =>
        unfold Xml.escTextChar
        rw [if_neg h0.1, if_neg h0.2.1, if_neg h0.2.2.1, if_neg]
        rintro (hr | hr)
        · exact h0.2.2.2 hr
        · exact hc ⟨rfl, hr⟩
    rw [this]
    rfl

theorem prettyList_mem (utf fmt : Bool) (n : Nat) {k : Xml} {ks : List Xml} (h : k ∈ ks) :
    ∃ pre post, Xml.prettyList utf fmt n ks = pre ++ (Xml.pretty utf fmt n k ++ post) := by
  induction ks with
  | nil => cases h
  | cons j js ih =>
    rw [Xml.prettyList]
    rcases List.mem_cons.mp h with rfl | h
    · exact ⟨_, _, rfl⟩
    · obtain ⟨pre, post, e⟩ := ih h
      exact ⟨Xml.newLine fmt n ++ (Xml.pretty utf fmt n j ++ pre), post, by rw [e]; simp only [List.append_assoc]⟩

theorem pretty_text {y x : Xml} (h : PartOf y x) {t a v ks} (hy : y = .mk t a (some v) ks) :
    ∀ utf fmt n, ∃ pre post, Xml.pretty utf fmt n x = pre ++ (Xml.outText utf v ++ post) := by
  induction h with
  | here =>
    intro utf fmt n
    subst hy
    rw [Xml.pretty, if_neg (by simp)]
    exact ⟨'<' :: (t ++ (Xml.outAttrs utf a ++ ['>'])), _, by
      simp only [List.append_assoc, List.cons_append, List.nil_append]; rfl⟩
  | kid k hk _ ih =>
    intro utf fmt n
    rename_i t' a' v' ks' _
    rw [Xml.pretty, if_neg (by
      rintro ⟨_, he⟩
      rw [List.isEmpty_iff] at he
      subst he
      cases hk)]
    obtain ⟨p1, q1, e1⟩ := prettyList_mem utf (fmt && v'.isNone) (n + 1) hk
    obtain ⟨p2, q2, e2⟩ := ih utf (fmt && v'.isNone) (n + 1)
    rw [e1, e2]
    refine ⟨'<' :: (t' ++ (Xml.outAttrs utf a' ++ '>' :: (Xml.outText utf (v'.getD []) ++ (p1 ++ p2)))), ?_, ?_⟩
    rotate_left
    · simp only [List.append_assoc, List.cons_append]
      rfl

/-- Finding: passwords are in that text as they are. Every text in the tree, of a protected element
too, is in the export literally, unless it has characters that are markup in XML. -/
theorem C87_in_clear (s : Session) (x : Xml) (ht : s.tree = .ok x) (t : Str) (a : List (Str × Str)) (v : Str)
    (ks : List Xml) (hu : PartOf (.mk t a (some v) ks) x)
    (hv : ∀ c ∈ v, c ≠ '&' ∧ c ≠ '<' ∧ c ≠ '>' ∧ c ≠ '\r') :
    ∃ b, s.xml = .ok b ∧ Contains (utf8Enc v) b := by
  refine ⟨Xml.exportDoc x, by unfold Session.xml; rw [ht]; rfl, ?_⟩
  obtain ⟨pre, post, e⟩ := pretty_text hu rfl true true 0
  refine ⟨utf8Enc (Xml.declaration ++ pre), utf8Enc (post ++ ['\n']), ?_⟩
  unfold Xml.exportDoc
  rw [e, outText_plain hv, ← utf8Enc_append, ← utf8Enc_append]
  simp only [List.append_assoc]

/-- `dump_xml` that meets no error writes that text, and no other file changes at any moment. -/
theorem C87_dump (o : Os) (fs : Fs) (s : Session) (p : Str) (b : Bytes) (hb : s.xml = .ok b)
    (ho : o.openOk = true) (hi : o.ioError = none) (hf : o.Faithful) (hp : (PPath.ofStr p).parts ≠ []) :
    (s.dumpXml o fs p).result = .ok () ∧ (s.dumpXml o fs p).final = fs.set (PPath.ofStr p) (some b) := by
  unfold Session.dumpXml
  rw [if_pos ⟨ho, hp⟩, hb]
  have : o.writes (.ok b) = (o.pieces b, .ok ()) := by unfold Os.writes; simp only [hi]
  simp only [this, hf b]
  exact ⟨trivial, trivial⟩

/-- Whatever happens, no file but the one given changes. -/
theorem C87_other_files (o : Os) (fs : Fs) (s : Session) (p : Str) :
    ∀ x ∈ (s.dumpXml o fs p).states, ∀ q, q ≠ PPath.ofStr p → x q = fs q := by
  intro x hx q hq
  unfold Session.dumpXml at hx
  split at hx
  · split at hx
    · simp only [List.mem_cons, List.not_mem_nil, or_false] at hx
      rcases hx with rfl | rfl
      · rfl
      · exact Fs.set_ne _ _ hq
    · simp only [List.mem_cons] at hx
      rcases hx with rfl | hx
      · rfl
      · obtain ⟨n, rfl⟩ := appendStates_mem hx
        exact Fs.set_ne _ _ hq
  · simp only [List.mem_cons, List.not_mem_nil, or_false] at hx
    rw [hx]

/-- Finding: unlike `save`, `dump_xml` empties the file first, so a crash loses what was in it. -/
theorem C87_not_crash_safe (o : Os) (fs : Fs) (s : Session) (p : Str) (ho : o.openOk = true)
    (hp : (PPath.ofStr p).parts ≠ []) : ∃ x ∈ (s.dumpXml o fs p).states, x (PPath.ofStr p) = some [] := by
  refine ⟨fs.set (PPath.ofStr p) (some []), ?_, Fs.set_same _ _ _⟩
  unfold Session.dumpXml
  rw [if_pos ⟨ho, hp⟩]
  cases s.xml with
  | error e => exact List.mem_cons_of_mem _ List.mem_cons_self
  | ok b =>
    refine List.mem_cons_of_mem _ ?_
    cases (o.writes (.ok b)).1 <;> simp [appendStates]

/-- Finding: when there is no tree it raises, and the file is left empty. -/
theorem C87_refused (o : Os) (fs : Fs) (s : Session) (p : Str) (e : PyErr) (ht : s.tree = .error e)
    (ho : o.openOk = true) (hp : (PPath.ofStr p).parts ≠ []) :
    (s.dumpXml o fs p).result = .error e ∧ (s.dumpXml o fs p).final (PPath.ofStr p) = some [] := by
  unfold Session.dumpXml
  rw [if_pos ⟨ho, hp⟩]
  have : s.xml = .error e := by unfold Session.xml; rw [ht]; rfl
  rw [this]
  exact ⟨rfl, Fs.set_same _ _ _⟩

/-- So with a database opened with `decrypt=False`. -/
theorem C87_header_only (P : Prims) (c : Creds) (file : Bytes) (k : Kdbx) (h : openBytes P c false file = .ok k)
    (hv : k.header.value.major = 3 ∨ k.header.value.major = 4) (o : Os) (fs : Fs) (s : Session) (p : Str)
    (hk : s.kdbx = some k) (ho : o.openOk = true) (hp : (PPath.ofStr p).parts ≠ []) :
    (s.dumpXml o fs p).result = .error .value ∧ (s.dumpXml o fs p).final (PPath.ofStr p) = some [] :=
  C87_refused o fs s p .value (by unfold Session.tree; rw [hk]; exact (C10_cannot_build P c c file k h hv).1) ho hp

/-- The text is no database: written over the database itself, it cannot be opened any more. -/
theorem C87_not_a_database (P : Prims) (c : Creds) (dec : Bool) (s : Session) (b : Bytes) (hb : s.xml = .ok b) :
    openBytes P c dec b = .error .headerChecksum := by
  unfold Session.xml at hb
  cases ht : s.tree with
  | error e => rw [ht] at hb; cases hb
  | ok x =>
    rw [ht] at hb
    have hb := (Except.ok.inj hb).symm
    subst hb
    have h8 : ∃ r, Xml.exportDoc x = [60, 63, 120, 109, 108, 32, 118, 101] ++ r := by
      refine ⟨utf8Enc (Xml.declaration.drop 8) ++ utf8Enc (Xml.pretty true true 0 x ++ ['\n']), ?_⟩
      unfold Xml.exportDoc
      rw [utf8Enc_append, ← List.append_assoc]
      have : utf8Enc Xml.declaration = [60, 63, 120, 109, 108, 32, 118, 101] ++ utf8Enc (Xml.declaration.drop 8) := by
        decide +kernel
      rw [this]
    obtain ⟨r, hr⟩ := h8
    refine C06_rejected P c dec _ ?_ ?_
    · rw [hr]; simp
    · rw [hr]
      show ([60, 63, 120, 109, 108, 32, 118, 101] : Bytes) ≠ keepassSignature
      decide

/-! ### The hypotheses are met -/

example : Toy.tree.Valid ∧ (toySession .aes256 true).tree = .ok Toy.tree ∧ goodOs.Faithful ∧
    (PPath.ofStr "dir/out.xml".toList).parts ≠ [] :=
  ⟨Toy.tree_valid, rfl, goodOs_faithful, by decide⟩

/-- The example files open without decrypting (C10). -/
example (c : CipherId) (z : Bool) : ∃ k', openBytes Toy.prims { Toy.creds with password := some [] } false
    (Toy.file4 c z) = .ok k' ∧ k'.header.value.major = 4 := by
  obtain ⟨tk, mk, h⟩ := Toy.open4 c z
  obtain ⟨k', h1, h2, _⟩ := C10_any_password Toy.prims (by intro id a b salt t m p v x _; exact ⟨_, rfl⟩) Toy.creds
    true _ _ h (.inr rfl) (some [])
  exact ⟨k', h1, h2 ▸ rfl⟩

/-- A protected password within the tree. -/
example : ∃ x, (toySession .aes256 true).tree = .ok x ∧
    PartOf (.mk "Value".toList [("Protected".toList, "True".toList)] (some "pâss".toList) []) x ∧
    ∀ c ∈ "pâss".toList, c ≠ '&' ∧ c ≠ '<' ∧ c ≠ '>' ∧ c ≠ '\r' := by
  refine ⟨Toy.tree, rfl, ?_, by decide⟩
  unfold Toy.tree
  refine .kid _ (List.mem_cons_of_mem _ List.mem_cons_self) (.kid _ List.mem_cons_self (.kid _
    (List.mem_cons_of_mem _ List.mem_cons_self) (.kid _ (List.mem_cons_of_mem _ List.mem_cons_self)
    (.kid _ (List.mem_cons_of_mem _ List.mem_cons_self) ?_))))
  exact .here _

end Verif.Props
