import Verif.Kdbx.KeyLemmas
import Verif.Kdbx.Toy
/-!
# C15: key files of all supported formats yield the key they encode
-/
namespace Verif.Props
open Verif

/-- What the format says a composite key is: the hash of the password (nothing for no password)
followed by the key of the key file (nothing for no key file), hashed. -/
def composite (P : Prims) (password : Option Str) (key : Option Bytes) : Bytes :=
  P.sha256 ((match password with | some p => P.sha256 (utf8Enc p) | none => []) ++ key.getD [])

/-- The file is not XML: the XML library refuses it. -/
def NotXml (P : Prims) (b : Bytes) : Prop :=
  P.xmlFromString b = .error .xmlSyntax ∨ P.xmlFromString b = .error .unicodeDecode

/-- An XML key file: version, attributes of the data element, its text. Names of the root and blanks
between elements are free. -/
def keyXml (root : Str) (w1 w2 w3 : Option Str) (version : Str) (attrs : List (Str × Str)) (data : Str) : Xml :=
  .mk root [] w1 [.mk "Meta".toList [] w2 [.mk "Version".toList [] (some version) []],
    .mk "Key".toList [] w3 [.mk "Data".toList attrs (some data) []]]

/-- Data of a version 2 key file: groups of bytes in upper- or lower-case hexadecimal, blanks
(spaces, tabs, line ends) before each group and at the end. -/
def grouped : List (Str × Bool × Bytes) → Str
  | [] => []
  | (w, up, b) :: r => w ++ ((if up then hexEncodeU b else hexEncode b) ++ grouped r)

/-- The file `b` encodes the key `k` in one of the four formats. -/
inductive Encodes (P : Prims) : Bytes → Bytes → Prop where
  /-- 32 raw bytes -/
  | raw (k : Bytes) (h : k.length = 32) (hx : NotXml P k) : Encodes P k k
  /-- 64 hexadecimal digits, in any mixture of cases -/
  | hex (up : Nat → Bool) (k : Bytes) (h : k.length = 32) (hx : NotXml P (asciiBytes (hexDigits up 0 k))) :
      Encodes P (asciiBytes (hexDigits up 0 k)) k
  /-- XML version 1.x: base64 -/
  | xml1 (b : Bytes) (root : Str) (w1 w2 w3 : Option Str) (v : Str) (attrs : List (Str × Str)) (k : Bytes)
      (hx : P.xmlFromString b = .ok (keyXml root w1 w2 w3 ("1.0".toList ++ v) attrs (b64encode k))) :
      Encodes P b k
  /-- XML version 2.x: hexadecimal groups, first four bytes of the SHA-256 as check -/
  | xml2 (b : Bytes) (root : Str) (w1 w2 w3 : Option Str) (v : Str) (up : Bool)
      (gs : List (Str × Bool × Bytes)) (w : Str)
      (hw : ∀ g ∈ gs, g.1.all asciiSpace = true) (hw' : w.all asciiSpace = true)
      (hx : P.xmlFromString b = .ok (keyXml root w1 w2 w3 ("2.0".toList ++ v)
        [("Hash".toList, if up then hexEncodeU ((P.sha256 (gs.flatMap (·.2.2))).take 4)
          else hexEncode ((P.sha256 (gs.flatMap (·.2.2))).take 4))] (grouped gs ++ w))) :
      Encodes P b (gs.flatMap (·.2.2))

theorem keyXml_data (root : Str) (w1 w2 w3 : Option Str) (v : Str) (attrs : List (Str × Str)) (data : Str) :
    (keyXml root w1 w2 w3 v attrs data).findPath ["Key".toList, "Data".toList] =
      some (.mk "Data".toList attrs (some data) []) := rfl

theorem xmlKeyfile_notXml {P : Prims} {b : Bytes} (h : NotXml P b) :
    keyfileComposite P b = plainKeyfile P b := by
  unfold keyfileComposite xmlKeyfile
  rcases h with h | h <;> rw [h] <;> rfl

theorem hexEncode_append_fromHex (up : Bool) (b : Bytes) (s : Str) (k : Bytes) (h : fromHex s = .ok k) :
    fromHex ((if up then hexEncodeU b else hexEncode b) ++ s) = .ok (b ++ k) := by
  induction b with
  | nil => cases up <;> exact h
  | cons x xs ih =>
    have := fromHex_pair x up ((if up then hexEncodeU xs else hexEncode xs) ++ s)
    rw [ih] at this
    cases up <;> exact this

theorem fromHex_grouped (gs : List (Str × Bool × Bytes)) (w : Str)
    (hw : ∀ g ∈ gs, g.1.all asciiSpace = true) (hw' : w.all asciiSpace = true) :
    fromHex (grouped gs ++ w) = .ok (gs.flatMap (·.2.2)) := by
  rw [fromHex_trailing _ _ hw']
  induction gs with
  | nil => rfl
  | cons g gs ih =>
    obtain ⟨w0, up, b⟩ := g
    rw [grouped, fromHex_spaces _ _ (hw _ List.mem_cons_self),
      hexEncode_append_fromHex up b _ _ (ih (fun g hg => hw g (List.mem_cons_of_mem _ hg)))]
    rfl

theorem hexEncode_blank (up : Bool) (b : Bytes) : ∀ c ∈ (if up then hexEncodeU b else hexEncode b),
    pySpace c = true → asciiSpace c = true := by
  have h1 : ∀ v, v < 16 → pySpace (hexChar v) = false := by decide
  have h2 : ∀ v, v < 16 → pySpace (hexCharU v) = false := by decide
  intro c hc hs
  have : pySpace c = false := by
    cases up
    · simp only [Bool.false_eq_true, if_false, hexEncode, List.mem_flatMap] at hc
      obtain ⟨x, _, hc⟩ := hc
      have := x.toNat_lt
      simp only [List.mem_cons, List.not_mem_nil, or_false] at hc
      rcases hc with rfl | rfl <;> exact h1 _ (by omega)
    · simp only [if_true, hexEncodeU, List.mem_flatMap] at hc
      obtain ⟨x, _, hc⟩ := hc
      have := x.toNat_lt
      simp only [List.mem_cons, List.not_mem_nil, or_false] at hc
      rcases hc with rfl | rfl <;> exact h2 _ (by omega)
  rw [this] at hs; cases hs

theorem grouped_blank (gs : List (Str × Bool × Bytes)) (hw : ∀ g ∈ gs, g.1.all asciiSpace = true) :
    ∀ c ∈ grouped gs, pySpace c = true → asciiSpace c = true := by
  induction gs with
  | nil => intro c hc; cases hc
  | cons g gs ih =>
    obtain ⟨w0, up, b⟩ := g
    intro c hc hs
    rw [grouped, List.mem_append, List.mem_append] at hc
    rcases hc with hc | hc | hc
    · exact List.all_eq_true.mp (hw _ List.mem_cons_self) c hc
    · exact hexEncode_blank up b c hc hs
    · exact ih (fun g hg => hw g (List.mem_cons_of_mem _ hg)) c hc hs

theorem fromHex_hash (up : Bool) (b : Bytes) :
    fromHex (if up then hexEncodeU b else hexEncode b) = .ok b := by
  cases up
  · exact fromHex_hexEncode b
  · exact fromHex_hexEncodeU b

/-- Whatever the format, the key file contributes the key it encodes. -/
theorem C15_formats (P : Prims) (b k : Bytes) (h : Encodes P b k) : keyfileComposite P b = .ok k := by
  cases h with
  | raw _ h hx =>
    rw [xmlKeyfile_notXml hx]
    unfold plainKeyfile
    simp only [h, if_true]
  | hex up _ h hx =>
    rw [xmlKeyfile_notXml hx]
    obtain ⟨h1, h2, h3⟩ := unhexlify_hexDigits up 0 k
    have hl : (asciiBytes (hexDigits up 0 k)).length = 64 := by rw [h2, h]
    unfold plainKeyfile
    simp only [hl]
    rw [if_neg (by decide), if_pos ⟨trivial, intHexOk_all _ (by
      intro e; rw [e] at hl; cases hl) h3⟩, h1]
  | xml1 _ root w1 w2 w3 v attrs _ hx =>
    have : xmlKeyfile P b = .ok k := by
      unfold xmlKeyfile
      rw [exc_bind_run hx]
      have : b64decode (b64encode k) = .ok k := b64decode_b64encode k
      exact this
    unfold keyfileComposite
    rw [this]
  | xml2 _ root w1 w2 w3 v up gs w hw hw' hx =>
    have hall : ∀ c ∈ grouped gs ++ w, pySpace c = true → asciiSpace c = true := by
      intro c hc hs
      rcases List.mem_append.mp hc with hc | hc
      · exact grouped_blank gs hw c hc hs
      · exact List.all_eq_true.mp hw' c hc
    have hd : fromHex (pyStrip (grouped gs ++ w)) = .ok (gs.flatMap (·.2.2)) := by
      rw [fromHex_pyStrip _ hall, fromHex_grouped gs w hw hw']
    have : xmlKeyfile P b = .ok (gs.flatMap (·.2.2)) := by
      rw [xmlKeyfile_version hx rfl rfl]
      rw [if_neg (by simp), if_pos (by simp), keyXml_data]
      simp only [Xml.text, hd, Xml.attr, Xml.attrs, List.lookup, beq_self_eq_true, fromHex_hash up _, if_true]
    unfold keyfileComposite
    rw [this]

/-- So two files encoding the same key, in whatever formats, and given by path or stream, give the
same composite key, and it is the one of the format. -/
theorem C15_composite (P : Prims) (pw : Option Str) (b k : Bytes) (h : Encodes P b k) (pos : Nat) :
    (computeKeyComposite P pw (.path (some b))).1 = .ok (composite P pw (some k)) ∧
    (computeKeyComposite P pw (.stream true b pos)).1 = .ok (composite P pw (some k)) ∧
    (computeKeyComposite P pw .none).1 = .ok (composite P pw none) := by
  simp only [computeKeyComposite, Keyfile.read, C15_formats P b k h]
  cases pw <;> exact ⟨rfl, rfl, rfl⟩

/-- Any other file contributes its SHA-256: it is not XML, not 32 bytes long, and it is not 64 bytes
long or contains a byte that does not occur in hexadecimal numbers. -/
theorem C15_other (P : Prims) (b : Bytes) (hx : NotXml P b) (h32 : b.length ≠ 32)
    (h64 : b.length ≠ 64 ∨
      ∃ x ∈ b, isHexByte x = false ∧ isSpaceByte x = false ∧ x ∉ ([95, 43, 45, 120, 88] : Bytes)) :
    keyfileComposite P b = .ok (P.sha256 b) := by
  rw [xmlKeyfile_notXml hx]
  unfold plainKeyfile
  simp only
  rw [if_neg h32, if_neg]
  rintro ⟨h1, h2⟩
  rcases h64 with h64 | ⟨x, hx, b1, b2, b3⟩
  · exact h64 h1
  · rw [intHexOk_bad x b hx b1 b2 b3] at h2; cases h2

/-- A document that is XML but not a key file. -/
inductive NotKey (t : Xml) : Prop where
  /-- no version element -/
  | noVersion (h : t.findPath ["Meta".toList, "Version".toList] = none)
  /-- an empty version element -/
  | emptyVersion (e : Xml) (h : t.findPath ["Meta".toList, "Version".toList] = some e) (h' : e.text = none)
  /-- a version other than 1.0 and 2.0 -/
  | unknown (e : Xml) (v : Str) (h : t.findPath ["Meta".toList, "Version".toList] = some e) (h' : e.text = some v)
      (h1 : "1.0".toList.isPrefixOf v = false) (h2 : "2.0".toList.isPrefixOf v = false)
  /-- no data element -/
  | noData (h : t.findPath ["Key".toList, "Data".toList] = none)
  /-- version 2.0, an empty data element -/
  | emptyData (e d : Xml) (v : Str) (h : t.findPath ["Meta".toList, "Version".toList] = some e)
      (h' : e.text = some ("2.0".toList ++ v)) (hd : t.findPath ["Key".toList, "Data".toList] = some d) (hd' : d.text = none)

/-- XML that is not a key file is treated like a file that is not XML: it contributes its SHA-256, unless it is 32 bytes long.
(As XML it has a `<`, which is no hexadecimal digit.) -/
theorem C15_other_xml (P : Prims) (b : Bytes) (t : Xml) (hx : P.xmlFromString b = .ok t) (h : NotKey t) (hlt : (60 : UInt8) ∈ b) :
    keyfileComposite P b = .ok (if b.length = 32 then b else P.sha256 b) := by
  have : xmlKeyfile P b = .error .attribute := by
    cases h with
    | noVersion h => unfold xmlKeyfile; rw [exc_bind_run hx, h]; rfl
    | emptyVersion e h h' => unfold xmlKeyfile; rw [exc_bind_run hx, h]; simp only [pure_bind, h']; rfl
    | unknown e v h1 h2 h3 h4 => rw [xmlKeyfile_version hx h1 h2, h3, h4]; rfl
    | noData h =>
      cases hv : t.findPath ["Meta".toList, "Version".toList] with
      | none => unfold xmlKeyfile; rw [exc_bind_run hx, hv]; rfl
      | some e =>
        cases he : e.text with
        | none => unfold xmlKeyfile; rw [exc_bind_run hx, hv]; simp only [pure_bind, he]; rfl
        | some v =>
          rw [xmlKeyfile_version hx hv he, h]
          split
          · rfl
          · split <;> rfl
    | emptyData e d v h h' hd hd' =>
      rw [xmlKeyfile_version hx h h', hd, if_neg (by simp), if_pos (by simp)]
      simp only [hd']
  unfold keyfileComposite
  rw [this]
  unfold plainKeyfile
  simp only
  split
  · rfl
  · rw [if_neg]
    rintro ⟨-, h2⟩
    rw [intHexOk_bad 60 b hlt (by decide) (by decide) (by decide)] at h2
    cases h2

/-- A document without version, one with version 3, one without data. -/
example : NotKey (.mk "a".toList [] none []) ∧
    NotKey (keyXml "KeyFile".toList none none none "3.0".toList [] "00".toList) ∧
    NotKey (.mk "KeyFile".toList [] none [.mk "Meta".toList [] none [.mk "Version".toList [] (some "2.0".toList) []]]) :=
  ⟨.noVersion (by decide +kernel), .unknown (.mk "Version".toList [] (some "3.0".toList) []) "3.0".toList rfl rfl rfl rfl,
    .noData (by decide +kernel)⟩

/-- A version 2 file whose check does not fit its data is refused (`AssertionError`). -/
theorem C15_wrong_hash (P : Prims) (b : Bytes) (root : Str) (w1 w2 w3 : Option Str) (v : Str)
    (gs : List (Str × Bool × Bytes)) (w hash : Str) (hb : Bytes)
    (hw : ∀ g ∈ gs, g.1.all asciiSpace = true) (hw' : w.all asciiSpace = true)
    (hx : P.xmlFromString b = .ok (keyXml root w1 w2 w3 ("2.0".toList ++ v)
      [("Hash".toList, hash)] (grouped gs ++ w)))
    (hh : fromHex hash = .ok hb) (hne : hb ≠ (P.sha256 (gs.flatMap (·.2.2))).take 4)
    (pw : Option Str) :
    (computeKeyComposite P pw (.path (some b))).1 = .error .assertion := by
  have hall : ∀ c ∈ grouped gs ++ w, pySpace c = true → asciiSpace c = true := by
    intro c hc hs
    rcases List.mem_append.mp hc with hc | hc
    · exact grouped_blank gs hw c hc hs
    · exact List.all_eq_true.mp hw' c hc
  have hd : fromHex (pyStrip (grouped gs ++ w)) = .ok (gs.flatMap (·.2.2)) := by
    rw [fromHex_pyStrip _ hall, fromHex_grouped gs w hw hw']
  have : xmlKeyfile P b = .error .assertion := by
    rw [xmlKeyfile_version hx rfl rfl]
    rw [if_neg (by simp), if_pos (by simp), keyXml_data]
    simp only [Xml.text, hd, Xml.attr, Xml.attrs, List.lookup, beq_self_eq_true, hh, if_neg hne]
  simp only [computeKeyComposite, Keyfile.read, keyfileComposite, this]

/-- No password and the empty password are different inputs to the hash. -/
theorem C15_none_vs_empty (P : Prims) (hP : P.Lawful) (key : Bytes) :
    (passwordComposite P none ++ key) ≠ (passwordComposite P (some []) ++ key) := by
  intro h
  have := congrArg List.length h
  simp only [passwordComposite, List.length_append, hP.sha256_length, List.length_nil] at this
  omega

/-- Finding: a password alone and a key file consisting of the 32 bytes of its hash alone give the
same composite key (both are a bare 32-byte component). -/
theorem C15_password_is_keyfile (P : Prims) (hP : P.Lawful) (p : Str)
    (hx : NotXml P (P.sha256 (utf8Enc p))) :
    (computeKeyComposite P (some p) .none).1 =
      (computeKeyComposite P none (.path (some (P.sha256 (utf8Enc p))))).1 := by
  have h := C15_formats P _ _ (.raw _ (hP.sha256_length _) hx)
  simp only [computeKeyComposite, Keyfile.read, h, passwordComposite, List.append_nil, List.nil_append]

/-- Finding: 64 bytes that Python reads as a hexadecimal number although they are not 64 digits (here
with a `0x` prefix) are neither decoded nor hashed: reading the key file fails. -/
theorem C15_hex_prefix_fails :
    keyfileComposite Toy.prims (asciiBytes ("0x".toList ++ List.replicate 62 'a')) = .error .os := by
  decide +kernel

/-- Finding: a version 1 file with an empty data element fails with `TypeError`, a version 2 file
without check with `KeyError`; both are not treated like other malformed key files. -/
theorem C15_malformed_xml (P : Prims) (b : Bytes) :
    (P.xmlFromString b = .ok (.mk "KeyFile".toList [] none
      [.mk "Meta".toList [] none [.mk "Version".toList [] (some "1.0".toList) []],
       .mk "Key".toList [] none [.mk "Data".toList [] none []]]) →
      keyfileComposite P b = .error .type) ∧
    (P.xmlFromString b = .ok (keyXml "KeyFile".toList none none none "2.0".toList [] "00".toList) →
      keyfileComposite P b = .error .key) := by
  constructor
  · intro h
    have : xmlKeyfile P b = .error .type := by
      unfold xmlKeyfile; rw [exc_bind_run h]; rfl
    unfold keyfileComposite; rw [this]
  · intro h
    have : xmlKeyfile P b = .error .key := by
      rw [xmlKeyfile_version h rfl rfl, if_neg (by decide), if_pos (by decide), keyXml_data]
      simp only [Xml.text, show fromHex (pyStrip "00".toList) = .ok [0] from by decide +kernel]
      rfl
    unfold keyfileComposite; rw [this]

/-- The four formats with the example XML parser. -/
example : Encodes Toy.prims (List.replicate 32 1) (List.replicate 32 1) :=
  .raw _ (by decide) (by unfold NotXml; decide +kernel)
example : ∃ b, Encodes Toy.prims b (List.replicate 32 0xab) ∧ b.take 4 = [97, 66, 97, 66] :=
  ⟨_, .hex (fun i => i % 2 == 1) (List.replicate 32 0xab) (by decide) (by unfold NotXml; decide +kernel),
    by decide +kernel⟩
example : Encodes Toy.prims (utf8Enc ("<KeyFile><Meta><Version>1.00</Version></Meta><Key>" ++
    "<Data>AQID</Data></Key></KeyFile>").toList) [1, 2, 3] :=
  .xml1 _ "KeyFile".toList none none none "0".toList [] [1, 2, 3] (by decide +kernel)
example : Encodes Toy.prims (utf8Enc ("<KeyFile><Meta><Version>2.0</Version></Meta><Key><Data Hash=\"" ++
    String.ofList (hexEncodeU ((Toy.prims.sha256 [1, 0xab, 3]).take 4)) ++
    "\"> 01AB 03 </Data></Key></KeyFile>").toList) [1, 0xab, 3] :=
  .xml2 _ "KeyFile".toList none none none [] true [(" ".toList, true, [1, 0xab]), (" ".toList, true, [3])]
    " ".toList (by decide) (by decide) (by decide +kernel)

end Verif.Props
