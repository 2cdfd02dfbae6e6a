import Verif.Session.BridgeLemmas
import Verif.Props.C53_Identity
/-!
# C64: whatever methods are called, the database can be written and read back
-/
namespace Verif.Props
open Verif XPath Spec Api

/-- Nothing is guarded but the form of the elements. -/
def fineFrame : Frame where
  F _ := False
  P _ _ := False
  fine := true

theorem good_fine {s : Db} (hs : Inv s) (ht : TidyHeap s.heap) : Good fineFrame s :=
  ⟨hs, fun _ h => h.elim, fun h => h, fun _ _ _ _ _ _ h => h, fun _ => ht, nofun, nofun⟩

/-- The calls the documented API offers, made on objects of the class that has the method. -/
def Allowed (h : Heap) (c : Call) : Prop := c.Typed h ∧ c.Public

/-- Every sequence of calls, whatever arguments they are given and whether or not they raise, leaves every element in
a form that can be written: no control characters, no white space that would be dropped, no names that are none. -/
theorem C64_tidy (env : Env) {s t : Db} (hs : Inv s) (hd : DocOk s.heap) (ht : TidyHeap s.heap) (h : Exec env Allowed s t) :
    Inv t ∧ TidyHeap t.heap ∧ DocOk t.heap ∧ docEl t.heap = docEl s.heap ∧ t.version = s.version := by
  induction h with
  | refl => exact ⟨hs, ht, hd, rfl, rfl⟩
  | @step t c _ hL ih =>
    obtain ⟨h1, h2, h3, h4, h5⟩ := ih
    have hg := good_fine h1 h2
    have hG : Guard fineFrame t := ⟨fun _ h => h, fun _ _ h => h.elim, h3⟩
    have hk := (call_keeps env hG hg c hL.1 (fun _ _ _ _ h => h) (fun _ => hL.2) (fun _ _ _ h => h) (fun _ _ _ _ _ h => h) hg).1
    exact ⟨hk.good.inv, hk.good.tidy rfl, (hG.kept hk).doc, hk.doc.trans h4, hk.version.trans h5⟩

/-- Empty texts become `None` when a tree is read back; its form stays. -/
theorem tidy_norm {x : Xml} (h : TidyXml x) : TidyXml x.norm := by
  induction x using Xml.ind with
  | h t a x ks ih =>
    obtain ⟨h1, h2⟩ := Xml.all_root h
    rw [Xml.norm_mk]
    have hx : ∀ s, Xml.normText x = some s → x = some s := by
      intro s hs
      match x with
      | none => cases hs
      | some [] => cases hs
      | some (c :: cs) => exact hs
    have he : (ks.map Xml.norm).isEmpty = ks.isEmpty := by cases ks <;> rfl
    refine .mk ?_ ?_
    · show Fine t a _ (ks.map Xml.norm).isEmpty
      rw [he]
      exact ⟨h1.name, h1.attrs, h1.once, fun s hs => h1.text s (hx s hs), fun hi s hs => h1.inner hi s (hx s hs), h1.leaf⟩
    · intro k hk
      obtain ⟨k', hk', rfl⟩ := List.mem_map.mp hk
      exact ih k' hk' (h2 k' hk')

/-- What was loaded from a tidy file is tidy. -/
theorem loaded {k : Kdbx} {x : Xml} (hx : k.tree = .ok x) (hn : x.tag = "KeePassFile".toList) (ht : TidyXml x) {a b : Nat} {s : Db}
    (hl : k.load a b = .ok s) : Inv s ∧ TidyHeap s.heap ∧ DocOk s.heap ∧ docEl s.heap = some 1 := by
  obtain ⟨s', e, hi, hd, hc, _⟩ := load_ok hx a b
  rw [hl] at e
  injection e with e
  subst e
  refine ⟨hi, fun j r h0 hr => ?_, fun d hd' => ?_, hd⟩
  · exact content_tidy hi hc ht (load_reach hl hi (heap_some.mp ⟨r, hr⟩) h0) hr
  · rw [hd] at hd'
    injection hd' with hd'
    subst hd'
    exact (content_tag hc).trans hn

theorem opened4 {P : Prims} (hP : P.Lawful) {c : Creds} {file : Bytes} {k : Kdbx} (h : openBytes P c true file = .ok k)
    (hv : k.header.value.major = 4) : ∃ b p ih, k.body = some b ∧ b.payload = some p ∧ p.inner = some ih := by
  obtain ⟨rest, hparse⟩ := openBytes_ok.mp h
  obtain ⟨d, tk, r, b, h1, h2, h3, h4, h5⟩ := (parse4_ok hv).mp hparse
  obtain ⟨_, _, _, _, _, _, _, _, p', s', _, _, _, _, _, _, _, _, _, k11, k12⟩ := (body4_iff P hP ..).mp h4
  obtain ⟨inner, r', sid, xml0, m1, _, _, e⟩ := (unpack4_iff ..).mp k11
  exact ⟨b, p', inner, h5, by rw [k12], by rw [e]⟩

theorem opened3 {P : Prims} {c : Creds} {file : Bytes} {k : Kdbx} (h : openBytes P c true file = .ok k)
    (hv : k.header.value.major = 3) : ∃ b p, k.body = some b ∧ b.payload = some p ∧ p.inner = none := by
  obtain ⟨rest, hparse⟩ := openBytes_ok.mp h
  obtain ⟨d, tk, r, b, h1, h2, h3, h4, h5⟩ := (parse3_ok hv).mp hparse
  obtain ⟨_, _, _, _, p, _, _, _, _, k11, _, k12⟩ := (body3_iff P ..).mp h4
  obtain ⟨_, _, _, _, _, _, _, _, _, _, _, _, _, _, _, _, e⟩ := (unpack3_iff ..).mp k11
  exact ⟨b, p, h5, by rw [k12], by rw [e]⟩

/-- An open database, some calls, and the tree that the document then is. -/
structure Worked (env : Env) (k : Kdbx) (s' : Db) (y : Xml) : Prop where
  run : ∃ x a b s, k.tree = .ok x ∧ x.tag = "KeePassFile".toList ∧ TidyXml x ∧ k.load a b = .ok s ∧ Exec env Allowed s s'
  tree : content s' 1 = some y

theorem worked {env : Env} {k : Kdbx} {s' : Db} {y : Xml} (h : Worked env k s' y) :
    Inv s' ∧ docEl s'.heap = some 1 ∧ TidyXml y ∧ y.tag = "KeePassFile".toList := by
  obtain ⟨⟨x, a, b, s, h1, h2, h3, h4, h5⟩, hy⟩ := h
  obtain ⟨g1, g2, g3, g4⟩ := loaded h1 h2 h3 h4
  obtain ⟨e1, e2, e3, e4, e5⟩ := C64_tidy env g1 g3 g2 h5
  rw [g4] at e4
  exact ⟨e1, e4, tidy_content e1 e2 (by decide) hy, (content_tag hy).symm.trans (e3 1 e4)⟩

theorem C64_kdbx4_suffix (P : Prims) (hP : P.Lawful) (env : Env) {c0 : Creds} {file : Bytes} {k : Kdbx}
    (hopen : openBytes P c0 true file = .ok k) (hver : k.header.value.major = 4) {s' : Db} {y : Xml} (hw : Worked env k s' y)
    (c : Creds) (hc : c.keyfile.Reusable) (out : Bytes) (kf : Keyfile) (hsave : buildKdbx P c (k.store s') = (.ok out, kf)) (suffix : Bytes) :
    ∃ k2, openBytes P { c with keyfile := kf } true (out ++ suffix) = .ok k2 ∧ k2.header = k.header ∧ k2.tree = .ok y.norm ∧
      k2.innerBinaries = s'.binaries ∧ TidyXml y.norm ∧ y.norm.tag = "KeePassFile".toList := by
  obtain ⟨hs, hd, ht, hn⟩ := worked hw
  obtain ⟨b, p, ih, hb, hp, hi⟩ := opened4 hP hopen hver
  have he := store_edited4 hs hd hw.tree hb hp hi
  obtain ⟨k2, h1, h2, b2, p2, i2, h3, h4, h5, h6, h7⟩ :=
    C01_roundtrip P hP c0 file k _ hopen hver _ _ he (tidy_valid ht) c hc out kf hsave suffix
  refine ⟨k2, h1, h2, ?_, ?_, tidy_norm ht, ?_⟩
  · unfold Kdbx.tree Kdbx.payload
    rw [h3]
    simp only [h4]
    rw [← h7]; rfl
  · unfold Kdbx.innerBinaries
    rw [h3]
    simp only [Option.bind_some, h4, h5]
    exact h6
  · cases y; exact hn

/-- A KDBX4 file is opened, methods are called in any order, the database is saved, under the same or other credentials,
and the file opened again: it holds the tree the calls made (texts that are empty are now `None`), and the binaries. This
tree is tidy again, so that the same holds for the next session. -/
theorem C64_kdbx4 (P : Prims) (hP : P.Lawful) (env : Env) {c0 : Creds} {file : Bytes} {k : Kdbx}
    (hopen : openBytes P c0 true file = .ok k) (hver : k.header.value.major = 4) {s' : Db} {y : Xml} (hw : Worked env k s' y)
    (c : Creds) (hc : c.keyfile.Reusable) (out : Bytes) (kf : Keyfile) (hsave : buildKdbx P c (k.store s') = (.ok out, kf)) :
    ∃ k2, openBytes P { c with keyfile := kf } true out = .ok k2 ∧ k2.header = k.header ∧ k2.tree = .ok y.norm ∧
      k2.innerBinaries = s'.binaries ∧ TidyXml y.norm ∧ y.norm.tag = "KeePassFile".toList := by
  have := C64_kdbx4_suffix P hP env hopen hver hw c hc out kf hsave []
  rwa [List.append_nil] at this

/-- The same for KDBX3, where binaries are part of the tree. -/
theorem C64_kdbx3 (P : Prims) (hP : P.Lawful) (env : Env) {c0 : Creds} {file : Bytes} {k : Kdbx}
    (hopen : openBytes P c0 true file = .ok k) (hver : k.header.value.major = 3) {s' : Db} {y : Xml} (hw : Worked env k s' y)
    (c : Creds) (hc : c.keyfile.Reusable) (out : Bytes) (kf : Keyfile) (hsave : buildKdbx P c (k.store s') = (.ok out, kf)) :
    ∃ k2, openBytes P { c with keyfile := kf } true out = .ok k2 ∧ k2.header = k.header ∧ k2.tree = .ok y.norm ∧
      TidyXml y.norm ∧ y.norm.tag = "KeePassFile".toList := by
  obtain ⟨hs, hd, ht, hn⟩ := worked hw
  obtain ⟨b, p, hb, hp, hi⟩ := opened3 hopen hver
  have he := store_edited3 hs hd hw.tree hb hp hi
  obtain ⟨k2, h1, h2, b2, p2, h3, h4, h7⟩ := C02_roundtrip P hP c0 file k _ hopen hver _ he (tidy_valid ht) c hc out kf hsave
  refine ⟨k2, h1, h2, ?_, tidy_norm ht, ?_⟩
  · unfold Kdbx.tree Kdbx.payload
    rw [h3]
    simp only [h4]
    rw [← h7]; rfl
  · cases y; exact hn

/-- Saving succeeds, for all credentials from which a key can be derived, if the binaries and the whole fit their length fields. -/
theorem C64_succeeds4 (P : Prims) (hP : P.Lawful) (env : Env) {c0 : Creds} {file : Bytes} {k : Kdbx}
    (hopen : openBytes P c0 true file = .ok k) (hver : k.header.value.major = 4) {s' : Db} {y : Xml} (hw : Worked env k s' y)
    (hbs : ∀ b ∈ s'.binaries, b.length < 2 ^ 32)
    (hsize : ∀ b' d z, (k.store s').body = some b' → pack4 P b'.payload = .ok d → (compress P z d).length + 16 < 2 ^ 83)
    (c : Creds) (d : DynHeader) (tk : Bytes) (hd : k.header.value.dyn = some d) (hc : (computeTransformed4 P c d).1 = .ok tk) :
    ∃ out, (buildKdbx P c (k.store s')).1 = .ok out := by
  obtain ⟨hs, hdoc, ht, hn⟩ := worked hw
  obtain ⟨b, p, ih, hb, hp, hi⟩ := opened4 hP hopen hver
  exact C01_save_succeeds P hP c0 file k _ hopen hver _ _ (store_edited4 hs hdoc hw.tree hb hp hi) hbs hsize c d tk hd hc

theorem C64_succeeds3 (P : Prims) (hP : P.Lawful) (env : Env) {c0 : Creds} {file : Bytes} {k : Kdbx}
    (hopen : openBytes P c0 true file = .ok k) (hver : k.header.value.major = 3) {s' : Db} {y : Xml} (hw : Worked env k s' y)
    (c : Creds) (d : DynHeader) (tk : Bytes) (hd : k.header.value.dyn = some d)
    (hsize : ∀ z sid x, writeXml P sid d.streamKey y = .ok x → (compress P z x).length < 2 ^ 51)
    (hc : (computeTransformed3 P c d).1 = .ok tk) : ∃ out, (buildKdbx P c (k.store s')).1 = .ok out := by
  obtain ⟨hs, hdoc, ht, hn⟩ := worked hw
  obtain ⟨b, p, hb, hp, hi⟩ := opened3 hopen hver
  exact C02_save_succeeds P hP c0 file k _ hopen hver _ (store_edited3 hs hdoc hw.tree hb hp hi) c d tk hd hsize hc

/-! ## The hypotheses can be met -/

instance (t a x l) : Decidable (Fine t a x l) :=
  decidable_of_iff (Xml.isName t = true ∧ (∀ p ∈ a, Xml.isName p.1 = true ∧ XmlText p.2) ∧ (a.map Prod.fst).Nodup ∧
    (∀ s ∈ x, XmlText s) ∧ (l = false ∨ t ∈ boxTags → ∀ s ∈ x, s = [] ∨ Xml.blank s = false) ∧ (t ∈ leafTags → l = true))
    ⟨fun ⟨h1, h2, h3, h4, h5, h6⟩ => ⟨h1, h2, h3, h4, h5, h6⟩, fun h => ⟨h.name, h.attrs, h.once, h.text, h.inner, h.leaf⟩⟩

/-- The sample of the API is tidy. -/
theorem sample_tidy : TidyHeap Sample.db.heap := by
  have h : ∀ p ∈ Sample.db.world.recs, p.1 ≠ 0 → Fine p.2.tag p.2.attrs p.2.text p.2.kids.isEmpty := by decide +kernel
  exact fun j r h0 hr => h _ ((Node.view_iff Sample.db_inv.world.uniq).mp hr) h0

/-- The database of the example file, once opened. -/
def toyDb : Db := Db.start (Node.ofXml 1 Toy.tree.norm) (4, 0) [[0, 1, 2], [1]] 0 0

/-- Calls on it, of which the second raises after it has removed a field. -/
def toyCalls : List Call :=
  [.setMeta "DatabaseName".toList "  ".toList, .setField 7 .title (some ['\x01']),
   .addEntry 5 { title := some "a".toList, username := some "b".toList, password := some "c".toList } false,
   .saveHistory 7, .addBinary [1, 2, 3] true true, .addAttachment 7 2 (some "f".toList)]

def toyDone : Db := toyCalls.foldl (fun s c => (c.run Sample.env s).2) toyDb

theorem toy_tidy : TidyXml Toy.tree.norm := by
  have h : ∀ n ∈ (Node.ofXml 1 Toy.tree.norm).1.nodes, Fine n.tag n.attrs n.text n.kids.isEmpty := by decide +kernel
  rw [← tidyXml_iff, Node.ofXml_xml] at h
  exact h

theorem toy_exec : Exec Sample.env Allowed toyDb toyDone := by
  refine .step (.addAttachment 7 2 (some "f".toList)) (.step (.addBinary [1, 2, 3] true true) (.step (.saveHistory 7) (.step
    (.addEntry 5 { title := some "a".toList, username := some "b".toList, password := some "c".toList } false)
    (.step (.setField 7 .title (some ['\x01'])) (.step (.setMeta "DatabaseName".toList "  ".toList) (.refl _) ?_) ?_) ?_) ?_) ?_) ?_
  · exact ⟨trivial, show _ ∈ _ by decide⟩
  · exact ⟨show _ = _ by decide +kernel, trivial⟩
  · exact ⟨show _ = _ by decide +kernel, trivial⟩
  · exact ⟨show _ = _ by decide +kernel, trivial⟩
  · exact ⟨trivial, trivial⟩
  · exact ⟨show _ = _ by decide +kernel, trivial⟩

/-- The file is opened, the calls are made, and the tree is then another. -/
example (c : CipherId) (z : Bool) : ∃ k y, openBytes Toy.prims Toy.creds true (Toy.file4 c z) = .ok k ∧ k.header.value.major = 4 ∧
    Worked Sample.env k toyDone y ∧ k.tree ≠ .ok y ∧ toyDone.binaries = [[0, 1, 2], [1], [1, 1, 2, 3]] := by
  obtain ⟨tk, mk, h⟩ := Toy.open4 c z
  have hc : (content toyDone 1).isSome = true := by decide +kernel
  obtain ⟨y, hy⟩ := Option.isSome_iff_exists.mp hc
  refine ⟨_, y, h, rfl, ⟨⟨_, 0, 0, toyDb, rfl, by decide +kernel, toy_tidy, rfl, toy_exec⟩, hy⟩, fun e => ?_, by decide +kernel⟩
  replace e : (Except.ok Toy.tree.norm : Except PyErr Xml) = .ok y := e
  injection e with e
  subst e
  exact absurd hy (by decide +kernel)

/-- The second call raised. -/
example : ((toyCalls.take 1).foldl (fun s c => (c.run Sample.env s).2) toyDb |> (Call.setField 7 .title (some ['\x01'])).run Sample.env).1.isOk = false := by
  decide +kernel

end Verif.Props
