import Verif.Spec.Created
import Verif.Session.Lemmas
import Verif.Props.C64_Calls
import Verif.Props.C59_Metadata
import Verif.Props.C05_WrongCredentials
import Verif.Props.C11_CrashSafeSave
import Verif.Api.SaveLemmas
/-!
# C18: `create_database`
-/
namespace Verif.Props
open Verif XPath Spec Api

theorem undatedL_eq (ks : List Xml) : undatedL ks = ks.map undated := by
  induction ks with
  | nil => rfl
  | cons k ks ih => rw [undatedL, ih]; rfl

theorem undated_mk (t a x ks) : undated (.mk t a x ks) =
    .mk t a (if t = "MasterKeyChanged".toList then none else x) (ks.map undated) := by
  rw [undated, undatedL_eq]

/-- Other texts in elements for the date make no other undated tree. -/
theorem undated_mapText (σ : Nat → Option Str → Option Str) (n : Node)
    (h : ∀ m ∈ n.nodes, σ m.id m.text = m.text ∨ m.tag = "MasterKeyChanged".toList) :
    undated (n.mapText σ).xml = undated n.xml := by
  induction n using Node.ind with
  | h i t a x ks ih =>
    rw [Node.mapText_mk, Node.xml_mk, Node.xml_mk, undated_mk, undated_mk]
    have h1 : (if t = "MasterKeyChanged".toList then none else σ i x) = if t = "MasterKeyChanged".toList then none else x := by
      rcases h _ (Node.self_mem_nodes _) with e | e
      · rw [show σ i x = x from e]
      · rw [if_pos (show t = _ from e), if_pos (show t = _ from e)]
    have h2 : ((ks.map (Node.mapText σ)).map Node.xml).map undated = (ks.map Node.xml).map undated := by
      rw [List.map_map, List.map_map, List.map_map]
      refine List.map_congr_left fun k hk => ih k hk fun m hm => h m ?_
      exact Node.nodes_trans (Node.kid_mem_nodes hk) hm
    rw [h1, h2]

theorem undated_norm (x : Xml) : undated x.norm = (undated x).norm := by
  induction x using Xml.ind with
  | h t a x ks ih =>
    rw [Xml.norm_mk, undated_mk, undated_mk, Xml.norm_mk]
    have h2 : (ks.map Xml.norm).map undated = (ks.map undated).map Xml.norm := by
      rw [List.map_map, List.map_map]
      exact List.map_congr_left fun k hk => ih k hk
    rw [h2]
    split <;> rfl

theorem text_content {s s' : Db} (hs : Inv s) {el : Nat} {v : Option Str} (h : TextChanged s s' el v)
    (ht : s.heap.tag el = "MasterKeyChanged".toList) {e : Nat} {x : Xml} (hc : content s e = some x) :
    ∃ y, content s' e = some y ∧ undated y = undated x := by
  obtain ⟨n, hn, rfl⟩ := content_node hc
  obtain ⟨hm, hid⟩ := Node.get?_some hn
  have hu : n.Uniq := Node.uniq_sub hs.world.uniq hm
  have hg : s'.world.get? (n.mapText fun j t => if j = el then v else t).id = some (n.mapText fun j t => if j = el then v else t) := by
    refine get_of_view h.inv.world.uniq (Node.mapText_uniq _ hu) fun j hj => ?_
    rw [Node.mapText_ids] at hj
    rw [Node.mapText_view _ hu]
    show s'.heap j = _
    obtain ⟨y, hy, rfl⟩ := List.mem_map.mp hj
    rw [h.heap]
    unfold Db.heap Node.view
    rw [Node.get?_mem hs.world.uniq (Node.nodes_trans hm hy), Node.get?_mem hu hy]
    by_cases e : y.id = el
    · simp [e]
    · simp [e]
  rw [Node.mapText_id, hid] at hg
  refine ⟨_, by unfold content; rw [hg]; rfl, undated_mapText _ _ fun m hmn => ?_⟩
  by_cases e : m.id = el
  · right
    rw [← e, node_tag (Node.get?_mem hs.world.uniq (Node.nodes_trans hm hmn))] at ht
    exact ht
  · left; simp [e]

/-- What the two assignments do. -/
theorem credentials_ok (env : Env) {k : Kdbx} {x : Xml} (ht : k.tree = .ok x) (hn : x.tag = "KeePassFile".toList) (hx : TidyXml x)
    (hd : ∀ s, k.load 0 0 = .ok s → metaEls s.heap "MasterKeyChanged".toList ≠ []) (hc : ClockOk env k.version) (p : Option Str) :
    ∃ s s' y, k.load 0 0 = .ok s ∧ newCredentials env p s = (.ok (), s') ∧ Worked env k s' y ∧ undated y = undated x ∧
      s'.password = p ∧ s'.binaries = k.innerBinaries := by
  obtain ⟨s, h1, h2, h3, h4, h5, h6, h7, h8⟩ := load_ok ht 0 0
  obtain ⟨el, he⟩ : ∃ el, (metaEls s.heap "MasterKeyChanged".toList).head? = some el := by
    cases h : metaEls s.heap "MasterKeyChanged".toList with
    | nil => exact absurd h (hd s h1)
    | cons a l => exact ⟨a, rfl⟩
  obtain ⟨g1, g2, g3, g4⟩ := loaded ht hn hx h1
  obtain ⟨t1, e1⟩ := hc s.ticks
  rw [← h5] at e1
  obtain ⟨s1, a1, a2, a3, _, _⟩ := (C59_credentials env h2 he e1 p).1
  have x1 : Exec env Allowed s s1 := by
    have := Exec.step (env := env) (L := Allowed) (.setPassword p) (.refl s) ⟨trivial, trivial⟩
    rw [show (Call.setPassword p).run env s = setPassword env p s from rfl, a1] at this
    exact this
  obtain ⟨i1, _, _, d1, v1⟩ := C64_tidy env g1 g3 g2 x1
  have hs0 : Inv { s with password := p, ticks := s.ticks + 1 } := ⟨h2.world, h2.bound⟩
  have c1 : TextChanged { s with password := p, ticks := s.ticks + 1 } s1 el (some t1) := ⟨i1, a2, a3⟩
  have he1 : (metaEls s1.heap "MasterKeyChanged".toList).head? = some el := by rw [c1.metaEls]; exact he
  obtain ⟨t2, e2⟩ := hc s1.ticks
  rw [← h5, ← v1] at e2
  obtain ⟨s2, b1, b2, b3, _, _⟩ := (C59_credentials env i1 he1 e2 none).2
  have x2 : Exec env Allowed s s2 := by
    have := Exec.step (env := env) (L := Allowed) (.setKeyfile none) x1 ⟨trivial, trivial⟩
    rw [show (Call.setKeyfile none).run env s1 = setKeyfile env none s1 from rfl, b1] at this
    exact this
  obtain ⟨i2, _, _, _, _⟩ := C64_tidy env g1 g3 g2 x2
  have hs1 : Inv { s1 with keyfile := none, ticks := s1.ticks + 1 } := ⟨i1.world, i1.bound⟩
  have c2 : TextChanged { s1 with keyfile := none, ticks := s1.ticks + 1 } s2 el (some t2) := ⟨i2, b2, b3⟩
  obtain ⟨y1, y2, y3⟩ := text_content hs0 c1 (head_tag h2 he).2 h4
  obtain ⟨z1, z2, z3⟩ := text_content hs1 c2 (head_tag i1 he1).2 y2
  refine ⟨s, s2, z1, h1, ?_, ⟨⟨x, 0, 0, s, ht, hn, hx, h1, x2⟩, z2⟩, z3.trans y3, ?_, ?_⟩
  · unfold newCredentials
    rw [bind_of a1]; exact b1
  · rw [b2]; show s1.password = p; rw [a2]
  · rw [b2]; show s1.binaries = _; rw [a2]; exact h6

/-- The object that is saved. -/
theorem create_saves (P : Prims) (o : Os) {env : Env} {fs : Fs} {blank : Str} {k : Kdbx} {x : Xml} (hb : Blank P fs blank k x)
    (hc : ClockOk env k.version) (filename : Filename) (password : Option Str) (keyfile : Keyfile) :
    ∃ s s' y, k.load 0 0 = .ok s ∧ newCredentials env password s = (.ok (), s') ∧ Worked env k s' y ∧ undated y = undated x ∧
      s'.binaries = k.innerBinaries ∧ ∀ tk, createDatabase P o env fs blank filename password keyfile tk =
        match tk with
        | some (_ :: _) => ⟨⟨[fs], fs, .error .type⟩, ⟨password, keyfile, some filename, some (k.store s')⟩, none⟩
        | _ => ⟨(Session.save P o fs ⟨password, keyfile, some filename, some (k.store s')⟩ none none).run,
            (Session.save P o fs ⟨password, keyfile, some filename, some (k.store s')⟩ none none).session,
            (Session.save P o fs ⟨password, keyfile, some filename, some (k.store s')⟩ none none).stream⟩ := by
  obtain ⟨s, s', y, h1, h2, h3, h4, h5, h6⟩ := credentials_ok env hb.tree hb.root hb.tidy hb.date hc password
  refine ⟨s, s', y, h1, h2, h3, h4, h6, fun tk => ?_⟩
  obtain ⟨b, hf, ho⟩ := hb.file
  obtain ⟨rest, hparse⟩ := openBytes_ok.mp ho
  have hopen : Session.open P 0 fs (some (.path blank)) blankCreds true =
      (.ok (), ⟨blankCreds.password, (parseKdbx P blankCreds true b).2, some (.path blank), some k⟩) := by
    have htr : Filename.truthy (.path blank) = true := by
      cases blank with
      | nil => exact absurd rfl hb.named
      | cons => rfl
    unfold Session.open Session.read Session.target
    simp only [htr, if_true, hf]
    cases hp : parseKdbx P blankCreds true b with
    | mk r kf =>
      rw [hp] at hparse
      simp only at hparse
      subst hparse
      rfl
  unfold createDatabase
  rw [show (Creds.mk (some "password".toList) Keyfile.none none) = blankCreds from rfl, hopen]
  simp only [h1, h2, h5]
  cases tk with
  | none => rfl
  | some l => cases l <;> rfl

/-- The file is the blank database under the given credentials: it opens with them and shows the header, the binaries
and, apart from the date of the change of the master key, the tree of the blank database. -/
def IsBlank (P : Prims) (k : Kdbx) (x : Xml) (c : Creds) (file : Bytes) : Prop :=
  ∃ k2 y, openBytes P c true file = .ok k2 ∧ k2.header = k.header ∧ k2.innerBinaries = k.innerBinaries ∧ k2.tree = .ok y ∧
    undated y = undated x.norm

theorem built_blank {P : Prims} (hP : P.Lawful) {env : Env} {fs : Fs} {blank : Str} {k : Kdbx} {x y : Xml} (hb : Blank P fs blank k x)
    {s' : Db} (hw : Worked env k s' y) (hy : undated y = undated x) (hbin : s'.binaries = k.innerBinaries)
    {c : Creds} (hc : c.keyfile.Reusable) {out : Bytes} {kf : Keyfile} (h : buildKdbx P c (k.store s') = (.ok out, kf)) (suffix : Bytes) :
    IsBlank P k x { c with keyfile := kf } (out ++ suffix) := by
  obtain ⟨b, _, ho⟩ := hb.file
  obtain ⟨k2, a1, a2, a3, a4, _⟩ := C64_kdbx4_suffix P hP env ho hb.major hw c hc out kf h suffix
  exact ⟨k2, y.norm, a1, a2, a4.trans hbin, a3, by rw [undated_norm, undated_norm, hy]⟩

/-- `create_database(path, password, keyfile)`: if it returns, the file at `path` is the blank database under these
credentials. -/
theorem C18_file {P : Prims} (hP : P.Lawful) {o : Os} {env : Env} {fs : Fs} {blank : Str} {k : Kdbx} {x : Xml} (hb : Blank P fs blank k x)
    (hc : ClockOk env k.version) {path : Str} {password : Option Str} {keyfile : Keyfile} (hk : keyfile.Reusable) (hf : o.Faithful)
    (hn : o.renameOk = true ∨ ¬ NamedTmp (PPath.ofStr path))
    (h : (createDatabase P o env fs blank (.path path) password keyfile none).run.result = .ok ()) :
    ∃ out, (createDatabase P o env fs blank (.path path) password keyfile none).run.final (PPath.ofStr path) = some out ∧
      IsBlank P k x ⟨password, (createDatabase P o env fs blank (.path path) password keyfile none).session.keyfile, none⟩ out := by
  obtain ⟨_, s', y, _, _, hw, hy, hbin, hcr⟩ := create_saves P o hb hc (.path path) password keyfile
  rw [hcr none] at h ⊢
  simp only at h ⊢
  have ht : Session.target ⟨password, keyfile, some (.path path), some (k.store s')⟩ none = some (.path path) := rfl
  cases hw' : (PPath.ofStr path).withTmp with
  | error e =>
    unfold Session.save at h
    simp only [ht, hw'] at h
    cases h
  | ok tmp =>
    have hne : o.renameOk = true ∨ tmp ≠ PPath.ofStr path := hn.imp id fun hn e => withTmp_ne _ hn (e ▸ hw')
    by_cases ho : o.openOk = true
    · have hrun := save_path (P := P) (o := o) (fs := fs) (s := ⟨password, keyfile, some (.path path), some (k.store s')⟩) (tk := none) rfl ht ho
      rw [hrun] at h ⊢
      obtain ⟨_, out, h1, h2⟩ := saveFile_done hw' hf hne h
      refine ⟨out, h2, ?_⟩
      have := built_blank hP hb hw hy hbin (c := ⟨password, keyfile, none⟩) hk (Prod.ext h1 rfl) []
      rw [List.append_nil] at this
      have hs : (Session.save P o fs ⟨password, keyfile, some (.path path), some (k.store s')⟩ none none).session.keyfile =
          (buildKdbx P ⟨password, keyfile, none⟩ (k.store s')).2 := by
        unfold Session.save
        simp only [ht, hw', ho, if_true]
      rw [hs]
      exact this
    · have hrun := save_path_refused (P := P) (o := o) (fs := fs) (s := ⟨password, keyfile, some (.path path), some (k.store s')⟩) (tk := none) rfl ht (by simpa using ho)
      rw [hrun] at h
      rw [(saveFile_refused hw' (by simpa using ho)).1] at h
      cases h

/-- `create_database(stream, password, keyfile)`: if it returns, the blank database under these credentials is what the
stream holds from the position where it stood. -/
theorem C18_stream {P : Prims} (hP : P.Lawful) {o : Os} {env : Env} {fs : Fs} {blank : Str} {k : Kdbx} {x : Xml} (hb : Blank P fs blank k x)
    (hc : ClockOk env k.version) {b : Bytes} {pos : Nat} {password : Option Str} {keyfile : Keyfile} (hk : keyfile.Reusable) (hf : o.Faithful)
    (h : (createDatabase P o env fs blank (.stream b pos) password keyfile none).run.result = .ok ()) :
    ∃ b' pos', (createDatabase P o env fs blank (.stream b pos) password keyfile none).stream = some (b', pos') ∧
      IsBlank P k x ⟨password, (createDatabase P o env fs blank (.stream b pos) password keyfile none).session.keyfile, none⟩ (b'.drop pos) := by
  obtain ⟨_, s', y, _, _, hw, hy, hbin, hcr⟩ := create_saves P o hb hc (.stream b pos) password keyfile
  rw [hcr none] at h ⊢
  simp only at h ⊢
  have ht : Session.target ⟨password, keyfile, some (.stream b pos), some (k.store s')⟩ none = some (.stream b pos) := rfl
  unfold Session.save at h ⊢
  simp only [ht] at h ⊢
  cases hbk : buildKdbx P ⟨password, keyfile, none⟩ (k.store s') with
  | mk res kf =>
    rw [hbk] at h
    simp only at h ⊢
    cases res with
    | error e => cases h
    | ok out =>
      unfold Os.writes at h ⊢
      cases hi : o.ioError with
      | some n => rw [hi] at h; cases h
      | none =>
        simp only
        refine ⟨_, _, rfl, ?_⟩
        rw [hf]
        obtain ⟨r, hr⟩ := writeAt_drop b pos out
        rw [hr]
        exact built_blank hP hb hw hy hbin hk hbk r

/-- A transformed key is not honoured: nothing is written and `TypeError` is raised, whatever the key. -/
theorem C18_transformed_key {P : Prims} {o : Os} {env : Env} {fs : Fs} {blank : Str} {k : Kdbx} {x : Xml} (hb : Blank P fs blank k x)
    (hc : ClockOk env k.version) (filename : Filename) (password : Option Str) (keyfile : Keyfile) (tk : Bytes) (htk : tk ≠ []) :
    (createDatabase P o env fs blank filename password keyfile (some tk)).run.result = .error .type ∧
    (createDatabase P o env fs blank filename password keyfile (some tk)).run.states = [fs] ∧
    (createDatabase P o env fs blank filename password keyfile (some tk)).run.final = fs ∧
    (createDatabase P o env fs blank filename password keyfile (some tk)).stream = none := by
  obtain ⟨_, s', y, _, _, hw, hy, hbin, hcr⟩ := create_saves P o hb hc filename password keyfile
  cases tk with
  | nil => exact absurd rfl htk
  | cons a l => rw [hcr]; exact ⟨rfl, rfl, rfl, rfl⟩

/-- It does return, if the operating system does what it is asked to, a key can be derived from the credentials and the sizes
fit their fields. -/
theorem C18_succeeds {P : Prims} (hP : P.Lawful) {o : Os} {env : Env} {fs : Fs} {blank : Str} {k : Kdbx} {x : Xml} (hb : Blank P fs blank k x)
    (hc : ClockOk env k.version) {path : Str} {password : Option Str} {keyfile : Keyfile} (hp : (PPath.ofStr path).parts ≠ [])
    (hf : o.Faithful) (ho : o.openOk = true) (hr : o.renameOk = true) (hi : o.ioError = none)
    {d : DynHeader} {tk : Bytes} (hd : k.header.value.dyn = some d) (hk : (computeTransformed4 P ⟨password, keyfile, none⟩ d).1 = .ok tk)
    (hbs : ∀ b ∈ k.innerBinaries, b.length < 2 ^ 32)
    (hsize : ∀ s s', k.load 0 0 = .ok s → newCredentials env password s = (.ok (), s') →
      ∀ b' d z, (k.store s').body = some b' → pack4 P b'.payload = .ok d → (compress P z d).length + 16 < 2 ^ 83) :
    (createDatabase P o env fs blank (.path path) password keyfile none).run.result = .ok () := by
  obtain ⟨s, s', y, h1, h2, hw, hy, hbin, hcr⟩ := create_saves P o hb hc (.path path) password keyfile
  rw [hcr none]
  show (Session.save P o fs ⟨password, keyfile, some (.path path), some (k.store s')⟩ none none).run.result = _
  rw [save_path (s := ⟨password, keyfile, some (.path path), some (k.store s')⟩) rfl rfl ho]
  obtain ⟨b, _, hopen⟩ := hb.file
  obtain ⟨out, hout⟩ := C64_succeeds4 P hP env hopen hb.major hw (by rw [hbin]; exact hbs) (hsize s s' h1 h2) ⟨password, keyfile, none⟩ d tk hd hk
  obtain ⟨tmp, ht⟩ := withTmp_ok hp
  rw [hout]
  exact (saveFile_ok ht ho hr hi hf).1

/-- The header in a file. -/
theorem open_header {P : Prims} {c : Creds} {file : Bytes} {k : Kdbx} (h : openBytes P c true file = .ok k) :
    ∃ r, Parser.header "(parsing)" file = .ok (k.header, r) := by
  obtain ⟨rest, hp⟩ := openBytes_ok.mp h
  unfold parseKdbx at hp
  cases hh : Parser.header "(parsing)" file with
  | error e => rw [hh] at hp; cases hp
  | ok a =>
    obtain ⟨hd, r⟩ := a
    suffices e : k.header = hd from ⟨r, by rw [e]⟩
    rw [hh] at hp
    simp only at hp
    have body : ∀ {α} {m : Except PyErr (α × Bytes)} {g : α → Body},
        (m.map fun x => ((⟨hd, some (g x.1)⟩ : Kdbx), x.2)) = .ok (k, rest) → k.header = hd := by
      intro α m g e
      cases m with
      | error e' => cases e
      | ok y =>
        injection e with e
        injection e with e _
        rw [← e]
    split at hp
    · injection hp with hp
      injection hp with hp _
      rw [← hp]
    · split at hp
      · split at hp
        · cases hp
        · exact body (g := id) hp
      · split at hp
        · cases hp
        · exact body (g := id) hp

/-- Exactly these credentials: whatever else opens the file has the same keyed hash of the header. -/
theorem C18_exactly {P : Prims} (hP : P.Lawful) {k : Kdbx} {x : Xml} (hv : k.header.value.major = 4) {c c' : Creds} {file : Bytes}
    (h : IsBlank P k x c file) {k' : Kdbx} (h' : openBytes P c' true file = .ok k') :
    ∃ d seed tk tk', k.header.value.dyn = some d ∧ d.raw .masterSeed = .ok seed ∧ (computeTransformed4 P c d).1 = .ok tk ∧
      (computeTransformed4 P c' d).1 = .ok tk' ∧ headerMac P seed tk k.header.data = headerMac P seed tk' k.header.data := by
  obtain ⟨k2, y, h1, h2, _⟩ := h
  obtain ⟨r1, e1⟩ := open_header h1
  obtain ⟨r2, e2⟩ := open_header h'
  rw [e1] at e2
  injection e2 with e2
  injection e2 with e2 e3
  obtain ⟨d, tk, seed, r, a1, a2, a3, a4⟩ := C07_opened P hP c file k2 h1 (by rw [h2]; exact hv)
  obtain ⟨d', tk', seed', r', b1, b2, b3, b4⟩ := C07_opened P hP c' file k' h' (by rw [← e2, h2]; exact hv)
  rw [← e2] at b1 b4
  rw [a1] at b1
  injection b1 with b1
  subst b1
  rw [a3] at b3
  injection b3 with b3
  subst b3
  refine ⟨d, seed, tk, tk', by rw [← h2]; exact a1, a3, a2, b2, ?_⟩
  have h5 := List.append_cancel_left (List.append_cancel_left (a4.symm.trans b4))
  rw [← h2]
  exact (List.append_inj h5 (by unfold headerMac; rw [hP.hmac256_length, hP.hmac256_length])).1

/-! ## A case -/

def blankTree : Xml :=
  .mk "KeePassFile".toList [] none [
    .mk "Meta".toList [] none [Toy.leaf "DatabaseName" "", Toy.leaf "MasterKeyChanged" "AAAA"],
    .mk "Root".toList [] none [.mk "Group".toList [] none [Toy.leaf "Name" "Root"]]]

def blankFile : Bytes :=
  match (buildKdbx Toy.prims blankCreds
      { header := Toy.header4 .aes256 true,
        body := some { transformedKey := [], masterKey := [], payload := some { inner := some Toy.inner, xml := blankTree } } }).1 with
  | .ok b => b
  | .error _ => []

def blankFs : Fs := fun p => if p = PPath.ofStr "/lib/blank.kdbx".toList then some blankFile else none

def createdToy : Created := createDatabase Toy.prims goodOs Sample.env blankFs "/lib/blank.kdbx".toList (.path "new.kdbx".toList) (some "pw".toList) .none none

/-- The hypotheses of the theorems hold. -/
theorem toy_blank : ∃ k, Blank Toy.prims blankFs "/lib/blank.kdbx".toList k blankTree.norm ∧ ClockOk Sample.env k.version := by
  have h : (openBytes Toy.prims blankCreds true blankFile).toOption.any (fun k => k.version = (4, 0) ∧ k.tree.toOption = some blankTree.norm) = true := by
    decide +kernel
  cases ho : openBytes Toy.prims blankCreds true blankFile with
  | error e => rw [ho] at h; cases h
  | ok k =>
    rw [ho] at h
    obtain ⟨h1, h2⟩ := of_decide_eq_true h
    have hv : k.header.value.major = 4 := congrArg Prod.fst h1
    have ht : k.tree = .ok blankTree.norm := by
      cases e : k.tree with
      | error _ => rw [e] at h2; cases h2
      | ok t =>
        rw [e] at h2
        exact congrArg Except.ok (Option.some.inj h2)
    have hx : TidyXml blankTree.norm := by
      have h : ∀ n ∈ (Node.ofXml 1 blankTree.norm).1.nodes, Fine n.tag n.attrs n.text n.kids.isEmpty := by decide +kernel
      rw [← tidyXml_iff, Node.ofXml_xml] at h
      exact h
    refine ⟨k, ⟨by decide, ⟨blankFile, by decide +kernel, ho⟩, hv, ht, by decide +kernel, hx, ?_⟩, ?_⟩
    · intro s hs
      obtain ⟨s', a1, a2, a3, a4, _⟩ := load_ok ht 0 0
      unfold Kdbx.load at hs
      rw [ht] at hs
      injection hs with hs
      rw [← hs]
      have : metaEls (Db.start (Node.ofXml 1 blankTree.norm) (4, 0) [] 0 0).heap "MasterKeyChanged".toList ≠ [] := by decide +kernel
      exact this
    · intro n
      rw [h1]
      have hm : ∀ m, m < 28 → (encodeTime (4, 0) ⟨⟨2024, 1, m + 1⟩, 0, 0, 0, 0, some 0⟩).isOk = true := by decide +kernel
      have hn := hm (n % 28) (Nat.mod_lt _ (by decide))
      show ∃ t, encodeTime (4, 0) ⟨⟨2024, 1, n % 28 + 1⟩, 0, 0, 0, 0, some 0⟩ = .ok t
      cases e : encodeTime (4, 0) ⟨⟨2024, 1, n % 28 + 1⟩, 0, 0, 0, 0, some 0⟩ with
      | error _ => rw [e] at hn; cases hn
      | ok t => exact ⟨t, rfl⟩

/-- And the file is written. -/
example : createdToy.run.result.isOk = true ∧ (createdToy.run.final (PPath.ofStr "new.kdbx".toList)).isSome = true := by decide +kernel

end Verif.Props
