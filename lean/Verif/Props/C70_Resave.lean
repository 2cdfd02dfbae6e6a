import Verif.Props.C69_Life
/-!
# C70: a database that is opened and saved without a change is the same file, bit by bit
-/
namespace Verif.Props
open Verif XPath Spec Api Parser

/-- The same credentials; a key-file stream that can be rewound may stand elsewhere. -/
structure SameKey (c c' : Creds) : Prop where
  password : c.password = c'.password
  keyfile : unread c.keyfile = unread c'.keyfile
  transformed : c.transformedKey = c'.transformedKey

/-- The file opens with the credentials, and what was opened, saved under the same credentials, is the file. -/
def Settled (P : Prims) (c : Creds) (b : Bytes) : Prop :=
  ∃ k, openBytes P c true b = .ok k ∧ ∀ c', SameKey c c' → (buildKdbx P c' k).1 = .ok b

/-- No element has an empty text (`''`, as opposed to no text). -/
def NoEmpty (x : Xml) : Prop := Xml.All (fun _ _ t _ => t ≠ some []) x

theorem normText_idem (t : Option Str) : Xml.normText (Xml.normText t) = Xml.normText t := by
  rcases t with _ | (_ | _) <;> rfl

theorem norm_idem (x : Xml) : x.norm.norm = x.norm := by
  induction x using Xml.ind with
  | h t a x ks ih =>
    rw [Xml.norm_mk, Xml.norm_mk, normText_idem, List.map_map]
    congr 1
    exact List.map_congr_left fun k hk => ih k hk

theorem noEmpty_norm {x : Xml} (h : NoEmpty x) : x.norm = x := by
  induction x using Xml.ind with
  | h t a x ks ih =>
    obtain ⟨h1, h2⟩ := Xml.all_root h
    rw [Xml.norm_mk]
    congr 1
    · rcases x with _ | (_ | _)
      · rfl
      · exact absurd rfl h1
      · rfl
    · exact (List.map_congr_left fun k hk => ih k hk (h2 k hk)).trans (List.map_id _)

variable {P : Prims}

theorem build_same {c c' : Creds} (h : SameKey c c') (k : Kdbx) : (buildKdbx P c k).1 = (buildKdbx P c' k).1 := by
  unfold buildKdbx
  split
  · next d b _ _ =>
    split
    · have h := transformed3_same (P := P) (d := d) h.password h.keyfile h.transformed
      cases h1 : computeTransformed3 P c d with
      | mk r1 k1 =>
        cases h2 : computeTransformed3 P c' d with
        | mk r2 k2 =>
          rw [h1, h2] at h
          simp only at h
          subst h
          cases r1 <;> rfl
    · have h := transformed4_same (P := P) (d := d) h.password h.keyfile h.transformed
      cases h1 : computeTransformed4 P c d with
      | mk r1 k1 =>
        cases h2 : computeTransformed4 P c' d with
        | mk r2 k2 =>
          rw [h1, h2] at h
          simp only at h
          subst h
          cases r1 <;> rfl
  · rfl

/-- The bytes do not depend on the keys remembered from opening. -/
theorem build_payload {k k2 : Kdbx} {b b2 : Body} (hh : k2.header = k.header) (hb : k.body = some b) (hb2 : k2.body = some b2)
    (hp : b2.payload = b.payload) (c : Creds) : buildKdbx P c k2 = buildKdbx P c k := by
  unfold buildKdbx
  rw [hh, hb, hb2]
  cases k.header.value.dyn with
  | none => rfl
  | some d => simp only [hp]

/-- What is read back after `k'` was saved: its payload, with empty texts as `None`. -/
theorem reopened (hP : P.Lawful) {c0 : Creds} {file : Bytes} {k k' : Kdbx} (hopen : openBytes P c0 true file = .ok k)
    (hv : k.header.value.major = 3 ∨ k.header.value.major = 4) {bs : List Bytes} {xml : Xml}
    (he : if k.header.value.major = 4 then Edited4 k k' bs xml else Edited3 k k' xml) (hx : xml.Valid)
    {c : Creds} {out : Bytes} (hsave : (buildKdbx P c k').1 = .ok out) :
    ∃ k2 b p b2, openBytes P c true out = .ok k2 ∧ k2.header = k.header ∧ k'.header = k.header ∧ k'.body = some b ∧ b.payload = some p ∧
      p.xml = xml ∧ k2.body = some b2 ∧ b2.payload = some { p with xml := xml.norm } := by
  obtain ⟨rest, hparse⟩ := openBytes_ok.mp hopen
  rcases hv with hv | hv
  · rw [if_neg (by omega)] at he
    obtain ⟨b0, p, hb, hp, rfl⟩ := he
    obtain ⟨b1, p1, f1, f2, f3⟩ := opened3 hopen hv
    rw [hb] at f1
    injection f1 with f1
    subst f1
    rw [hp] at f2
    injection f2 with f2
    subst f2
    obtain ⟨d, tk0, r, b', h1, h2, h3, h4, h5⟩ := (parse3_ok hv).mp hparse
    let k' : Kdbx := { header := k.header, body := some { b0 with payload := some { p with xml := xml } } }
    rcases (buildKdbx_ok (k := k') h2 rfl).mp hsave with ⟨_, tk, o, g1, g2, rfl⟩ | ⟨h, _⟩
    · obtain ⟨mk, _, hbody⟩ := body3_build P hP _ _ _ xml hx o g2
      let k2 : Kdbx := { header := k.header, body := some ⟨tk, mk, some { inner := none, xml := xml.norm }⟩ }
      refine ⟨k2, _, _, _, openBytes_ok.mpr ⟨[], (parse3_ok (k := k2) hv).mpr ⟨d, tk, o, _, (header_ok h1).2 _, h2, g1, hbody, rfl⟩⟩,
        rfl, rfl, rfl, rfl, rfl, rfl, ?_⟩
      rw [f3]
    · exact absurd hv h
  · rw [if_pos hv] at he
    obtain ⟨b0, p, ih, hb, hp, hih, rfl⟩ := he
    obtain ⟨d, tk0, r, b', h1, h2, h3, h4, h5⟩ := (parse4_ok hv).mp hparse
    rw [hb] at h5
    injection h5 with h5
    subst h5
    obtain ⟨mk0, seed, z, cc, iv, blocks, dd, plain, p', s', _, _, _, _, _, _, _, _, _, k11, k12⟩ := (body4_iff P hP ..).mp h4
    subst k12
    injection hp with hp
    subst hp
    obtain ⟨inner, r', sid, xml0, m1, _, _, rfl⟩ := (unpack4_iff ..).mp k11
    injection hih with hih
    subst hih
    have hin := innerOk_binaries (innerHeader_ok m1) bs
    let k' : Kdbx := { header := k.header, body := some ⟨tk0, mk0, some { inner := some { inner with binaries := bs }, xml := xml }⟩ }
    rcases (buildKdbx_ok (k := k') h2 rfl).mp hsave with ⟨h, _⟩ | ⟨_, tk, o, g1, g2, rfl⟩
    · exact absurd (hv.symm.trans h) (by decide)
    · obtain ⟨mk, _, hbody⟩ := body4_build P hP _ _ _ _ hin xml hx o [] g2
      let k2 : Kdbx := { header := k.header, body := some ⟨tk, mk, some { inner := some { inner with binaries := bs }, xml := xml.norm }⟩ }
      rw [List.append_nil] at hbody
      exact ⟨k2, _, _, _, openBytes_ok.mpr ⟨[], (parse4_ok (k := k2) hv).mpr ⟨d, tk, o, _, (header_ok h1).2 _, h2, g1, hbody, rfl⟩⟩,
        rfl, rfl, rfl, rfl, rfl, rfl, rfl⟩

/-- A database that was opened, and whose tree can be written and has no empty texts. -/
structure Clean (P : Prims) (k : Kdbx) : Prop where
  opened : ∃ c0 file, openBytes P c0 true file = .ok k
  version : k.header.value.major = 3 ∨ k.header.value.major = 4
  tree : ∃ x, k.tree = .ok x ∧ x.Valid ∧ x.norm = x

theorem valid_norm {x : Xml} (h : x.Valid) : x.norm.Valid := by
  induction x using Xml.ind with
  | h t a x ks ih =>
    obtain ⟨⟨h1, h2, h3, h4, h5⟩, hk⟩ := Xml.all_root h
    rw [Xml.norm_mk]
    refine .mk ⟨h1, h2, h3, ?_, ?_⟩ ?_
    · rcases x with _ | (_ | ⟨c, s⟩)
      · exact nofun
      · exact nofun
      · exact h4
    · intro hne
      have hne' : ks ≠ [] := fun e => hne (by rw [e]; rfl)
      rcases x with _ | (_ | ⟨c, s⟩)
      · exact nofun
      · exact nofun
      · exact h5 hne'
    · intro y hy
      obtain ⟨k, hk', rfl⟩ := List.mem_map.mp hy
      exact ih k hk' (hk k hk')

/-- What was saved, of whatever was opened and edited, opens as something clean; saved again under any credentials, it gives
the same bytes as before if there were no empty texts. -/
theorem saved_clean (hP : P.Lawful) {c0 : Creds} {file : Bytes} {k k' : Kdbx} (hopen : openBytes P c0 true file = .ok k)
    (hv : k.header.value.major = 3 ∨ k.header.value.major = 4) {bs : List Bytes} {xml : Xml}
    (he : if k.header.value.major = 4 then Edited4 k k' bs xml else Edited3 k k' xml) (hx : xml.Valid)
    {c : Creds} {out : Bytes} (hsave : (buildKdbx P c k').1 = .ok out) :
    ∃ k2, openBytes P c true out = .ok k2 ∧ Clean P k2 ∧ k2.tree = .ok xml.norm ∧
      (xml.norm = xml → ∀ c', buildKdbx P c' k2 = buildKdbx P c' k') := by
  obtain ⟨k2, b, p, b2, h1, h2, h3, h4, h5, h6, h7, h8⟩ := reopened hP hopen hv he hx hsave
  have ht : k2.tree = .ok xml.norm := by
    unfold Kdbx.tree Kdbx.payload
    rw [h7]
    simp only [h8]
    rfl
  refine ⟨k2, h1, ⟨⟨c, out, h1⟩, by rw [h2]; exact hv, _, ht, valid_norm hx, norm_idem xml⟩, ht, fun hn c' => ?_⟩
  refine build_payload (h2.trans h3.symm) h4 h7 ?_ c'
  rw [h8, h5, hn, ← h6]

theorem clean_edited {k : Kdbx} (hP : P.Lawful) (h : Clean P k) : ∃ c0 file bs xml, openBytes P c0 true file = .ok k ∧ xml.Valid ∧ xml.norm = xml ∧
    k.tree = .ok xml ∧ if k.header.value.major = 4 then Edited4 k k bs xml else Edited3 k k xml := by
  obtain ⟨c0, file, ho⟩ := h.opened
  obtain ⟨x, ht, hx, hn⟩ := h.tree
  have key : ∀ {b p}, k.body = some b → b.payload = some p → p.xml = x := by
    intro b p hb hp
    unfold Kdbx.tree Kdbx.payload at ht
    rw [hb] at ht
    simp only [hp] at ht
    injection ht
  rcases h.version with hv | hv
  · obtain ⟨b, p, h1, h2, h3⟩ := opened3 ho hv
    refine ⟨c0, file, [], x, ho, hx, hn, ht, ?_⟩
    rw [if_neg (by omega)]
    refine ⟨b, p, h1, h2, ?_⟩
    rw [← key h1 h2]
    cases k; cases b; simp only at h1 h2; rw [h1, h2]
  · obtain ⟨b, p, ih, h1, h2, h3⟩ := opened4 hP ho hv
    refine ⟨c0, file, ih.binaries, x, ho, hx, hn, ht, ?_⟩
    rw [if_pos hv]
    refine ⟨b, p, ih, h1, h2, h3, ?_⟩
    rw [← key h1 h2]
    cases k; cases b; cases p; simp only at h1 h2 h3; rw [h1, h2, h3]

/-- The same of something clean. -/
theorem clean_saved (hP : P.Lawful) {k : Kdbx} (h : Clean P k) {c : Creds} {out : Bytes}
    (hsave : (buildKdbx P c k).1 = .ok out) :
    ∃ k2, openBytes P c true out = .ok k2 ∧ Clean P k2 ∧ k2.tree = k.tree ∧ ∀ c', buildKdbx P c' k2 = buildKdbx P c' k := by
  obtain ⟨c0, file, bs, xml, h1, h2, h3, h4, h5⟩ := clean_edited hP h
  obtain ⟨k2, g1, g2, g3, g4⟩ := saved_clean hP h1 h.version h5 h2 hsave
  exact ⟨k2, g1, g2, by rw [g3, h3, h4], g4 h3⟩

/-- The database that was opened from a path and worked on with any calls: what `save` writes, if no text is empty, is what
opening it and saving it again writes, too. -/
theorem C70_settled (hP : P.Lawful) (env : Env) {c0 : Creds} {file : Bytes} {k : Kdbx} (hopen : openBytes P c0 true file = .ok k)
    (hv : k.header.value.major = 3 ∨ k.header.value.major = 4) {s : Db} {y : Xml} (hw : Worked env k s y) (hy : NoEmpty y)
    {c : Creds} {out : Bytes} (hsave : (buildKdbx P c (k.store s)).1 = .ok out) : Settled P c out := by
  obtain ⟨hs, hd, ht, _⟩ := worked hw
  have he : if k.header.value.major = 4 then Edited4 k (k.store s) s.binaries y else Edited3 k (k.store s) y := by
    rcases hv with hv | hv
    · rw [if_neg (by omega)]
      obtain ⟨b, p, hb, hp, hi⟩ := opened3 hopen hv
      exact store_edited3 hs hd hw.tree hb hp hi
    · rw [if_pos hv]
      obtain ⟨b, p, ih, hb, hp, hi⟩ := opened4 hP hopen hv
      exact store_edited4 hs hd hw.tree hb hp hi
  obtain ⟨k2, h1, _, _, h4⟩ := saved_clean hP hopen hv he (tidy_valid ht) hsave
  exact ⟨k2, h1, fun c' h' => by rw [← build_same h', h4 (noEmpty_norm hy), hsave]⟩

/-- With empty texts this is so from the second save on: the file that was saved is opened and saved, under the same or
other credentials. -/
theorem C70_second (hP : P.Lawful) (env : Env) {c0 : Creds} {file : Bytes} {k : Kdbx} (hopen : openBytes P c0 true file = .ok k)
    (hv : k.header.value.major = 3 ∨ k.header.value.major = 4) {s : Db} {y : Xml} (hw : Worked env k s y)
    {c : Creds} {out : Bytes} (hsave : (buildKdbx P c (k.store s)).1 = .ok out)
    {k2 : Kdbx} (hopen2 : openBytes P c true out = .ok k2) {c2 : Creds} {out2 : Bytes}
    (hsave2 : (buildKdbx P c2 k2).1 = .ok out2) : Settled P c2 out2 := by
  obtain ⟨hs, hd, ht, _⟩ := worked hw
  have he : if k.header.value.major = 4 then Edited4 k (k.store s) s.binaries y else Edited3 k (k.store s) y := by
    rcases hv with hv | hv
    · rw [if_neg (by omega)]
      obtain ⟨b, p, hb, hp, hi⟩ := opened3 hopen hv
      exact store_edited3 hs hd hw.tree hb hp hi
    · rw [if_pos hv]
      obtain ⟨b, p, ih, hb, hp, hi⟩ := opened4 hP hopen hv
      exact store_edited4 hs hd hw.tree hb hp hi
  obtain ⟨k2', h1, h2, _⟩ := saved_clean hP hopen hv he (tidy_valid ht) hsave
  rw [hopen2] at h1
  injection h1 with h1
  subst h1
  obtain ⟨k3, g1, _, _, g4⟩ := clean_saved hP h2 hsave2
  exact ⟨k3, g1, fun c' h' => by rw [← build_same h', g4, hsave2]⟩

/-- A file that was saved under other credentials, opened with them and saved under the former ones, is the former file: the
detour leaves no trace. (Setting `password` also dates the change in the tree; this is about the rest.) -/
theorem C70_detour (hP : P.Lawful) {c c2 : Creds} {b b2 : Bytes} {k k3 : Kdbx} (hs : Settled P c b) (hopen : openBytes P c true b = .ok k)
    (hv : k.header.value.major = 3 ∨ k.header.value.major = 4) {x : Xml} (ht : k.tree = .ok x) (hx : x.Valid) (hn : NoEmpty x)
    (hsave : (buildKdbx P c2 k).1 = .ok b2) (hopen2 : openBytes P c2 true b2 = .ok k3) :
    (buildKdbx P c k3).1 = .ok b := by
  obtain ⟨k', h1, h2⟩ := hs
  rw [hopen] at h1
  injection h1 with h1
  subst h1
  obtain ⟨k4, g1, _, _, g4⟩ := clean_saved hP ⟨⟨c, b, hopen⟩, hv, x, ht, hx, noEmpty_norm hn⟩ hsave
  rw [hopen2] at g1
  injection g1 with g1
  subst g1
  rw [g4]
  exact h2 c ⟨rfl, rfl, rfl⟩

/-- Loading and storing without a change. -/
theorem store_loaded {k : Kdbx} {b : Body} {p : Payload} (hb : k.body = some b) (hp : b.payload = some p) {m n : Nat} {db : Db}
    (hl : k.load m n = .ok db) : k.store db = k := by
  have ht : k.tree = .ok p.xml := by
    unfold Kdbx.tree Kdbx.payload
    rw [hb]
    simp only [hp]
    rfl
  obtain ⟨s, h1, h2, h3, h4, _, h6, _⟩ := load_ok ht m n
  rw [hl] at h1
  injection h1 with h1
  subst h1
  rw [store_eq h2 h3 h4, h6, hb]
  unfold Kdbx.innerBinaries
  rw [hb]
  unfold Body.store Payload.store
  simp only [Option.map_some, hp, Option.bind_some]
  cases k; cases b; cases p with
  | mk i x =>
    simp only at hb hp
    rw [hb, hp]
    cases i <;> rfl

/-- A settled file is opened from a path and saved there: at every moment, and whatever fails, the path holds the same bytes. -/
theorem C70_file (hP : P.Lawful) (env : Env) {c : Creds} (hc : c.keyfile.Reusable) (ht : c.transformedKey = none) {fs : Fs} {p : Str} {b : Bytes} (h0 : p ≠ [])
    (hb : fs (PPath.ofStr p) = some b) (hs : Settled P c b) (hn : ¬ NamedTmp (PPath.ofStr p)) {o : Os} (hr : o.renameOk = true) (hf : o.Faithful)
    (left : Nat) {x : Obj} (hx : Session.open P left fs (some (.path p)) c true = (.ok (), x.session)) {k : Kdbx} (hk : x.session.kdbx = some k)
    (hv : k.header.value.major = 3 ∨ k.header.value.major = 4) {m n : Nat} (hl : k.load m n = .ok x.db) :
    ∀ s ∈ (Act.run P env fs x (.save o none none)).states, s (PPath.ofStr p) = some b := by
  have hp : Filename.truthy (.path p) = true := by
    cases p with
    | nil => exact absurd rfl h0
    | cons => rfl
  unfold Session.open Session.read at hx
  simp only [Session.target, if_pos hp, hb] at hx
  obtain ⟨k1, e1, e2⟩ := hs
  have hu := parse_unread (P := P) hc (dec := true) (b := b)
  obtain ⟨r, hr1⟩ := openBytes_ok.mp e1
  cases hpk : parseKdbx P c true b with
  | mk r1 kf =>
    rw [hpk] at hx hu hr1
    simp only at hr1 hu
    subst hr1
    simp only at hx
    have hxs : x.session = { Session.blank with password := c.password, keyfile := kf, filename := some (.path p), kdbx := some k1 } := by
      injection hx with _ hx
      exact hx.symm
    rw [hxs] at hk
    injection hk with hk
    subst hk
    have hst : k1.store x.db = k1 := by
      rcases hv with hv | hv
      · obtain ⟨b, p, f1, f2, _⟩ := opened3 e1 hv
        exact store_loaded f1 f2 hl
      · obtain ⟨b, p, _, f1, f2, _⟩ := opened4 hP e1 hv
        exact store_loaded f1 f2 hl
    have hcur : x.current = { Session.blank with password := c.password, keyfile := kf, filename := some (.path p), kdbx := some k1 } := by
      unfold Obj.current
      rw [hxs]
      simp only [Option.map_some, hst]
    intro s hs
    have hs' : s ∈ (x.current.save P o fs none none).run.states := hs
    rw [hcur] at hs'
    rcases (C11_crash_safe P o fs _ none none p rfl hn hr hf s hs').1 with h | ⟨out, ⟨k', g1, g2⟩, h⟩
    · rw [h, hb]
    · injection g1 with g1
      subst g1
      have e3 := e2 ⟨c.password, kf, none⟩ ⟨rfl, hu.symm, ht⟩
      rw [show ({ password := c.password, keyfile := kf, transformedKey := none } : Creds) = ⟨c.password, kf, none⟩ from rfl] at g2
      rw [e3] at g2
      injection g2 with g2
      rw [h, g2]

/-! ## The hypotheses can be met -/

/-- Whether no text is empty, computed. -/
def noEmptyB : Xml → Bool
  | .mk _ _ t ks => t != some [] && noEmptyBs ks
where noEmptyBs : List Xml → Bool
  | [] => true
  | k :: ks => noEmptyB k && noEmptyBs ks

theorem noEmpty_of (x : Xml) : noEmptyB x = true → NoEmpty x := by
  induction x using Xml.ind with
  | h t a x ks ih =>
    intro h
    rw [noEmptyB, Bool.and_eq_true] at h
    refine .mk (by simpa using h.1) ?_
    have := h.2
    clear h
    induction ks with
    | nil => exact nofun
    | cons k ks ihs =>
      rw [noEmptyB.noEmptyBs, Bool.and_eq_true] at this
      intro y hy
      rcases List.mem_cons.mp hy with rfl | hy
      · exact ih _ (List.mem_cons_self ..) this.1
      · exact ihs (fun z hz => ih z (List.mem_cons_of_mem _ hz)) this.2 y hy

/-- The blank database of the examples, opened and saved. -/
def settledFile : Bytes :=
  match usedOpen.kdbx with
  | some k =>
    match (buildKdbx Toy.prims blankCreds k).1 with
    | .ok b => b
    | .error _ => []
  | none => []

/-- It is settled. -/
theorem settled_file : Settled Toy.prims blankCreds settledFile := by
  obtain ⟨c, left, q, k, m, n, z, h1, h2, h3, h4, h5, h6, h7, h8, h9, h10, e⟩ := used_opened.run
  have hk : usedOpen.kdbx = some k := h5
  have hz : z = blankTree.norm := by
    have := congrArg Shown.tree e
    exact (Option.some.inj this).symm
  subst hz
  obtain ⟨k', c1, file, _, e1, ho, _, _⟩ := (alive_start (env := Sample.env) used_opened).kdbx
  rw [h5] at e1
  injection e1 with e1
  subst e1
  have hb : (buildKdbx Toy.prims blankCreds k).1 = .ok settledFile := by
    have h : (usedOpen.kdbx.any fun k => (buildKdbx Toy.prims blankCreds k).1.isOk) = true := by decide +kernel
    unfold settledFile
    rw [hk] at h ⊢
    simp only [Option.any_some] at h ⊢
    cases hx : (buildKdbx Toy.prims blankCreds k).1 with
    | error e => rw [hx] at h; cases h
    | ok b => rfl
  have hl : k.store usedObj.db = k := by
    obtain ⟨b, p, _, f1, f2, _⟩ := opened4 Toy.lawful ho (by rw [h6]; decide +kernel)
    exact store_loaded f1 f2 h7
  obtain ⟨s, l1, _, _, l4, _⟩ := load_ok h8 m n
  rw [h7] at l1
  injection l1 with l1
  subst l1
  exact C70_settled Toy.lawful Sample.env ho (.inr (by rw [h6]; decide +kernel)) (s := usedObj.db) (y := blankTree.norm)
    ⟨⟨_, m, n, _, h8, h9, h10, h7, .refl _⟩, l4⟩ (noEmpty_of _ (by decide +kernel)) (by rw [hl]; exact hb)

/-- Finding: a file that the library wrote, opened and saved without a change, need not be the same file: empty texts are
written as such (`<Notes></Notes>`), but read as `None` (`<Notes/>`). -/
theorem C70_not_at_once : (∃ k, (buildKdbx Toy.prims blankCreds k).1 = .ok blankFile) ∧
    ∃ k, openBytes Toy.prims blankCreds true blankFile = .ok k ∧ (buildKdbx Toy.prims blankCreds k).1 = .ok settledFile ∧ settledFile ≠ blankFile := by
  refine ⟨⟨{ header := Toy.header4 .aes256 true, body := some { transformedKey := [], masterKey := [], payload := some { inner := some Toy.inner, xml := blankTree } } },
    by decide +kernel⟩, ?_⟩
  have h : (match openBytes Toy.prims blankCreds true blankFile with
    | .ok k => decide ((buildKdbx Toy.prims blankCreds k).1 = .ok settledFile)
    | .error _ => false) = true := by decide +kernel
  cases e : openBytes Toy.prims blankCreds true blankFile with
  | error _ => rw [e] at h; cases h
  | ok k => rw [e] at h; exact ⟨k, rfl, of_decide_eq_true h, by decide +kernel⟩

end Verif.Props
