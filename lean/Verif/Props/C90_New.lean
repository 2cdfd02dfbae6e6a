import Verif.Spec.New
import Verif.Props.C84_Shipped
import Verif.Props.C78_WholeFile
import Verif.Props.C73_Attachments
import Verif.Props.C73_SearchCards
/-!
# C90: a new database
-/
namespace Verif.Props
open Verif XPath Spec Api

/-- The blank database as it is loaded. -/
def shippedDb : Db := Db.start (Node.ofXml 1 shippedTree) (4, 0) [] 0 0

theorem shipped_tidy : TidyXml shippedTree := by
  have h : ∀ n ∈ (Node.ofXml 1 shippedTree).1.nodes, Fine n.tag n.attrs n.text n.kids.isEmpty := by decide +kernel
  rw [← tidyXml_iff, Node.ofXml_xml] at h
  exact h

theorem start_inv (x : Xml) (v : Nat × Nat) (bs : List Bytes) (t u : Nat) : Inv (Db.start (Node.ofXml 1 x) v bs t u) :=
  (start_ok (Node.ofXml_id x 1) (Node.ofXml_uniq x 1) (fun _ => Node.ofXml_mem) v bs t u).1

theorem shipped_sound : Sound shippedDb := by
  have hi : Inv shippedDb := start_inv _ _ _ _ _
  refine ⟨hi, ⟨1, 2, 39, by decide +kernel, by decide +kernel, by decide +kernel, by decide +kernel⟩, shaped_of hi (by decide +kernel), fun x hx => ?_⟩
  have h : (shippedDb.world.ids.all fun x => decide (NoCard (shippedDb.heap.tag x)) ||
      ((singles.all fun t => decide ((shippedDb.heap.all x t).length ≤ 1)) && fieldsOk shippedDb.heap x)) = true := by decide +kernel
  have h := List.all_eq_true.mp h x (card_mem hx)
  rw [decide_eq_false hx, Bool.false_or, Bool.and_eq_true] at h
  exact ⟨fun t ht => of_decide_eq_true (List.all_eq_true.mp h.1 t ht), fields_of_ok h.2⟩

theorem shipped_filed : Filed shippedDb.heap := filed_of shipped_sound.inv (by decide +kernel)

theorem shipped_vault : NewVault (vaultOf shippedDb) 40 := by
  have hc : ¬ NoCard (shippedDb.heap.tag 40) := by decide +kernel
  refine ⟨by decide +kernel, fun x c h => ?_, ⟨cardOf shippedDb.heap 40, (if_neg hc : (if NoCard (shippedDb.heap.tag 40) then none else some (cardOf shippedDb.heap 40)) = _), by decide +kernel, by decide +kernel, by decide +kernel,
    by decide +kernel, by decide +kernel, by decide +kernel, by decide +kernel, by decide +kernel, by decide +kernel, by decide +kernel,
    by decide +kernel⟩, rfl⟩
  have hx := (card_inv h).1
  have h : (shippedDb.world.ids.all fun x => decide (NoCard (shippedDb.heap.tag x)) || x == 40) = true := by decide +kernel
  have h := List.all_eq_true.mp h x (card_mem hx)
  rw [decide_eq_false hx, Bool.false_or] at h
  exact eq_of_beq h

theorem shipped_desk : NewDesk (deskOf shippedDb) "N4+s1Q4AAAA=".toList := by
  refine ⟨by decide +kernel, by decide +kernel, by decide +kernel, by decide +kernel, fun q => ?_, by decide +kernel, rfl, by decide +kernel⟩
  cases q <;> decide +kernel

/-! ## The steps -/

theorem newVault_ticks {v : Vault} {r : Nat} (h : NewVault v r) (n : Nat) : NewVault { v with ticks := n } r :=
  ⟨h.roots, h.only, h.card, h.version⟩

/-- Writing another date. -/
theorem newDesk_date {d : Desk} {w w' : Str} (h : NewDesk d w) {v : Nat × Nat} {t : DateTime} (he : encodeTime v t = .ok w') :
    (d.putDate v t).1 = .ok none ∧ NewDesk (d.putDate v t).2 w' := by
  unfold Desk.putDate
  rw [he]
  show (d.put changeDate w').1 = _ ∧ NewDesk (d.put changeDate w').2 w'
  unfold Desk.put
  rw [h.date]
  show (if XmlText w' then _ else _ : Except PyErr (Option Int) × Desk).1 = _ ∧ NewDesk (if XmlText w' then _ else _ : Except PyErr (Option Int) × Desk).2 w'
  rw [if_pos (encode_xml he)]
  have ne : ∀ {n : Str} {l : List (Option Str)}, n ≠ changeDate → d.texts n = l → (if n = changeDate then [some w'] else d.texts n) = l := by
    intro n l hn hl
    rw [if_neg hn, hl]
  refine ⟨rfl, ne (by decide) h.name, ne (by decide) h.description, ne (by decide) h.username,
    (if_pos rfl : (if changeDate = changeDate then [some w'] else d.texts changeDate) = _), fun q => ne ?_ (h.days q), ne (by decide) h.bin, h.stock, h.shelves⟩
  cases q <;> decide

theorem newDesk_creds {d : Desk} {w : Str} (h : NewDesk d w) (p q : Option Str) : NewDesk { d with password := p, keyfile := q } w :=
  ⟨h.name, h.description, h.username, h.date, h.days, h.bin, h.stock, h.shelves⟩

/-- The two assignments of `create_database`. -/
def makeTasks (p : Option Str) : List Task := [.deed (.desk (.setPassword p)), .deed (.desk (.setKeyfile none))]

theorem encode_some {t : DateTime} {w : Str} (h : encodeTime (4, 0) t = .ok w) : w ≠ [] := by
  unfold encodeTime at h
  rw [if_pos (by decide)] at h
  cases hi : t.instant with
  | none => rw [hi] at h; cases h
  | some n =>
    rw [hi] at h
    simp only at h
    split at h
    · cases h
    · injection h with h
      rw [← h]
      intro e
      have := congrArg List.length e
      rw [leBytes, leBytes, leBytes] at this
      simp [b64encode] at this

/-! ## Reading back -/

theorem pairs_none {R : Nat → Nat → Prop} {l : List Nat} (h : Pairs R [] l) : l = [] := by cases h; rfl

theorem newVault_back {R : Nat → Nat → Prop} {v u : Vault} {r : Nat} (h : NewVault v r) (hb : FromFile R v u) (hv : u.version = v.version) :
    ∃ r', NewVault u r' := by
  have hr := hb.roots
  rw [h.roots] at hr
  obtain ⟨r', e, hR⟩ := pairs_one hr
  refine ⟨r', e, fun y d hd => ?_, ?_, hv.trans h.version⟩
  · obtain ⟨x, hx⟩ := hb.all y d hd
    obtain ⟨c, _, hc, _⟩ := hb.card x y hx
    rw [h.only x c hc] at hx
    exact hb.left _ _ _ hx hR
  · obtain ⟨c, d, hc, hd, g⟩ := hb.card r r' hR
    obtain ⟨c', hc', c1, c2, c3, c4, c5, c6, c7, c8, c9, c10, c11⟩ := h.card
    rw [hc] at hc'
    injection hc' with hc'
    subst hc'
    refine ⟨d, hd, by rw [g.kind, c1], by rw [g.text, c2]; rfl, by rw [g.text, c3]; rfl, by rw [g.text, c4]; rfl, by rw [g.text, c5]; rfl,
      by rw [g.time, c6]; rfl, ?_, ?_, by rw [g.keys, c9]; rfl, ?_, ?_⟩
    · have := g.entries; rw [c7] at this; exact pairs_none this
    · have := g.groups; rw [c8] at this; exact pairs_none this
    · have := g.files
      rw [c10] at this
      exact List.map_eq_nil_iff.mp this
    · have := g.past
      rw [c11] at this
      generalize d.past = o at this
      cases this
      rfl

theorem newDesk_back {d e : Desk} {w : Str} (h : NewDesk d w) (hw : w ≠ []) (hb : DeskBack d e) (hs : e.stock = d.stock) : NewDesk e w := by
  refine ⟨by rw [hb.texts, h.name]; rfl, by rw [hb.texts, h.description]; rfl, by rw [hb.texts, h.username]; rfl, ?_, fun q => by rw [hb.texts, h.days]; rfl,
    by rw [hb.texts, h.bin]; rfl, hs.trans h.stock, by rw [hb.shelves, h.shelves]; rfl⟩
  rw [hb.texts, h.date]
  cases w with
  | nil => exact absurd rfl hw
  | cons => rfl

/-! ## The database -/

section
variable {P : Prims} {fs : Fs} {blank : Str} {k : Kdbx}

/-- The tree has what a database needs: the assumptions of C84 hold. -/
theorem C90_shipped (h : Package P fs blank k) : Shipped P fs blank k shippedTree := by
  refine ⟨h.named, h.file, h.tree, by decide +kernel, shipped_tidy, fun s hs => ?_⟩
  unfold Kdbx.load at hs
  rw [h.tree] at hs
  injection hs with hs
  rw [← hs]
  have : metaEls (Db.start (Node.ofXml 1 shippedTree) (4, 0) [] 0 0).heap "MasterKeyChanged".toList ≠ [] := by decide +kernel
  exact this

theorem package_load (h : Package P fs blank k) : k.load 0 0 = .ok shippedDb := by
  unfold Kdbx.load
  rw [h.tree, h.data, (C84_blank (C90_shipped h)).2]
  rfl

theorem package_open (h : Package P fs blank k) : Open P k shippedDb := by
  obtain ⟨r, _, hr⟩ := h.file
  exact ⟨⟨_, _, hr⟩, .inr (C84_blank (C90_shipped h)).1.major, ⟨_, h.tree, shipped_tidy⟩, ⟨0, 0, package_load h⟩, shipped_sound⟩

/-- The object that `create_database` saves. -/
theorem make_served {env : Env} (hc : ClockOk env (4, 0)) (p : Option Str) {s' : Db} (hn : newCredentials env p shippedDb = (.ok (), s')) :
    ∃ l w, l.map Prod.fst = makeTasks p ∧ Served env shippedDb l s' ∧ encodeTime (4, 0) (env.now 1) = .ok w ∧
      NewVault (vaultOf s') 40 ∧ NewDesk (deskOf s') w := by
  obtain ⟨w0, e0⟩ := hc 0
  obtain ⟨w1, e1⟩ := hc 1
  have hs : Served env shippedDb [(.deed (.desk (.setPassword p)), _), (.deed (.desk (.setKeyfile none)), _)] _ :=
    .cons (a := .deed (.desk (.setPassword p))) trivial (.cons (a := .deed (.desk (.setKeyfile none))) trivial (.nil _))
  have e : (Task.run env (.deed (.desk (.setKeyfile none))) (Task.run env (.deed (.desk (.setPassword p))) shippedDb).2).2 = s' := by
    rw [task_state, task_state]
    show (setKeyfile env none (setPassword env p shippedDb).2).2 = s'
    unfold newCredentials at hn
    rw [bind_run] at hn
    cases h1 : setPassword env p shippedDb with
    | mk r t =>
      rw [h1] at hn
      cases r with
      | error e => cases hn
      | ok u => simp only at hn; rw [hn]
  rw [e] at hs
  refine ⟨_, w1, rfl, hs, e1, ?_⟩
  obtain ⟨hp, _⟩ := C77_run env shipped_sound shipped_filed hs
  cases hp with
  | cons _ h1 h2 =>
    cases h2 with
    | cons _ h3 h4 =>
      obtain ⟨_, _, _, rfl⟩ := h1
      obtain ⟨_, _, _, h3⟩ := h3
      have d0 := (newDesk_date (newDesk_creds shipped_desk p (deskOf shippedDb).keyfile) e0).2
      have d1 := (newDesk_date (newDesk_creds d0 (Desk.putDate { deskOf shippedDb with password := p } (4, 0) (env.now 0)).2.password none) e1).2
      cases h4
      have hv : vaultOf s' = { vaultOf shippedDb with ticks := 2 } := congrArg Office.vault h3
      have hd : deskOf s' = _ := congrArg Office.desk h3
      rw [hv, hd]
      exact ⟨newVault_ticks shipped_vault 2, d1⟩

/-- `create_database(path, password, keyfile)`: if it returns, the file at `path` opens with these credentials, and what is in it is one group
called Root and nothing else, with the settings of the package and the date at which the credentials were set. -/
theorem C90_content (hP : P.Lawful) {o : Os} {env : Env} (hp : Package P fs blank k)
    (hc : ClockOk env (4, 0)) {path : Str} {password : Option Str} {keyfile : Keyfile} (hk : keyfile.Reusable) (hf : o.Faithful)
    (hn : o.renameOk = true ∨ ¬ NamedTmp (PPath.ofStr path))
    (h : (createDatabase P o env fs blank (.path path) password keyfile none).run.result = .ok ()) (a b : Nat) :
    ∃ out k2 t r w, (createDatabase P o env fs blank (.path path) password keyfile none).run.final (PPath.ofStr path) = some out ∧
      openBytes P ⟨password, (createDatabase P o env fs blank (.path path) password keyfile none).session.keyfile, none⟩ true out = .ok k2 ∧
      k2.load a b = .ok t ∧ encodeTime (4, 0) (env.now 1) = .ok w ∧ NewVault (vaultOf t) r ∧ NewDesk (deskOf t) w ∧
      Open P k2 t ∧ Filed t.heap := by
  have hb := C84_blank (C90_shipped hp)
  obtain ⟨s, s', y, hl, hnc, hw, hy, hbin, hcr⟩ := create_saves P o hb.1 (by rw [hb.2]; exact hc) (.path path) password keyfile
  rw [package_load hp] at hl
  injection hl with hl
  subst hl
  obtain ⟨l, w, _, hserved, hw1, hv, hd⟩ := make_served hc password hnc
  have hkeyed : Keyed (vaultOf s') := by
    intro x c hx
    have := hv.only x c hx
    subst this
    obtain ⟨c', h1, _, _, _, _, _, _, _, _, h9, _⟩ := hv.card
    rw [hx] at h1
    injection h1 with h1
    rw [h1, h9]
    exact List.not_mem_nil
  have key : ∀ {out kf}, buildKdbx P ⟨password, keyfile, none⟩ (k.store s') = (.ok out, kf) →
      ∃ k2 t r, openBytes P ⟨password, kf, none⟩ true out = .ok k2 ∧ k2.load a b = .ok t ∧ NewVault (vaultOf t) r ∧ NewDesk (deskOf t) w ∧
      Open P k2 t ∧ Filed t.heap := by
    intro out kf hsave
    obtain ⟨k2, t, R, g1, g2, _, g4, g5, g6, g7⟩ := C78_session hP env (package_open hp) shipped_filed hserved ⟨password, keyfile, none⟩ hk out kf hsave a b
    obtain ⟨r, hr⟩ := newVault_back hv g4.vault g4.version
    refine ⟨k2, t, r, g1, g2, hr, newDesk_back hd (encode_some hw1) g4.desk (g4.stock ?_), g7 hkeyed, g6⟩
    show versionGe4 (vaultOf s').version = true
    rw [hv.version]
    rfl
  rw [hcr none] at h ⊢
  simp only at h ⊢
  have ht : Session.target ⟨password, keyfile, some (.path path), some (k.store s')⟩ none = some (.path path) := rfl
  cases hw' : (PPath.ofStr path).withTmp with
  | error e =>
    unfold Session.save at h
    simp only [ht, hw'] at h
    cases h
  | ok tmp =>
    have hne : o.renameOk = true ∨ tmp ≠ PPath.ofStr path := hn.imp id fun hn e => withTmp_ne _ hn (e ▸ hw')
    by_cases ho : o.openOk = true
    · have hrun := save_path (P := P) (o := o) (fs := fs) (s := ⟨password, keyfile, some (.path path), some (k.store s')⟩) (tk := none) rfl ht ho
      rw [hrun] at h ⊢
      obtain ⟨_, out, h1, h2⟩ := saveFile_done hw' hf hne h
      obtain ⟨k2, t, r, g1, g2, g3, g4, g5, g6⟩ := key (Prod.ext h1 rfl)
      refine ⟨out, k2, t, r, w, h2, ?_, g2, hw1, g3, g4, g5, g6⟩
      have hs : (Session.save P o fs ⟨password, keyfile, some (.path path), some (k.store s')⟩ none none).session.keyfile =
          (buildKdbx P ⟨password, keyfile, none⟩ (k.store s')).2 := by
        unfold Session.save
        simp only [ht, hw', ho, if_true]
      rw [hs]
      exact g1
    · have hrun := save_path_refused (P := P) (o := o) (fs := fs) (s := ⟨password, keyfile, some (.path path), some (k.store s')⟩) (tk := none) rfl ht (by simpa using ho)
      rw [hrun] at h
      rw [(saveFile_refused hw' (by simpa using ho)).1] at h
      cases h

/-! ## What the library says about it -/

section
variable {t : Db} {r : Nat} {w : Str}

theorem new_current (h : NewVault (vaultOf t) r) {g : Nat} : (vaultOf t).Current g ↔ g = r := by
  constructor
  · rintro ⟨x, hx, hb⟩
    rw [h.roots, List.mem_singleton] at hx
    subst hx
    cases hb with
    | refl => rfl
    | sub _ hc hy =>
      have e := h.only _ _ hc
      subst e
      obtain ⟨c, h1, _, _, _, _, _, _, _, h8, _⟩ := h.card
      rw [hc] at h1
      injection h1 with h1
      rw [h1, h8] at hy
      cases hy
  · rintro rfl
    exact ⟨g, by rw [h.roots]; exact List.mem_singleton.mpr rfl, .refl⟩

theorem new_no_entry (h : NewVault (vaultOf t) r) {history : Bool} {G : Nat → Prop} {e : Nat} : ¬ (vaultOf t).EntryOf history G e := by
  rintro ⟨k, c, e0, _, hc, he, _⟩
  have := h.only _ _ hc
  subst this
  obtain ⟨c', h1, _, _, _, _, _, _, h7, _⟩ := h.card
  rw [hc] at h1
  injection h1 with h1
  rw [h1, h7] at he
  cases he

/-- No search for entries finds anything. -/
theorem C90_no_entries (env : Env) (hs : Sound t) (h : NewVault (vaultOf t) r) {a : FindArgs} (recursive : Bool) (hf : Fair t env.re .entry a) :
    findEntries env.re t.world recursive a = .ok (if a.first then .one none else .list []) := by
  obtain ⟨l, h1, _, _, h4⟩ := C73_entries env hs recursive hf
  have hl : l = [] := by
    refine List.eq_nil_iff_forall_not_mem.mpr fun e he => ?_
    obtain ⟨hsc, _⟩ := (h4 e).mp he
    unfold Vault.EntryScope at hsc
    split at hsc
    · exact new_no_entry h hsc
    · exact hsc
    · exact new_no_entry h hsc
    · obtain ⟨c, hc, hm⟩ := hsc
      exact new_no_entry (history := false) (G := fun _ => True) h ⟨_, c, e, trivial, hc, hm, rfl⟩
  rw [h1, hl]
  rfl

/-- What the properties of a new database give. -/
theorem C90_answers (env : Env) (hs : Sound t) (hfl : Filed t.heap) (h : NewVault (vaultOf t) r) (hd : NewDesk (deskOf t) w) :
    allEntries env t = (.ok [], t) ∧ allGroups env t = (.ok [r], t) ∧ rootGroup env t = (.ok (some r), t) ∧
    getName r t = (.ok (some "Root".toList), t) ∧ getUuid r t = (.ok shippedRoot, t) ∧ recycleBin env t = (.ok none, t) ∧
    getMeta env Setting.name.tag t = (.ok (some "Passwords".toList), t) ∧ getMeta env Setting.description.tag t = (.ok none, t) ∧
    getMeta env Setting.username.tag t = (.ok none, t) ∧ credDate env t = ((decodeTime (4, 0) (some w)).map some, t) ∧
    (∀ q, credDays env q t = (.ok (some (-1)), t)) ∧ binaries env t = (.ok [], t) ∧
    (MatchesAll env.re → allAttachments env t = (.ok [], t)) := by
  obtain ⟨m1, m2, m3, m4⟩ := C75_reads env hs
  obtain ⟨c, hc, c1, c2, c3, _⟩ := h.card
  obtain ⟨hn, rfl⟩ := card_inv hc
  refine ⟨?_, ?_, ?_, ?_, ?_, ?_, ?_, ?_, ?_, ?_, ?_, ?_, ?_⟩
  · unfold allEntries findEntryList
    have : Fair t env.re .entry {} := ⟨rfl, nofun, nofun, nofun, nofun, nofun⟩
    rw [C90_no_entries env hs h true this]
    rfl
  · unfold allGroups findGroupList
    have : Fair t env.re .group {} := ⟨rfl, nofun, nofun, nofun, nofun, nofun⟩
    obtain ⟨l, h1, _, h3, h4⟩ := C73_groups env hs true this
    have hl : ∀ g, g ∈ l ↔ g = r := by
      intro g
      rw [h4, show (vaultOf t).GroupScope true none g ↔ (vaultOf t).Current g from Iff.rfl, new_current h]
      exact ⟨fun a => a.1, fun e => ⟨e, _, e ▸ hc, nofun⟩⟩
    rw [h1]
    have : l = [r] := by
      cases l with
      | nil => exact absurd ((hl r).mpr rfl) List.not_mem_nil
      | cons a l =>
        have ha := (hl a).mp (List.mem_cons_self ..)
        subst ha
        cases l with
        | nil => rfl
        | cons b l =>
          have hb := (hl b).mp (List.mem_cons_of_mem _ (List.mem_cons_self ..))
          subst hb
          exact absurd (List.mem_cons_self ..) (List.nodup_cons.mp h3).1
    rw [this]
    rfl
  · unfold rootGroup findGroup
    have : FairPath env.re { path := some [], first := true } [] := by
      refine ⟨rfl, nofun, nofun, ?_, nofun⟩
      intro n hn
      exact nofun
    obtain ⟨l, h1, _, h3⟩ := C73_group_path env hs true this
    rw [h1]
    have hl : ∀ g, g ∈ l ↔ g = r := by
      intro g
      rw [h3, h.roots]
      constructor
      · rintro ⟨x, hx, hf⟩
        rw [List.mem_singleton] at hx
        subst hx
        exact hf
      · rintro rfl
        exact ⟨g, List.mem_singleton.mpr rfl, rfl⟩
    cases l with
    | nil => exact absurd ((hl r).mpr rfl) List.not_mem_nil
    | cons a l =>
      rw [(hl a).mp (List.mem_cons_self ..)]
      rfl
  · unfold getName
    rw [getSub_run]
    show (Except.ok ((cardOf t.heap r).text .name), t) = _
    rw [c2]
  · unfold getUuid
    rw [bind_of (getSub_run ..)]
    show (uuidOfText ((cardOf t.heap r).text .uuid), t) = _
    rw [c3]
    have : uuidOfText (some (b64encode shippedRoot)) = .ok shippedRoot := by decide +kernel
    rw [this]
  · have hbin : (deskOf t).bin = .ok (List.replicate 16 0) := by
      unfold Desk.bin
      rw [show (deskOf t).texts binSetting = _ from hd.bin]
      have : uuidOfText (some (b64encode (List.replicate 16 0))) = .ok (List.replicate 16 0) := by decide +kernel
      exact this
    rcases bin_run env hs with ⟨e, h1, _⟩ | ⟨u, o, h1, h2, h3, _⟩
    · rw [hbin] at h1; cases h1
    · rw [hbin] at h1
      injection h1 with h1
      subst h1
      cases o with
      | none => exact h2
      | some b =>
        obtain ⟨g1, c', g2, g3⟩ := h3 b rfl
        rw [(new_current h).mp g1, hc] at g2
        injection g2 with g2
        rw [← g2, c3] at g3
        exact absurd g3 (by decide +kernel)
  · have := m1 .name; rw [show (officeOf t).desk = deskOf t from rfl, hd.name] at this; exact this
  · have := m1 .description; rw [show (officeOf t).desk = deskOf t from rfl, hd.description] at this; exact this
  · have := m1 .username; rw [show (officeOf t).desk = deskOf t from rfl, hd.username] at this; exact this
  · rw [show (officeOf t).desk = deskOf t from rfl, hd.date, h.version] at m3; exact m3
  · intro q
    have := m2 q
    rw [show (officeOf t).desk = deskOf t from rfl, hd.days] at this
    rw [this]
    show ((pyInt "-1".toList).map some, t) = _
    have : (pyInt "-1".toList).map some = .ok (some (-1)) := by decide +kernel
    rw [this]
  · rw [m4]
    unfold Office.data
    rw [show (officeOf t).vault.version = (4, 0) from h.version, if_pos (by decide), show (officeOf t).desk.stock = [] from hd.stock]
    rfl
  · intro hm
    obtain ⟨l, h1, _, _, h4⟩ := C73_all_attachments env hm hs hfl
    have hl : l = [] := List.eq_nil_iff_forall_not_mem.mpr fun i hi => by
      obtain ⟨e, f, he, _⟩ := (h4 i).mp hi
      exact new_no_entry h he
    rw [h1, hl]

end

/-- Whatever is done afterwards, in any number of sessions, is what the machine does with it. -/
theorem C90_life (hP : P.Lawful) (env : Env) {k2 : Kdbx} {t t' : Db} (ho : Open P k2 t) (hf : Filed t.heap)
    {L : List (List (Task × Except PyErr Reply))} (hy : Years P env k2 t L t') : Chronicle env (officeOf t) L (officeOf t') :=
  (C78_sessions hP env hy ho hf).1

end
/-! ## A case: a package made with the toy algorithms, and a database made from it -/

def packageInner : InnerHeader := { Toy.inner with binaries := [] }

def packageKdbx (tk mk : Bytes) : Kdbx := ⟨shippedParsed, some ⟨tk, mk, some ⟨some packageInner, shippedTree⟩⟩⟩

def packageFile : Bytes :=
  match (buildKdbx Toy.prims blankCreds (packageKdbx [] [])).1 with
  | .ok b => b
  | .error _ => []

def packageFs : Fs := fun p => if p = PPath.ofStr "/lib/blank.kdbx".toList then some packageFile else none

theorem packageInner_ok : packageInner.Ok :=
  ⟨by decide, by decide, [(.streamId, .stream .chacha20), (.streamKey, .raw [8, 8])], .raw [], rfl⟩

theorem package_toy : ∃ tk mk, Package Toy.prims packageFs "/lib/blank.kdbx".toList (packageKdbx tk mk) := by
  have h2 : (buildKdbx Toy.prims blankCreds (packageKdbx [] [])).1.toOption.isSome = true := by decide +kernel
  have hb : (buildKdbx Toy.prims blankCreds (packageKdbx [] [])).1 = .ok packageFile := by
    unfold packageFile
    cases hr : (buildKdbx Toy.prims blankCreds (packageKdbx [] [])).1 with
    | error e => rw [hr] at h2; cases h2
    | ok v => rfl
  have hn : shippedTree.norm = shippedTree := by decide +kernel
  rcases (buildKdbx_ok (P := Toy.prims) (c := blankCreds) (k := packageKdbx [] []) rfl rfl).mp hb with ⟨h, _⟩ | ⟨_, tk, o, g1, g2, g3⟩
  · cases h
  · obtain ⟨mk, _, hbody⟩ := body4_build Toy.prims Toy.lawful _ _ _ _ packageInner_ok shippedTree (tidy_valid shipped_tidy) o [] g2
    rw [List.append_nil, hn] at hbody
    have ho : openBytes Toy.prims blankCreds true (shippedHeader ++ o) = .ok (packageKdbx tk mk) :=
      openBytes_ok.mpr ⟨[], (parse4_ok (k := packageKdbx tk mk) rfl).mpr ⟨_, tk, o, _, laid_run C84_layout shipped_ok "(parsing)" o, rfl, g1, hbody, rfl⟩⟩
    exact ⟨tk, mk, by decide, ⟨o, (if_pos rfl : (if _ = _ then some packageFile else none) = _).trans (congrArg some g3), ho⟩, rfl, rfl⟩

theorem sample_clock : ClockOk Sample.env (4, 0) := by
  intro n
  have hm : ∀ m, m < 28 → (encodeTime (4, 0) ⟨⟨2024, 1, m + 1⟩, 0, 0, 0, 0, some 0⟩).isOk = true := by decide +kernel
  have hn := hm (n % 28) (Nat.mod_lt _ (by decide))
  show ∃ t, encodeTime (4, 0) ⟨⟨2024, 1, n % 28 + 1⟩, 0, 0, 0, 0, some 0⟩ = .ok t
  cases e : encodeTime (4, 0) ⟨⟨2024, 1, n % 28 + 1⟩, 0, 0, 0, 0, some 0⟩ with
  | error _ => rw [e] at hn; cases hn
  | ok t => exact ⟨t, rfl⟩

/-- It is made. -/
example : ∃ tk mk, Package Toy.prims packageFs "/lib/blank.kdbx".toList (packageKdbx tk mk) ∧ ClockOk Sample.env (4, 0) ∧ goodOs.Faithful ∧
    (createDatabase Toy.prims goodOs Sample.env packageFs "/lib/blank.kdbx".toList (.path "new.kdbx".toList) (some "pw".toList) .none none).run.result
      = .ok () := by
  obtain ⟨tk, mk, h⟩ := package_toy
  refine ⟨tk, mk, h, sample_clock, goodOs_faithful, ?_⟩
  have hb := (C84_blank (C90_shipped h)).1
  have hk : (computeTransformed4 Toy.prims ⟨some "pw".toList, .none, none⟩ (shippedFields.map Field.value ++ [(.end, .raw shippedEnd)])).1.toOption.isSome = true := by
    decide +kernel
  obtain ⟨tk', hk⟩ := is_ok hk
  refine C18_succeeds Toy.lawful hb sample_clock (by decide) goodOs_faithful rfl rfl rfl rfl hk (fun b hb => nomatch hb) fun s s' hs hn => ?_
  rw [package_load h] at hs
  injection hs with hs
  subst hs
  have e : s' = (newCredentials Sample.env (some "pw".toList) shippedDb).2 := by rw [hn]
  have hc : ∀ z, ((((packageKdbx [] []).store (newCredentials Sample.env (some "pw".toList) shippedDb).2).body.map Body.payload).all fun p =>
      (pack4 Toy.prims p).toOption.all fun d => decide ((compress Toy.prims z d).length + 16 < 2 ^ 83)) = true := by decide +kernel
  rw [← e] at hc
  have hp : ((packageKdbx tk mk).store s').body.map Body.payload = ((packageKdbx [] []).store s').body.map Body.payload := by
    unfold Kdbx.store
    cases s'.world.kids <;> rfl
  intro b' d z h1 h2
  have hc := hc z
  rw [← hp, h1] at hc
  have hc : (pack4 Toy.prims b'.payload).toOption.all (fun d => decide ((compress Toy.prims z d).length + 16 < 2 ^ 83)) = true := hc
  rw [h2] at hc
  exact of_decide_eq_true hc

end Verif.Props
