import Verif.Session.LifeLemmas
import Verif.Props.C18_Create
/-!
# C69: the file of a database in use
-/
namespace Verif.Props
open Verif XPath Spec Api

/-- What is true of an object and its file all the time. -/
structure Alive (P : Prims) (env : Env) (p : PPath) (hdr : Header) (fs : Fs) (x : Obj) (v : Shown) : Prop where
  named : ∃ q, x.session.filename = some (.path q) ∧ q ≠ [] ∧ PPath.ofStr q = p
  kdbx : ∃ k c0 file y, x.session.kdbx = some k ∧ openBytes P c0 true file = .ok k ∧ k.header = hdr ∧ Worked env k x.db y
  key : x.session.keyfile.Reusable
  disk : ∃ b k z, fs p = some b ∧ openBytes P v.creds true b = .ok k ∧ k.header = hdr ∧ k.tree = .ok z ∧ v.tree = some z ∧ TidyXml z ∧
    z.tag = "KeePassFile".toList ∧ (hdr.value.major = 4 → k.innerBinaries = v.binaries)

/-- The same of a file alone. -/
def Kept (P : Prims) (hdr : Header) (file : Option Bytes) (v : Shown) : Prop :=
  ∃ b k z, file = some b ∧ openBytes P v.creds true b = .ok k ∧ k.header = hdr ∧ k.tree = .ok z ∧ v.tree = some z ∧ TidyXml z ∧
    z.tag = "KeePassFile".toList ∧ (hdr.value.major = 4 → k.innerBinaries = v.binaries)

theorem Kept.holds {P : Prims} {hdr : Header} {file : Option Bytes} {v : Shown} (h : Kept P hdr file v) : Holds P hdr file v := by
  obtain ⟨b, k, z, h1, h2, h3, h4, h5, _, _, h8⟩ := h
  exact ⟨b, k, h1, h2, h3, by rw [h4, h5]; rfl, h8⟩

variable {P : Prims} {env : Env} {p : PPath} {hdr : Header}

theorem unread_unread (kf : Keyfile) : unread (unread kf) = unread kf := by
  cases kf with
  | none => rfl
  | path c => rfl
  | stream sk b pos => cases sk <;> rfl

theorem content_exists {s : Db} (hs : Inv s) {d : Nat} (hd : docEl s.heap = some d) : ∃ y, content s d = some y := by
  obtain ⟨e, he, hm⟩ := doc_some hs
  rw [hd] at he
  injection he with he
  subst he
  obtain ⟨n, hn⟩ := get_of_mem (kid_mem hs hm).1
  exact ⟨n.xml, by unfold content; rw [hn]; rfl⟩

/-- More calls. -/
theorem worked_step {k : Kdbx} {s' : Db} {y : Xml} (h : Worked env k s' y) (c : Call) (hc : Allowed s'.heap c) :
    ∃ y', Worked env k (c.run env s').2 y' := by
  obtain ⟨⟨x, a, b, s, h1, h2, h3, h4, h5⟩, _⟩ := h
  have he := Exec.step c h5 hc
  obtain ⟨g1, g2, g3, g4⟩ := loaded h1 h2 h3 h4
  obtain ⟨e1, _, _, e4, _⟩ := C64_tidy env g1 g3 g2 he
  obtain ⟨y', hy⟩ := content_exists e1 (e4.trans g4)
  exact ⟨y', ⟨x, a, b, s, h1, h2, h3, h4, he⟩, hy⟩

/-- What a save writes is a database in the state of the object. -/
theorem built (hP : P.Lawful) (hv : hdr.value.major = 3 ∨ hdr.value.major = 4) {fs : Fs} {x : Obj} {v : Shown} (h : Alive P env p hdr fs x v)
    {tk : Option Bytes} {out : Bytes} (hs : newContent P x.current tk out) : Kept P hdr (some out) (shownBy x tk) := by
  obtain ⟨k, c0, file, y, h1, h2, h3, h4⟩ := h.kdbx
  obtain ⟨k', e, hb⟩ := hs
  unfold Obj.current at e hb
  rw [h1] at e
  injection e with e
  subst e
  obtain ⟨i1, i2, i3, i4⟩ := worked h4
  have ht : treeOf x.db = some y.norm := by unfold treeOf; rw [i2, Option.bind_some, h4.tree]; rfl
  have hu := build_unread (P := P) (c := ⟨x.session.password, x.session.keyfile, tk⟩) h.key (k.store x.db)
  have hb' : buildKdbx P ⟨x.session.password, x.session.keyfile, tk⟩ (k.store x.db) =
      (.ok out, (buildKdbx P ⟨x.session.password, x.session.keyfile, tk⟩ (k.store x.db)).2) := Prod.ext hb rfl
  have same : ∀ b, openBytes P (credsOf x tk) true b = openBytes P ⟨x.session.password,
      (buildKdbx P ⟨x.session.password, x.session.keyfile, tk⟩ (k.store x.db)).2, tk⟩ true b := by
    refine fun b => open_same (c := credsOf x tk) (c' := ⟨x.session.password,
      (buildKdbx P ⟨x.session.password, x.session.keyfile, tk⟩ (k.store x.db)).2, tk⟩) rfl ?_ rfl true b
    refine Eq.trans ?_ hu.1.symm
    exact unread_unread _
  rcases hv with hv | hv
  · obtain ⟨k2, a1, a2, a3, a4, a5⟩ := C64_kdbx3 P hP env h2 (by rw [h3]; exact hv) h4 _ h.key out _ hb'
    exact ⟨out, k2, y.norm, rfl, (same out).trans a1, a2.trans h3, a3, ht, a4, a5, fun e => by rw [hv] at e; cases e⟩
  · obtain ⟨k2, a1, a2, a3, a4, a5, a6⟩ := C64_kdbx4 P hP env h2 (by rw [h3]; exact hv) h4 _ h.key out _ hb'
    exact ⟨out, k2, y.norm, rfl, (same out).trans a1, a2.trans h3, a3, ht, a5, a6, fun _ => a4⟩

/-- Where a save goes. -/
theorem target_current (x : Obj) (f : Option Filename) : x.current.target f = x.session.target f := rfl

/-- The states of a save: the file is the old one or holds the state of the object. -/
theorem save_states (hP : P.Lawful) (hv : hdr.value.major = 3 ∨ hdr.value.major = 4) (hn : ¬ NamedTmp p) {fs : Fs} {x : Obj} {v : Shown}
    (h : Alive P env p hdr fs x v) {o : Os} {f : Option Filename} {tk : Option Bytes} (ha : Act.Ok P env p v fs x (.save o f tk)) :
    ∀ s ∈ (x.current.save P o fs f tk).run.states, s p = fs p ∨
      (Kept P hdr (s p) (shownBy x tk) ∧ ∃ q, x.session.target f = some (.path q) ∧ PPath.ofStr q = p) := by
  intro s hs
  obtain ⟨k, c0, file, y, h1, _⟩ := h.kdbx
  have hk : x.current.kdbx = some (k.store x.db) := by unfold Obj.current; rw [h1]; rfl
  cases ht : x.session.target f with
  | none =>
    unfold Session.save at hs
    rw [hk, target_current, ht] at hs
    rw [List.mem_singleton.mp hs]; exact .inl rfl
  | some t =>
    cases t with
    | stream b pos =>
      unfold Session.save at hs
      rw [hk, target_current, ht] at hs
      rw [List.mem_singleton.mp hs]; exact .inl rfl
    | path q =>
      have ha' := ha q ht
      split at ha'
      · next e =>
        subst e
        obtain ⟨g, _⟩ := C11_crash_safe P o fs x.current f tk q ht hn ha'.1 ha'.2 s hs
        rcases g with g | ⟨out, g1, g2⟩
        · exact .inl g
        · exact .inr ⟨by rw [g2]; exact built hP hv h g1, q, rfl, rfl⟩
      · next e =>
        left
        cases hw : (PPath.ofStr q).withTmp with
        | error er =>
          unfold Session.save at hs
          rw [hk] at hs
          simp only [target_current, ht, hw, List.mem_singleton] at hs
          rw [hs]
        | ok tmp =>
          have key := fun res => saveFile_touch o fs (PPath.ofStr q) res (Ne.symm e) ha'
          cases ho : o.openOk with
          | true => rw [save_path hk ht ho] at hs; exact key _ s hs
          | false => rw [save_path_refused hk ht ho] at hs; exact key _ s hs

theorem save_final_mem {o : Os} {fs : Fs} {s : Session} {f : Option Filename} {tk : Option Bytes} {k : Kdbx} (hk : s.kdbx = some k) :
    (s.save P o fs f tk).run.final ∈ (s.save P o fs f tk).run.states := by
  cases ht : s.target f with
  | none => unfold Session.save; rw [hk, ht]; exact List.mem_singleton.mpr rfl
  | some t =>
    cases t with
    | stream b pos => unfold Session.save; rw [hk, ht]; exact List.mem_singleton.mpr rfl
    | path q =>
      cases hw : (PPath.ofStr q).withTmp with
      | error er =>
        unfold Session.save
        rw [hk]
        simp only [ht, hw]
        exact List.mem_singleton.mpr rfl
      | ok tmp =>
        cases ho : o.openOk with
        | true => rw [save_path hk ht ho]; exact saveFile_final ..
        | false => rw [save_path_refused hk ht ho]; exact saveFile_final ..

/-- A save that returns has replaced the file; one that raises has not. -/
theorem save_done (hP : P.Lawful) (hv : hdr.value.major = 3 ∨ hdr.value.major = 4) (hn : ¬ NamedTmp p) {fs : Fs} {x : Obj} {v : Shown}
    (h : Alive P env p hdr fs x v) {o : Os} {f : Option Filename} {tk : Option Bytes} (ha : Act.Ok P env p v fs x (.save o f tk)) :
    match Act.saves P env p fs x (.save o f tk) with
    | some tk' => tk' = tk ∧ Kept P hdr ((x.current.save P o fs f tk).run.final p) (shownBy x tk)
    | none => (x.current.save P o fs f tk).run.final p = fs p := by
  obtain ⟨k, c0, file, y, h1, _⟩ := h.kdbx
  have hk : x.current.kdbx = some (k.store x.db) := by unfold Obj.current; rw [h1]; rfl
  have hs := save_states hP hv hn h ha _ (save_final_mem hk)
  unfold Act.saves
  dsimp only
  cases ht : x.session.target f with
  | none => exact hs.resolve_right fun ⟨_, q, e, _⟩ => by rw [ht] at e; cases e
  | some t =>
    cases t with
    | stream b pos => exact hs.resolve_right fun ⟨_, q, e, _⟩ => by rw [ht] at e; cases e
    | path q =>
      dsimp only
      by_cases e : PPath.ofStr q = p
      · have ha' := ha q ht
        rw [if_pos e] at ha'
        have hw := withTmp_ne _ hn
        subst e
        cases hr : (x.current.save P o fs f tk).run.result with
        | ok u =>
          rw [if_pos ⟨rfl, show (Act.run P env fs x (.save o f tk)).result = .ok () from hr⟩]
          refine ⟨rfl, ?_⟩
          cases ho : o.openOk with
          | false =>
            rw [save_path_refused hk ht ho] at hr
            cases hw' : (PPath.ofStr q).withTmp with
            | error er =>
              unfold Os.saveFile at hr; rw [hw'] at hr; cases hr
            | ok tmp => rw [(saveFile_refused hw' ho).1] at hr; cases hr
          | true =>
            rw [save_path hk ht ho] at hr ⊢
            cases hw' : (PPath.ofStr q).withTmp with
            | error er => unfold Os.saveFile at hr; rw [hw'] at hr; cases hr
            | ok tmp =>
              obtain ⟨_, out, h3, h4⟩ := saveFile_done hw' ha'.2 (.inl ha'.1) hr
              rw [h4]
              exact built hP hv h ⟨_, hk, h3⟩
        | error er =>
          rw [if_neg (fun e => by have := e.2; rw [show (Act.run P env fs x (.save o f tk)).result = .error er from hr] at this; cases this)]
          cases hw' : (PPath.ofStr q).withTmp with
          | error er' =>
            unfold Session.save
            rw [hk]
            simp only [target_current, ht, hw']
          | ok tmp =>
            have hne : tmp ≠ PPath.ofStr q := fun e => hw (e ▸ hw')
            cases ho : o.openOk with
            | false => rw [save_path_refused hk ht ho] at hr ⊢; exact saveFile_failed hw' hne ha'.1 hr
            | true => rw [save_path hk ht ho] at hr ⊢; exact saveFile_failed hw' hne ha'.1 hr
      · rw [if_neg (fun a => e a.1)]
        refine hs.resolve_right fun ⟨_, q', e', e''⟩ => ?_
        rw [ht] at e'
        injection e' with e'
        injection e' with e'
        exact e (e' ▸ e'')

/-- Whoever opens a file sees its header. -/
theorem one_header {c c' : Creds} {b : Bytes} {k k' : Kdbx} (h : openBytes P c true b = .ok k) (h' : openBytes P c' true b = .ok k') :
    k.header = k'.header := by
  obtain ⟨r1, e1⟩ := open_header h
  obtain ⟨r2, e2⟩ := open_header h'
  rw [e1] at e2
  injection e2 with e2
  injection e2

theorem opened_tree (hP : P.Lawful) {c : Creds} {b : Bytes} {k : Kdbx} (h : openBytes P c true b = .ok k)
    (hv : k.header.value.major = 3 ∨ k.header.value.major = 4) : ∃ z, k.tree = .ok z := by
  have : ∃ b p, k.body = some b ∧ b.payload = some p := by
    rcases hv with hv | hv
    · obtain ⟨b, p, h1, h2, _⟩ := opened3 h hv; exact ⟨b, p, h1, h2⟩
    · obtain ⟨b, p, _, h1, h2, _⟩ := opened4 hP h hv; exact ⟨b, p, h1, h2⟩
  obtain ⟨b, p, h1, h2⟩ := this
  unfold Kdbx.tree Kdbx.payload
  rw [h1]
  simp only [h2]
  exact ⟨_, rfl⟩

theorem creds_open (P : Prims) (x : Obj) (b : Bytes) :
    openBytes P ⟨x.session.password, x.session.keyfile, none⟩ true b = openBytes P (credsOf x none) true b :=
  open_same (c := ⟨x.session.password, x.session.keyfile, none⟩) (c' := credsOf x none) rfl (unread_unread _).symm rfl true b

/-- `reload`: what is read, or what was there. -/
theorem reload_run {fs : Fs} {x : Obj} {q : Str} {b : Bytes} (hn : x.session.filename = some (.path q)) (h0 : q ≠ []) (hb : fs (PPath.ofStr q) = some b)
    (left : Nat) : ∃ kf, kf = (parseKdbx P ⟨x.session.password, x.session.keyfile, none⟩ true b).2 ∧
      match openBytes P ⟨x.session.password, x.session.keyfile, none⟩ true b with
      | .ok k => x.current.reload P left fs = (.ok (), { x.session with keyfile := kf, kdbx := some k })
      | .error e => x.current.reload P left fs = (.error e, { x.current with keyfile := kf }) := by
  refine ⟨_, rfl, ?_⟩
  have ht : Filename.truthy (.path q) = true := by
    cases q with
    | nil => exact absurd rfl h0
    | cons => rfl
  obtain ⟨⟨pw, kf, fn, kd⟩, db⟩ := x
  simp only at hn
  subst hn
  unfold openBytes Session.reload Session.read Session.target Obj.current
  dsimp only
  simp only [ht, if_true, hb]
  cases hp : parseKdbx P ⟨pw, kf, none⟩ true b with
  | mk r kf' =>
    cases r with
    | error e => rfl
    | ok a => rfl

/-- Everything that may be done keeps the object and its file in order. -/
theorem alive_step (hP : P.Lawful) (hv : hdr.value.major = 3 ∨ hdr.value.major = 4) (hn : ¬ NamedTmp p) {fs : Fs} {x : Obj} {v : Shown}
    (h : Alive P env p hdr fs x v) (a : Act) (ha : Act.Ok P env p v fs x a) :
    Alive P env p hdr (a.run P env fs x).fs (a.run P env fs x).obj
      (match Act.saves P env p fs x a with
        | some tk => shownBy x tk
        | none => v) := by
  cases a with
  | call c =>
    obtain ⟨k, c0, file, y, h1, h2, h3, h4⟩ := h.kdbx
    obtain ⟨y', h5⟩ := worked_step h4 c ⟨ha.1, ha.2.1⟩
    exact ⟨h.named, ⟨k, c0, file, y', h1, h2, h3, h5⟩, h.key, h.disk⟩
  | keyfile kf =>
    obtain ⟨k, c0, file, y, h1, h2, h3, h4⟩ := h.kdbx
    obtain ⟨y', h5⟩ := worked_step h4 (.setKeyfile none) ⟨trivial, trivial⟩
    exact ⟨h.named, ⟨k, c0, file, y', h1, h2, h3, h5⟩, ha, h.disk⟩
  | save o f tk =>
    obtain ⟨q, hq⟩ := h.named
    obtain ⟨k, c0, file, y, h1, h2⟩ := h.kdbx
    have hk : x.current.kdbx = some (k.store x.db) := by unfold Obj.current; rw [h1]; rfl
    obtain ⟨kf, g1, g2, g3⟩ := save_session (P := P) (o := o) (fs := fs) (f := f) (tk := tk) hk hq.1 h.key
    have hd := save_done hP hv hn h ha
    refine ⟨⟨q, ?_, hq.2⟩, ⟨k, c0, file, y, h1, h2⟩, ?_, ?_⟩
    · show (x.current.save P o fs f tk).session.filename = _
      rw [g1]; exact hq.1
    · show (x.current.save P o fs f tk).session.keyfile.Reusable
      rw [g1]; exact g3
    · show ∃ b k z, (x.current.save P o fs f tk).run.final p = some b ∧ _
      cases hs : Act.saves P env p fs x (.save o f tk) with
      | none =>
        rw [hs] at hd
        dsimp only at hd
        rw [hd]; exact h.disk
      | some tk' =>
        rw [hs] at hd
        dsimp only at hd
        obtain ⟨rfl, hd⟩ := hd
        exact hd
  | reload left =>
    obtain ⟨q, hq1, hq2, hq3⟩ := h.named
    obtain ⟨k, c0, file, y, h1, h2⟩ := h.kdbx
    obtain ⟨b, k', z, d1, d2, d3, d4, d5, d6, d7, d8⟩ := h.disk
    have hb : fs (PPath.ofStr q) = some b := by rw [hq3]; exact d1
    obtain ⟨kf, hkf, hr⟩ := reload_run (P := P) hq1 hq2 hb left
    have hkr : kf.Reusable := by rw [hkf]; exact parse_reusable P _ h.key true b
    show Alive P env p hdr _ _ v
    cases ho : openBytes P ⟨x.session.password, x.session.keyfile, none⟩ true b with
    | error e =>
      rw [ho] at hr
      dsimp only at hr
      have e1 : Act.run P env fs x (.reload left) = ⟨[fs], fs, ⟨{ x.session with keyfile := kf }, x.db⟩, .error e⟩ := by
        unfold Act.run
        dsimp only
        rw [hr]
        rfl
      rw [e1]
      exact ⟨⟨q, hq1, hq2, hq3⟩, ⟨k, c0, file, y, h1, h2⟩, hkr, ⟨b, k', z, d1, d2, d3, d4, d5, d6, d7, d8⟩⟩
    | ok k2 =>
      rw [ho] at hr
      dsimp only at hr
      have load : ∀ z2, k2.tree = .ok z2 → ∃ db, k2.load x.db.ticks x.db.uuids = .ok db ∧
          Act.run P env fs x (.reload left) = ⟨[fs], fs, ⟨{ x.session with keyfile := kf, kdbx := some k2 }, db⟩, .ok ()⟩ := by
        intro z2 hz
        obtain ⟨db, l1, _⟩ := load_ok hz x.db.ticks x.db.uuids
        refine ⟨db, l1, ?_⟩
        unfold Act.run
        dsimp only
        rw [hr]
        simp only [l1]
      have hh := one_header ho d2
      obtain ⟨z2, hz2⟩ := opened_tree hP ho (by rw [hh, d3]; exact hv)
      obtain ⟨db, l1, l2⟩ := load z2 hz2
      have hk2 : k2 = k' := by
        have := (creds_open P x b).trans (ha (by rw [l2]) b d1)
        rw [ho, d2] at this
        injection this
      subst hk2
      rw [l2]
      obtain ⟨m, hm⟩ := load_ok d4 x.db.ticks x.db.uuids
      have : m = db := by
        have := hm.1
        rw [l1] at this
        injection this with this
        exact this.symm
      subst this
      exact ⟨⟨q, hq1, hq2, hq3⟩, ⟨k2, v.creds, b, z, rfl, d2, d3, ⟨⟨z, _, _, m, d4, d7, d6, l1, .refl _⟩, hm.2.2.2.1⟩⟩, hkr,
        ⟨b, k2, z, d1, d2, d3, d4, d5, d6, d7, d8⟩⟩

theorem alive_start {fs : Fs} {x : Obj} {v : Shown} (h : Opened P p hdr fs x v) : Alive P env p hdr fs x v := by
  obtain ⟨c, left, q, k, a, b, z, h1, h2, h3, h4, h5, h6, h7, h8, h9, h10, rfl⟩ := h.run
  have ht : Filename.truthy (.path q) = true := by
    cases q with
    | nil => exact absurd rfl h2
    | cons => rfl
  obtain ⟨m, hm⟩ := load_ok h8 a b
  have hw : Worked env k x.db z := by
    have e := hm.1
    rw [h7] at e
    injection e with e
    subst e
    exact ⟨⟨z, a, b, x.db, h8, h9, h10, h7, .refl _⟩, hm.2.2.2.1⟩
  unfold Session.open Session.read Session.target at h1
  simp only [ht, if_true] at h1
  cases hf : fs (PPath.ofStr q) with
  | none => rw [hf] at h1; cases h1
  | some bytes =>
    rw [hf] at h1
    simp only at h1
    have hk := parse_reusable P c h4 true bytes
    cases hp : parseKdbx P c true bytes with
    | mk r kf =>
      rw [hp] at h1 hk
      cases r with
      | error e => cases h1
      | ok y =>
        obtain ⟨k', rest⟩ := y
        injection h1 with _ h1
        have ho : openBytes P c true bytes = .ok k' := openBytes_ok.mpr ⟨rest, by rw [hp]⟩
        have hkk : k' = k := by rw [← h1] at h5; injection h5
        subst hkk
        have ho' := open_same (P := P) (c := ⟨c.password, unread c.keyfile, c.transformedKey⟩) (c' := c) rfl (unread_unread _) rfl true bytes
        exact ⟨⟨q, by rw [← h1], h2, h3⟩, ⟨k', c, bytes, z, h5, ho, h6, hw⟩, by rw [← h1]; exact hk,
          ⟨bytes, k', z, by rw [← h3]; exact hf, ho'.trans ho, h6, h8, rfl, h10, h9, fun _ => rfl⟩⟩

theorem made_start (hP : P.Lawful) (hn : ¬ NamedTmp p) {fs : Fs} {x : Obj} {v : Shown} (h : Made P env p hdr fs x v) :
    Alive P env p hdr fs x v := by
  obtain ⟨o, fs0, blank, k, z, path, password, keyfile, s, hb, hc, hh, hk, hf, h0, rfl, hr, rfl, hl, rfl, rfl⟩ := h.run
  obtain ⟨s1, s', y, e1, e2, hw, hy, hbin, hcr⟩ := create_saves P o hb hc (.path path) password keyfile
  rw [hl] at e1
  injection e1 with e1
  subst e1
  obtain ⟨b, _, hopen⟩ := hb.file
  rw [hcr none] at hr ⊢
  simp only at hr ⊢
  rw [e2]
  have ht : Session.target ⟨password, keyfile, some (.path path), some (k.store s')⟩ none = some (.path path) := rfl
  cases hw' : (PPath.ofStr path).withTmp with
  | error e =>
    unfold Session.save at hr
    simp only [ht, hw'] at hr
    cases hr
  | ok tmp =>
    have hne : o.renameOk = true ∨ tmp ≠ PPath.ofStr path := .inr fun e => withTmp_ne _ hn (e ▸ hw')
    by_cases ho : o.openOk = true
    · have hrun := save_path (P := P) (o := o) (fs := fs0) (s := ⟨password, keyfile, some (.path path), some (k.store s')⟩) (tk := none) rfl ht ho
      rw [hrun] at hr ⊢
      obtain ⟨_, out, h1, h2⟩ := saveFile_done hw' hf hne hr
      have hu := build_unread (P := P) (c := ⟨password, keyfile, none⟩) hk (k.store s')
      obtain ⟨k2, g1, g2, g3, g4, g5, g6⟩ := C64_kdbx4 P hP env hopen hb.major hw ⟨password, keyfile, none⟩ hk out _ (Prod.ext h1 rfl)
      have hs : (Session.save P o fs0 ⟨password, keyfile, some (.path path), some (k.store s')⟩ none none).session =
          ⟨password, (buildKdbx P ⟨password, keyfile, none⟩ (k.store s')).2, some (.path path), some (k.store s')⟩ := by
        unfold Session.save
        simp only [ht, hw', ho, if_true]
      rw [hs]
      have hopen2 : openBytes P ⟨password, unread keyfile, none⟩ true out = .ok k2 := by
        rw [← g1]
        exact open_same (c := ⟨password, unread keyfile, none⟩) (c' := ⟨password, (buildKdbx P ⟨password, keyfile, none⟩ (k.store s')).2, none⟩)
          rfl ((unread_unread _).trans hu.1.symm) rfl true out
      refine ⟨⟨path, rfl, h0, rfl⟩, ⟨k, _, b, y, rfl, hopen, hh, hw⟩, hu.2, out, k2, y.norm, h2, hopen2, g2.trans hh, g3, ?_, g5, g6, fun _ => ?_⟩
      · obtain ⟨_, w2, _⟩ := worked hw
        show treeOf s' = _
        unfold treeOf
        rw [w2, Option.bind_some, hw.tree]
        rfl
      · exact g4.trans hbin
    · have hrun := save_path_refused (P := P) (o := o) (fs := fs0) (s := ⟨password, keyfile, some (.path path), some (k.store s')⟩) (tk := none) rfl ht (by simpa using ho)
      rw [hrun] at hr
      rw [(saveFile_refused hw' (by simpa using ho)).1] at hr
      cases hr

/-- This object is the one `create_database` made: its `kdbx`, with the tree and the binaries it now has, is the one that was
saved. -/
theorem C69_created (o : Os) {fs : Fs} {blank : Str} {k : Kdbx} {x : Xml} (hb : Blank P fs blank k x) (hc : ClockOk env k.version)
    (path : Str) (password : Option Str) (keyfile : Keyfile) {s : Db} (hl : k.load 0 0 = .ok s) :
    Obj.current ⟨{ (createDatabase P o env fs blank (.path path) password keyfile none).session with kdbx := some k }, (newCredentials env password s).2⟩ =
      (createDatabase P o env fs blank (.path path) password keyfile none).session := by
  obtain ⟨s1, s', y, e1, e2, _, _, _, hcr⟩ := create_saves P o hb hc (.path path) password keyfile
  rw [hl] at e1
  injection e1 with e1
  subst e1
  rw [hcr none, e2]
  have ht : Session.target ⟨password, keyfile, some (.path path), some (k.store s')⟩ none = some (.path path) := rfl
  unfold Obj.current Session.save
  simp only [ht]
  cases hw' : (PPath.ofStr path).withTmp with
  | error e => rfl
  | ok tmp => cases o.openOk <;> rfl

theorem alive_life (hP : P.Lawful) (hv : hdr.value.major = 3 ∨ hdr.value.major = 4) (hn : ¬ NamedTmp p) {fs0 fs : Fs} {x0 x : Obj} {v0 v : Shown}
    (h0 : Started P env p hdr fs0 x0 v0) (h : Life P env p fs0 x0 v0 fs x v) : Alive P env p hdr fs x v := by
  induction h with
  | refl =>
    cases h0 with
    | opened h => exact alive_start h
    | made h => exact made_start hP hn h
  | step a _ ha ih => exact alive_step hP hv hn ih a ha

/-- Whatever is done with an object, in any order, and whether it works or raises: the file is the database as it was
last saved, tree and binaries, under the credentials it then had. -/
theorem C69_file (hP : P.Lawful) (hv : hdr.value.major = 3 ∨ hdr.value.major = 4) (hn : ¬ NamedTmp p) {fs0 fs : Fs} {x0 x : Obj} {v0 v : Shown}
    (h0 : Started P env p hdr fs0 x0 v0) (h : Life P env p fs0 x0 v0 fs x v) : Holds P hdr (fs p) v :=
  Kept.holds (alive_life hP hv hn h0 h).disk

theorem alive_crash (hP : P.Lawful) (hv : hdr.value.major = 3 ∨ hdr.value.major = 4) (hn : ¬ NamedTmp p) {fs : Fs} {x : Obj} {v : Shown}
    (hA : Alive P env p hdr fs x v) {a : Act} (ha : Act.Ok P env p v fs x a) :
    ∀ s ∈ (a.run P env fs x).states, Holds P hdr (s p) v ∨ ∃ o f tk, a = .save o f tk ∧ Holds P hdr (s p) (shownBy x tk) := by
  intro s hs
  have stay : s = fs → Holds P hdr (s p) v := fun e => by rw [e]; exact Kept.holds hA.disk
  cases a with
  | call c => exact .inl (stay (List.mem_singleton.mp hs))
  | keyfile kf => exact .inl (stay (List.mem_singleton.mp hs))
  | save o f tk =>
    rcases save_states hP hv hn hA ha s hs with e | ⟨e, _⟩
    · left; rw [e]; exact Kept.holds hA.disk
    · exact .inr ⟨o, f, tk, rfl, e.holds⟩
  | reload left =>
    left
    apply stay
    unfold Act.run at hs
    dsimp only at hs
    split at hs
    · exact List.mem_singleton.mp hs
    · split at hs
      · exact List.mem_singleton.mp hs
      · split at hs <;> exact List.mem_singleton.mp hs

/-- If it is interrupted anywhere while the next thing is done, the file is that, or, if this is a save, the database as it is
now. -/
theorem C69_crash (hP : P.Lawful) (hv : hdr.value.major = 3 ∨ hdr.value.major = 4) (hn : ¬ NamedTmp p) {fs0 fs : Fs} {x0 x : Obj} {v0 v : Shown}
    (h0 : Started P env p hdr fs0 x0 v0) (h : Life P env p fs0 x0 v0 fs x v) {a : Act} (ha : Act.Ok P env p v fs x a) :
    ∀ s ∈ (a.run P env fs x).states, Holds P hdr (s p) v ∨ ∃ o f tk, a = .save o f tk ∧ Holds P hdr (s p) (shownBy x tk) :=
  alive_crash hP hv hn (alive_life hP hv hn h0 h) ha

theorem alive_reload {fs : Fs} {x : Obj} {v : Shown} (hA : Alive P env p hdr fs x v)
    (hc : ∀ b, fs p = some b → openBytes P (credsOf x none) true b = openBytes P v.creds true b) (left : Nat) :
    (Act.run P env fs x (.reload left)).result = .ok () ∧
    (docEl (Act.run P env fs x (.reload left)).obj.db.heap).bind (content (Act.run P env fs x (.reload left)).obj.db) = v.tree ∧
    (hdr.value.major = 4 → (Act.run P env fs x (.reload left)).obj.db.binaries = v.binaries) ∧
    credsOf (Act.run P env fs x (.reload left)).obj none = credsOf x none := by
  obtain ⟨q, hq1, hq2, hq3⟩ := hA.named
  obtain ⟨b, k', z, d1, d2, d3, d4, d5, d6, d7, d8⟩ := hA.disk
  have hb : fs (PPath.ofStr q) = some b := by rw [hq3]; exact d1
  obtain ⟨kf, hkf, hr⟩ := reload_run (P := P) hq1 hq2 hb left
  have ho : openBytes P ⟨x.session.password, x.session.keyfile, none⟩ true b = .ok k' := by
    rw [creds_open, hc b d1]
    exact d2
  rw [ho] at hr
  dsimp only at hr
  obtain ⟨m, l1, l2, l3, l4, l5, l6, _⟩ := load_ok d4 x.db.ticks x.db.uuids
  have e1 : Act.run P env fs x (.reload left) = ⟨[fs], fs, ⟨{ x.session with keyfile := kf, kdbx := some k' }, m⟩, .ok ()⟩ := by
    unfold Act.run
    dsimp only
    rw [hr]
    simp only [l1]
  rw [e1]
  refine ⟨rfl, ?_, fun e => l6.trans (d8 e), ?_⟩
  · show (docEl m.heap).bind (content m) = v.tree
    rw [l3, d5]; exact l4
  · show (⟨x.session.password, unread kf, none⟩ : Creds) = ⟨x.session.password, unread x.session.keyfile, none⟩
    rw [hkf, parse_unread hA.key]

/-- `reload`, while the credentials are those of the last save, works, and the object then shows what was last saved:
everything done since is gone. -/
theorem C69_reload (hP : P.Lawful) (hv : hdr.value.major = 3 ∨ hdr.value.major = 4) (hn : ¬ NamedTmp p) {fs0 fs : Fs} {x0 x : Obj} {v0 v : Shown}
    (h0 : Started P env p hdr fs0 x0 v0) (h : Life P env p fs0 x0 v0 fs x v) (hc : credsOf x none = v.creds) (left : Nat) :
    (Act.run P env fs x (.reload left)).result = .ok () ∧
    (docEl (Act.run P env fs x (.reload left)).obj.db.heap).bind (content (Act.run P env fs x (.reload left)).obj.db) = v.tree ∧
    (hdr.value.major = 4 → (Act.run P env fs x (.reload left)).obj.db.binaries = v.binaries) ∧
    credsOf (Act.run P env fs x (.reload left)).obj none = v.creds := by
  have := alive_reload (alive_life hP hv hn h0 h) (fun b _ => by rw [hc]) left
  rw [hc] at this
  exact this

/-- A save to another place that returns has made a copy there, of the state and under the credentials the object now has. -/
theorem C69_copy (hP : P.Lawful) (hv : hdr.value.major = 3 ∨ hdr.value.major = 4) (hn : ¬ NamedTmp p) {fs0 fs : Fs} {x0 x : Obj} {v0 v : Shown}
    (h0 : Started P env p hdr fs0 x0 v0) (h : Life P env p fs0 x0 v0 fs x v) {o : Os} {q : Str} (hq : q ≠ []) (ho : o.Faithful)
    (hr : o.renameOk = true ∨ ¬ NamedTmp (PPath.ofStr q)) {tk : Option Bytes}
    (hs : (Act.run P env fs x (.save o (some (.path q)) tk)).result = .ok ()) :
    Holds P hdr ((Act.run P env fs x (.save o (some (.path q)) tk)).fs (PPath.ofStr q)) (shownBy x tk) := by
  have hA := alive_life hP hv hn h0 h
  obtain ⟨k, c0, file, y, h1, _⟩ := hA.kdbx
  have hk : x.current.kdbx = some (k.store x.db) := by unfold Obj.current; rw [h1]; rfl
  have ht : x.current.target (some (.path q)) = some (.path q) := by
    cases q with
    | nil => exact absurd rfl hq
    | cons => rfl
  replace hs : (x.current.save P o fs (some (.path q)) tk).run.result = .ok () := hs
  show Holds P hdr ((x.current.save P o fs (some (.path q)) tk).run.final (PPath.ofStr q)) _
  cases hw : (PPath.ofStr q).withTmp with
  | error e =>
    unfold Session.save at hs
    rw [hk] at hs
    simp only [ht, hw] at hs
    cases hs
  | ok tmp =>
    cases hoo : o.openOk with
    | false =>
      rw [save_path_refused hk ht hoo, (saveFile_refused hw hoo).1] at hs
      cases hs
    | true =>
      rw [save_path hk ht hoo] at hs ⊢
      obtain ⟨_, out, g1, g2⟩ := saveFile_done hw ho (hr.imp_right fun e e' => withTmp_ne _ e (e' ▸ hw)) hs
      rw [g2]
      exact (built hP hv hA ⟨_, hk, g1⟩).holds

theorem setPassword_is (env : Env) {s : Db} (hs : Inv s) (pw : Option Str) : (Api.setPassword env pw s).2.password = pw := by
  have hs1 : Inv { s with password := pw, ticks := s.ticks + 1 } := ⟨hs.world, hs.bound⟩
  show (setCredDate env (env.now s.ticks) { s with password := pw, ticks := s.ticks + 1 }).2.password = pw
  unfold setCredDate
  rw [bind_of (metaEl_run env hs1 (by decide +kernel)), bind_of (reads_run _ _)]
  cases he : encodeTime _ _ with
  | error e => rfl
  | ok t =>
    rw [bind_of (lift_run _ _)]
    cases (metaEls _ _).head? with
    | none => rfl
    | some el =>
      rw [bind_of (orAttr_some el _)]
      unfold setText
      dsimp only
      split <;> rfl

/-- A password that is set and saved is the password of the file from then on. -/
theorem C69_password (hP : P.Lawful) (hv : hdr.value.major = 3 ∨ hdr.value.major = 4) (hn : ¬ NamedTmp p) {fs0 fs : Fs} {x0 x : Obj} {v0 v : Shown}
    (h0 : Started P env p hdr fs0 x0 v0) (h : Life P env p fs0 x0 v0 fs x v) (pw : Option Str) {o : Os} (hr : o.renameOk = true) (ho : o.Faithful)
    (hs : (Act.run P env fs (Act.run P env fs x (.call (.setPassword pw))).obj (.save o none none)).result = .ok ()) :
    ∃ b k, (Act.run P env fs (Act.run P env fs x (.call (.setPassword pw))).obj (.save o none none)).fs p = some b ∧
      openBytes P ⟨pw, x.session.keyfile, none⟩ true b = .ok k ∧ k.header = hdr := by
  have h1 := Life.step (.call (.setPassword pw)) h ⟨trivial, trivial, nofun⟩
  have hA := alive_life hP hv hn h0 h
  obtain ⟨q, hq1, hq2, hq3⟩ := hA.named
  have ht : (Act.run P env fs x (.call (.setPassword pw))).obj.session.target none = some (.path q) := hq1
  have h2 := Life.step (.save o none none) h1 (fun q' e => by
    rw [ht] at e
    injection e with e
    injection e with e
    subst e
    rw [if_pos hq3]; exact ⟨hr, ho⟩)
  have hsv : Act.saves P env p fs (Act.run P env fs x (.call (.setPassword pw))).obj (.save o none none) = some none := by
    unfold Act.saves
    dsimp only
    rw [ht]
    dsimp only
    rw [if_pos ⟨hq3, hs⟩]
  replace h2 : Life P env p fs0 x0 v0 _ _ (match Act.saves P env p fs (Act.run P env fs x (.call (.setPassword pw))).obj (.save o none none) with
    | some tk => _
    | none => _) := h2
  rw [hsv] at h2
  obtain ⟨b, k, g1, g2, g3, _⟩ := C69_file hP hv hn h0 h2
  refine ⟨b, k, g1, ?_, g3⟩
  rw [← g2]
  obtain ⟨_, _, _, _, _, _, _, hw⟩ := hA.kdbx
  have hp := setPassword_is env (worked hw).1 pw
  exact open_same (c := ⟨pw, x.session.keyfile, none⟩) (c' := ⟨(Api.setPassword env pw x.db).2.password, unread x.session.keyfile, none⟩)
    hp.symm (unread_unread _).symm rfl true b

theorem alive_refused (hP : P.Lawful) (hv : hdr.value.major = 4) {fs : Fs} {x : Obj} {v : Shown}
    (hA : Alive P env p hdr fs x v) {c : Creds} {d : DynHeader} {seed tk tk' : Bytes}
    (hd : hdr.value.dyn = some d) (hs : d.raw .masterSeed = .ok seed) (hk : (computeTransformed4 P v.creds d).1 = .ok tk)
    (hk' : (computeTransformed4 P c d).1 = .ok tk') (hne : headerMac P seed tk hdr.data ≠ headerMac P seed tk' hdr.data) :
    ∃ b, fs p = some b ∧ openBytes P c true b = .error .credentials := by
  obtain ⟨b, k, z, g1, g2, g3, _⟩ := hA.disk
  refine ⟨b, g1, ?_⟩
  obtain ⟨r, e1⟩ := open_header g2
  obtain ⟨d', tk2, seed', r', a1, a2, a3, a4⟩ := C07_opened P hP v.creds b k g2 (by rw [g3]; exact hv)
  rw [g3] at e1 a1 a4
  rw [hd] at a1
  injection a1 with a1
  subst a1
  rw [hs] at a3
  injection a3 with a3
  subst a3
  rw [hk] at a2
  injection a2 with a2
  subst a2
  have e2 := (Parser.header_ok e1).1
  rw [a4] at e2
  have e3 := List.append_cancel_left e2
  rw [← e3] at e1
  exact C05_kdbx4 P hP c b _ r' hdr d e1 (hP.hmac256_length _ _) hv hd tk' seed hk' hs hne

/-- KDBX4: credentials whose key gives another keyed hash of the header than those of the last save, as the former ones do,
are refused. -/
theorem C69_refused (hP : P.Lawful) (hv : hdr.value.major = 4) (hn : ¬ NamedTmp p) {fs0 fs : Fs} {x0 x : Obj} {v0 v : Shown}
    (h0 : Started P env p hdr fs0 x0 v0) (h : Life P env p fs0 x0 v0 fs x v) {c : Creds} {d : DynHeader} {seed tk tk' : Bytes}
    (hd : hdr.value.dyn = some d) (hs : d.raw .masterSeed = .ok seed) (hk : (computeTransformed4 P v.creds d).1 = .ok tk)
    (hk' : (computeTransformed4 P c d).1 = .ok tk') (hne : headerMac P seed tk hdr.data ≠ headerMac P seed tk' hdr.data) :
    ∃ b, fs p = some b ∧ openBytes P c true b = .error .credentials := 
  alive_refused hP hv (alive_life hP (.inr hv) hn h0 h) hd hs hk hk' hne

/-! ## A case: the password is changed, a group is added, the database saved -/

def usedPath : PPath := PPath.ofStr "/lib/blank.kdbx".toList
def usedOpen : Session := (Session.open Toy.prims 0 blankFs (some (.path "/lib/blank.kdbx".toList)) blankCreds true).2
def usedDb : Db := Db.start (Node.ofXml 1 blankTree.norm) (4, 0) Toy.inner.binaries 0 0
def usedObj : Obj := ⟨usedOpen, usedDb⟩
def usedHeader : Header := Toy.header4 .aes256 true
def usedShown : Shown := ⟨blankCreds, some blankTree.norm, Toy.inner.binaries⟩

theorem used_opened : Opened Toy.prims usedPath usedHeader blankFs usedObj usedShown := by
  have h : (usedOpen.kdbx.any fun k => k.version = (4, 0) ∧ k.tree.toOption = some blankTree.norm ∧ k.header = usedHeader ∧
      k.innerBinaries = Toy.inner.binaries) = true := by decide +kernel
  have hx : TidyXml blankTree.norm := by
    have h : ∀ n ∈ (Node.ofXml 1 blankTree.norm).1.nodes, Fine n.tag n.attrs n.text n.kids.isEmpty := by decide +kernel
    rw [← tidyXml_iff, Node.ofXml_xml] at h
    exact h
  cases hk : usedOpen.kdbx with
  | none => rw [hk] at h; cases h
  | some k =>
    rw [hk] at h
    obtain ⟨h1, h2, h3, h4⟩ := of_decide_eq_true h
    have ht : k.tree = .ok blankTree.norm := by
      cases e : k.tree with
      | error _ => rw [e] at h2; cases h2
      | ok t =>
        rw [e] at h2
        exact congrArg Except.ok (Option.some.inj h2)
    refine ⟨blankCreds, 0, "/lib/blank.kdbx".toList, k, 0, 0, blankTree.norm, Prod.ext (by decide +kernel) (by simp only [usedObj, usedOpen]), by decide, rfl, trivial, hk, h3, ?_, ht,
      by decide +kernel, hx, ?_⟩
    · unfold Kdbx.load
      rw [ht, h1, h4]; rfl
    · rw [h4]; rfl

def used1 : Obj := (Act.run Toy.prims Sample.env blankFs usedObj (.call (.setPassword (some "new".toList)))).obj
def used2 : Obj := (Act.run Toy.prims Sample.env blankFs used1 (.call (.addGroup 6 (some "Work".toList) none none))).obj
def usedSave : Step := Act.run Toy.prims Sample.env blankFs used2 (.save goodOs none none)

theorem used_life : Life Toy.prims Sample.env usedPath blankFs usedObj usedShown usedSave.fs usedSave.obj (shownBy used2 none) := by
  have h1 : Life Toy.prims Sample.env usedPath blankFs usedObj usedShown blankFs used1 usedShown :=
    Life.step (.call (.setPassword (some "new".toList))) (.refl blankFs usedObj usedShown) ⟨trivial, trivial, nofun⟩
  have h2 : Life Toy.prims Sample.env usedPath blankFs usedObj usedShown blankFs used2 usedShown :=
    Life.step (.call (.addGroup 6 (some "Work".toList) none none)) h1
      ⟨show used1.db.heap.tag 6 = "Group".toList by decide +kernel, trivial, nofun⟩
  have hs : Act.saves Toy.prims Sample.env usedPath blankFs used2 (.save goodOs none none) = some none := by decide +kernel
  have h3 := Life.step (.save goodOs none none) h2 (fun q hq => by
    have : q = "/lib/blank.kdbx".toList := by
      have e : used2.session.target none = some (.path "/lib/blank.kdbx".toList) := by decide +kernel
      exact (Filename.path.inj (Option.some.inj (e.symm.trans hq))).symm
    subst this
    rw [if_pos (show PPath.ofStr "/lib/blank.kdbx".toList = usedPath from rfl)]
    exact ⟨rfl, goodOs_faithful⟩)
  rw [hs] at h3
  exact h3

theorem used_named : ¬ NamedTmp usedPath := by
  rintro ⟨dir, stem, h, hp⟩
  have h1 := congrArg List.getLast? hp
  simp only [List.getLast?_append, List.getLast?_singleton, Option.some_or] at h1
  have h2 : usedPath.parts.getLast? = some "blank.kdbx".toList := by decide
  rw [h2] at h1
  injection h1 with h1
  have h3 := congrArg List.getLast? h1
  rw [List.getLast?_append, show "blank.kdbx".toList.getLast? = some 'x' from by decide,
    show ".tmp".toList.getLast? = some 'p' from by decide, Option.some_or] at h3
  injection h3 with h3
  revert h3
  decide

/-- An object from `create_database`. -/
example : ∃ hdr fs x v, Made Toy.prims Sample.env (PPath.ofStr "new.kdbx".toList) hdr fs x v ∧ v.creds.password = some "pw".toList := by
  obtain ⟨k, hb, hc⟩ := toy_blank
  obtain ⟨s, hl, _⟩ := load_ok hb.tree 0 0
  exact ⟨k.header, _, _, _, ⟨goodOs, blankFs, _, k, _, "new.kdbx".toList, some "pw".toList, .none, s, hb, hc, rfl, trivial, goodOs_faithful,
    by decide, rfl, by decide +kernel, rfl, hl, rfl, rfl⟩, rfl⟩

/-- So the file on disk is what was saved, under the new password. -/
example : Holds Toy.prims usedHeader (usedSave.fs usedPath) (shownBy used2 none) :=
  C69_file Toy.lawful (.inr (by decide +kernel)) used_named (.opened used_opened) used_life

/-- The old password is refused. -/
example : ∃ b, usedSave.fs usedPath = some b ∧ (openBytes Toy.prims blankCreds true b matches .error .credentials) := by
  have h : ((usedSave.fs usedPath).any fun b => openBytes Toy.prims blankCreds true b matches .error .credentials) = true := by decide +kernel
  cases e : usedSave.fs usedPath with
  | none => rw [e] at h; cases h
  | some b => rw [e] at h; exact ⟨b, rfl, h⟩

example : ∃ fs x v, Life Toy.prims Sample.env usedPath blankFs usedObj usedShown fs x v ∧ v.creds.password = some "new".toList ∧
    (v.tree.any fun y => y ≠ blankTree.norm) = true :=
  ⟨_, _, _, used_life, by decide +kernel, by decide +kernel⟩

end Verif.Props
