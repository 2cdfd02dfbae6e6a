import Verif.Props.C76_Office
import Verif.Props.C77_Whole
/-!
# C78: every method, through files
-/
namespace Verif.Props
open Verif XPath Spec Api

section
variable {s s' t : Db}

theorem task_public {env : Env} {a : Task} (ha : a.Ask env (officeOf s)) : a.call.Public := by
  cases a with
  | deed a =>
    cases a with
    | cards o => exact ask_public (o := o) ha
    | desk o => exact desk_public o
  | refuse o => exact refused_public (o := o) ha
  | _ => trivial

theorem served_exec {env : Env} {l : List (Task × Except PyErr Reply)} (h : Served env s l s') : ∀ {r}, Exec env Allowed r s → Exec env Allowed r s' := by
  induction h with
  | nil => exact fun h => h
  | @cons s t a l ha _ ih =>
    intro r hr
    refine ih ?_
    rw [task_state]
    exact .step a.call hr ⟨task_typed ha, task_public ha⟩

theorem norm_filed {x : Xml} (h : FiledXml x) : FiledXml x.norm := by
  induction x using Xml.ind with
  | h t a v ks ih =>
    obtain ⟨h1, h2⟩ := Xml.all_root h
    rw [Xml.norm_mk]
    refine .mk (fun k hk => ?_) fun k hk => ?_
    · obtain ⟨c, hc, rfl⟩ := List.mem_map.mp hk
      obtain ⟨g1, g2⟩ := h1 c hc
      unfold Suits
      rw [norm_tag, norm_kids]
      constructor
      · intro e1 e2
        obtain ⟨g3, g4⟩ := g1 e1 e2
        constructor
        · intro w hw
          rw [List.filter_map, List.length_map, List.filter_congr fun k _ => by
            show (k.norm.tag == w) = (k.tag == w)
            rw [norm_tag]]
          exact g3 w hw
        · intro k hk
          obtain ⟨c', hc', rfl⟩ := List.mem_map.mp hk
          rw [norm_kids, g4 c' hc']
          rfl
      · intro e
        rw [(g2 e).2]
        exact ⟨(g2 e).1, rfl⟩
    · obtain ⟨c, hc, rfl⟩ := List.mem_map.mp hk
      exact ih c hc (h2 c hc)

/-- The tree of the file that was written. -/
theorem tree_again {P : Prims} (hP : P.Lawful) {env : Env} {k k2 : Kdbx} (h : Open P k s) (hr : Exec env Allowed s s') (ht : Reopened P k s' k2 t) :
    ∃ y, content s' 1 = some y ∧ k2.tree = .ok y.norm := by
  obtain ⟨y, hw, hd, _⟩ := open_worked h hr
  obtain ⟨c0, file, hopen⟩ := h.file
  obtain ⟨⟨c, out, kf, hc, hb, ho⟩, _⟩ := ht
  refine ⟨y, hw.tree, ?_⟩
  rcases h.version with hv | hv
  · obtain ⟨k', e, _, g2, _⟩ := C64_kdbx3 P hP env hopen hv hw c hc out kf hb
    rw [ho] at e
    injection e with e
    subst e
    exact g2
  · obtain ⟨k', e, _, g2, _⟩ := C64_kdbx4 P hP env hopen hv hw c hc out kf hb
    rw [ho] at e
    injection e with e
    subst e
    exact g2

theorem filed_again {P : Prims} (hP : P.Lawful) {env : Env} {k k2 : Kdbx} (h : Open P k s) (hr : Exec env Allowed s s') (hs' : Inv s')
    (hf : Filed s'.heap) (ht : Reopened P k s' k2 t) : Filed t.heap := by
  obtain ⟨y, h1, h2⟩ := tree_again hP h hr ht
  obtain ⟨_, a, b, hl⟩ := ht
  exact filed_tree h2 (norm_filed (filed_content hs' hf h1)) hl

/-- A file is opened, any methods are called, the database is saved, under any credentials, and the file opened again. It is opened, what
was done is what the machine does, and the office that was loaded is the one that was there. -/
theorem C78_session {P : Prims} (hP : P.Lawful) (env : Env) {k : Kdbx} (h : Open P k s) (hf : Filed s.heap) {l : List (Task × Except PyErr Reply)}
    (hr : Served env s l s') (c : Creds) (hc : c.keyfile.Reusable) (out : Bytes) (kf : Keyfile) (hsave : buildKdbx P c (k.store s') = (.ok out, kf)) (a b : Nat) :
    ∃ k2 t R, openBytes P { c with keyfile := kf } true out = .ok k2 ∧ k2.load a b = .ok t ∧
      Proceeds env (officeOf s) l (officeOf s') ∧ OfficeBack R (officeOf s') (officeOf t) ∧ k2.header = k.header ∧ Filed t.heap ∧
      (Keyed (vaultOf s') → Open P k2 t) := by
  obtain ⟨hm, hs', hf'⟩ := C77_run env h.sound hf hr
  have hex := served_exec hr (.refl s)
  obtain ⟨y, hw, hd, _⟩ := open_worked h hex
  obtain ⟨c0, file, hopen⟩ := h.file
  have key : ∃ k2, openBytes P { c with keyfile := kf } true out = .ok k2 ∧ k2.tree = .ok y.norm := by
    rcases h.version with hv | hv
    · obtain ⟨k', e, _, g2, _⟩ := C64_kdbx3 P hP env hopen hv hw c hc out kf hsave
      exact ⟨k', e, g2⟩
    · obtain ⟨k', e, _, g2, _⟩ := C64_kdbx4 P hP env hopen hv hw c hc out kf hsave
      exact ⟨k', e, g2⟩
  obtain ⟨k2, ho, hk2⟩ := key
  obtain ⟨t, hl, _⟩ := load_ok hk2 a b
  have ht : Reopened P k s' k2 t := ⟨⟨c, out, kf, hc, hsave, ho⟩, a, b, hl⟩
  obtain ⟨⟨R, h1⟩, h2, h3⟩ := office_again hP h hex hs' ht
  exact ⟨k2, t, R, ho, hl, hm, h1, h2, filed_again hP h hex hs'.inv hf' ht, h3⟩

/-- Any number of sessions. -/
inductive Years (P : Prims) (env : Env) : Kdbx → Db → List (List (Task × Except PyErr Reply)) → Db → Prop where
  | last {k s l s'} : Served env s l s' → Years P env k s [l] s'
  | next {k s l s' k2 t L r} : Served env s l s' → Keyed (vaultOf s') → Reopened P k s' k2 t → Years P env k2 t L r →
      Years P env k s (l :: L) r

/-- The same on the machine. -/
inductive Chronicle (env : Env) : Office → List (List (Task × Except PyErr Reply)) → Office → Prop where
  | last {o l o'} : Proceeds env o l o' → Chronicle env o [l] o'
  | next {o l o' R u L r} : Proceeds env o l o' → OfficeBack R o' u → Chronicle env u L r → Chronicle env o (l :: L) r

theorem C78_sessions {P : Prims} (hP : P.Lawful) (env : Env) {k : Kdbx} {L : List (List (Task × Except PyErr Reply))}
    (hr : Years P env k s L s') (h : Open P k s) (hf : Filed s.heap) :
    Chronicle env (officeOf s) L (officeOf s') ∧ Sound s' ∧ Filed s'.heap := by
  induction hr with
  | last hr =>
    obtain ⟨hm, hs', hf'⟩ := C77_run env h.sound hf hr
    exact ⟨.last hm, hs', hf'⟩
  | next hr hk ht _ ih =>
    obtain ⟨hm, hs', hf'⟩ := C77_run env h.sound hf hr
    have hex := served_exec hr (.refl _)
    obtain ⟨⟨R, h1⟩, _, h5⟩ := office_again hP h hex hs' ht
    obtain ⟨i1, i2⟩ := ih (h5 hk) (filed_again hP h hex hs'.inv hf' ht)
    exact ⟨.next hm h1 i1, i2⟩

end

/-! ## The hypotheses hold -/

theorem keyed_of {s : Db} (h : (s.world.ids.all fun x => !(cardOf s.heap x).keys.contains (some [])) = true) : Keyed (vaultOf s) := by
  intro x c hc hk
  obtain ⟨hn, rfl⟩ := card_inv hc
  have h := List.all_eq_true.mp h x (card_mem hn)
  rw [List.contains_iff_mem.mpr hk] at h
  cases h

def toyTasks : List Task := [.deed (.desk (.addData [7, 7] false true)), .deed (.cards (.addFile 7 0 "a".toList)), .reindex 7 0, .deleteData 0]

example (c : CipherId) (z : Bool) : ∃ k l, Open Toy.prims k toyDb ∧ Filed toyDb.heap ∧ l.map Prod.fst = toyTasks ∧
    Served Sample.env toyDb l (choresRun toyDb toyTasks) ∧ Keyed (vaultOf (choresRun toyDb toyTasks)) := by
  obtain ⟨tk, mk, h⟩ := Toy.open4 c z
  refine ⟨_, _, ⟨⟨_, _, h⟩, .inr rfl, ⟨_, rfl, toy_tidy⟩, ⟨0, 0, rfl⟩, toy_sound⟩, filed_of toy_sound.inv (by decide +kernel), ?_,
    .cons (a := .deed (.desk (.addData [7, 7] false true))) trivial (.cons (a := .deed (.cards (.addFile 7 0 "a".toList))) ?_
    (.cons (a := .reindex 7 0) ?_ (.cons (a := .deleteData 0) ?_ (.nil _)))), ?_⟩
  · rfl
  · exact ⟨entry_card.mpr (by decide +kernel), by decide⟩
  · exact reindex_ask (g := 5) (by decide +kernel) (by decide +kernel)
  · exact numbered_of (by decide +kernel)
  · exact keyed_of (by decide +kernel)

end Verif.Props
