import Verif.Api.VaultFileLemmas
import Verif.Props.C64_Calls
import Verif.Props.C69_Life
import Verif.Props.C71_Vault
/-!
# C74: what is on the cards is in the file
-/
namespace Verif.Props
open Verif XPath Spec Api

variable {s s' t : Db}

/-- A tree that was read back holds the cards of the database it was written from: each once, with the same values, in the same order, with the
same history; only empty texts are no texts now. Nothing else is in it. -/
theorem C74_loaded (hs : Sound s) {d : Nat} {y : Xml} (hd : docEl s.heap = some d) (hy : content s d = some y) {k : Kdbx} (hk : k.tree = .ok y.norm)
    {a b : Nat} (hl : k.load a b = .ok t) :
    (∃ R, FromFile R (vaultOf s) (vaultOf t)) ∧
    ((∀ x c, (vaultOf s).card x = some c → some [] ∉ c.keys) → Sound t) := by
  obtain ⟨t', e, hi, hd', hc, _⟩ := load_ok hk a b
  rw [hl] at e
  injection e with e
  subst e
  have hall : ∀ j ∈ t.world.ids, j ≠ 0 → Reach t.heap 1 j := fun j h1 h2 => load_reach hl hi h1 h2
  exact ⟨⟨_, from_file hs hi hd hd' hy hc hall⟩, sound_again hs hi hd hd' hy hc hall⟩

/-- No string field has the empty key. -/
def Keyed (v : Vault) : Prop := ∀ x c, v.card x = some c → some [] ∉ c.keys

def timeTags : List Str := ["CreationTime".toList, "LastModificationTime".toList, "LastAccessTime".toList, "ExpiryTime".toList]

theorem ask_public {env : Env} {o : Op} (h : o.Ask env (vaultOf s)) : o.call.Public := by
  cases o with
  | setTime x p v =>
    obtain ⟨_, h⟩ := h
    cases p with
    | expires => exact absurd rfl h
    | created => exact (by decide : "CreationTime".toList ∈ timeTags)
    | modified => exact (by decide : "LastModificationTime".toList ∈ timeTags)
    | accessed => exact (by decide : "LastAccessTime".toList ∈ timeTags)
    | expiry => exact (by decide : "ExpiryTime".toList ∈ timeTags)
  | setCustom e k v p => exact fun hm => (h.2.1 _ hm).1 rfl
  | deleteCustom e k => exact fun hm => (h.2 _ hm).1 rfl
  | _ => trivial

theorem ran_exec {env : Env} {l : List (Op × Except PyErr (Option Nat))} (h : Ran env s l s') : ∀ {r}, Exec env Allowed r s → Exec env Allowed r s' := by
  induction h with
  | nil => exact fun h => h
  | @cons s t o l ha _ ih =>
    intro r hr
    refine ih ?_
    rw [run_state]
    exact .step o.call hr ⟨ask_typed ha, ask_public ha⟩

/-- A file that was opened: its tree, which is tidy, was loaded as the database `s`, which is sound. -/
structure Open (P : Prims) (k : Kdbx) (s : Db) : Prop where
  file : ∃ c bytes, openBytes P c true bytes = .ok k
  version : k.header.value.major = 3 ∨ k.header.value.major = 4
  tidy : ∃ x, k.tree = .ok x ∧ TidyXml x
  load : ∃ a b, k.load a b = .ok s
  sound : Sound s

theorem open_worked {env : Env} {P : Prims} {k : Kdbx} (h : Open P k s) (hex : Exec env Allowed s s') :
    ∃ y, Worked env k s' y ∧ docEl s'.heap = some 1 ∧ s'.version = k.version := by
  obtain ⟨_, _, ⟨x, hx, ht⟩, ⟨a, b, hl⟩, hs⟩ := h
  obtain ⟨s0, e, hi, hd, hc, hv, _⟩ := load_ok hx a b
  rw [hl] at e
  injection e with e
  subst e
  have hn : x.tag = "KeePassFile".toList := by
    obtain ⟨d, m, r, hd', htag, _⟩ := hs.skeleton
    rw [hd] at hd'
    injection hd' with hd'
    subst hd'
    exact (content_tag hc).symm.trans htag
  have h1 := (C64_tidy env hi (loaded hx hn ht hl).2.2.1 (loaded hx hn ht hl).2.1 hex)
  obtain ⟨e1, e2, e3, e4, e5⟩ := h1
  rw [hd] at e4
  obtain ⟨y, hy⟩ := content_exists e1 e4
  exact ⟨y, ⟨⟨x, a, b, s, hx, hn, ht, hl, hex⟩, hy⟩, e4, e5.trans hv⟩

/-- The file `k2` is the one to which the database `s'` was written, opened again; `t` is what was loaded from it. -/
structure Reopened (P : Prims) (k : Kdbx) (s' : Db) (k2 : Kdbx) (t : Db) : Prop where
  file : ∃ (c : Creds) (out : Bytes) (kf : Keyfile), c.keyfile.Reusable ∧ buildKdbx P c (k.store s') = (.ok out, kf) ∧
    openBytes P { c with keyfile := kf } true out = .ok k2
  load : ∃ a b, k2.load a b = .ok t

theorem read_again {P : Prims} (hP : P.Lawful) {env : Env} {k k2 : Kdbx} (h : Open P k s) (hr : Exec env Allowed s s')
    (hs' : Sound s') (ht : Reopened P k s' k2 t) :
    (∃ R, FromFile R (vaultOf s') (vaultOf t)) ∧ t.version = s.version ∧ k2.header = k.header ∧
      (k.header.value.major = 4 → t.binaries = s'.binaries) ∧ (Keyed (vaultOf s') → Open P k2 t) := by
  obtain ⟨y, hw, hd, _⟩ := open_worked h hr
  obtain ⟨c0, file, hopen⟩ := h.file
  obtain ⟨⟨c, out, kf, hc, hb, ho⟩, a, b, hl⟩ := ht
  have key : k2.header = k.header ∧ k2.tree = .ok y.norm ∧ TidyXml y.norm ∧ (k.header.value.major = 4 → k2.innerBinaries = s'.binaries) := by
    rcases h.version with hv | hv
    · obtain ⟨k', e, g1, g2, g3, _⟩ := C64_kdbx3 P hP env hopen hv hw c hc out kf hb
      rw [ho] at e
      injection e with e
      subst e
      exact ⟨g1, g2, g3, fun h4 => absurd (hv.symm.trans h4) (by decide)⟩
    · obtain ⟨k', e, g1, g2, g3, g4, _⟩ := C64_kdbx4 P hP env hopen hv hw c hc out kf hb
      rw [ho] at e
      injection e with e
      subst e
      exact ⟨g1, g2, g4, fun _ => g3⟩
  obtain ⟨hh, hk2, hti, hbi⟩ := key
  obtain ⟨h1, h2⟩ := C74_loaded hs' hd hw.tree hk2 hl
  obtain ⟨t', e, hi, hd', hct, hv, hbin, _⟩ := load_ok hk2 a b
  rw [hl] at e
  injection e with e
  subst e
  refine ⟨h1, ?_, hh, fun h4 => hbin.trans (hbi h4), fun hn => ⟨⟨_, _, ho⟩, hh ▸ h.version, ⟨_, hk2, hti⟩, ⟨a, b, hl⟩, h2 hn⟩⟩
  obtain ⟨x, hx, _⟩ := h.tidy
  obtain ⟨a', b', hl'⟩ := h.load
  obtain ⟨s0, e, _, _, _, hv0, _⟩ := load_ok hx a' b'
  rw [hl'] at e
  injection e with e
  subst e
  rw [hv, hv0]
  unfold Kdbx.version
  rw [hh]

/-- A file is opened, operations are done, the database is saved, under the same or other credentials, and the file opened again. It is opened,
the cards have changed as the machine says, and what was loaded holds these cards, with the binaries and the version. If no field has the empty
key, the same holds for the next session. -/
theorem C74_session {P : Prims} (hP : P.Lawful) (env : Env) {k : Kdbx} (h : Open P k s) {l : List (Op × Except PyErr (Option Nat))} (hr : Ran env s l s')
    (c : Creds) (hc : c.keyfile.Reusable) (out : Bytes) (kf : Keyfile) (hsave : buildKdbx P c (k.store s') = (.ok out, kf)) (a b : Nat) :
    ∃ k2 t R, openBytes P { c with keyfile := kf } true out = .ok k2 ∧ k2.load a b = .ok t ∧
      Moves env (vaultOf s) l (vaultOf s') ∧ FromFile R (vaultOf s') (vaultOf t) ∧ t.version = s.version ∧ k2.header = k.header ∧
      (k.header.value.major = 4 → t.binaries = s'.binaries) ∧ (Keyed (vaultOf s') → Open P k2 t) := by
  obtain ⟨hm, hs'⟩ := C71_run env h.sound hr
  obtain ⟨y, hw, hd, _⟩ := open_worked h (ran_exec hr (.refl s))
  obtain ⟨c0, file, hopen⟩ := h.file
  have key : ∃ k2, openBytes P { c with keyfile := kf } true out = .ok k2 ∧ k2.tree = .ok y.norm := by
    rcases h.version with hv | hv
    · obtain ⟨k', e, _, g2, _⟩ := C64_kdbx3 P hP env hopen hv hw c hc out kf hsave
      exact ⟨k', e, g2⟩
    · obtain ⟨k', e, _, g2, _⟩ := C64_kdbx4 P hP env hopen hv hw c hc out kf hsave
      exact ⟨k', e, g2⟩
  obtain ⟨k2, ho, hk2⟩ := key
  obtain ⟨t, hl, _⟩ := load_ok hk2 a b
  obtain ⟨⟨R, h1⟩, h2, h3, h4, h5⟩ := read_again hP h (ran_exec hr (.refl s)) hs' ⟨⟨c, out, kf, hc, hsave, ho⟩, a, b, hl⟩
  exact ⟨k2, t, R, ho, hl, hm, h1, h2, h3, h4, h5⟩

/-- Any number of such sessions on the code, with the operations of each and what they gave; between two of them the database is saved and the
file opened again. -/
inductive Sessions (P : Prims) (env : Env) : Kdbx → Db → List (List (Op × Except PyErr (Option Nat))) → Db → Prop where
  | last {k s l s'} : Ran env s l s' → Sessions P env k s [l] s'
  | next {k s l s' k2 t L r} : Ran env s l s' → Keyed (vaultOf s') → Reopened P k s' k2 t → Sessions P env k2 t L r →
      Sessions P env k s (l :: L) r

/-- The same on the machine. -/
inductive Books (env : Env) : Vault → List (List (Op × Except PyErr (Option Nat))) → Vault → Prop where
  | last {v l v'} : Moves env v l v' → Books env v [l] v'
  | next {v l v' R w L r} : Moves env v l v' → FromFile R v' w → Books env w L r → Books env v (l :: L) r

theorem C74_sessions {P : Prims} (hP : P.Lawful) (env : Env) {k : Kdbx} {L : List (List (Op × Except PyErr (Option Nat)))}
    (hr : Sessions P env k s L s') (h : Open P k s) : Books env (vaultOf s) L (vaultOf s') ∧ Sound s' := by
  induction hr with
  | last hr =>
    obtain ⟨hm, hs'⟩ := C71_run env h.sound hr
    exact ⟨.last hm, hs'⟩
  | next hr hk ht _ ih =>
    obtain ⟨hm, hs'⟩ := C71_run env h.sound hr
    obtain ⟨⟨R, h1⟩, _, _, _, h5⟩ := read_again hP h (ran_exec hr (.refl _)) hs' ht
    obtain ⟨i1, i2⟩ := ih (h5 hk)
    exact ⟨.next hm h1 i1, i2⟩

/-! The toy file is open in this sense; a snapshot is taken, the title changed, a protected property and a group added, and the entry moved there. -/

theorem toy_sound : Sound toyDb := by
  have hi : Inv toyDb := (start_ok (Node.ofXml_id Toy.tree.norm 1) (Node.ofXml_uniq Toy.tree.norm 1) (fun j => Node.ofXml_mem) _ _ _ _).1
  refine ⟨hi, ⟨1, 2, 4, by decide +kernel, by decide +kernel, by decide +kernel, by decide +kernel⟩, shaped_of hi (by decide +kernel), fun x hx => ?_⟩
  have h : (toyDb.world.ids.all fun x => decide (NoCard (toyDb.heap.tag x)) ||
      ((singles.all fun t => decide ((toyDb.heap.all x t).length ≤ 1)) && fieldsOk toyDb.heap x)) = true := by decide +kernel
  have h := List.all_eq_true.mp h x (card_mem hx)
  rw [decide_eq_false hx, Bool.false_or, Bool.and_eq_true] at h
  exact ⟨fun t ht => of_decide_eq_true (List.all_eq_true.mp h.1 t ht), fields_of_ok h.2⟩

def toyOps : List Op := [.saveHistory 7, .setField 7 .title "new".toList, .setCustom 7 "pin".toList [] true, .addGroup 5 "Sub".toList none none]

example (c : CipherId) (z : Bool) : ∃ k l, Open Toy.prims k toyDb ∧ l.map Prod.fst = toyOps ∧ Ran Sample.env toyDb l (storyRun toyDb toyOps) := by
  obtain ⟨tk, mk, h⟩ := Toy.open4 c z
  refine ⟨_, _, ⟨⟨_, _, h⟩, .inr rfl, ⟨_, rfl, toy_tidy⟩, ⟨0, 0, rfl⟩, toy_sound⟩, ?_, .cons (?_ : Op.Ask _ _ (.saveHistory 7))
    (.cons (?_ : Op.Ask _ _ (.setField 7 .title "new".toList)) (.cons (?_ : Op.Ask _ _ (.setCustom 7 "pin".toList [] true))
    (.cons (?_ : Op.Ask _ _ (.addGroup 5 "Sub".toList none none)) (.nil _))))⟩
  · rfl
  · exact entry_card.mpr (by decide +kernel)
  · exact ⟨entry_card.mpr (by decide +kernel), by decide⟩
  · exact ⟨entry_card.mpr (by decide +kernel), by decide, by decide, by decide⟩
  · exact ⟨group_card.mpr (by decide +kernel), by decide, nofun, nofun, is_ok (by decide +kernel)⟩

/-! A field with the empty key cannot be asked for by its key in the file: it is found before the database is saved and not afterwards. -/

def nameless : Db := ((Op.setCustom 7 [] "x".toList false).run Sample.env toyDb).2

/-- The tree with which `s` is read back. -/
def again (s : Db) : Db := Db.start (Node.ofXml 1 ((content s 1).getD (.mk [] [] none [])).norm) s.version s.binaries 0 0

theorem nameless_sound : Sound nameless :=
  (C71_run Sample.env toy_sound (.cons (o := .setCustom 7 [] "x".toList false)
    ⟨entry_card.mpr (by decide +kernel), by decide, by decide, by decide⟩ (.nil _))).2

theorem C74_empty_key : ∃ (s : Db) (x y : Nat) (R : Nat → Nat → Prop), Sound s ∧ FromFile R (vaultOf s) (vaultOf (again s)) ∧ R x y ∧
    (getCustom Sample.env x [] s).1 = .ok (some "x".toList) ∧ (getCustom Sample.env y [] (again s)).1 = .ok none ∧ ¬ Sound (again s) := by
  have hc : (content nameless 1).isSome = true := by decide +kernel
  obtain ⟨z, hz⟩ := Option.isSome_iff_exists.mp hc
  have hk : (content nameless 1).getD (.mk [] [] none []) = z := by rw [hz]; rfl
  have hag : again nameless = Db.start (Node.ofXml 1 z.norm) nameless.version nameless.binaries 0 0 := by unfold again; rw [hk]
  obtain ⟨hi, hd, hct⟩ := start_ok (Node.ofXml_id z.norm 1) (Node.ofXml_uniq z.norm 1) (fun j => Node.ofXml_mem) nameless.version nameless.binaries 0 0
  rw [← hag] at hi hd hct
  rw [Node.ofXml_xml] at hct
  have hall : ∀ j ∈ (again nameless).world.ids, j ≠ 0 → Reach (again nameless).heap 1 j := by
    let k : Kdbx := ⟨Toy.header4 .aes256 true, some ⟨[], [], some ⟨some Toy.inner, z.norm⟩⟩⟩
    have hl : k.load 0 0 = .ok (again nameless) := by
      rw [hag, (by decide +kernel : nameless.version = (4, 0)), (by decide +kernel : nameless.binaries = [[0, 1, 2], [1]])]
      rfl
    exact fun j => load_reach hl hi
  refine ⟨nameless, 7, 7, _, nameless_sound, from_file nameless_sound hi (by decide +kernel) hd hz hct hall, ⟨?_, by decide +kernel⟩,
    by decide +kernel, by decide +kernel, fun h => ?_⟩
  · exact .step (n := 1) (.step (n := 0) (.step (n := 1) .top (by decide +kernel : _ = some 4) (by decide +kernel : _ = some 4))
      (by decide +kernel : _ = some 5) (by decide +kernel : _ = some 5)) (by decide +kernel) (by decide +kernel)
  · have hf := (h.neat 7 (by decide +kernel)).fields.key
    have hb : ((again nameless).heap.all 7 "String".toList).any (fun s => ((again nameless).heap.all s "Key".toList).any fun c =>
        ((again nameless).heap.text c).isNone) = true := by decide +kernel
    obtain ⟨x, hx, hb⟩ := List.any_eq_true.mp hb
    obtain ⟨c, hc, hb⟩ := List.any_eq_true.mp hb
    obtain ⟨c', t, e, ht⟩ := hf x hx
    rw [e, List.mem_singleton] at hc
    rw [hc, ht] at hb
    cases hb

end Verif.Props
