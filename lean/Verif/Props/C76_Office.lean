import Verif.Spec.DeskFile
import Verif.Props.C74_VaultFile
import Verif.Props.C75_Desk
/-!
# C76: the whole office is in the file
-/
namespace Verif.Props
open Verif XPath Spec Api

section
variable {s s' t : Db}

theorem pairs_map {α β γ} {R : α → β → Prop} {f : α → γ} {g : β → γ} (hfg : ∀ a b, R a b → g b = f a) {l : List α} {m : List β} (h : Pairs R l m) :
    m.map g = l.map f := by
  induction h with
  | nil => rfl
  | cons h1 _ ih => rw [List.map_cons, List.map_cons, hfg _ _ h1, ih]

theorem desk_back (hs : Sound s) (ht : Inv t) {d d' : Nat} {y : Xml} (hdoc : docEl s.heap = some d) (hdoc' : docEl t.heap = some d')
    (hd : content s d = some y) (hd' : content t d' = some y.norm) : DeskBack (deskOf s) (deskOf t) := by
  have wc := fun {a b} => walks_content (a := a) (b := b) hs.inv ht hd hd'
  have wall := fun {a b} => walks_all (a := a) (b := b) hs.inv ht hd hd'
  have tags : ∀ {a b}, Walks s.heap t.heap d d' a b → t.heap.tag b = s.heap.tag a := by
    intro a b w
    obtain ⟨q, j1, j2⟩ := wc w
    rw [content_tag j1, content_tag j2, norm_tag]
  obtain ⟨d0, m, r, hk⟩ := hs.skeleton
  have e0 : d0 = d := by have := hk.doc; rw [hdoc] at this; injection this with this; exact this.symm
  subst e0
  have h1 := wall .top "Root".toList
  have h2 := wall .top "Meta".toList
  rw [hk.root] at h1
  rw [hk.info] at h2
  obtain ⟨r', h1, _⟩ := pairs_one h1
  obtain ⟨m', h2, wm⟩ := pairs_one h2
  have hk' : Skeleton t.heap d' m' r' := ⟨hdoc', by rw [tags .top]; exact hk.tag, h2, h1⟩
  have text : ∀ {a b}, Walks s.heap t.heap d0 d' a b → t.heap.text b = emptied (s.heap.text a) := by
    intro a b w
    obtain ⟨q, j1, j2⟩ := wc w
    rw [content_text j1, content_text j2, norm_text]
  have attr : ∀ {a b}, Walks s.heap t.heap d0 d' a b → ∀ k, t.heap.attr b k = s.heap.attr a k := by
    intro a b w k
    obtain ⟨q, j1, j2⟩ := wc w
    rw [content_attr j1, content_attr j2, norm_attr]
  constructor
  · intro n
    show (metaEls t.heap n).map t.heap.text = ((metaEls s.heap n).map s.heap.text).map emptied
    rw [metaEls_skel hk, metaEls_skel hk', List.map_map]
    exact pairs_map (fun a b w => text w) (wall wm n)
  · show (metaEls t.heap _).map _ = ((metaEls s.heap _).map _).map _
    rw [metaEls_skel hk, metaEls_skel hk', List.map_map]
    refine pairs_map (fun a b w => ?_) (wall wm "Binaries".toList)
    show (t.heap.all b "Binary".toList).map _ = ((s.heap.all a "Binary".toList).map _).map _
    rw [List.map_map]
    refine pairs_map (fun x x' wx => ?_) (wall w "Binary".toList)
    show storedOf t.heap x' = (storedOf s.heap x).emptied
    unfold storedOf Stored.emptied
    rw [attr wx, attr wx, text wx]

theorem desk_public (o : DeskOp) : o.call.Public := by
  cases o with
  | set p v =>
    cases p with
    | name => exact (by decide : "DatabaseName".toList ∈ ["DatabaseName".toList, "DatabaseDescription".toList, "DefaultUserName".toList])
    | description => exact (by decide : "DatabaseDescription".toList ∈ ["DatabaseName".toList, "DatabaseDescription".toList, "DefaultUserName".toList])
    | username => exact (by decide : "DefaultUserName".toList ∈ ["DatabaseName".toList, "DatabaseDescription".toList, "DefaultUserName".toList])
  | _ => trivial

theorem deed_exec {env : Env} {a : Deed} (ha : a.Ask env (officeOf s)) {r : Db} (h : Exec env Allowed r s) : Exec env Allowed r (a.run env s).2 := by
  have key : ∀ {α β} (m : M α) (f : α → β), ((do let x ← m; pure (f x) : M β) s).2 = (m s).2 := by
    intro α β m f
    rw [bind_run]
    cases m s with
    | mk r t => cases r <;> rfl
  cases a with
  | cards o =>
    have e : ((Deed.cards o).run env s).2 = _ := key (o.run env) (Sum.inl (β := Option Int))
    rw [e, run_state]
    exact .step o.call h ⟨ask_typed ha, ask_public ha⟩
  | desk o =>
    have e : ((Deed.desk o).run env s).2 = _ := key (o.run env) (Sum.inr (α := Option Nat))
    rw [e, desk_state]
    exact .step o.call h ⟨desk_typed o _, desk_public o⟩

theorem acted_exec {env : Env} {l : List (Deed × Except PyErr Answer)} (h : Acted env s l s') : ∀ {r}, Exec env Allowed r s → Exec env Allowed r s' := by
  induction h with
  | nil => exact fun h => h
  | cons ha _ ih => exact fun hr => ih (deed_exec ha hr)

/-- The office read back, from the file to which the database was written. -/
theorem office_again {P : Prims} (hP : P.Lawful) {env : Env} {k k2 : Kdbx} (h : Open P k s) (hr : Exec env Allowed s s')
    (hs' : Sound s') (ht : Reopened P k s' k2 t) :
    (∃ R, OfficeBack R (officeOf s') (officeOf t)) ∧ k2.header = k.header ∧ (Keyed (vaultOf s') → Open P k2 t) := by
  obtain ⟨⟨R, h1⟩, h2, h3, h4, h5⟩ := read_again hP h hr hs' ht
  obtain ⟨y, hw, hd, hvk⟩ := open_worked h hr
  obtain ⟨c0, file, hopen⟩ := h.file
  obtain ⟨⟨c, out, kf, hc, hb, ho⟩, a, b, hl⟩ := ht
  have hk2 : k2.tree = .ok y.norm := by
    rcases h.version with hv | hv
    · obtain ⟨k', e, _, g2, _⟩ := C64_kdbx3 P hP env hopen hv hw c hc out kf hb
      rw [ho] at e
      injection e with e
      subst e
      exact g2
    · obtain ⟨k', e, _, g2, _⟩ := C64_kdbx4 P hP env hopen hv hw c hc out kf hb
      rw [ho] at e
      injection e with e
      subst e
      exact g2
  obtain ⟨t', e, hi, hd', hct, hv, hbin, _⟩ := load_ok hk2 a b
  rw [hl] at e
  injection e with e
  subst e
  have hvs : t.version = s'.version := by
    rw [hv, hvk]
    unfold Kdbx.version
    rw [h3]
  refine ⟨⟨R, h1, desk_back hs' hi hd hd' hw.tree hct, hvs, fun h6 => h4 ?_⟩, h3, h5⟩
  have h6 : versionGe4 s'.version = true := h6
  rcases h.version with e | e
  · rw [hvk] at h6
    unfold Kdbx.version at h6
    rw [e] at h6
    exact absurd h6 (by simp [versionGe4])
  · exact e

/-- A file is opened, operations of all kinds are done, the database is saved, under any credentials, and the file opened again. It is opened, what
was done is what the machine does, and the office that was loaded is the one that was there. -/
theorem C76_session {P : Prims} (hP : P.Lawful) (env : Env) {k : Kdbx} (h : Open P k s) {l : List (Deed × Except PyErr Answer)} (hr : Acted env s l s')
    (c : Creds) (hc : c.keyfile.Reusable) (out : Bytes) (kf : Keyfile) (hsave : buildKdbx P c (k.store s') = (.ok out, kf)) (a b : Nat) :
    ∃ k2 t R, openBytes P { c with keyfile := kf } true out = .ok k2 ∧ k2.load a b = .ok t ∧
      Works env (officeOf s) l (officeOf s') ∧ OfficeBack R (officeOf s') (officeOf t) ∧ k2.header = k.header ∧
      (Keyed (vaultOf s') → Open P k2 t) := by
  obtain ⟨hm, hs'⟩ := C75_run env h.sound hr
  have hex := acted_exec hr (.refl s)
  obtain ⟨y, hw, hd, _⟩ := open_worked h hex
  obtain ⟨c0, file, hopen⟩ := h.file
  have key : ∃ k2, openBytes P { c with keyfile := kf } true out = .ok k2 ∧ k2.tree = .ok y.norm := by
    rcases h.version with hv | hv
    · obtain ⟨k', e, _, g2, _⟩ := C64_kdbx3 P hP env hopen hv hw c hc out kf hsave
      exact ⟨k', e, g2⟩
    · obtain ⟨k', e, _, g2, _⟩ := C64_kdbx4 P hP env hopen hv hw c hc out kf hsave
      exact ⟨k', e, g2⟩
  obtain ⟨k2, ho, hk2⟩ := key
  obtain ⟨t, hl, _⟩ := load_ok hk2 a b
  obtain ⟨⟨R, h1⟩, h2, h3⟩ := office_again hP h hex hs' ⟨⟨c, out, kf, hc, hsave, ho⟩, a, b, hl⟩
  exact ⟨k2, t, R, ho, hl, hm, h1, h2, h3⟩

/-- Any number of sessions, with operations of all kinds. -/
inductive Terms (P : Prims) (env : Env) : Kdbx → Db → List (List (Deed × Except PyErr Answer)) → Db → Prop where
  | last {k s l s'} : Acted env s l s' → Terms P env k s [l] s'
  | next {k s l s' k2 t L r} : Acted env s l s' → Keyed (vaultOf s') → Reopened P k s' k2 t → Terms P env k2 t L r →
      Terms P env k s (l :: L) r

/-- The same on the machine. -/
inductive Records (env : Env) : Office → List (List (Deed × Except PyErr Answer)) → Office → Prop where
  | last {o l o'} : Works env o l o' → Records env o [l] o'
  | next {o l o' R u L r} : Works env o l o' → OfficeBack R o' u → Records env u L r → Records env o (l :: L) r

theorem C76_sessions {P : Prims} (hP : P.Lawful) (env : Env) {k : Kdbx} {L : List (List (Deed × Except PyErr Answer))}
    (hr : Terms P env k s L s') (h : Open P k s) : Records env (officeOf s) L (officeOf s') ∧ Sound s' := by
  induction hr with
  | last hr =>
    obtain ⟨hm, hs'⟩ := C75_run env h.sound hr
    exact ⟨.last hm, hs'⟩
  | next hr hk ht _ ih =>
    obtain ⟨hm, hs'⟩ := C75_run env h.sound hr
    obtain ⟨⟨R, h1⟩, _, h5⟩ := office_again hP h (acted_exec hr (.refl _)) hs' ht
    obtain ⟨i1, i2⟩ := ih (h5 hk)
    exact ⟨.next hm h1 i1, i2⟩

end

/-! ## Data -/

theorem data_emptied (env : Env) {b : Stored} (h : b.text = some [] → b.compressed ≠ some "True".toList) : b.emptied.data env = b.data env := by
  obtain ⟨i, c, x⟩ := b
  cases x with
  | none => rfl
  | some x =>
    cases x with
    | cons a x => rfl
    | nil =>
      show Except.ok [] = if c = some "True".toList then (b64decode []).bind env.gunzip else b64decode []
      rw [if_neg (h rfl)]
      rfl

theorem read_emptied (env : Env) {l : List Stored} (h : ∀ b ∈ l, b.text = some [] → b.compressed ≠ some "True".toList) (acc : List Bytes) :
    readStored env (l.map Stored.emptied) acc = readStored env l acc := by
  induction l generalizing acc with
  | nil => rfl
  | cons b l ih =>
    have h1 := data_emptied env (h b (List.mem_cons_self ..))
    have h2 : b.emptied.number = b.number := rfl
    have step : ∀ (b : Stored) l, readStored env (b :: l) acc = (match b.data env with
      | .error e => .error e
      | .ok d => match b.number with
        | .error e => .error e
        | .ok n => readStored env l (listInsert acc n d)) := fun b l => by rw [readStored]; rfl
    rw [List.map_cons, step, step, h1, h2]
    cases b.data env with
    | error e => rfl
    | ok d =>
      cases b.number with
      | error e => rfl
      | ok n => exact ih (fun b hb => h b (List.mem_cons_of_mem _ hb)) _

theorem map_flatten {α β} (f : α → β) (l : List (List α)) : (l.map fun x => x.map f).flatten = l.flatten.map f := by
  induction l with
  | nil => rfl
  | cons a l ih => rw [List.map_cons, List.flatten_cons, List.flatten_cons, List.map_append, ih]

/-- The data are the same after reading back, whatever program wrote the compressed ones, unless an empty text claims to be compressed. -/
theorem C76_data (env : Env) {R : Nat → Nat → Prop} {o u : Office} (h : OfficeBack R o u) (hp : versionGe4 o.vault.version = true ∨ o.Packed) :
    u.data env = o.data env := by
  unfold Office.data
  rw [h.version]
  by_cases h4 : versionGe4 o.vault.version = true
  · rw [if_pos h4, if_pos h4, h.stock h4]
  · rw [if_neg h4, if_neg h4, h.desk.shelves, map_flatten]
    rcases hp with hp | hp
    · exact absurd hp h4
    · refine read_emptied env (fun b hb => ?_) []
      obtain ⟨l, h1, h2⟩ := List.mem_flatten.mp hb
      exact hp l h1 b h2

/-- So an attachment has the same name and yields the same data as before: the one at the same position of the same entry. -/
theorem C76_attachment {s t : Db} (env : Env) (hs : Sound s) (ht : Sound t) {R : Nat → Nat → Prop} (h : OfficeBack R (officeOf s) (officeOf t))
    (hp : versionGe4 s.version = true ∨ (officeOf s).Packed) {x y : Nat} (hxy : R x y) {c d : Card} (hc : (vaultOf s).card x = some c)
    (hd : (vaultOf t).card y = some d) {i : Nat} {f : File} (hf : c.files[i]? = some f) :
    ∃ g, d.files[i]? = some g ∧ g.name = f.name.map emptied ∧ g.number = f.number ∧
      (attBinary env g.handle t).1 = (attBinary env f.handle s).1 := by
  obtain ⟨c', d', h1, h2, h3⟩ := h.vault.card x y hxy
  have h1 : (vaultOf s).card x = some c' := h1
  have h2 : (vaultOf t).card y = some d' := h2
  rw [hc] at h1
  rw [hd] at h2
  injection h1 with h1
  injection h2 with h2
  subst h1; subst h2
  have hfi := congrArg (·[i]?) h3.files
  simp only [List.getElem?_map, hf, Option.map_some] at hfi
  cases hg : d.files[i]? with
  | none => rw [hg] at hfi; cases hfi
  | some g =>
    rw [hg] at hfi
    injection hfi with hfi
    have hn : g.name = f.name.map emptied := congrArg Prod.fst hfi
    have hm : g.number = f.number := congrArg Prod.snd hfi
    refine ⟨g, rfl, hn, hm, ?_⟩
    rw [C75_binary env hs hc (List.mem_of_getElem? hf), C75_binary env ht hd (List.mem_of_getElem? hg), C76_data env h hp]
    unfold File.index
    rw [hm]

/-- Data the library itself stores are of this kind, unless compressing gives nothing. -/
theorem C76_packed (env : Env) {o : Office} (hz : ∀ d, env.gzip d ≠ []) (h : o.Packed) (a : DeskOp) : (a.step env o).2.Packed := by
  have put : ∀ (k : Desk) n v, (k.put n v).2.shelves = k.shelves := by
    intro k n v
    unfold Desk.put
    split
    · rfl
    · split <;> rfl
  have date : ∀ (k : Desk) w x, (k.putDate w x).2.shelves = k.shelves := by
    intro k w x
    unfold Desk.putDate
    split
    · rfl
    · exact put ..
  have same : ∀ {u : Office}, u.desk.shelves = o.desk.shelves → u.Packed := by
    intro u e
    unfold Office.Packed
    rw [e]
    exact h
  cases a with
  | set p v => exact same (put ..)
  | setDate x => exact same (date ..)
  | setDays r n => exact same (put ..)
  | setPassword p => exact same (date { o.desk with password := p } ..)
  | setKeyfile p => exact same (date { o.desk with keyfile := p } ..)
  | addData d c p =>
    unfold DeskOp.step
    simp only []
    split
    · exact same rfl
    · split
      · exact h
      · split
        · exact h
        · rename_i k hk
          unfold Desk.add at hk
          split at hk
          · cases hk
          · rename_i l ls hl
            injection hk with hk
            subst hk
            have ho : ∀ l' ∈ l :: ls, ∀ b ∈ l', b.text = some [] → b.compressed ≠ some "True".toList := by rw [← hl]; exact h
            intro l' hl'
            rcases List.mem_cons.mp hl' with rfl | hl'
            · intro b hb
              rcases List.mem_append.mp hb with hb | hb
              · exact ho l (List.mem_cons_self ..) b hb
              · rw [List.mem_singleton.mp hb]
                intro e
                cases c with
                | false => show some (pyBool false) ≠ _; decide
                | true =>
                  have e : b64encode (env.gzip d) = [] := by injection e
                  have := congrArg b64decode e
                  rw [b64decode_b64encode] at this
                  have h0 : b64decode [] = .ok [] := rfl
                  rw [h0] at this
                  injection this with this
                  exact absurd this (hz d)
            · exact ho l' (List.mem_cons_of_mem _ hl')

/-! ## The hypotheses hold -/

def toyDeeds : List Deed := [.desk (.addData [7, 7] false true), .cards (.setField 7 .title "new".toList), .cards (.addFile 7 2 "a".toList),
  .desk (.setPassword (some "pw".toList)), .desk (.set .name [])]

example (c : CipherId) (z : Bool) : ∃ k l, Open Toy.prims k toyDb ∧ l.map Prod.fst = toyDeeds ∧ Acted Sample.env toyDb l (actRun Sample.env toyDb toyDeeds) := by
  obtain ⟨tk, mk, h⟩ := Toy.open4 c z
  refine ⟨_, _, ⟨⟨_, _, h⟩, .inr rfl, ⟨_, rfl, toy_tidy⟩, ⟨0, 0, rfl⟩, toy_sound⟩, ?_, .cons (a := .desk (.addData [7, 7] false true)) trivial
    (.cons (a := .cards (.setField 7 .title "new".toList)) ?_ (.cons (a := .cards (.addFile 7 2 "a".toList)) ?_
    (.cons (a := .desk (.setPassword (some "pw".toList))) trivial (.cons (a := .desk (.set .name [])) trivial (.nil _)))))⟩
  · rfl
  · exact ⟨entry_card.mpr (by decide +kernel), by decide⟩
  · exact ⟨entry_card.mpr (by decide +kernel), by decide⟩

example : (officeOf Sample.db3).Packed ∧ ((officeOf Sample.db3).data Sample.env).isOk = true := by
  refine ⟨?_, by decide +kernel⟩
  unfold Office.Packed
  decide +kernel

/-- An empty text that claims to be compressed: reading the data raises, but not after the file is reopened. -/
theorem C76_not_packed (env : Env) (hz : env.gunzip [] = .error .zlib) :
    ∃ b : Stored, b.data env = .error .zlib ∧ b.emptied.data env = .ok [] :=
  ⟨⟨some "0".toList, some "True".toList, some []⟩, hz, rfl⟩

example : ({ Sample.env with gunzip := fun d => if d = [] then .error .zlib else .ok d } : Env).gunzip [] = .error .zlib := rfl

end Verif.Props
