import Verif.Props.C77_Whole
import Verif.Spec.Cover
/-!
# C82: calls that are refused, and which calls the machine speaks about
-/
namespace Verif.Props
open Verif XPath Spec Api

section
variable {s : Db}

/-- A call with a text that cannot be written, or on an element that is not where the method looks for it, raises what the machine says, does to
the cards what the machine says, and nothing to the settings, data and credentials. -/
theorem C82_step (env : Env) (hs : Sound s) (o : Refusal) (ho : o.Ask env (vaultOf s)) :
    o.Step env (vaultOf s) (o.call.run env s).1 (vaultOf (o.call.run env s).2) ∧ deskOf (o.call.run env s).2 = deskOf s ∧
      Sound (o.call.run env s).2 := by
  obtain ⟨q, t, h1, h2, h3⟩ := refused_step env hs o ho
  have h4 := refused_apart env hs o ho
  rw [h1] at h4 ⊢
  exact ⟨h2, h4, h3⟩

/-- The calls that write nothing before they are refused. -/
def Harmless : Refusal → Prop
  | .badKey _ _ _ _ | .noKey _ _ | .setAutoText _ _ _ | .addFile _ _ _ | .setFileName _ _ _ | .addGroup _ _ _ _ | .addEntry _ _ _
  | .delete _ | .deleteHistory _ _ => True
  | .setCustom _ k _ _ => k ∈ reservedKeys
  | _ => False

/-- They leave every card as it was; only the clock and the source of uuids may have been asked. -/
theorem C82_unchanged (env : Env) (hs : Sound s) (o : Refusal) (ho : o.Ask env (vaultOf s)) (hh : Harmless o) :
    (vaultOf (o.call.run env s).2).card = (vaultOf s).card ∧ (vaultOf (o.call.run env s).2).roots = (vaultOf s).roots := by
  have h := (C82_step env hs o ho).1
  have same : ∀ {v v' : Vault}, v' = v → v'.card = v.card ∧ v'.roots = v.roots := by rintro v _ rfl; exact ⟨rfl, rfl⟩
  have vain : ∀ {v v' : Vault} {i l r}, v.InVain i l r v' → v'.card = v.card ∧ v'.roots = v.roots := by
    rintro v v' i l r (⟨_, _, _, rfl⟩ | ⟨_, _, _, _, rfl⟩) <;> exact ⟨rfl, rfl⟩
  cases o with
  | setCustom e k v p => exact same (h.1 hh).2
  | badKey => exact same h.2
  | noKey => exact same h.2
  | setAutoText => obtain ⟨_, _, h, _⟩ := h; exact same h
  | addFile => obtain ⟨_, _, _, h⟩ := h; exact same h
  | setFileName => obtain ⟨_, _, _, h, _⟩ := h; exact same h
  | addGroup => exact vain h
  | addEntry g a force =>
    obtain ⟨t, n, _, _, h1, h2⟩ := h
    by_cases hd : force = false ∧ (vaultOf s).HasEntry g t n
    · exact same (h1 hd).2
    · exact vain (h2 hd)
  | delete => exact same h.2
  | deleteHistory => obtain ⟨_, _, h, _⟩ := h; exact same h
  | setIcon => exact hh.elim
  | setName => exact hh.elim
  | setNotes => exact hh.elim
  | setTags => exact hh.elim
  | setField => exact hh.elim

/-- A standard property that is set to `None`, or to a text XML cannot hold, is gone although the call raised: title, user name, password and
the rest. -/
theorem C82_lost (env : Env) (hs : Sound s) {e : Nat} (he : s.heap.tag e = "Entry".toList) (f : Api.Field) {v : Option Str}
    (hv : ∀ t, v = some t → ¬ XmlText t) :
    (setStd env e f v s).1 = .error (if v = none then .type else .value) ∧
      (getStd env e f (setStd env e f v s).2).1 = .ok none := by
  have hx : textError v ≠ none := by
    cases v with
    | none => nofun
    | some t => intro h; rw [show textError (some t) = some .value from if_neg (hv t rfl)] at h; cases h
  obtain ⟨⟨err, h1, h2, h3⟩, _, h4⟩ := C82_step env hs (.setField e f v) ⟨entry_card.mpr he, hx⟩
  obtain ⟨c, hc⟩ := (entry_card (s := s)).mpr he
  have hr := (C71_reads env h4 (x := e) (c := c.dropField f.key) (by
    rw [h3]
    show (if e = e then ((vaultOf s).card e).map _ else _) = _
    rw [if_pos rfl, hc.1]; rfl)).2.2.2.2.2.1 f
  refine ⟨h2.trans ?_, ?_⟩
  · cases v with
    | none => injection h1 with h1; rw [← h1]; rfl
    | some t =>
      rw [show textError (some t) = some .value from if_neg (hv t rfl)] at h1
      injection h1 with h1; rw [← h1]; rfl
  · refine (congrArg Prod.fst hr).trans ?_
    show Except.ok (if f.key = f.key then none else c.field f.key : Option (Option Str)).join = _
    rw [if_pos rfl]; rfl

/-! ## The machine speaks about every call -/

theorem text_ok {t : Option Str} (h : textError t = none) : ∃ v, t = some v ∧ XmlText v := by
  cases t with
  | none => cases h
  | some v =>
    refine ⟨v, rfl, ?_⟩
    by_cases hv : XmlText v
    · exact hv
    · rw [show textError (some v) = some .value from if_neg hv] at h; cases h

theorem opt_ok {t : Option Str} (h : optError t = none) : ∀ w, t = some w → XmlText w := by
  rintro w rfl
  obtain ⟨v, e, hv⟩ := text_ok (t := some w) h
  injection e with e
  exact e ▸ hv

theorem first_ok {a : Option PyErr} {l : List (Option PyErr)} (h : firstError (a :: l) = none) : a = none ∧ firstError l = none := by
  cases a with
  | none => exact ⟨rfl, h⟩
  | some e => cases h

theorem expiry_ok {env : Env} {ver : Nat × Nat} {t : Option DateTime} (h : expiryError env ver t = none) (now : Str) :
    ∃ x, expiryText env ver t now = .ok x := by
  have := errOf_expiry env ver now t
  rw [h, expiry_eq] at this
  exact errOf_ok this

/-- Every method that changes a database, called on objects of its class, is a task of the machine, apart from the conditions `Call.Met`. -/
theorem C82_covered (env : Env) {c : Call} (ht : c.Typed s.heap) (hp : c.Public) (hm : c.Met env (officeOf s)) :
    ∃ a : Task, a.Ask env (officeOf s) ∧ a.call.run env = c.run env := by
  have el : ∀ {x}, Spec.IsElem s.heap x → (vaultOf s).IsElem x := fun {x} h => some_card.mpr (by
    rcases h with h | h <;> (intro hn; first | exact hn.1 h | exact hn.2 h))
  have en : ∀ {x}, Spec.IsEntry s.heap x → (vaultOf s).IsEntry x := fun h => entry_card.mpr h
  have gr : ∀ {x}, Spec.IsGroup s.heap x → (vaultOf s).IsGroup x := fun h => group_card.mpr h
  have op : ∀ (o : Op), o.Ask env (vaultOf s) → o.call.run env = c.run env → ∃ a : Task, a.Ask env (officeOf s) ∧ a.call.run env = c.run env :=
    fun o h e => ⟨.deed (.cards o), h, e⟩
  have dk : ∀ (o : DeskOp), o.call = c → ∃ a : Task, a.Ask env (officeOf s) ∧ a.call.run env = c.run env :=
    fun o e => ⟨.deed (.desk o), trivial, by rw [← e]; rfl⟩
  have no : ∀ (o : Refusal), o.Ask env (vaultOf s) → o.call = c → ∃ a : Task, a.Ask env (officeOf s) ∧ a.call.run env = c.run env :=
    fun o h e => ⟨.refuse o, h, by rw [← e]; rfl⟩
  have plain : ∀ {k : Str}, '"' ∉ k → XmlText k → Plain k := fun h1 h2 c hc => ⟨fun e => h1 (e ▸ hc), h2 c hc⟩
  cases c with
  | setUuid x u => exact op (.setUuid x u) (el ht) rfl
  | setIcon x v =>
    by_cases hv : textError v = none
    · obtain ⟨w, rfl, hw⟩ := text_ok hv
      exact op (.setIcon x w) ⟨el ht, hw⟩ rfl
    · exact no (.setIcon x v) ⟨el ht, hv⟩ rfl
  | setTime x p v =>
    have : ∃ q : TimeProp, q ≠ .expires ∧ q.tag = p := by
      replace hp : p ∈ _ := hp
      simp only [List.mem_cons, List.not_mem_nil, or_false] at hp
      rcases hp with rfl | rfl | rfl | rfl
      · exact ⟨.created, nofun, rfl⟩
      · exact ⟨.modified, nofun, rfl⟩
      · exact ⟨.accessed, nofun, rfl⟩
      · exact ⟨.expiry, nofun, rfl⟩
    obtain ⟨q, hq, rfl⟩ := this
    exact op (.setTime x q v) ⟨el ht, hq⟩ rfl
  | setExpires x v => exact op (.setExpires x v) (el ht) rfl
  | expired x => exact ⟨.expired x, el ht, rfl⟩
  | touch x m => exact op (.touch x m) (el ht) rfl
  | delete x =>
    by_cases hl : (vaultOf s).Listed x
    · exact op (.delete x) ⟨el ht, hl⟩ rfl
    · exact no (.delete x) ⟨el ht, hl⟩ rfl
  | setName g v =>
    by_cases hv : textError v = none
    · obtain ⟨w, rfl, hw⟩ := text_ok hv
      exact op (.setName g w) ⟨gr ht, hw⟩ rfl
    · exact no (.setName g v) ⟨gr ht, hv⟩ rfl
  | setNotes g v =>
    by_cases hv : textError v = none
    · obtain ⟨w, rfl, hw⟩ := text_ok hv
      exact op (.setNotes g w) ⟨gr ht, hw⟩ rfl
    · exact no (.setNotes g v) ⟨gr ht, hv⟩ rfl
  | append g xs => exact ⟨.append g xs, ⟨gr ht.1, fun x hx => el (ht.2 x hx)⟩, rfl⟩
  | setField e k v =>
    by_cases hv : textError v = none
    · obtain ⟨w, rfl, hw⟩ := text_ok hv
      exact op (.setField e k w) ⟨en ht, hw⟩ rfl
    · exact no (.setField e k v) ⟨en ht, hv⟩ rfl
  | setCustom e k v p =>
    by_cases hk : XmlText k
    · by_cases hv : textError v = none
      · obtain ⟨w, rfl, hw⟩ := text_ok hv
        exact op (.setCustom e k w p) ⟨en ht, plain hp hk, hk, hw⟩ rfl
      · exact no (.setCustom e k v p) ⟨en ht, plain hp hk, hv⟩ rfl
    · exact no (.badKey e k v p) ⟨en ht, hp, hk⟩ rfl
  | deleteCustom e k =>
    rcases hm with hm | hm
    · exact op (.deleteCustom e k) ⟨en ht, plain hp hm⟩ rfl
    · exact no (.noKey e k) ⟨en ht, hp, hm⟩ rfl
  | setTags e ts =>
    by_cases hv : XmlText (joinTags ts)
    · exact op (.setTags e ts) ⟨en ht, hv⟩ rfl
    · exact no (.setTags e ts) ⟨en ht, hv⟩ rfl
  | setAutoEnabled e v => exact op (.setAutoEnabled e v) (en ht) rfl
  | setAuto e w v =>
    cases v with
    | none => exact op (.setAutoText e w none) ⟨en ht, nofun⟩ rfl
    | some v =>
      by_cases hv : XmlText v
      · exact op (.setAutoText e w (some v)) ⟨en ht, fun u hu => by injection hu with hu; exact hu ▸ hv⟩ rfl
      · exact no (.setAutoText e w v) ⟨en ht, hv⟩ rfl
  | saveHistory e => exact op (.saveHistory e) (en ht) rfl
  | deleteHistory e h all =>
    cases all with
    | true => exact op (.clearHistory e) (en ht) rfl
    | false =>
      cases h with
      | none => exact no (.deleteHistory e none) ⟨en ht, nofun⟩ rfl
      | some h =>
        by_cases hl : ∃ c l, (vaultOf s).card e = some c ∧ c.past = some l ∧ h ∈ l
        · exact op (.deleteHistory e h) ⟨en ht, hl⟩ rfl
        · exact no (.deleteHistory e (some h)) ⟨en ht, fun x hx => by
            injection hx with hx
            subst hx
            exact ⟨hm, fun c l h1 h2 h3 => hl ⟨c, l, h1, h2, h3⟩⟩⟩ rfl
  | reindex e i => exact ⟨.reindex e i, hm, rfl⟩
  | addAttachment e i n =>
    by_cases hv : textError n = none
    · obtain ⟨w, rfl, hw⟩ := text_ok hv
      exact op (.addFile e i w) ⟨en ht, hw⟩ rfl
    · exact no (.addFile e i n) ⟨en ht, hv⟩ rfl
  | setAttId a i =>
    obtain ⟨e, f, h1, h2, h3⟩ := hm
    exact op (.setFileId e a i) ⟨h1, f, h2, h3⟩ rfl
  | setAttName a v =>
    obtain ⟨e, f, h1, h2, h3⟩ := hm
    cases v with
    | none => exact op (.setFileName e a none) ⟨h1, ⟨f, h2, h3⟩, nofun⟩ rfl
    | some v =>
      by_cases hv : XmlText v
      · exact op (.setFileName e a (some v)) ⟨h1, ⟨f, h2, h3⟩, fun u hu => by injection hu with hu; exact hu ▸ hv⟩ rfl
      · exact no (.setFileName e a v) ⟨h1, ⟨f, h2, h3⟩, hv⟩ rfl
  | deleteAttachment a =>
    obtain ⟨e, f, h1, h2, h3⟩ := hm
    exact op (.deleteFile e a) ⟨h1, f, h2, h3⟩ rfl
  | addGroup g n i t =>
    by_cases hv : firstError (optError i :: groupErrors env (vaultOf s) n t) = none
    · obtain ⟨h1, hv⟩ := first_ok hv
      obtain ⟨h2, hv⟩ := first_ok hv
      obtain ⟨h3, hv⟩ := first_ok hv
      obtain ⟨h4, _⟩ := first_ok hv
      obtain ⟨w, rfl, hw⟩ := text_ok h3
      exact op (.addGroup g w i t) ⟨gr ht, hw, opt_ok h1, opt_ok h4, errOf_ok ((errOf_time ..).trans h2)⟩ rfl
    · exact no (.addGroup g n i t) ⟨gr ht, hv⟩ rfl
  | addEntry g a force =>
    obtain ⟨t, n, b1, b2, b3, b4, b5⟩ := hm
    by_cases hv : firstError (optError a.icon :: entryErrors env (vaultOf s) a) = none
    · obtain ⟨h1, hv⟩ := first_ok hv
      obtain ⟨h2, hv⟩ := first_ok hv
      obtain ⟨h3, hv⟩ := first_ok hv
      obtain ⟨_, hv⟩ := first_ok hv
      obtain ⟨_, hv⟩ := first_ok hv
      obtain ⟨h6, hv⟩ := first_ok hv
      obtain ⟨h7, hv⟩ := first_ok hv
      obtain ⟨h8, hv⟩ := first_ok hv
      obtain ⟨h9, hv⟩ := first_ok hv
      obtain ⟨h10, _⟩ := first_ok hv
      obtain ⟨p, hp1, hp2⟩ := text_ok h6
      obtain ⟨now, hn⟩ := errOf_ok ((errOf_time ..).trans h2)
      obtain ⟨x, hx⟩ := expiry_ok h3 now
      exact op (.addEntry g a force) ⟨gr ht, ⟨t, n, p, now, x, b1, b2, b3, b4, hp1, hp2, hn, hx, b5⟩, opt_ok h7, opt_ok h8, opt_ok h9,
        fun ts hts => opt_ok h10 _ (by rw [hts]; rfl), opt_ok h1⟩ rfl
    · exact no (.addEntry g a force) ⟨gr ht, hv, t, n, b1, b2, b3, b4, b5⟩ rfl
  | moveGroup x g => exact op (.moveGroup x g) ⟨gr ht.1, gr ht.2⟩ rfl
  | moveEntry x g => exact op (.moveEntry x g) ⟨en ht.1, gr ht.2⟩ rfl
  | trash x => exact ⟨.trash x, ⟨el ht, hm⟩, rfl⟩
  | emptyGroup g => exact op (.emptyGroup g) (gr ht) rfl
  | addBinary d c p => exact dk (.addData d c p) rfl
  | deleteBinary i =>
    refine ⟨.deleteData i.toNat, hm.2, ?_⟩
    show Api.deleteBinary env (i.toNat : Int) = Api.deleteBinary env i
    rw [Int.toNat_of_nonneg hm.1]
  | setMeta n v =>
    have : ∃ q : Setting, q.tag = n := by
      replace hp : n ∈ _ := hp
      simp only [List.mem_cons, List.not_mem_nil, or_false] at hp
      rcases hp with rfl | rfl | rfl
      · exact ⟨.name, rfl⟩
      · exact ⟨.description, rfl⟩
      · exact ⟨.username, rfl⟩
    obtain ⟨q, rfl⟩ := this
    exact dk (.set q v) rfl
  | setCredDate d => exact dk (.setDate d) rfl
  | setCredDays r n => exact dk (.setDays r n) rfl
  | credChange r => exact ⟨.due r, trivial, rfl⟩
  | setPassword p => exact dk (.setPassword p) rfl
  | setKeyfile p => exact dk (.setKeyfile p) rfl

/-- A task of the machine raises what its call raises. -/
theorem task_raised (env : Env) (a : Task) (s : Db) : raised (a.run env s).1 = raised (a.call.run env s).1 := by
  have key : ∀ {α β} (m : M α) (f : α → β), raised ((do let x ← m; pure (f x) : M β) s).1 = raised (m s).1 := by
    intro α β m f
    rw [bind_run]
    cases m s with
    | mk r t => cases r <;> rfl
  cases a with
  | deed a =>
    have e : raised ((Task.deed a).run env s).1 = _ := key (a.run env) Reply.deed
    rw [e]
    cases a with
    | cards o =>
      have e : raised ((Deed.cards o).run env s).1 = _ := key (o.run env) (Sum.inl (β := Option Int))
      rw [e]
      cases o with
      | addGroup g n i t => exact (key (addGroup env g (some n) i t) some).trans (key (addGroup env g (some n) i t) fun _ => ()).symm
      | addEntry g a f => exact (key (addEntry env g a f) some).trans (key (addEntry env g a f) fun _ => ()).symm
      | addFile x i n => exact (key (addAttachment x i (some n)) some).trans (key (addAttachment x i (some n)) fun _ => ()).symm
      | _ => exact key _ fun _ => none
    | desk o =>
      have e : raised ((Deed.desk o).run env s).1 = _ := key (o.run env) (Sum.inr (α := Option Nat))
      rw [e]
      cases o with
      | addData d c p => exact (key (addBinary env d c p) some).trans (key (addBinary env d c p) fun _ => ()).symm
      | _ => exact key _ fun _ => none
  | expired x => exact (key (Api.expired env x) Reply.truth).trans (key (Api.expired env x) fun _ => ()).symm
  | due q => exact (key (Api.credChange env q) Reply.truth).trans (key (Api.credChange env q) fun _ => ()).symm
  | append g xs => exact key (Api.groupAppendAll g xs) fun _ => Reply.done
  | reindex e i => exact key (Api.reindex e i) fun _ => Reply.done
  | trash x => exact key (Api.trash env x) fun _ => Reply.done
  | deleteData n => exact key (Api.deleteBinary env n) fun _ => Reply.done
  | refuse o => exact key (o.call.run env) fun _ => Reply.done

/-- Any sequence of such calls is a run of the machine: the same calls, the same exceptions, and the cards, settings and data it ends with. -/
theorem C82_run (env : Env) {s s' : Db} (hs : Sound s) (hf : Filed s.heap) {l : List Call} (h : Called env s l s') :
    ∃ w : List (Task × Except PyErr Reply), w.map (fun p => p.1.call.run env) = l.map (Call.run env) ∧ Served env s w s' ∧
      Proceeds env (officeOf s) w (officeOf s') := by
  suffices ∃ w : List (Task × Except PyErr Reply), w.map (fun p => p.1.call.run env) = l.map (Call.run env) ∧ Served env s w s' by
    obtain ⟨w, h1, h2⟩ := this
    exact ⟨w, h1, h2, (C77_run env hs hf h2).1⟩
  induction h with
  | nil s => exact ⟨[], rfl, .nil s⟩
  | @cons s t c l ht hp hm _ ih =>
    obtain ⟨a, h1, h2⟩ := C82_covered env ht hp hm
    obtain ⟨_, h3, h4⟩ := C77_step env hs hf a h1
    have e : (a.run env s).2 = (c.run env s).2 := by rw [task_state, h2]
    rw [e] at h3 h4
    obtain ⟨w, h5, h6⟩ := ih h3 h4
    refine ⟨(a, (a.run env s).1) :: w, ?_, .cons h1 (by rw [e]; exact h6)⟩
    rw [List.map_cons, List.map_cons, h5, h2]

/-- One such call. -/
theorem C82_call (env : Env) (hs : Sound s) (hf : Filed s.heap) {c : Call} (ht : c.Typed s.heap) (hp : c.Public) (hm : c.Met env (officeOf s)) :
    ∃ (a : Task) (r : Except PyErr Reply), a.call.run env = c.run env ∧ raised r = raised (c.run env s).1 ∧
      a.Step env (officeOf s) r (officeOf (c.run env s).2) ∧ Sound (c.run env s).2 ∧ Filed (c.run env s).2.heap := by
  obtain ⟨a, h1, h2⟩ := C82_covered env ht hp hm
  obtain ⟨h3, h4, h5⟩ := C77_step env hs hf a h1
  have e : (a.run env s).2 = (c.run env s).2 := by rw [task_state, h2]
  rw [e] at h3 h4 h5
  exact ⟨a, _, h2, by rw [task_raised, h2], h3, h4, h5⟩

end

/-! ## The hypotheses hold -/

example : Refusal.Ask Sample.env (vaultOf Sample.db) (.setField 23 .password none) :=
  ⟨entry_card.mpr (by decide +kernel), nofun⟩

example : Refusal.Ask Sample.env (vaultOf Sample.db) (.addGroup 14 (some "x".toList) none (some [Char.ofNat 1])) :=
  ⟨group_card.mpr (by decide +kernel), by decide +kernel⟩

/-- The password is there before and gone after the call that raised; the name of a group too. A group that could not be made is not there. -/
example : (getStd Sample.env 23 .password Sample.db).1 = .ok (some "s3".toList) ∧
    (setStd Sample.env 23 .password none Sample.db).1 = .error .type ∧
    (getStd Sample.env 23 .password (setStd Sample.env 23 .password none Sample.db).2).1 = .ok none ∧
    (setName 93 (some [Char.ofNat 1]) Sample.db).1 = .error .value ∧
    (getName 93 Sample.db).1 = .ok (some "Work".toList) ∧
    (getName 93 (setName 93 (some [Char.ofNat 1]) Sample.db).2).1 = .ok none ∧
    (addGroup Sample.env 14 none none none Sample.db).1 = .error .type ∧
    (groupSubgroups 14 (addGroup Sample.env 14 none none none Sample.db).2).1 = (groupSubgroups 14 Sample.db).1 ∧
    (delete 131 Sample.db).1 = .error .attribute := by
  refine ⟨?_, ?_, ?_, ?_, ?_, ?_, ?_, ?_, ?_⟩ <;> decide +kernel

/-- Calls of which the first, third and fourth are refused. -/
def vainCalls : List Call := [.setField 23 .password none, .setIcon 93 (some "5".toList), .delete 131, .addGroup 14 none none none, .trash 23]

example : ∃ t, Called Sample.env Sample.db vainCalls t := by
  refine ⟨_, .cons (?_ : Spec.IsEntry _ _) trivial trivial (.cons (?_ : Spec.IsElem _ _) trivial trivial (.cons (?_ : Spec.IsElem _ _) trivial trivial
    (.cons (?_ : Spec.IsGroup _ _) trivial trivial (.cons (?_ : Spec.IsElem _ _) trivial ⟨?_, is_ok ?_, ?_⟩ (.nil _)))))⟩
  · show _ = _; decide +kernel
  · refine .inr ?_; show _ = _; decide +kernel
  · refine .inl ?_; show _ = _; decide +kernel
  · show _ = _; decide +kernel
  · refine .inl ?_; show _ = _; decide +kernel
  · decide +kernel
  · decide +kernel
  · decide +kernel

end Verif.Props
