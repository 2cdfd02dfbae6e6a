import Verif.Api.Keep
import Verif.Api.RefLemmas
import Verif.Api.PlaceLemmas
/-!
# What the methods leave alone
-/
namespace Verif.Api
open Verif XPath Spec

/-! ## Methods that only read -/

/-- The call changes nothing. -/
structure Still {α} (m : M α) : Prop where
  eq : ∀ s, (m s).2 = s

theorem still_pure {α} (a : α) : Still (pure a) := ⟨fun _ => rfl⟩
theorem still_fail {α} (e : PyErr) : Still (fail e : M α) := ⟨fun _ => rfl⟩
theorem still_lift {α} (x : Except PyErr α) : Still (lift x) := ⟨fun _ => rfl⟩
theorem still_reads {α} (f : Db → α) : Still (reads f) := ⟨fun _ => rfl⟩
theorem still_orAttr {α} (o : Option α) : Still (orAttr o) := by cases o <;> exact ⟨fun _ => rfl⟩
theorem still_xpath (env : Env) (c : Option Nat) (q : Str) : Still (xpath env c q) := ⟨fun _ => rfl⟩
theorem still_placeOf (e : Nat) : Still (placeOf e) := ⟨fun s => by
  unfold placeOf
  split <;> rfl⟩
theorem still_contentOf (e : Nat) : Still (contentOf e) := ⟨fun s => by
  unfold contentOf
  split <;> rfl⟩
theorem still_findEntry (env : Env) (r : Bool) (a : FindArgs) : Still (findEntry env r a) := ⟨fun _ => rfl⟩
theorem still_findEntryList (env : Env) (r : Bool) (a : FindArgs) : Still (findEntryList env r a) := ⟨fun _ => rfl⟩
theorem still_findGroup (env : Env) (r : Bool) (a : FindArgs) : Still (findGroup env r a) := ⟨fun _ => rfl⟩
theorem still_findGroupList (env : Env) (r : Bool) (a : FindArgs) : Still (findGroupList env r a) := ⟨fun _ => rfl⟩
theorem still_findAttachmentList (env : Env) (r : Bool) (a : FindArgs) : Still (findAttachmentList env r a) := ⟨fun _ => rfl⟩
theorem still_entryAttachments (env : Env) (e : Nat) : Still (entryAttachments env e) := ⟨fun _ => rfl⟩
theorem still_xpathCast (env : Env) (q : Str) : Still (xpathCast env q) := ⟨fun _ => rfl⟩

theorem still_bind {α β} {m : M α} {k : α → M β} (h1 : Still m) (h2 : ∀ a, Still (k a)) : Still (m >>= k) := by
  refine ⟨fun s => ?_⟩
  have e : (m >>= k) s = match m s with | (.ok a, s') => k a s' | (.error e, s') => (.error e, s') := rfl
  rw [e]
  have := h1.eq s
  generalize m s = r at this
  obtain ⟨r, t⟩ := r
  have : t = s := this
  subst this
  cases r with
  | error e => rfl
  | ok a => exact (h2 a).eq t

/-- Discharges `Still` goals. -/
macro "still" : tactic => `(tactic| repeat' first
  | with_reducible exact still_pure _ | with_reducible exact still_fail _ | with_reducible exact still_lift _ | with_reducible exact still_reads _ | with_reducible exact still_orAttr _
  | with_reducible exact still_xpath _ _ _ | with_reducible exact still_placeOf _ | with_reducible exact still_contentOf _ | with_reducible exact still_findEntry _ _ _
  | with_reducible exact still_findGroup _ _ _ | with_reducible exact still_findAttachmentList _ _ _ | with_reducible exact still_xpathCast _ _
  | assumption | with_reducible apply still_bind | intro _ | split)

theorem still_xpathFirst (env : Env) (c : Option Nat) (q : Str) : Still (xpathFirst env c q) := by unfold xpathFirst; still
theorem still_textOf (i : Nat) : Still (textOf i) := still_reads _
theorem still_getSub (e : Nat) (t : Str) : Still (getSub e t) := by unfold getSub findKid textOf; still
theorem still_getUuid (e : Nat) : Still (getUuid e) := still_bind (still_getSub _ _) fun _ => still_lift _
theorem still_groupOf (e : Nat) : Still (groupOf e) := by unfold groupOf; still
theorem still_getTime (e : Nat) (p : Str) : Still (getTime e p) := by unfold getTime findKid textOf; still
theorem still_getExpires (e : Nat) : Still (getExpires e) := by unfold getExpires findKid textOf; still
theorem still_getField (env : Env) (e : Nat) (k : Str) : Still (getField env e k) := by unfold getField xpathFirst textOf; still
theorem still_markFor (env : Env) (e : Nat) (k : Str) (o : Option Bool) : Still (markFor env e k o) := by
  cases o <;> unfold markFor xpathFirst attrOf <;> still
theorem still_keyTexts (l : List Nat) : Still (keyTexts l) := by
  induction l with
  | nil => exact still_pure _
  | cons a l ih => unfold keyTexts findKid textOf; still
theorem still_fieldKeys (e : Nat) (b : Bool) : Still (fieldKeys e b) := by
  unfold fieldKeys findKids
  refine still_bind (still_reads _) fun l => still_bind (still_keyTexts l) fun _ => still_pure _
theorem still_firstEntry (g : Nat) : Still (firstEntry g) := by unfold firstEntry childrenOf; still
theorem still_entryIndex (e : Nat) : Still (entryIndex e) := by
  unfold entryIndex childrenOf
  refine still_bind (still_groupOf e) fun _ => still_bind (still_orAttr _) fun g => still_bind (still_reads _) fun _ =>
    still_bind (still_firstEntry g) fun _ => ?_
  still
theorem still_history (e : Nat) : Still (history e) := by unfold history findKid findKids; still
theorem still_metaEl (env : Env) (n : Str) : Still (metaEl env n) := still_xpathFirst _ _ _
theorem still_getMeta (env : Env) (n : Str) : Still (getMeta env n) :=
  still_bind (still_metaEl _ _) fun _ => still_bind (still_orAttr _) fun _ => still_reads _
theorem still_rootGroup (env : Env) : Still (rootGroup env) := still_findGroup _ _ _
theorem still_recycleBin (env : Env) : Still (recycleBin env) :=
  still_bind (still_metaEl _ _) fun _ => still_bind (still_orAttr _) fun _ => still_bind (still_textOf _) fun _ =>
    still_bind (still_lift _) fun _ => still_findGroup _ _ _
theorem still_sameUuid (a b : Nat) : Still (sameUuid a b) :=
  still_bind (still_getUuid _) fun _ => still_bind (still_getUuid _) fun _ => still_pure _
theorem still_eqOpt (x : Nat) (o : Option Nat) : Still (eqOpt x o) := by
  cases o with
  | none => exact still_pure _
  | some r => exact still_sameUuid x r
theorem still_canBeTrashed (env : Env) (x : Nat) : Still (canBeTrashed env x) := by
  refine still_bind (still_rootGroup env) fun r => still_bind (still_eqOpt x r) fun same => ?_
  split
  · exact still_pure _
  · refine still_bind (still_recycleBin env) fun b => ?_
    split
    · exact still_pure _
    · exact still_bind (still_getUuid x) fun u => still_bind (still_xpathFirst _ _ _) fun _ => still_pure _
theorem still_groupPath (g : Nat) : Still (groupPath g) := by unfold groupPath; still
theorem still_binaries (env : Env) : Still (binaries env) := by unfold binaries; still
theorem still_attId (a : Nat) : Still (attId a) := by unfold attId findKid attrOf; still
theorem still_credDate (env : Env) : Still (credDate env) := by unfold credDate metaEl xpathFirst textOf; still
theorem still_credDays (env : Env) (b : Bool) : Still (credDays env b) := by unfold credDays metaEl xpathFirst textOf; still

variable {f : Frame} {s : Db}

theorem Still.run {α} {m : M α} (h : Still m) : Run f s m fun a t => t = s ∧ m s = (.ok a, s) := run_still (h.eq s)

theorem Still.keeps {α} {m : M α} (h : Still m) : Keeps f s m := h.run.keeps

theorem textEl_tag {t : Str} {a : List (Str × Str)} {v : Option Str} {x : Xml} (h : textEl t a v = .ok x) : x.tag = t := by
  unfold textEl at h
  cases hv : argText v with
  | error e => rw [hv] at h; cases h
  | ok y => rw [hv] at h; injection h with h; rw [← h]; rfl

theorem stringEl_tag {k : Str} {v : Option Str} {p : Option Str} {x : Xml} (h : stringEl k v p = .ok x) : x.tag = "String".toList := by
  have aux : ∀ at', (do
      let k ← textEl "Key".toList [] (some k)
      let v ← textEl "Value".toList at' v
      pure (Xml.mk "String".toList [] none [k, v])) = Except.ok x → x.tag = "String".toList := by
    intro at' h
    cases h1 : textEl "Key".toList [] (some k) with
    | error e => rw [h1] at h; cases h
    | ok a =>
      rw [h1] at h
      replace h : (textEl "Value".toList at' v).bind _ = _ := h
      cases h2 : textEl "Value".toList at' v with
      | error e => rw [h2] at h; cases h
      | ok b => rw [h2] at h; injection h with h; rw [← h]; rfl
  cases p <;> exact aux _ h

/-- Replacing a child. -/
theorem keeps_setSub {e : Nat} {t : Str} {v : Option Str} (he : Own f s e) (hP : ¬ f.P e t)
    (hB : f.fine = true → s.heap.tag e ∈ boxTags ∧ Xml.isName t = true ∧ t ∉ boxTags)
    (hS : f.shape = true → homes.lookup t = none)
    (hX : f.shape = true → f.files = true → s.heap.tag e ∈ ["Entry".toList, "Group".toList, "History".toList] ∧ t ≠ "Binaries".toList := by nofun) :
    Keeps f s (setSub e t v) := by
  unfold setSub
  refine (run_findKid e t).bind fun o u _ ⟨hu, ho⟩ => ?_
  subst hu
  refine (keeps_removeOld he.ne he.free fun c hc _ => by rw [(ho c hc).2]; exact hP).bind fun _ a ha _ => ?_
  refine (run_lift _).bind fun x b hb ⟨e1, e2⟩ => ?_
  subst e1
  refine (run_make (ha.ids e he.mem) he.ne he.free ?_ (fun h => ?_) (fun h => ?_) fun h h' => tame_takes (by rw [ha.tag e he.mem]; exact (hX h h').1)
    (tame_textEl ⟨fun e => by have := hS h; rw [e] at this; exact absurd this (by decide), (hX h h').2⟩ e2)).bind fun _ _ _ _ => keeps_pure ()
  · rw [textEl_tag e2]
    exact hP
  · rw [ha.tag e he.mem]
    exact ⟨(hB h).1, tidy_textEl (hB h).2.1 (hB h).2.2 e2⟩
  · rw [textEl_tag e2]
    exact ⟨home_free (hS h), shaped_textEl e2⟩

theorem keeps_setTime {e : Nat} {p : Str} {v : DateTime} (he : Own f s e) (hp : f.uuid = true → p ≠ "UUID".toList)
    (hL : f.fine = true → p ∈ leafTags) : Keeps f s (setTime e p v) := by
  refine Run.of_good fun hg => ?_
  unfold setTime
  refine (run_findKid e _).bind fun o u _ ⟨hu, ho⟩ => ?_
  subst hu
  cases o with
  | none => exact keeps_pure ()
  | some t =>
    obtain ⟨h1, h2⟩ := ho t rfl
    have ht : Own f u t := he.sub hg h1 (by rw [h2]; exact gate_ne (by decide) (by decide))
    refine (run_findKid t p).bind fun o w _ ⟨hw, ho⟩ => ?_
    subst hw
    cases o with
    | none => exact keeps_pure ()
    | some x =>
      refine (run_reads _).bind fun ver w _ ⟨hw, _⟩ => ?_
      subst hw
      refine (run_lift _).bind fun y b _ ⟨e1, _⟩ => ?_
      subst e1
      exact keeps_setText _ _ (ht.kid hg (ho x rfl).1).2.2 (fun hU => by rw [(ho x rfl).2]; exact hp hU)
        fun h => by rw [(ho x rfl).2]; exact hL h

theorem keeps_setExpires {e : Nat} {v : Bool} (he : Own f s e) : Keeps f s (setExpires e v) := by
  refine Run.of_good fun hg => ?_
  unfold setExpires
  refine (run_findKid e _).bind fun o u _ ⟨hu, ho⟩ => ?_
  subst hu
  refine (run_orAttr o).bind fun t w _ ⟨hw, e1⟩ => ?_
  subst hw
  obtain ⟨h1, h2⟩ := ho t e1
  have ht : Own f w t := he.sub hg h1 (by rw [h2]; exact gate_ne (by decide) (by decide))
  refine (run_findKid t _).bind fun o u _ ⟨hu, ho⟩ => ?_
  subst hu
  refine (run_orAttr o).bind fun x w _ ⟨hw, e1⟩ => ?_
  subst hw
  exact keeps_setText _ _ (ht.kid hg (ho x e1).1).2.2 (fun _ => by rw [(ho x e1).2]; decide) fun _ => by rw [(ho x e1).2]; decide

theorem keeps_touch (env : Env) {e : Nat} {b : Bool} (he : Own f s e) : Keeps f s (touch env e b) := by
  unfold touch
  refine (run_now env).bind fun now u hu _ => ?_
  refine (keeps_setTime (he.kept hu) (fun _ => by decide) fun _ => by decide).bind fun _ w hw _ => ?_
  split
  · exact keeps_setTime ((he.kept hu).kept hw) (fun _ => by decide) fun _ => by decide
  · exact keeps_pure ()

theorem keeps_expired (env : Env) (e : Nat) : Keeps f s (expired env e) := by
  unfold expired
  refine (still_getExpires e).keeps.bind fun x u _ _ => ?_
  split
  · refine (run_now env).bind fun now w _ _ => (still_getTime e _).keeps.bind fun t z _ _ => ?_
    cases t with
    | none => exact run_fail _
    | some t => exact (still_lift _).keeps
  · exact keeps_pure _

theorem run_parentOf (hg : Good f s) (e : Nat) : Run f s (parentOf e) fun o u => u = s ∧ ∀ p, o = some p → p ≠ 0 ∧ e ∈ s.heap.kids p := by
  refine (still_reads _).run.mono fun o u _ ⟨h1, h2⟩ => ⟨h1, fun p hp => ?_⟩
  subst hp
  have h2 : (match s.world.parent? e with | none => none | some p => if p.id = 0 then none else some p.id) = some p := by
    injection h2 with h2 _
    injection h2
  cases hq : s.world.parent? e with
  | none => rw [hq] at h2; cases h2
  | some q =>
    rw [hq] at h2
    simp only at h2
    split at h2
    · cases h2
    · next h0 =>
      injection h2 with h2
      obtain ⟨a1, k, a2, a3⟩ := Node.parent?_some hq
      subst h2
      refine ⟨h0, ?_⟩
      rw [node_kids (Node.get?_mem hg.inv.world.uniq a1)]
      exact List.mem_map.mpr ⟨k, a2, a3⟩

/-- Deleting an element that may be taken from where it is. -/
theorem keeps_delete {e : Nat} (he : Movable f s e) : Keeps f s (delete e) := by
  refine Run.of_good fun hg => ?_
  unfold delete
  refine (run_parentOf hg e).bind fun o u _ ⟨hu, ho⟩ => ?_
  subst hu
  refine (run_orAttr o).bind fun p w _ ⟨hw, e1⟩ => ?_
  subst hw
  obtain ⟨h0, hk⟩ := ho p e1
  obtain ⟨h1, h2⟩ := he.out p hk
  exact (keeps_removeKid h0 h1 fun _ => h2 h0).keeps

theorem keeps_groupAppendAll {g : Nat} (hg : g ∈ s.world.ids) (hF : ¬ f.F g) (hB : f.fine = true → s.heap.tag g ∈ boxTags) (l : List Nat)
    (hl : ∀ c ∈ l, Movable f s c ∧ ¬ f.P g (s.heap.tag c) ∧ ¬ f.F c)
    (hS : f.shape = true → ∀ c ∈ l, Home (s.heap.tag g) (s.heap.tag c))
    (hX : f.shape = true → f.files = true → ∀ c ∈ l, s.heap.tag c = "Entry".toList ∨ s.heap.tag c = "Group".toList := by nofun) :
    Keeps f s (groupAppendAll g l) := by
  induction l generalizing s with
  | nil => exact keeps_pure ()
  | cons c l ih =>
    unfold groupAppendAll
    obtain ⟨a1, a2, a3⟩ := hl c (List.mem_cons_self ..)
    refine (keeps_appendEl a1 hg hF (fun _ => a2) (fun _ => a3) hB (fun h => hS h c (List.mem_cons_self ..))
      fun h h' => hX h h' c (List.mem_cons_self ..)).bind fun _ u hu _ => ?_
    refine ih (hu.ids g hg) (fun h => by rw [hu.tag g hg]; exact hB h) (fun k hk => ?_) (fun h k hk => ?_) fun h h' k hk => by
      rw [hu.tag k (hl k (List.mem_cons_of_mem _ hk)).1.mem]
      exact hX h h' k (List.mem_cons_of_mem _ hk)
    · obtain ⟨b1, b2, b3⟩ := hl k (List.mem_cons_of_mem _ hk)
      exact ⟨b1.kept hu, by rw [hu.tag k b1.mem]; exact b2, b3⟩
    · rw [hu.tag g hg, hu.tag k (hl k (List.mem_cons_of_mem _ hk)).1.mem]
      exact hS h k (List.mem_cons_of_mem _ hk)

/-- The field element of a key without quotes is a `String`. -/
theorem run_fieldEl (env : Env) {e : Nat} (he : Own f s e) {key : Str} (hk : Plain key) :
    Run f s (xpathFirst env (some e) (fieldQuery key)) fun o u => u = s ∧ ∀ c, o = some c → c ∈ s.heap.kids e ∧ s.heap.tag c = "String".toList := by
  refine Run.of_good fun hg => (still_xpathFirst env _ _).run.mono fun o u _ ⟨h1, h2⟩ => ⟨h1, fun c hc => ?_⟩
  unfold xpathFirst at h2
  rw [bind_of (xpath_field env hg.inv he.ne he.mem hk)] at h2
  have h2 : (fieldEls s.heap e key).head? = o := by
    injection h2 with h2 _
    injection h2
  rw [hc] at h2
  have := List.mem_of_mem_head? h2
  unfold fieldEls at this
  have := (List.mem_filter.mp this).1
  obtain ⟨b1, b2⟩ := List.mem_filter.mp this
  exact ⟨b1, beq_iff_eq.mp b2⟩

/-- A key with characters XML does not allow is refused. -/
theorem no_fieldEl (env : Env) (e : Nat) {key : Str} (hx : ¬ XmlText key) (Q : Option Nat → Db → Prop) :
    Run f s (xpathFirst env (some e) (fieldQuery key)) Q := by
  have hq : ¬ XmlText (fieldQuery key) := by
    intro h
    refine hx fun c hc => h c ?_
    have e : fieldQuery key = "String/Key[text()=\"".toList ++ (key ++ "\"]/..".toList) := rfl
    rw [e]
    exact List.mem_append_right _ (List.mem_append_left _ hc)
  have hp : parse (fieldQuery key) = .error .value := by unfold parse; rw [if_neg hq]
  refine (still_xpathFirst env _ _).run.mono fun o u _ ⟨_, h2⟩ => ?_
  have h3 : xpath env (some e) (fieldQuery key) s = (.error .value, s) := by
    unfold xpath
    rw [query_eq, hp]
    rfl
  unfold xpathFirst at h2
  rw [bind_err h3] at h2
  cases h2

theorem lookup_mem {κ ν} [BEq κ] [LawfulBEq κ] {l : List (κ × ν)} {k : κ} {v : ν} (h : l.lookup k = some v) : (k, v) ∈ l := by
  induction l with
  | nil => cases h
  | cons p l ih =>
    rw [List.lookup_cons] at h
    cases hp : k == p.1 with
    | true =>
      rw [hp] at h
      injection h with h
      rw [beq_iff_eq.mp hp, ← h]
      exact List.mem_cons_self ..
    | false => rw [hp] at h; exact List.mem_cons_of_mem _ (ih h)

/-- The mark for a new value has only characters XML allows. -/
theorem run_markFor (env : Env) {e : Nat} (he : Own f s e) {key : Str} {o : Option Bool} (hk : f.fine = true → Plain key) :
    Run f s (markFor env e key o) fun m u => u = s ∧ (f.fine = true → ∀ q, m = some q → XmlText q) := by
  refine Run.of_good fun hg => (still_markFor env e key o).run.mono fun m u _ ⟨h1, h2⟩ => ⟨h1, fun hf q hq => ?_⟩
  cases o with
  | some b =>
    unfold markFor at h2
    injection h2 with h2 _
    injection h2 with h2
    rw [hq] at h2
    injection h2 with h2
    rw [← h2]
    exact pyBool_xml b
  | none =>
    have e1 : xpathFirst env (some e) (valueQuery key) s = (.ok (valueEls s.heap e key).head?, s) := by
      unfold xpathFirst
      rw [bind_of (xpath_value env hg.inv he.ne he.mem (hk hf))]
      rfl
    unfold markFor at h2
    dsimp only at h2
    rw [bind_of e1] at h2
    replace h2 : (match (valueEls s.heap e key).head? with
      | none => pure none
      | some v => attrOf v "Protected".toList : M (Option Str)) s = (.ok m, s) := h2
    cases hv : (valueEls s.heap e key).head? with
    | none =>
      rw [hv] at h2
      injection h2 with h2 _
      injection h2 with h2
      rw [← h2] at hq
      cases hq
    | some v =>
      rw [hv] at h2
      injection h2 with h2 _
      injection h2 with h2
      rw [hq] at h2
      have hm := List.mem_of_mem_head? hv
      unfold valueEls at hm
      obtain ⟨c, _, hm⟩ := List.mem_flatMap.mp hm
      have h0 := kid_ne_zero hg.inv (List.mem_filter.mp hm).1
      replace h2 : (s.heap v).bind (fun r => r.attrs.lookup "Protected".toList) = some q := h2
      cases hr : s.heap v with
      | none => rw [hr] at h2; cases h2
      | some r =>
        rw [hr] at h2
        exact ((hg.tidy hf v r h0 hr).attrs _ (lookup_mem h2)).2

/-- The key may contain quotes only if no child of the entry is to be left alone. -/
theorem keeps_setField (env : Env) {e : Nat} {key : Str} {v : Option Str} {p : Option Bool} (he : Own f s e)
    (hP : ¬ f.P e "String".toList) (hk : (∀ c ∈ key, c ≠ '"') ∨ ∀ t, ¬ f.P e t)
    (hB : f.fine = true → s.heap.tag e ∈ boxTags ∧ ∀ c ∈ key, c ≠ '"')
    (hS : f.shape = true → s.heap.tag e = "Entry".toList) : Keeps f s (setField env e key v p) := by
  by_cases hx : XmlText key
  case neg =>
    unfold setField
    exact (no_fieldEl env e hx fun _ _ => False).bind fun _ _ _ h => h.elim
  have h1 : Run f s (xpathFirst env (some e) (fieldQuery key)) fun o u => u = s ∧ ∀ c, o = some c → ¬ f.P e (s.heap.tag c) := by
    rcases hk with hk | hk
    · exact (run_fieldEl env he fun c hc => ⟨hk c hc, hx c hc⟩).mono fun o u _ h => ⟨h.1, fun c hc => by rw [(h.2 c hc).2]; exact hP⟩
    · exact (still_xpathFirst env _ _).run.mono fun o u _ h => ⟨h.1, fun c _ => hk _⟩
  unfold setField
  refine h1.bind fun o u _ ⟨hu, ho⟩ => ?_
  subst hu
  refine (run_markFor env he fun h c hc => ⟨(hB h).2 c hc, hx c hc⟩).bind fun m w _ ⟨hw, hmark⟩ => ?_
  subst hw
  refine (keeps_removeOld he.ne he.free fun c hc _ => ho c hc).bind fun _ a ha _ => ?_
  refine (run_lift _).bind fun x b hb ⟨e1, e2⟩ => ?_
  subst e1
  refine (run_make (ha.ids e he.mem) he.ne he.free ?_ (fun h => ?_) (fun h => ?_) fun h _ => tame_takes (by rw [ha.tag e he.mem, hS h]; decide)
    (tame_string e2)).bind fun _ _ _ _ => keeps_pure ()
  · rw [stringEl_tag e2]
    exact hP
  · rw [ha.tag e he.mem]
    exact ⟨(hB h).1, tidy_string (hmark h) e2⟩
  · rw [ha.tag e he.mem, hS h, stringEl_tag e2]
    exact ⟨by decide, (shaped_string e2).1⟩

theorem keeps_setStd (env : Env) {e : Nat} {k : Field} {v : Option Str} (he : Own f s e)
    (hP : ¬ f.P e "String".toList) (hB : f.fine = true → s.heap.tag e ∈ boxTags)
    (hS : f.shape = true → s.heap.tag e = "Entry".toList) : Keeps f s (setStd env e k v) := by
  have hk : ∀ c ∈ k.key, c ≠ '"' := by cases k <;> decide
  have h : ∀ p, Keeps f s (setField env e k.key v p) := fun p => keeps_setField env he hP (.inl hk) (fun h => ⟨hB h, hk⟩) hS
  unfold setStd
  have h2 : Keeps f s (do
      let old ← getField env e k.key
      if old.getD [] ≠ [] then setField env e k.key v else setField env e k.key v (some true)) := by
    refine (still_getField env e _).run.bind fun old u _ ⟨hu, _⟩ => ?_
    subst hu
    split
    · exact h _
    · exact h _
  cases k <;> first | exact h none | exact h2

theorem keeps_setCustom (env : Env) {e : Nat} {key : Str} {v : Option Str} {b : Bool} (he : Own f s e)
    (hP : ¬ f.P e "String".toList) (hk : (∀ c ∈ key, c ≠ '"') ∨ ∀ t, ¬ f.P e t)
    (hB : f.fine = true → s.heap.tag e ∈ boxTags ∧ ∀ c ∈ key, c ≠ '"')
    (hS : f.shape = true → s.heap.tag e = "Entry".toList) : Keeps f s (setCustom env e key v b) := by
  unfold setCustom
  split
  · exact run_fail _
  · exact keeps_setField env he hP hk hB hS

theorem keeps_deleteCustom (env : Env) {e : Nat} {key : Str} (he : Own f s e)
    (hP : ¬ f.P e "String".toList) (hk : (∀ c ∈ key, c ≠ '"') ∨ ∀ t, ¬ f.P e t) : Keeps f s (deleteCustom env e key) := by
  have h1 : Run f s (xpathFirst env (some e) (fieldQuery key)) fun o u => u = s ∧ ∀ c, o = some c → ¬ f.P e (s.heap.tag c) := by
    by_cases hx : XmlText key
    case neg => exact no_fieldEl env e hx _
    rcases hk with hk | hk
    · exact (run_fieldEl env he fun c hc => ⟨hk c hc, hx c hc⟩).mono fun o u _ h => ⟨h.1, fun c hc => by rw [(h.2 c hc).2]; exact hP⟩
    · exact (still_xpathFirst env _ _).run.mono fun o u _ h => ⟨h.1, fun c _ => hk _⟩
  unfold deleteCustom
  refine (still_fieldKeys e true).run.bind fun ks u _ ⟨hu, _⟩ => ?_
  subst hu
  split
  · refine h1.bind fun o w _ ⟨hw, ho⟩ => ?_
    subst hw
    cases o with
    | none => exact run_fail _
    | some c => exact (keeps_removeKid he.ne he.free fun _ => ho c rfl).keeps
  · exact run_fail _

theorem own_deep (hg : Good f s) : ∀ (p : List Str) (e i : Nat), Own f s e → (∀ t ∈ p, t ≠ f.gate) →
    i ∈ findDeep.go s.heap p e → ¬ f.F i
  | [], e, i, he, _, h => by
    unfold findDeep.go at h
    rw [List.mem_singleton.mp h]; exact he.free
  | t :: p, e, i, he, hp, h => by
    unfold findDeep.go at h
    obtain ⟨c, hc, hi⟩ := List.mem_flatMap.mp h
    obtain ⟨h1, h2⟩ := List.mem_filter.mp hc
    exact own_deep hg p c i (he.sub hg h1 (by rw [beq_iff_eq.mp h2]; exact hp t (List.mem_cons_self ..)))
      (fun t ht => hp t (List.mem_cons_of_mem _ ht)) hi

theorem deep_tag {h : Heap} {l : Str} : ∀ (q : List Str) (e i : Nat), i ∈ findDeep.go h (q ++ [l]) e → h.tag i = l
  | [], e, i, hi => by
    unfold findDeep.go at hi
    obtain ⟨c, hc, hi⟩ := List.mem_flatMap.mp hi
    unfold findDeep.go at hi
    rw [List.mem_singleton.mp hi]
    exact beq_iff_eq.mp (List.mem_filter.mp hc).2
  | t :: q, e, i, hi => by
    rw [List.cons_append] at hi
    unfold findDeep.go at hi
    obtain ⟨c, _, hi⟩ := List.mem_flatMap.mp hi
    exact deep_tag q c i hi

theorem keeps_findDeep {e : Nat} {p : List Str} {v : Option Str} (he : Own f s e) (hp : ∀ t ∈ p, t ≠ f.gate)
    (hl : ∃ q l, p = q ++ [l] ∧ l ≠ "UUID".toList ∧ l ∈ leafTags) : Keeps f s (findDeep e p >>= fun o => orAttr o >>= fun x => setText x v) := by
  refine Run.of_good fun hg => ?_
  refine (run_reads _).bind fun o u _ ⟨hu, ho⟩ => ?_
  subst hu
  refine (run_orAttr o).bind fun x w _ ⟨hw, e1⟩ => ?_
  subst hw
  rw [e1] at ho
  have hF := own_deep hg p e x he hp (List.mem_of_mem_head? ho.symm)
  obtain ⟨q, l, rfl, hl, hL⟩ := hl
  have ht := deep_tag q e x (List.mem_of_mem_head? ho.symm)
  exact keeps_setText _ _ hF (fun _ => by rw [ht]; exact hl) fun _ => by rw [ht]; exact hL

theorem keeps_setAutoEnabled {e : Nat} {v : Option Bool} (he : Own f s e) : Keeps f s (setAutoEnabled e v) :=
  keeps_findDeep he (by unfold Frame.gate; cases f.doc <;> decide) ⟨["AutoType".toList], _, rfl, by decide, by decide⟩
theorem keeps_setAuto {e : Nat} {w : Bool} {v : Option Str} (he : Own f s e) : Keeps f s (setAuto e w v) :=
  keeps_findDeep he (by unfold Frame.gate; cases f.doc <;> cases w <;> decide) (by
    cases w
    · exact ⟨["AutoType".toList], "DefaultSequence".toList, by decide, by decide, by decide⟩
    · exact ⟨["AutoType".toList, "Association".toList], "Window".toList, by decide, by decide, by decide⟩)

/-- A new snapshot is put into the history. -/
theorem keeps_saveHistory {e : Nat} (he : Own f s e) (hn : ∀ h ∈ s.heap.all e "History".toList, ¬ f.F h ∧ ¬ f.P h (s.heap.tag e))
    (h1 : ¬ f.P e "History".toList) (hB : f.fine = true → s.heap.tag e ∈ boxTags)
    (hS : f.shape = true → s.heap.tag e = "Entry".toList) : Keeps f s (saveHistory e) := by
  refine Run.of_good fun hg => ?_
  unfold saveHistory
  refine (still_contentOf e).run.bind fun x u _ ⟨hu, hx⟩ => ?_
  subst hu
  have hc : content u e = some x := by
    unfold contentOf at hx
    unfold content
    cases hn : u.world.get? e with
    | none => rw [hn] at hx; cases hx
    | some n =>
      rw [hn] at hx
      injection hx with hx _
      injection hx with hx
      rw [← hx]; rfl
  have hxt : x.tag = u.heap.tag e := (content_tag hc).symm
  have htidy : f.fine = true → TidyXml x := fun h => tidy_content hg.inv (hg.tidy h) he.ne hc
  have hshape : f.shape = true → ShapedXml x := fun h => shaped_content hg.inv (hg.shape h) he.ne hc
  have hfile : f.shape = true → f.files = true → FiledXml x := fun h h' => filed_content hg.inv (hg.filed h h') hc
  refine (run_reads _).bind fun o w _ ⟨hw, ho⟩ => ?_
  subst hw
  cases o with
  | none => exact (run_make (x := Xml.mk "History".toList [] none [x]) he.mem he.ne he.free h1 (fun h => ⟨hB h, tidy_node (by decide) (by decide) fun k hk => by
    rw [List.mem_singleton.mp hk]; exact htidy h⟩) (fun h => ⟨by rw [hS h]; exact (by decide : Home "Entry".toList "History".toList), shaped_node fun k hk => by
    rw [List.mem_singleton.mp hk, hxt, hS h]; exact ⟨by decide, hshape h⟩⟩) fun h h' => history_takes (hS h) (hfile h h')).bind fun _ _ _ _ => keeps_pure ()
  | some h =>
    have hm := List.mem_of_mem_head? ho.symm
    obtain ⟨b1, b2⟩ := List.mem_filter.mp hm
    refine (run_make (kid_mem hg.inv b1).1 (kid_ne_zero hg.inv b1) (hn h hm).1 ?_ (fun hf => ?_) (fun hf => ?_) fun hf hf' => archive_takes (beq_iff_eq.mp b2) (hfile hf hf')).bind fun _ _ _ _ => keeps_pure ()
    · show ¬ f.P _ x.tag
      rw [hxt]
      exact (hn h hm).2
    · rw [beq_iff_eq.mp b2]
      exact ⟨by decide, tidy_archive (htidy hf) (by rw [hxt]; exact hB hf)⟩
    · refine ⟨?_, shaped_archive (hshape hf)⟩
      show Home _ x.tag
      rw [beq_iff_eq.mp b2, hxt, hS hf]
      decide

theorem keeps_deleteHistory {e : Nat} {h : Option Nat} {all : Bool} (he : Own f s e) (hn : ∀ h ∈ s.heap.all e "History".toList, ¬ f.F h ∧ ∀ t, ¬ f.P h t)
    (h1 : ¬ f.P e "History".toList) : Keeps f s (deleteHistory e h all) := by
  refine Run.of_good fun hg => ?_
  unfold deleteHistory
  split
  · refine (run_findKid e _).bind fun o u _ ⟨hu, ho⟩ => ?_
    subst hu
    cases o with
    | none => exact run_fail _
    | some c => exact (keeps_removeKid he.ne he.free fun _ => by rw [(ho c rfl).2]; exact h1).keeps
  · refine (run_reads _).bind fun o u _ ⟨hu, ho⟩ => ?_
    subst hu
    refine (run_orAttr o).bind fun x w _ ⟨hw, e1⟩ => ?_
    subst hw
    refine (run_orAttr h).bind fun y z _ ⟨hz, e2⟩ => ?_
    subst hz
    rw [e1] at ho
    have hm := List.mem_of_mem_head? ho.symm
    obtain ⟨b1, b2⟩ := List.mem_filter.mp hm
    exact (keeps_removeKid (kid_ne_zero hg.inv b1) (hn x hm).1 fun _ => (hn x hm).2 _).keeps

theorem keeps_setAttId {a : Nat} {i : Int} (ha : Own f s a) : Keeps f s (setAttId a i) := by
  refine Run.of_good fun hg => ?_
  unfold setAttId
  refine (run_findKid a _).bind fun o u _ ⟨hu, ho⟩ => ?_
  subst hu
  refine (run_orAttr o).bind fun x w _ ⟨hw, e1⟩ => ?_
  subst hw
  exact keeps_setAttr _ _ _ (ha.kid hg (ho x e1).1).2.2 (by decide)

theorem keeps_setAttName {a : Nat} {v : Option Str} (ha : Own f s a) : Keeps f s (setAttName a v) := by
  refine Run.of_good fun hg => ?_
  unfold setAttName
  refine (run_findKid a _).bind fun o u _ ⟨hu, ho⟩ => ?_
  subst hu
  refine (run_orAttr o).bind fun x w _ ⟨hw, e1⟩ => ?_
  subst hw
  exact keeps_setText _ _ (ha.kid hg (ho x e1).1).2.2 (fun _ => by rw [(ho x e1).2]; decide) fun _ => by rw [(ho x e1).2]; decide

theorem keeps_addAttachment {e : Nat} {i : Int} {n : Option Str} (he : Own f s e) (hP : ¬ f.P e "Binary".toList)
    (hB : f.fine = true → s.heap.tag e ∈ boxTags) (hS : f.shape = true → s.heap.tag e = "Entry".toList) : Keeps f s (addAttachment e i n) := by
  unfold addAttachment
  refine (run_lift _).bind fun x b hb ⟨e1, e2⟩ => ?_
  subst e1
  exact (run_make (x := Xml.mk "Binary".toList [] none [x, Xml.mk "Value".toList [("Ref".toList, intStr i)] none []]) he.mem he.ne he.free hP
    (fun h => ⟨hB h, tidy_attachment e2⟩) (fun h => ⟨by rw [hS h]; exact (by decide : Home "Entry".toList "Binary".toList), shaped_attachment e2⟩)
    fun h _ => attachment_takes (hS h) e2).keeps

/-- `reindex` of an entry whose group may be changed. -/
theorem keeps_reindex {e : Nat} {new : Int} (he : Movable f s e) (hF : ¬ f.F e)
    (hX : f.shape = true → f.files = true → s.heap.tag e = "Entry".toList := by nofun) : Keeps f s (reindex e new) := by
  refine Run.of_good fun hgood => ?_
  unfold reindex
  refine (still_groupOf e).run.bind fun o u _ ⟨hu, ho⟩ => ?_
  subst hu
  refine (run_orAttr o).bind fun g w _ ⟨hw, e1⟩ => ?_
  subst hw
  subst e1
  have hg0 := (groupOf_some hgood.inv ho).1
  refine (still_firstEntry g).run.bind fun i w _ ⟨hw, _⟩ => ?_
  subst hw
  by_cases hk : e ∈ w.heap.kids g
  · refine (keeps_removeKid hg0 (he.out g hk).1 fun _ => (he.out g hk).2 hg0).bind fun _ t ht _ => ?_
    have hgm := (kid_mem hgood.inv hk).2
    refine keeps_insertEl (he.kept ht) (ht.ids g hgm) hg0 (he.out g hk).1 ?_ hF (fun _ => ?_) (fun h => ?_) fun h h' => .inl (by rw [ht.tag e he.mem]; exact hX h h')
    · rw [ht.tag e he.mem]
      exact (he.out g hk).2 hg0
    · rw [ht.tag g hgm, (groupOf_some hgood.inv ho).2.2.1]
      decide
    · rw [ht.tag g hgm, ht.tag e he.mem]
      exact hgood.shape h g e hg0 hk
  · refine Run.bind (Q := fun _ _ => False) ?_ fun _ _ _ h => h.elim
    intro hgd
    unfold removeKid
    rw [if_neg hk]
    exact ⟨kept_refl hgd, fun a ha => by cases ha⟩

end Verif.Api
