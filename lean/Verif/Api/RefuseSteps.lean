import Verif.Spec.Refuse
import Verif.Props.C71_Vault
/-!
# What refused calls do to the cards
-/
namespace Verif.Api
open Verif XPath Spec

/-! ## The exception of a construction -/

def errOf {α} : Except PyErr α → Option PyErr
  | .error e => some e
  | .ok _ => none

theorem errOf_ok {α} {x : Except PyErr α} (h : errOf x = none) : ∃ a, x = .ok a := by
  cases x with
  | error e => cases h
  | ok a => exact ⟨a, rfl⟩

theorem errOf_err {α} {x : Except PyErr α} {e : PyErr} (h : errOf x = some e) : x = .error e := by
  cases x with
  | error e' => injection h with h; rw [h]
  | ok a => cases h

theorem errOf_text (tag : Str) (at' : List (Str × Str)) (v : Option Str) : errOf (textEl tag at' v) = textError v := by
  cases v with
  | none => rfl
  | some t =>
    show errOf (textEl tag at' (some t)) = if XmlText t then none else some .value
    have : textEl tag at' (some t) = (if XmlText t then .ok t else .error .value) >>= fun s => pure (Xml.mk tag at' (some s) []) := rfl
    rw [this]
    by_cases h : XmlText t
    · rw [if_pos h, if_pos h]; rfl
    · rw [if_neg h, if_neg h]; rfl

theorem errOf_bind {α β} (x : Except PyErr α) (f : α → β) : errOf (do let a ← x; pure (f a)) = errOf x := by cases x <;> rfl

theorem errOf_string {k : Str} (hk : XmlText k) (v p : Option Str) : errOf (stringEl k v p) = textError v := by
  unfold stringEl
  have : textEl "Key".toList [] (some k) = .ok (Xml.mk "Key".toList [] (some k) []) := by
    have : textEl "Key".toList [] (some k) = (if XmlText k then .ok k else .error .value) >>= fun s => pure (Xml.mk "Key".toList [] (some s) []) := rfl
    rw [this, if_pos hk]; rfl
  rw [this]
  show errOf (do let a ← textEl "Value".toList _ v; pure _) = _
  rw [errOf_bind, errOf_text]

theorem xmlText_nil : XmlText [] := nofun

theorem optError_empty : optError (some []) = none := by
  show (if XmlText [] then none else some PyErr.value) = none
  rw [if_pos xmlText_nil]

theorem errOf_opt (tag : Str) (v : Option Str) : errOf (optText tag v) = optError v := by
  cases v with
  | none => rfl
  | some t =>
    unfold optText
    by_cases h : t = []
    · subst h; rw [optError_empty]; rfl
    · show errOf (if t = [] then _ else _) = _
      rw [if_neg h]
      exact (errOf_bind ..).trans (errOf_text ..)

theorem errOf_optString {k : Str} (hk : XmlText k) (v p : Option Str) : errOf (optString k v p) = optError v := by
  cases v with
  | none => rfl
  | some t =>
    unfold optString
    by_cases h : t = []
    · subst h; rw [optError_empty]; rfl
    · show errOf (if t = [] then _ else _) = _
      rw [if_neg h]
      exact (errOf_bind ..).trans (errOf_string hk ..)

theorem errOf_tags (v : Option (List Str)) : errOf (optTags v) = optError (v.map joinTags) := by
  cases v with
  | none => rfl
  | some t =>
    unfold optTags
    by_cases h : t = []
    · subst h
      show none = optError (some [])
      rw [optError_empty]
    · show errOf (if t = [] then _ else _) = _
      rw [if_neg h]
      exact (errOf_bind ..).trans (errOf_text ..)

theorem errOf_time (ver : Nat × Nat) (t : DateTime) : errOf (encodeTime ver t) = timeError ver t := by
  unfold timeError
  cases encodeTime ver t <;> rfl

theorem errOf_expiry (env : Env) (ver : Nat × Nat) (now : Str) (t : Option DateTime) : errOf (expiryStr env ver now t) = expiryError env ver t := by
  rw [expiry_eq]
  unfold expiryError expiryText
  cases t with
  | none => rfl
  | some t =>
    have h : ∀ y : Except PyErr Str, errOf y = match y with | .error e => some e | .ok _ => none := by intro y; cases y <;> rfl
    exact h _

/-- `m` raises the first of these, and changes nothing. -/
def Fails {α} (m : M α) (t : Db) (l : List (Option PyErr)) : Prop :=
  (∃ e, firstError l = some e ∧ m t = (.error e, t)) ∨ (firstError l = none ∧ ∃ a, m t = (.ok a, t))

theorem Fails.pure {α} (a : α) (t : Db) : Fails (pure a : M α) t [] := .inr ⟨rfl, a, rfl⟩

theorem Fails.lift {α β} {x : Except PyErr α} {f : α → M β} {t : Db} {o : Option PyErr} {l : List (Option PyErr)} (ho : errOf x = o)
    (h : ∀ a, Fails (f a) t l) : Fails (Api.lift x >>= f) t (o :: l) := by
  subst ho
  cases x with
  | error e => exact .inl ⟨e, rfl, rfl⟩
  | ok a =>
    rcases h a with ⟨e, h1, h2⟩ | ⟨h1, b, h2⟩
    · exact .inl ⟨e, h1, h2⟩
    · exact .inr ⟨h1, b, h2⟩

theorem first_append {l m : List (Option PyErr)} : firstError (l ++ m) = (firstError l).or (firstError m) := by
  induction l with
  | nil => rfl
  | cons a l ih =>
    cases a with
    | none => exact ih
    | some e => rfl

/-- What `BaseElement.__init__` raises. -/
theorem base_vain (env : Env) (icon : Option Str) (b : Bool) (x : Option DateTime) (s : Db) :
    (∃ e, optError icon = some e ∧ baseKids env icon b x s = (.error e, { s with uuids := s.uuids + 1 })) ∨
    (optError icon = none ∧ ∃ e, firstError [timeError s.version (env.now s.ticks), expiryError env s.version x] = some e ∧
      baseKids env icon b x s = (.error e, { s with ticks := s.ticks + 1, uuids := s.uuids + 1 })) ∨
    (optError icon = none ∧ firstError [timeError s.version (env.now s.ticks), expiryError env s.version x] = none ∧
      ∃ l, baseKids env icon b x s = (.ok l, { s with ticks := s.ticks + 1, uuids := s.uuids + 1 })) := by
  cases hi : optError icon with
  | some e =>
    refine .inl ⟨e, rfl, ?_⟩
    unfold baseKids
    rw [bind_of (show newUuid env s = (.ok (env.uuid1 s.uuids), { s with uuids := s.uuids + 1 }) from rfl),
      errOf_err ((errOf_opt _ _).trans hi)]
    rfl
  | none =>
    obtain ⟨is, his⟩ := errOf_ok ((errOf_opt "IconID".toList _).trans hi)
    have key : ∀ l, Fails (do
        let nowStr ← Api.lift (encodeTime s.version (env.now s.ticks))
        let expStr ← Api.lift (expiryStr env s.version nowStr x)
        let leaf (t : String) (x : Str) : Xml := Xml.mk t.toList [] (some x) []
        Pure.pure (leaf "UUID" (b64encode (env.uuid1 s.uuids)) :: l ++ [Xml.mk "Times".toList [] none [
          leaf "CreationTime" nowStr, leaf "LastModificationTime" nowStr, leaf "LastAccessTime" nowStr,
          leaf "ExpiryTime" expStr, leaf "Expires" (pyBool b), leaf "UsageCount" ['0'],
          leaf "LocationChanged" nowStr]])) { s with ticks := s.ticks + 1, uuids := s.uuids + 1 }
        [timeError s.version (env.now s.ticks), expiryError env s.version x] := fun l =>
      .lift (errOf_time ..) fun now => .lift (errOf_expiry ..) fun _ => .pure _ _
    have run : baseKids env icon b x s = (do
        let nowStr ← Api.lift (encodeTime s.version (env.now s.ticks))
        let expStr ← Api.lift (expiryStr env s.version nowStr x)
        let leaf (t : String) (x : Str) : Xml := Xml.mk t.toList [] (some x) []
        Pure.pure (leaf "UUID" (b64encode (env.uuid1 s.uuids)) :: is ++ [Xml.mk "Times".toList [] none [
          leaf "CreationTime" nowStr, leaf "LastModificationTime" nowStr, leaf "LastAccessTime" nowStr,
          leaf "ExpiryTime" expStr, leaf "Expires" (pyBool b), leaf "UsageCount" ['0'],
          leaf "LocationChanged" nowStr]]) : M (List Xml)) { s with ticks := s.ticks + 1, uuids := s.uuids + 1 } := by
      unfold baseKids
      rw [bind_of (show newUuid env s = (.ok (env.uuid1 s.uuids), { s with uuids := s.uuids + 1 }) from rfl),
        lift_bind his,
        bind_of (show nowUtc env { s with uuids := s.uuids + 1 } =
          (.ok (env.now s.ticks), { s with ticks := s.ticks + 1, uuids := s.uuids + 1 }) from rfl),
        bind_of (show reads Db.version { s with ticks := s.ticks + 1, uuids := s.uuids + 1 } =
          (.ok s.version, { s with ticks := s.ticks + 1, uuids := s.uuids + 1 }) from rfl)]
    rw [run]
    rcases key is with ⟨e, h1, h2⟩ | ⟨h1, l, h2⟩
    · exact .inr (.inl ⟨rfl, e, h1, h2⟩)
    · exact .inr (.inr ⟨rfl, h1, l, h2⟩)

/-- An element is made in vain. -/
theorem made_vain {env : Env} {icon : Option Str} {b : Bool} {x : Option DateTime} {s : Db} {β} {f : List Xml → M β} {l : List (Option PyErr)}
    (hf : ∀ ks, Fails (f ks) { s with ticks := s.ticks + 1, uuids := s.uuids + 1 } l)
    (h : firstError (optError icon :: timeError s.version (env.now s.ticks) :: expiryError env s.version x :: l) ≠ none) :
    ∃ e s', (baseKids env icon b x >>= f) s = (.error e, s') ∧
      (vaultOf s).InVain icon (timeError s.version (env.now s.ticks) :: expiryError env s.version x :: l) (.error e) (vaultOf s') ∧
      ∃ t u, s' = { s with ticks := t, uuids := u } := by
  rcases base_vain env icon b x s with ⟨e, h1, h2⟩ | ⟨h1, e, h2, h3⟩ | ⟨h1, h2, ks, h3⟩
  · refine ⟨e, { s with uuids := s.uuids + 1 }, ?_, .inl ⟨e, h1, rfl, rfl⟩, s.ticks, s.uuids + 1, rfl⟩
    rw [bind_run, h2]
  · refine ⟨e, { s with ticks := s.ticks + 1, uuids := s.uuids + 1 }, ?_, .inr ⟨h1, e, ?_, rfl, rfl⟩, _, _, rfl⟩
    · rw [bind_run, h3]
    · have : firstError ([timeError s.version (env.now s.ticks), expiryError env s.version x] ++ l) = some e := by rw [first_append, h2]; rfl
      exact this
  · have e1 : firstError ([timeError s.version (env.now s.ticks), expiryError env s.version x] ++ l) = firstError l := by
      rw [first_append, h2]; rfl
    rcases hf ks with ⟨e, g1, g2⟩ | ⟨g1, _⟩
    · refine ⟨e, { s with ticks := s.ticks + 1, uuids := s.uuids + 1 }, ?_, .inr ⟨h1, e, e1.trans g1, rfl, rfl⟩, _, _, rfl⟩
      rw [bind_of h3, g2]
    · rw [h1] at h
      exact absurd (e1.trans g1) h

theorem newGroup_vain {env : Env} {n i t : Option Str} {s : Db} (h : firstError (optError i :: groupErrors env (vaultOf s) n t) ≠ none) :
    ∃ e s', newGroup env n i t s = (.error e, s') ∧ (vaultOf s).InVain i (groupErrors env (vaultOf s) n t) (.error e) (vaultOf s') ∧
      ∃ t u, s' = { s with ticks := t, uuids := u } := by
  have e0 : expiryError env s.version none = none := rfl
  have e1 : ∀ o : Option PyErr, firstError [timeError s.version (env.now s.ticks), expiryError env s.version none, textError n, optError t] =
      firstError (groupErrors env (vaultOf s) n t) := by
    intro _
    rw [e0]
    show firstError (timeError s.version (env.now s.ticks) :: none :: [textError n, optError t]) = firstError (timeError s.version (env.now s.ticks) :: [textError n, optError t])
    cases timeError s.version (env.now s.ticks) <;> rfl
  have h' : firstError (optError i :: timeError s.version (env.now s.ticks) :: expiryError env s.version none :: [textError n, optError t]) ≠ none := by
    cases hi : optError i with
    | some e => exact fun h => nomatch h
    | none =>
      rw [hi] at h
      intro hc
      exact h ((e1 none).symm.trans hc)
  obtain ⟨e, s', h1, h2, h3⟩ := made_vain (b := false) (f := fun base => do
    let n ← Api.lift (textEl "Name".toList [] n)
    let notes ← Api.lift (optText "Notes".toList t)
    Pure.pure (Xml.mk "Group".toList [] none (base ++ [n] ++ notes)))
    (fun ks => .lift (errOf_text ..) fun _ => .lift (errOf_opt ..) fun _ => .pure _ _) h'
  refine ⟨e, s', h1, ?_, h3⟩
  rcases h2 with h2 | ⟨h2, x, h4, h5⟩
  · exact .inl h2
  · exact .inr ⟨h2, x, (e1 none).symm.trans h4, h5⟩

theorem newEntry_vain {env : Env} {a : EntryArgs} {s : Db} (h : firstError (optError a.icon :: entryErrors env (vaultOf s) a) ≠ none) :
    ∃ e s', newEntry env a s = (.error e, s') ∧ (vaultOf s).InVain a.icon (entryErrors env (vaultOf s) a) (.error e) (vaultOf s') ∧
      ∃ t u, s' = { s with ticks := t, uuids := u } := by
  unfold newEntry
  exact made_vain (fun ks => .lift (errOf_string (by decide) ..) fun _ => .lift (errOf_string (by decide) ..) fun _ =>
    .lift (errOf_string (by decide) ..) fun _ => .lift (errOf_optString (by decide) ..) fun _ => .lift (errOf_optString (by decide) ..) fun _ =>
    .lift (errOf_optString (by decide) ..) fun _ => .lift (errOf_tags ..) fun _ => .pure _ _) h

section
variable {s s' : Db} {x : Nat}

/-! ## Texts that go -/

theorem card_without {h h' : Heap} {p : TextProp} (ht : h'.tag x = h.tag x) (a : ∀ t, t ≠ p.tag → SameAt h h' x t)
    (hv : sub h' x p.tag = none) : cardOf h' x = (cardOf h x).dropText p := by
  have ne : ∀ t, t ∉ singles → t ≠ p.tag := fun t ht e => ht (e ▸ single_text p)
  have hh : p.tag ≠ "History".toList := by cases p <;> decide
  refine Card.ext ht ?_ ?_ (a _ (ne _ (by decide))).keysOf (a _ (ne _ (by decide))).prop (a _ (ne _ (by decide))).mark
    (a _ (ne _ (by decide))).files (funext fun q => (a _ (ne _ (by decide))).auto q) (a _ hh.symm).past (a _ (ne _ (by decide))).all (a _ (ne _ (by decide))).all
  · funext q
    show sub h' x q.tag = if q = p then none else sub h x q.tag
    by_cases hq : q = p
    · rw [if_pos hq, hq, hv]
    · rw [if_neg hq]; exact (a _ (textTag_ne hq)).sub (bodyText q)
  · funext q; exact (a _ (ne _ (by decide))).time (bodyTime q)

theorem dropText_did (hs : Sound s) (hx : ¬ NoCard (s.heap.tag x)) (p : TextProp) {v : Option Str} {err : PyErr} (hv : textError v = some err) :
    ∃ s', setSub x p.tag v s = (.error err, s') ∧ Did s' ((vaultOf s).change x (.dropText p)) := by
  have run : ∀ {t}, removeOld x (s.heap.find x p.tag) s = (.ok (), t) → setSub x p.tag v s = (.error err, t) := by
    intro t h
    unfold setSub
    rw [bind_of (findKid_run x _ s), bind_of h, errOf_err ((errOf_text ..).trans hv)]
    rfl
  cases hf : s.heap.find x p.tag with
  | none =>
    refine ⟨s, run (by rw [hf]; rfl), ?_, hs.neat⟩
    refine (change_id fun c hc => ?_).symm
    obtain ⟨_, rfl⟩ := card_inv hc
    refine Card.ext rfl (funext fun q => ?_) rfl rfl rfl rfl rfl rfl rfl rfl rfl
    show (if q = p then none else sub s.heap x q.tag) = sub s.heap x q.tag
    by_cases hq : q = p
    · rw [if_pos hq, hq]; unfold sub; rw [hf]; rfl
    · rw [if_neg hq]
  | some k =>
    have hem := card_mem hx
    have he0 := card_pos hs.inv hx
    have hall := one_all ((hs.neat x hx).once _ (single_text p)) hf
    obtain ⟨k1, k2⟩ := find_kid hf
    obtain ⟨s', h1, h2, h3, h4⟩ := removeKid_ok hs.inv he0 k1
    have hm : Moved s.heap s'.heap k 0 := h4
    have hq : ∀ j ∈ s.world.ids, j ≠ 0 → j ≠ x → s'.heap j = s.heap j := fun j _ h0 hne =>
      moved_same hm h0 fun hc => hne (parent_eq hs.inv hc k1)
    have hdoc : docEl s.heap ≠ some k := by
      obtain ⟨d, m, r, hk⟩ := hs.skeleton
      rw [hk.doc]
      intro h
      injection h with h
      have := hk.tag
      rw [h, k2] at this
      revert this
      cases p <;> decide
    have l : Local s s' x none := by
      refine ⟨h2, hx, ⟨x, .self, moved_tag hm x, hq⟩, fun j hj _ => ?_, moved_doc hs.inv hm hdoc, by rw [h3]⟩
      rw [moved_tag hm, not_mem_tag hj]; exact bodyNil
    have hlist : ∀ t, s'.heap.all x t = (s.heap.all x t).filter (· != k) := fun t => Props.moved_all hm he0 hem t
    have hother : ∀ t, t ≠ p.tag → s'.heap.all x t = s.heap.all x t := by
      intro t ht
      rw [hlist]
      refine List.filter_eq_self.mpr fun j hj => bne_iff_ne.mpr ?_
      rintro rfl
      exact ht ((all_sub hj).2.symm.trans k2)
    have hnil : s'.heap.all x p.tag = [] := by rw [hlist, hall]; simp [bne]
    have a : ∀ t, t ≠ p.tag → SameAt s.heap s'.heap x t := fun t ht =>
      Local.other hs.inv hq (fun j _ => moved_tag hm j) (.inl rfl) ht (hother t ht)
    refine ⟨s', run (by rw [hf]; exact h1), ?_, l.all_neat hs ⟨fun t ht => ?_, (a _ (by cases p <;> decide)).fields (hs.neat x hx).fields⟩⟩
    · rw [l.vault hs (f := .dropText p) (card_without (moved_tag hm x) a (by unfold sub Heap.find; rw [hnil]; rfl))]
      exact change_state (by rw [h3]; rfl) (by rw [h3]; rfl)
    · by_cases et : t = p.tag
      · rw [et, hnil]; exact Nat.zero_le _
      · rw [hother t et]; exact (hs.neat x hx).once t ht

/-! ## Fields that go -/

theorem refusedField_did (env : Env) (hs : Sound s) {e : Nat} (hx : ¬ NoCard (s.heap.tag e)) {k : Str} (hk : Plain k) {v : Option Str} {err : PyErr}
    (hv : textError v = some err) (prot : Option Bool) :
    ∃ s', setField env e k v prot s = (.error err, s') ∧ Did s' ((vaultOf s).change e (.dropField k)) := by
  have hm := card_mem hx
  have he := card_pos hs.inv hx
  have hf := (hs.neat e hx).fields
  have run : ∀ {t}, removeOld e (fieldEls s.heap e k).head? s = (.ok (), t) → setField env e k v prot s = (.error err, t) := by
    intro t h
    unfold setField
    rw [bind_of (first_field env hs.inv he hm hk), bind_of (markFor_run env hs.inv he hm hk prot), bind_of h,
      errOf_err ((errOf_string (fun c hc => (hk c hc).2) ..).trans hv)]
    rfl
  rcases fieldEls_cases hf k with ⟨a, b⟩ | ⟨f, w, a, _, b⟩
  · refine ⟨s, run (by rw [a]; rfl), ?_, hs.neat⟩
    refine (change_id fun c hc => ?_).symm
    obtain ⟨_, rfl⟩ := card_inv hc
    have hp : prop s.heap e k = none := by unfold prop; rw [b]; rfl
    refine Card.ext rfl rfl rfl ?_ (funext fun q => ?_) (funext fun q => ?_) rfl rfl rfl rfl rfl
    · refine List.filter_eq_self.mpr fun q hq => bne_iff_ne.mpr ?_
      rintro rfl
      exact (mem_keysOf hf k).mp hq hp
    · show (if q = k then none else prop s.heap e q) = prop s.heap e q
      by_cases hq : q = k
      · rw [if_pos hq, hq, hp]
      · rw [if_neg hq]
    · show (if q = k then none else mark s.heap e q) = mark s.heap e q
      by_cases hq : q = k
      · rw [if_pos hq, hq]; unfold mark; rw [b]; rfl
      · rw [if_neg hq]
  · have hfk : f ∈ s.heap.kids e := by
      have : f ∈ fieldEls s.heap e k := by rw [a]; exact List.mem_cons_self ..
      exact (all_sub (List.mem_filter.mp this).1).1
    obtain ⟨s', g1, g2⟩ := detach_ok hs.inv he hfk
    exact ⟨s', run (by rw [a]; exact g1), deleted_did hs hx (deleted_field hs.inv hf a g2)⟩

theorem reserved_xml {k : Str} (h : k ∈ reservedKeys) : XmlText k := by
  have : ∀ k ∈ reservedKeys, XmlText k := by decide
  exact this k h

/-- A search for a key that XML cannot hold is refused. -/
theorem badKey_run (env : Env) (e : Nat) {k : Str} (hk : ¬ XmlText k) {s : Db} : xpathFirst env (some e) (fieldQuery k) s = (.error .value, s) := by
  have hq : ¬ XmlText (fieldQuery k) := fun h => hk fun c hc => by
    have e : fieldQuery k = "String/Key[text()=\"".toList ++ (k ++ "\"]/..".toList) := rfl
    exact h c (by rw [e]; exact List.mem_append_right _ (List.mem_append_left _ hc))
  have hp : parse (fieldQuery k) = .error .value := by unfold parse; rw [if_neg hq]
  have h3 : xpath env (some e) (fieldQuery k) s = (.error .value, s) := by
    unfold xpath XPath.query
    rw [hp]; rfl
  unfold xpathFirst
  rw [bind_run, h3]

theorem refusedStd_did (env : Env) (hs : Sound s) {e : Nat} (hx : ¬ NoCard (s.heap.tag e)) (f : Field) {v : Option Str} {err : PyErr}
    (hv : textError v = some err) : ∃ s', setStd env e f v s = (.error err, s') ∧ Did s' ((vaultOf s).change e (.dropField f.key)) := by
  have key := fun p => refusedField_did env hs hx (plain_std f) hv p
  have prot : (f = .password ∨ f = .otp) → ∃ s', setStd env e f v s = (.error err, s') ∧ Did s' ((vaultOf s).change e (.dropField f.key)) := by
    intro hp
    have : setStd env e f v = (getField env e f.key >>= fun old =>
        if old.getD [] ≠ [] then setField env e f.key v else setField env e f.key v (some true)) := by
      rcases hp with rfl | rfl <;> rfl
    rw [this, bind_of (getField_run env hs.inv (card_pos hs.inv hx) (card_mem hx) (plain_std f))]
    split
    · exact key none
    · exact key (some true)
  cases f with
  | password => exact prot (.inl rfl)
  | otp => exact prot (.inr rfl)
  | title => exact key none
  | username => exact key none
  | url => exact key none
  | notes => exact key none

/-! ## Deleting what is not there -/

theorem unlink_id {v : Vault} (h : ¬ v.Listed x) : v.unlink x = v := by
  have keep : ∀ {l : List Nat}, x ∉ l → l.filter (· != x) = l := fun {l} hx =>
    List.filter_eq_self.mpr fun j hj => bne_iff_ne.mpr (by rintro rfl; exact hx hj)
  refine Vault.ext (funext fun j => ?_) (keep fun hr => h (.inl hr)) rfl rfl rfl
  show (v.card j).map (Card.unlink x) = v.card j
  cases hc : v.card j with
  | none => rfl
  | some c =>
    show some (Card.unlink x c) = some c
    congr 1
    refine Card.ext rfl rfl rfl rfl rfl rfl rfl rfl ?_ (keep fun hr => h (.inr ⟨j, c, hc, .inl hr⟩)) (keep fun hr => h (.inr ⟨j, c, hc, .inr (.inl hr)⟩))
    show c.past.map (fun l => l.filter (· != x)) = c.past
    cases hp : c.past with
    | none => rfl
    | some l => exact congrArg some (keep fun hr => h (.inr ⟨j, c, hc, .inr (.inr ⟨l, hp, hr⟩)⟩))

theorem deleteGone_did (hs : Sound s) (hx : ¬ NoCard (s.heap.tag x)) (h : ¬ (vaultOf s).Listed x) :
    ∃ r s', delete x s = (r, s') ∧ (r = .error .attribute ∨ r = .ok ()) ∧ Did s' (vaultOf s) := by
  by_cases hp : ∃ p, p ≠ 0 ∧ x ∈ s.heap.kids p
  · obtain ⟨p, hp, hk⟩ := hp
    obtain ⟨s', h1, h2, h3, h4⟩ := delete_ok hs.inv hp hk
    have := moved_out hs hx h4 h3
    rw [unlink_id h] at this
    exact ⟨_, s', h1, .inr rfl, this⟩
  · have hk : x ∈ s.heap.kids 0 := by
      have h0 := card_pos hs.inv hx
      cases (reach_iff hs.inv (a := 0) (n := s.world) (world_get hs.inv) x).mpr (card_mem hx) with
      | refl => exact absurd rfl h0
      | @snoc p _ _ hp' =>
        by_cases h0 : p = 0
        · exact h0 ▸ hp'
        · exact absurd ⟨p, h0, hp'⟩ hp
    exact ⟨_, s, delete_top hs.inv hk, .inl rfl, rfl, hs.neat⟩

theorem notInHistory {e : Nat} {h : Option Nat} (hh : ∀ y, h = some y → s.heap.tag y = "Entry".toList ∧
      ∀ l, (cardOf s.heap e).past = some l → y ∉ l) :
    deleteHistory e h false s = (.error (if (cardOf s.heap e).past = none ∨ h = none then .attribute else .value), s) := by
  have hp : (cardOf s.heap e).past = (s.heap.find e "History".toList).map fun k => s.heap.all k "Entry".toList := rfl
  show (findKid e _ >>= _) s = _
  rw [bind_of (findKid_run e _ s)]
  cases hf : s.heap.find e "History".toList with
  | none =>
    rw [if_pos (.inl (by rw [hp, hf]; rfl))]
    rfl
  | some k =>
    rw [bind_of (orAttr_some k s)]
    cases hh' : h with
    | none => rw [if_pos (.inr rfl)]; rfl
    | some y =>
      obtain ⟨h1, h2⟩ := hh y hh'
      rw [bind_of (orAttr_some y s), if_neg (by rw [hp, hf]; simp)]
      have : y ∉ s.heap.kids k := fun hc => h2 _ (by rw [hp, hf]; rfl) (Props.mem_all.mpr ⟨hc, h1⟩)
      exact if_neg this

/-! ## All of them -/

theorem refused_core (env : Env) (hs : Sound s) (o : Refusal) (ho : o.Ask env (vaultOf s)) :
    ∃ r s', o.call.run env s = (r, s') ∧ o.Step env (vaultOf s) r (vaultOf s') ∧ ∀ y, ¬ NoCard (s'.heap.tag y) → Neat s'.heap y := by
  have body : ∀ {e : Nat} {t : Str}, ¬ NoCard t → s.heap.tag e = t → ¬ NoCard (s.heap.tag e) := fun h e => e ▸ h
  have some_of : ∀ {t : Option Str}, textError t ≠ none → ∃ e, textError t = some e := fun {t} h => by
    cases he : textError t with
    | none => exact absurd he h
    | some e => exact ⟨e, rfl⟩
  have void_err : ∀ {α} {m : M α} {e : PyErr} {t : Db}, m s = (.error e, t) → void m s = (.error e, t) := by
    intro α m e t h
    unfold void
    rw [bind_run, h]
  cases o with
  | setIcon x v =>
    obtain ⟨e, he⟩ := some_of ho.2
    obtain ⟨s', h1, h2⟩ := dropText_did hs (Props.some_card.mp ho.1) .icon he
    exact ⟨_, s', h1, ⟨e, he, rfl, h2.vault⟩, h2.neat⟩
  | setName g v =>
    obtain ⟨e, he⟩ := some_of ho.2
    obtain ⟨s', h1, h2⟩ := dropText_did hs (body (by decide) (Props.group_card.mp ho.1)) .name he
    exact ⟨_, s', h1, ⟨e, he, rfl, h2.vault⟩, h2.neat⟩
  | setNotes g v =>
    obtain ⟨e, he⟩ := some_of ho.2
    obtain ⟨s', h1, h2⟩ := dropText_did hs (body (by decide) (Props.group_card.mp ho.1)) .notes he
    exact ⟨_, s', h1, ⟨e, he, rfl, h2.vault⟩, h2.neat⟩
  | setTags e ts =>
    obtain ⟨s', h1, h2⟩ := dropText_did hs (body (by decide) (Props.entry_card.mp ho.1)) .tags (v := some (joinTags ts)) (err := .value) (if_neg ho.2)
    exact ⟨_, s', h1, ⟨rfl, h2.vault⟩, h2.neat⟩
  | setField x f v =>
    obtain ⟨e, he⟩ := some_of ho.2
    obtain ⟨s', h1, h2⟩ := refusedStd_did env hs (body (by decide) (Props.entry_card.mp ho.1)) f he
    exact ⟨_, s', h1, ⟨e, he, rfl, h2.vault⟩, h2.neat⟩
  | setCustom x k v p =>
    obtain ⟨e, he⟩ := some_of ho.2.2
    by_cases hk : k ∈ reservedKeys
    · refine ⟨.error .assertion, s, ?_, ⟨fun _ => ⟨rfl, rfl⟩, fun h => absurd hk h⟩, hs.neat⟩
      show (if k ∈ reservedKeys then (fail .assertion : M Unit) else setField env x k v (some p)) s = _
      rw [if_pos hk]; rfl
    · obtain ⟨s', h1, h2⟩ := refusedField_did env hs (body (by decide) (Props.entry_card.mp ho.1)) ho.2.1 he (some p)
      refine ⟨_, s', ?_, ⟨fun h => absurd h hk, fun _ => ⟨e, he, rfl, h2.vault⟩⟩, h2.neat⟩
      show (if k ∈ reservedKeys then (fail .assertion : M Unit) else setField env x k v (some p)) s = _
      rw [if_neg hk]; exact h1
  | badKey x k v p =>
    refine ⟨.error .value, s, ?_, ⟨rfl, rfl⟩, hs.neat⟩
    have hr : k ∉ reservedKeys := fun h => ho.2.2 (reserved_xml h)
    show (if k ∈ reservedKeys then (fail .assertion : M Unit) else setField env x k v (some p)) s = _
    rw [if_neg hr]
    unfold setField
    rw [bind_run, badKey_run env x ho.2.2]
  | noKey x k =>
    have hx := body (by decide) (Props.entry_card.mp ho.1)
    refine ⟨.error .attribute, s, ?_, ⟨rfl, rfl⟩, hs.neat⟩
    have hf := (hs.neat x hx).fields
    show deleteCustom env x k s = _
    unfold deleteCustom
    rw [bind_of (fieldKeys_run hf), if_neg]
    · rfl
    · intro h
      exact (mem_keysOf hf k).mp (List.mem_filter.mp h).1 (ho.2.2 _ (card_some hx))
  | setAutoText e w v =>
    have hx := body (by decide) (Props.entry_card.mp ho.1)
    have hc : (cardOf s.heap e).auto (if w then .window else .sequence) = (elsAt s.heap (if w then AutoProp.window else .sequence).path e).map s.heap.text := rfl
    refine ⟨_, s, ?_, ⟨_, card_some hx, rfl, rfl⟩, hs.neat⟩
    show setAuto e w (some v) s = _
    rw [setAuto_run, hc]
    have : (autoPath w) = (if w then AutoProp.window else .sequence).path := by cases w <;> rfl
    rw [this]
    cases elsAt s.heap (if w then AutoProp.window else .sequence).path e with
    | nil => rfl
    | cons q l =>
      show setText q (some v) s = _
      exact if_neg ho.2
  | addFile e i n =>
    obtain ⟨err, he⟩ := some_of ho.2
    refine ⟨_, s, void_err (e := err) ?_, ⟨err, he, rfl, rfl⟩, hs.neat⟩
    unfold addAttachment
    rw [errOf_err ((errOf_text ..).trans he)]
    rfl
  | setFileName e a v =>
    obtain ⟨he, ⟨f, hf, rfl⟩, hv⟩ := ho
    obtain ⟨hx, ha, hfe⟩ := has_file.mp hf
    have hname : f.name = (s.heap.find f.handle "Key".toList).map s.heap.text := congrArg File.name hfe
    refine ⟨_, s, ?_, ⟨f, hf, rfl, rfl, rfl⟩, hs.neat⟩
    show setAttName f.handle (some v) s = _
    unfold setAttName
    rw [bind_of (findKid_run _ _ s), hname]
    cases s.heap.find f.handle "Key".toList with
    | none => rfl
    | some q =>
      rw [bind_of (orAttr_some q s)]
      exact if_neg hv
  | addGroup g n i t =>
    obtain ⟨e, s', h1, h2, t', u, h3⟩ := newGroup_vain ho.2
    refine ⟨_, s', void_err (e := e) ?_, h2, ?_⟩
    · unfold addGroup
      rw [bind_run, h1]
    · rw [h3]; exact hs.neat
  | addEntry g a force =>
    obtain ⟨hg, he, t, n, b1, b2, b3, b4, b9⟩ := ho
    have ht := Props.group_card.mp hg
    have hg0 : g ≠ 0 := tag_ne_zero hs.inv (by rw [ht]; decide)
    have hF : Props.EntriesOk s.heap := fun e he => (hs.neat e (by rw [he]; decide)).fields
    have hH : ¬ InHist s.heap g := spine_hist hs.inv hs.shaped (by rw [ht]; decide)
    obtain ⟨o, o1, o2⟩ := Props.dup_iff env hs.inv hF hg0 ht hH b1 b3 b2 b4
    by_cases hd : force = false ∧ (vaultOf s).HasEntry g t n
    · obtain ⟨rfl, hd⟩ := hd
      refine ⟨.error .exception, s, void_err ?_, ⟨t, n, b1, b3, fun _ => ⟨rfl, rfl⟩, fun h => absurd ⟨rfl, hd⟩ h⟩, hs.neat⟩
      have ho := o2.mpr ((Props.has_entry ht t n).mp hd)
      unfold addEntry
      rw [bind_of o1, if_pos (by rw [ho]; rfl), bind_run]
      have hst := groupPath_state g s
      have hok := path_current hs (b9 rfl hd)
      cases hp : groupPath g s with
      | mk r s1 =>
        rw [hp] at hst hok
        replace hst : s1 = s := hst
        subst hst
        cases r with
        | error x => cases hok
        | ok l => rfl
    · have hf : (o.isSome && !force) = false := by
        cases hb : force with
        | true => simp
        | false =>
          have : ¬ o.isSome = true := fun h => hd ⟨hb, (Props.has_entry ht t n).mpr (o2.mp h)⟩
          simpa using this
      obtain ⟨e, s', h1, h2, t', u, h3⟩ := newEntry_vain he
      refine ⟨_, s', void_err (e := e) ?_, ⟨t, n, b1, b3, fun h => absurd h hd, fun _ => h2⟩, ?_⟩
      · unfold addEntry
        rw [bind_of o1, if_neg (by rw [hf]; decide), bind_run, h1]
      · rw [h3]; exact hs.neat
  | delete x =>
    obtain ⟨r, s', h1, h2, h3⟩ := deleteGone_did hs (Props.some_card.mp ho.1) ho.2
    exact ⟨r, s', h1, ⟨h2, h3.vault⟩, h3.neat⟩
  | deleteHistory e h =>
    have hx := body (by decide) (Props.entry_card.mp ho.1)
    refine ⟨_, s, notInHistory fun y hy => ?_, ⟨_, card_some hx, rfl, rfl⟩, hs.neat⟩
    obtain ⟨h1, h2⟩ := ho.2 y hy
    exact ⟨Props.entry_card.mp h1, fun l hl => h2 _ l (card_some hx) hl⟩

theorem refused_typed {env : Env} {o : Refusal} (ho : o.Ask env (vaultOf s)) : o.call.Typed s.heap := by
  have el : ∀ {x}, (vaultOf s).IsElem x → Spec.IsElem s.heap x := fun h => Props.elem_of (Props.some_card.mp h)
  cases o with
  | setIcon => exact el ho.1
  | setName => exact Props.group_card.mp ho.1
  | setNotes => exact Props.group_card.mp ho.1
  | setTags => exact Props.entry_card.mp ho.1
  | setField => exact Props.entry_card.mp ho.1
  | setCustom => exact Props.entry_card.mp ho.1
  | badKey => exact Props.entry_card.mp ho.1
  | noKey => exact Props.entry_card.mp ho.1
  | setAutoText => exact Props.entry_card.mp ho.1
  | addFile => exact Props.entry_card.mp ho.1
  | setFileName e a v =>
    obtain ⟨f, h, rfl⟩ := ho.2.1
    exact (all_sub (has_file.mp h).2.1).2
  | addGroup => exact Props.group_card.mp ho.1
  | addEntry => exact Props.group_card.mp ho.1
  | delete => exact el ho.1
  | deleteHistory => exact Props.entry_card.mp ho.1

theorem refused_public {env : Env} {o : Refusal} (ho : o.Ask env (vaultOf s)) : o.call.Public := by
  cases o with
  | setCustom e k v p => exact fun h => (ho.2.1 _ h).1 rfl
  | badKey => exact ho.2.1
  | noKey => exact ho.2.1
  | _ => trivial

theorem refused_step (env : Env) (hs : Sound s) (o : Refusal) (ho : o.Ask env (vaultOf s)) :
    ∃ r s', o.call.run env s = (r, s') ∧ o.Step env (vaultOf s) r (vaultOf s') ∧ Sound s' := by
  obtain ⟨r, s', h1, h2, h3⟩ := refused_core env hs o ho
  have := sound_step env hs (refused_typed ho)
  rw [h1] at this
  exact ⟨r, s', h1, h2, this h3⟩

end
end Verif.Api
