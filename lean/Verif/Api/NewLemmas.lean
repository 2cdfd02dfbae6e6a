import Verif.Api.ContentLemmas
import Verif.Spec.NewEntry
/-!
# What `Entry(...)` and `Group(...)` build
-/
namespace Verif.Api
open Verif XPath Spec

/-- Only the clock and the uuid source are used. -/
def Quiet {α} (m : M α) : Prop := ∀ s, ∃ t u, (m s).2 = { s with ticks := t, uuids := u }

theorem Quiet.bind {α β} {m : M α} {f : α → M β} (h : Quiet m) (hf : ∀ a, Quiet (f a)) : Quiet (m >>= f) := by
  intro s
  obtain ⟨t, u, h1⟩ := h s
  rw [bind_run]
  cases hm : m s with
  | mk r s1 =>
    rw [hm] at h1
    replace h1 : s1 = { s with ticks := t, uuids := u } := h1
    subst h1
    cases r with
    | error e => exact ⟨t, u, rfl⟩
    | ok a =>
      obtain ⟨t', u', h2⟩ := hf a { s with ticks := t, uuids := u }
      exact ⟨t', u', h2⟩

theorem quiet_pure {α} (a : α) : Quiet (pure a : M α) := fun _ => ⟨_, _, rfl⟩
theorem quiet_lift {α} (a : Except PyErr α) : Quiet (lift a) := fun _ => ⟨_, _, rfl⟩
theorem quiet_reads {α} (f : Db → α) : Quiet (reads f) := fun _ => ⟨_, _, rfl⟩
theorem quiet_uuid (env : Env) : Quiet (newUuid env) := fun _ => ⟨_, _, rfl⟩
theorem quiet_now (env : Env) : Quiet (nowUtc env) := fun _ => ⟨_, _, rfl⟩

theorem quiet_base (env : Env) (icon : Option Str) (b : Bool) (e : Option DateTime) : Quiet (baseKids env icon b e) := by
  unfold baseKids
  exact (quiet_uuid env).bind fun u => (quiet_lift _).bind fun _ => (quiet_now env).bind fun n => (quiet_reads _).bind fun v =>
    (quiet_lift _).bind fun x => (quiet_lift _).bind fun x => quiet_pure _

theorem quiet_entry (env : Env) (a : EntryArgs) : Quiet (newEntry env a) := by
  unfold newEntry
  refine Quiet.bind (quiet_base env _ _ _) fun _ => (quiet_lift _).bind fun _ => (quiet_lift _).bind fun _ => (quiet_lift _).bind fun _ =>
    (quiet_lift _).bind fun _ => (quiet_lift _).bind fun _ => (quiet_lift _).bind fun _ => (quiet_lift _).bind fun _ => quiet_pure _

theorem quiet_group (env : Env) (a b c : Option Str) : Quiet (newGroup env a b c) := by
  unfold newGroup
  exact Quiet.bind (quiet_base env _ _ _) fun _ => (quiet_lift _).bind fun _ => (quiet_lift _).bind fun _ => quiet_pure _

theorem lift_inv {α} {x : Except PyErr α} {s s' : Db} {a : α} (h : lift x s = (.ok a, s')) : x = .ok a ∧ s' = s := by
  injection h with h1 h2
  exact ⟨h1, h2.symm⟩

theorem pure_inv {α} {a b : α} {s s' : Db} (h : (pure a : M α) s = (.ok b, s')) : b = a ∧ s' = s := by
  injection h with h1 h2
  injection h1 with h1
  exact ⟨h1.symm, h2.symm⟩

theorem textEl_inv {t : Str} {as : List (Str × Str)} {v : Option Str} {x : Xml} (h : textEl t as v = .ok x) :
    ∃ w, v = some w ∧ XmlText w ∧ x = Xml.mk t as (some w) [] := by
  cases v with
  | none => cases h
  | some w =>
    unfold textEl argText at h
    by_cases hw : XmlText w
    · simp only [if_pos hw] at h
      injection h with h
      exact ⟨w, rfl, hw, h.symm⟩
    · simp only [if_neg hw] at h
      cases h

theorem textEl_ok {t : Str} {as : List (Str × Str)} {w : Str} (h : XmlText w) :
    textEl t as (some w) = .ok (Xml.mk t as (some w) []) := by
  unfold textEl argText
  simp only [if_pos h]
  rfl

theorem stringEl_inv {key : Str} {v : Option Str} {p : Option Str} {x : Xml} (h : stringEl key v p = .ok x) :
    ∃ w, v = some w ∧ XmlText w ∧ x = stringXml key w p := by
  have go : ∀ as, (do
      let k ← textEl "Key".toList [] (some key)
      let v ← textEl "Value".toList as v
      pure (Xml.mk "String".toList [] none [k, v])) = .ok x →
      ∃ w, v = some w ∧ XmlText w ∧ x = Xml.mk "String".toList [] none [Xml.mk "Key".toList [] (some key) [],
        Xml.mk "Value".toList as (some w) []] := by
    intro as h
    cases h1 : textEl "Key".toList [] (some key) with
    | error e => rw [h1] at h; cases h
    | ok k =>
      rw [h1] at h
      obtain ⟨k', e1, hk, e2⟩ := textEl_inv h1
      injection e1 with e1
      subst e1 e2
      have h : (textEl "Value".toList as v >>= fun v => pure (Xml.mk "String".toList [] none [_, v])) = .ok x := h
      cases h2 : textEl "Value".toList as v with
      | error e => rw [h2] at h; cases h
      | ok y =>
        rw [h2] at h
        obtain ⟨w, e1, hw, e2⟩ := textEl_inv h2
        injection h with h
        subst e1 e2
        exact ⟨w, rfl, hw, h.symm⟩
  cases p <;> exact go _ h

theorem optString_inv {key : Str} {v : Option Str} {p : Option Str} {l : List Xml} (h : optString key v p = .ok l) :
    l = optX key v p ∧ ∀ w, v = some w → w ≠ [] → XmlText w := by
  cases v with
  | none => injection h with h; exact ⟨h.symm, by simp⟩
  | some t =>
    have h : (if t = [] then .ok [] else (stringEl key (some t) p >>= fun x => pure [x]) : Except PyErr (List Xml)) = .ok l := h
    show l = (if t = [] then [] else [stringXml key t p]) ∧ _
    by_cases ht : t = []
    · rw [if_pos ht] at h ⊢
      injection h with h
      exact ⟨h.symm, fun w e hw => by injection e with e; exact absurd (e ▸ ht) hw⟩
    · rw [if_neg ht] at h ⊢
      cases h1 : stringEl key (some t) p with
      | error e => rw [h1] at h; cases h
      | ok x =>
        rw [h1] at h
        obtain ⟨w, e1, hw, e2⟩ := stringEl_inv h1
        injection e1 with e1
        subst e1 e2
        injection h with h
        exact ⟨h.symm, fun w e _ => by injection e with e; exact e ▸ hw⟩

theorem optString_ok {key : Str} (hk : XmlText key) {v : Option Str} {p : Option Str} (h : ∀ w, v = some w → XmlText w) :
    optString key v p = .ok (optX key v p) := by
  cases v with
  | none => rfl
  | some t =>
    show (if t = [] then .ok [] else (stringEl key (some t) p >>= fun x => pure [x]) : Except PyErr (List Xml)) =
      .ok (if t = [] then [] else [stringXml key t p])
    by_cases ht : t = []
    · rw [if_pos ht, if_pos ht]
    · rw [if_neg ht, if_neg ht, stringEl_ok hk (h t rfl)]
      rfl

theorem optText_inv {tag : String} {v : Option Str} {l : List Xml} (h : optText tag.toList v = .ok l) : l = optLeaf tag v := by
  cases v with
  | none => injection h with h; exact h.symm
  | some t =>
    have h : (if t = [] then .ok [] else (textEl tag.toList [] (some t) >>= fun x => pure [x]) : Except PyErr (List Xml)) = .ok l := h
    show l = (if t = [] then [] else [leafX tag t])
    by_cases ht : t = []
    · rw [if_pos ht] at h ⊢
      injection h with h
      exact h.symm
    · rw [if_neg ht] at h ⊢
      cases h1 : textEl tag.toList [] (some t) with
      | error e => rw [h1] at h; cases h
      | ok x =>
        rw [h1] at h
        obtain ⟨w, e1, _, e2⟩ := textEl_inv h1
        injection e1 with e1
        subst e1 e2
        injection h with h
        exact h.symm

theorem optText_ok {tag : String} {v : Option Str} (h : ∀ w, v = some w → XmlText w) : optText tag.toList v = .ok (optLeaf tag v) := by
  cases v with
  | none => rfl
  | some t =>
    show (if t = [] then .ok [] else (textEl tag.toList [] (some t) >>= fun x => pure [x]) : Except PyErr (List Xml)) =
      .ok (if t = [] then [] else [leafX tag t])
    by_cases ht : t = []
    · rw [if_pos ht, if_pos ht]
    · rw [if_neg ht, if_neg ht, textEl_ok (h t rfl)]
      rfl

theorem optTags_inv {v : Option (List Str)} {l : List Xml} (h : optTags v = .ok l) : l = tagsX v := by
  cases v with
  | none => injection h with h; exact h.symm
  | some t =>
    have h : (if t = [] then .ok [] else (textEl "Tags".toList [] (some (joinTags t)) >>= fun x => pure [x]) : Except PyErr (List Xml)) = .ok l := h
    unfold tagsX tagsText
    show l = (match (if t = [] then none else some (joinTags t)) with | none => [] | some t => [leafX "Tags" t])
    by_cases ht : t = []
    · rw [if_pos ht] at h ⊢
      injection h with h
      exact h.symm
    · rw [if_neg ht] at h ⊢
      cases h1 : textEl "Tags".toList [] (some (joinTags t)) with
      | error e => rw [h1] at h; cases h
      | ok x =>
        rw [h1] at h
        obtain ⟨w, e1, _, e2⟩ := textEl_inv h1
        injection e1 with e1
        subst e1 e2
        injection h with h
        exact h.symm

theorem optTags_ok {v : Option (List Str)} (h : ∀ w, v = some w → XmlText (joinTags w)) : optTags v = .ok (tagsX v) := by
  cases v with
  | none => rfl
  | some t =>
    unfold tagsX tagsText
    show (if t = [] then .ok [] else (textEl "Tags".toList [] (some (joinTags t)) >>= fun x => pure [x]) : Except PyErr (List Xml)) =
      .ok (match (if t = [] then none else some (joinTags t)) with | none => [] | some t => [leafX "Tags" t])
    by_cases ht : t = []
    · rw [if_pos ht, if_pos ht]
    · rw [if_neg ht, if_neg ht, textEl_ok (h t rfl)]
      rfl

theorem expiry_eq (env : Env) (ver : Nat × Nat) (now : Str) (e : Option DateTime) :
    expiryStr env ver now e = expiryText env ver e now := by
  cases e with
  | none => rfl
  | some t =>
    show ((t.astimezoneUtc env.localOff) >>= _) = (match t.astimezoneUtc env.localOff with | .error x => .error x | .ok z => encodeTime ver z)
    cases t.astimezoneUtc env.localOff <;> rfl

/-- The children of a new element. -/
def baseX (u : Bytes) (icon : Option Str) (now exp : Str) (expires : Bool) : List Xml :=
  leafX "UUID" (b64encode u) :: optLeaf "IconID" icon ++ [timesX now exp expires]

theorem baseKids_inv {env : Env} {icon : Option Str} {b : Bool} {e : Option DateTime} {s s' : Db} {l : List Xml}
    (h : baseKids env icon b e s = (.ok l, s')) :
    ∃ now exp, encodeTime s.version (env.now s.ticks) = .ok now ∧ expiryText env s.version e now = .ok exp ∧
      s' = { s with ticks := s.ticks + 1, uuids := s.uuids + 1 } ∧ l = baseX (env.uuid1 s.uuids) icon now exp b := by
  unfold baseKids at h
  obtain ⟨u, s1, h1, h⟩ := bind_inv h
  have e1 : u = env.uuid1 s.uuids ∧ s1 = { s with uuids := s.uuids + 1 } := by
    injection h1 with a b; injection a with a; exact ⟨a.symm, b.symm⟩
  obtain ⟨rfl, rfl⟩ := e1
  obtain ⟨is, s2, h2, h⟩ := bind_inv h
  obtain ⟨g2, rfl⟩ := lift_inv h2
  have e2 := optText_inv g2
  subst e2
  obtain ⟨nw, s4, h4, h⟩ := bind_inv h
  have e4 : nw = env.now s.ticks ∧ s4 = { s with ticks := s.ticks + 1, uuids := s.uuids + 1 } := by
    injection h4 with a b; injection a with a; exact ⟨a.symm, b.symm⟩
  obtain ⟨rfl, rfl⟩ := e4
  obtain ⟨v, s5, h5, h⟩ := bind_inv h
  have e5 : v = s.version ∧ s5 = { s with ticks := s.ticks + 1, uuids := s.uuids + 1 } := by
    injection h5 with a b; injection a with a; exact ⟨a.symm, b.symm⟩
  obtain ⟨rfl, rfl⟩ := e5
  obtain ⟨now, s6, h6, h⟩ := bind_inv h
  obtain ⟨g6, rfl⟩ := lift_inv h6
  obtain ⟨exp, s7, h7, h⟩ := bind_inv h
  obtain ⟨g7, rfl⟩ := lift_inv h7
  obtain ⟨rfl, rfl⟩ := pure_inv h
  exact ⟨now, exp, g6, by rw [← expiry_eq]; exact g7, rfl, rfl⟩

theorem lift_bind {α β} {x : Except PyErr α} {v : α} {f : α → M β} {s : Db} (h : x = .ok v) : (lift x >>= f) s = f v s := by
  subst h; rfl

theorem baseKids_ok {env : Env} {icon : Option Str} (b : Bool) {e : Option DateTime} {s : Db} {now exp : Str}
    (hi : ∀ w, icon = some w → XmlText w) (hn : encodeTime s.version (env.now s.ticks) = .ok now)
    (he : expiryText env s.version e now = .ok exp) :
    baseKids env icon b e s =
      (.ok (baseX (env.uuid1 s.uuids) icon now exp b), { s with ticks := s.ticks + 1, uuids := s.uuids + 1 }) := by
  unfold baseKids
  rw [bind_of (show newUuid env s = (.ok (env.uuid1 s.uuids), { s with uuids := s.uuids + 1 }) from rfl),
    lift_bind (optText_ok hi),
    bind_of (show nowUtc env { s with uuids := s.uuids + 1 } =
      (.ok (env.now s.ticks), { s with ticks := s.ticks + 1, uuids := s.uuids + 1 }) from rfl),
    bind_of (show reads Db.version { s with ticks := s.ticks + 1, uuids := s.uuids + 1 } =
      (.ok s.version, { s with ticks := s.ticks + 1, uuids := s.uuids + 1 }) from rfl),
    lift_bind hn, lift_bind ((expiry_eq ..).trans he)]
  rfl

theorem newEntry_inv {env : Env} {a : EntryArgs} {s s' : Db} {x : Xml} (h : newEntry env a s = (.ok x, s')) :
    ∃ now exp t n p, a.title = some t ∧ a.username = some n ∧ a.password = some p ∧
      encodeTime s.version (env.now s.ticks) = .ok now ∧ expiryText env s.version a.expiry now = .ok exp ∧
      s' = { s with ticks := s.ticks + 1, uuids := s.uuids + 1 } ∧ x = entryXml (env.uuid1 s.uuids) now exp a t n p := by
  unfold newEntry at h
  obtain ⟨l, s1, h1, h⟩ := bind_inv h
  obtain ⟨now, exp, e1, e2, rfl, rfl⟩ := baseKids_inv h1
  obtain ⟨xt, s2, h2, h⟩ := bind_inv h
  obtain ⟨g2, rfl⟩ := lift_inv h2
  obtain ⟨t, ht, _, rfl⟩ := stringEl_inv g2
  obtain ⟨xn, s2, h2, h⟩ := bind_inv h
  obtain ⟨g2, rfl⟩ := lift_inv h2
  obtain ⟨n, hn, _, rfl⟩ := stringEl_inv g2
  obtain ⟨xp, s2, h2, h⟩ := bind_inv h
  obtain ⟨g2, rfl⟩ := lift_inv h2
  obtain ⟨p, hp, _, rfl⟩ := stringEl_inv g2
  obtain ⟨l1, s2, h2, h⟩ := bind_inv h
  obtain ⟨g2, rfl⟩ := lift_inv h2
  obtain ⟨rfl, _⟩ := optString_inv g2
  obtain ⟨l2, s2, h2, h⟩ := bind_inv h
  obtain ⟨g2, rfl⟩ := lift_inv h2
  obtain ⟨rfl, _⟩ := optString_inv g2
  obtain ⟨l3, s2, h2, h⟩ := bind_inv h
  obtain ⟨g2, rfl⟩ := lift_inv h2
  obtain ⟨rfl, _⟩ := optString_inv g2
  obtain ⟨l4, s2, h2, h⟩ := bind_inv h
  obtain ⟨g2, rfl⟩ := lift_inv h2
  have e4 := optTags_inv g2
  subst e4
  obtain ⟨rfl, rfl⟩ := pure_inv h
  exact ⟨now, exp, t, n, p, ht, hn, hp, e1, e2, rfl, rfl⟩

/-- Arguments `Entry(...)` accepts. -/
structure ArgsOk (env : Env) (s : Db) (a : EntryArgs) (now exp t n p : Str) : Prop where
  title : a.title = some t ∧ XmlText t
  username : a.username = some n ∧ XmlText n
  password : a.password = some p ∧ XmlText p
  url : ∀ w, a.url = some w → XmlText w
  notes : ∀ w, a.notes = some w → XmlText w
  otp : ∀ w, a.otp = some w → XmlText w
  tags : ∀ ts, a.tags = some ts → XmlText (joinTags ts)
  icon : ∀ w, a.icon = some w → XmlText w
  stamp : encodeTime s.version (env.now s.ticks) = .ok now
  expiry : expiryText env s.version a.expiry now = .ok exp

theorem newEntry_ok {env : Env} {a : EntryArgs} {s : Db} {now exp t n p : Str} (h : ArgsOk env s a now exp t n p) :
    newEntry env a s = (.ok (entryXml (env.uuid1 s.uuids) now exp a t n p),
      { s with ticks := s.ticks + 1, uuids := s.uuids + 1 }) := by
  unfold newEntry
  rw [bind_of (baseKids_ok _ h.icon h.stamp h.expiry), h.title.1, h.username.1, h.password.1,
    lift_bind (stringEl_ok (by decide) h.title.2 _), lift_bind (stringEl_ok (by decide) h.username.2 _),
    lift_bind (stringEl_ok (by decide) h.password.2 _), lift_bind (optString_ok (by decide) h.url),
    lift_bind (optString_ok (by decide) h.notes), lift_bind (optString_ok (by decide) h.otp),
    lift_bind (optTags_ok h.tags)]
  rfl

/-! ## Reading a new entry -/

theorem xall_append (t : Str) (as : List (Str × Str)) (v : Option Str) (ks : List Xml) (tag : Str) :
    xall (Xml.mk t as v ks) tag = ks.filter fun k => k.tag == tag := rfl

theorem optX_tag (key : Str) (v : Option Str) (p : Option Str) (tag : Str) :
    ((optX key v p).filter fun k => k.tag == tag) = if tag = "String".toList then optX key v p else [] := by
  unfold optX
  cases v with
  | none => simp
  | some t =>
    by_cases ht : t = []
    · simp [ht]
    · simp only [if_neg ht]
      rw [List.filter_cons]
      by_cases h : tag = "String".toList
      · subst h; rfl
      · rw [if_neg h, if_neg]
        · rfl
        · intro hc; exact h (beq_iff_eq.mp hc).symm

theorem optLeaf_tag (t : String) (v : Option Str) (tag : Str) :
    ((optLeaf t v).filter fun k => k.tag == tag) = if tag = t.toList then optLeaf t v else [] := by
  unfold optLeaf
  cases v with
  | none => simp
  | some x =>
    by_cases ht : x = []
    · simp [ht]
    · simp only [if_neg ht]
      rw [List.filter_cons]
      by_cases h : tag = t.toList
      · subst h; rw [if_pos rfl, if_pos (by exact beq_self_eq_true _)]; rfl
      · rw [if_neg h, if_neg]
        · rfl
        · intro hc; exact h (beq_iff_eq.mp hc).symm

theorem tagsX_tag (v : Option (List Str)) (tag : Str) :
    ((tagsX v).filter fun k => k.tag == tag) = if tag = "Tags".toList then tagsX v else [] := by
  unfold tagsX
  cases tagsText v with
  | none => simp
  | some x =>
    show ([leafX "Tags" x].filter _) = if _ then [leafX "Tags" x] else []
    rw [List.filter_cons]
    by_cases h : tag = "Tags".toList
    · subst h; rfl
    · rw [if_neg h, if_neg]
      · rfl
      · intro hc; exact h (beq_iff_eq.mp hc).symm

theorem entry_all (u : Bytes) (now exp : Str) (a : EntryArgs) (t n p tag : Str) :
    xall (entryXml u now exp a t n p) tag =
      (if tag = "UUID".toList then [leafX "UUID" (b64encode u)] else []) ++
      (if tag = "IconID".toList then optLeaf "IconID" a.icon else []) ++
      (if tag = "Times".toList then [timesX now exp a.expiry.isSome] else []) ++
      (if tag = "String".toList then [stringXml "Title".toList t none, stringXml "UserName".toList n none,
        stringXml "Password".toList p (some "True".toList)] ++ optX "URL".toList a.url none ++ optX "Notes".toList a.notes none ++
        optX "otp".toList a.otp (some "True".toList) else []) ++
      (if tag = "Tags".toList then tagsX a.tags else []) ++
      (if tag = "AutoType".toList then [autoX] else []) := by
  have one : ∀ (x : Xml), ([x].filter fun k => k.tag == tag) = if tag = x.tag then [x] else [] := by
    intro x
    rw [List.filter_cons]
    by_cases h : tag = x.tag
    · rw [if_pos h, if_pos (beq_iff_eq.mpr h.symm)]; rfl
    · rw [if_neg h, if_neg fun hc => h (beq_iff_eq.mp hc).symm]; rfl
  have three : ([stringXml "Title".toList t none, stringXml "UserName".toList n none,
      stringXml "Password".toList p (some "True".toList)].filter fun k => k.tag == tag) = if tag = "String".toList then
        [stringXml "Title".toList t none, stringXml "UserName".toList n none, stringXml "Password".toList p (some "True".toList)] else [] := by
    by_cases h : tag = "String".toList
    · subst h; rw [if_pos rfl]; rfl
    · rw [if_neg h, List.filter_eq_nil_iff]
      intro k hk hc
      have : k.tag = "String".toList := by
        simp only [List.mem_cons, List.not_mem_nil, or_false] at hk
        rcases hk with rfl | rfl | rfl <;> rfl
      exact h ((beq_iff_eq.mp hc).symm.trans this)
  unfold entryXml
  rw [xall_append]
  rw [List.filter_append, List.filter_append, List.filter_append, List.filter_append, List.filter_append, List.filter_append,
    List.filter_append, List.filter_append]
  rw [one, optLeaf_tag, one, three, optX_tag, optX_tag, optX_tag, tagsX_tag, one]
  show (if tag = "UUID".toList then _ else _) ++ (if tag = "IconID".toList then _ else _) ++ (if tag = "Times".toList then _ else _) ++
    _ ++ _ ++ _ ++ _ ++ _ ++ (if tag = "AutoType".toList then _ else _) = _
  by_cases hs : tag = "String".toList
  · subst hs
    simp [optX, List.append_assoc]
  · simp only [if_neg hs, List.nil_append, List.append_assoc]

/-! ## Its string fields -/

def valueX (v : Str) (p : Option Str) : Xml := Xml.mk "Value".toList (protAttr p) (some v) []

def optValue (v : Option Str) (p : Option Str) : List Xml :=
  match nonEmpty v with
  | none => []
  | some t => [valueX t p]

theorem stringXml_read (key v : Str) (p : Option Str) :
    (stringXml key v p).tag = "String".toList ∧ xall (stringXml key v p) "Key".toList = [Xml.mk "Key".toList [] (some key) []] ∧
    xall (stringXml key v p) "Value".toList = [valueX v p] ∧ ∀ k, xhasKey (stringXml key v p) k = (k == key) := by
  have e1 : xall (stringXml key v p) "Key".toList = [Xml.mk "Key".toList [] (some key) []] := rfl
  refine ⟨rfl, e1, rfl, fun k => ?_⟩
  unfold xhasKey
  rw [e1, Bool.eq_iff_iff]
  simp only [List.any_cons, List.any_nil, Bool.or_false, beq_iff_eq]
  show some key = some k ↔ _
  constructor
  · intro h; injection h with h; exact h.symm
  · rintro rfl; rfl

theorem values_one (key v : Str) (p : Option Str) (k : Str) :
    (([stringXml key v p].filter fun s => xhasKey s k).flatMap fun s => xall s "Value".toList) =
      if k = key then [valueX v p] else [] := by
  obtain ⟨_, _, h3, h4⟩ := stringXml_read key v p
  rw [List.filter_cons, h4 k]
  by_cases h : k = key
  · rw [if_pos h, if_pos (beq_iff_eq.mpr h), List.filter_nil, List.flatMap_cons, h3]; rfl
  · rw [if_neg h, if_neg fun hc => h (beq_iff_eq.mp hc)]; rfl

theorem values_opt (key : Str) (v : Option Str) (p : Option Str) (k : Str) :
    (((optX key v p).filter fun s => xhasKey s k).flatMap fun s => xall s "Value".toList) =
      if k = key then optValue v p else [] := by
  cases v with
  | none => show [] = if k = key then [] else []; split <;> rfl
  | some t =>
    by_cases ht : t = []
    · subst ht
      show [] = if k = key then [] else []
      split <;> rfl
    · have e1 : optX key (some t) p = [stringXml key t p] := by
        show (if t = [] then [] else _) = _
        rw [if_neg ht]
      have e2 : optValue (some t) p = [valueX t p] := by
        unfold optValue nonEmpty
        show (match (if t = [] then none else some t) with | none => [] | some t => [valueX t p]) = _
        rw [if_neg ht]
      rw [e1, e2, values_one]

theorem entry_values (u : Bytes) (now exp : Str) (a : EntryArgs) (t n p k : Str) :
    xvalues (entryXml u now exp a t n p) k =
      (if k = "Title".toList then [valueX t none] else []) ++ (if k = "UserName".toList then [valueX n none] else []) ++
      (if k = "Password".toList then [valueX p (some "True".toList)] else []) ++
      (if k = "URL".toList then optValue a.url none else []) ++ (if k = "Notes".toList then optValue a.notes none else []) ++
      (if k = "otp".toList then optValue a.otp (some "True".toList) else []) := by
  unfold xvalues
  rw [entry_all, if_neg (by decide), if_neg (by decide), if_neg (by decide), if_pos rfl, if_neg (by decide), if_neg (by decide)]
  simp only [List.nil_append, List.append_nil]
  rw [show ∀ l : List Xml, [stringXml "Title".toList t none, stringXml "UserName".toList n none,
      stringXml "Password".toList p (some "True".toList)] ++ l = [stringXml "Title".toList t none] ++
      [stringXml "UserName".toList n none] ++ [stringXml "Password".toList p (some "True".toList)] ++ l from fun _ => rfl]
  simp only [List.filter_append, List.flatMap_append]
  rw [values_one, values_one, values_one, values_opt, values_opt, values_opt]

theorem optValue_text (v : Option Str) (p : Option Str) : (optValue v p).head?.bind Xml.text = nonEmpty v := by
  unfold optValue
  cases nonEmpty v <;> rfl

theorem optValue_mark (v : Option Str) : (optValue v (some "True".toList)).head?.bind (Xml.attr · "Protected".toList) =
    (nonEmpty v).map fun _ => "True".toList := by
  unfold optValue
  cases nonEmpty v <;> rfl

/-- The fields asked for. -/
def wanted (a : EntryArgs) : Field → Option Str
  | .title => a.title
  | .username => a.username
  | .password => a.password
  | .url => nonEmpty a.url
  | .notes => nonEmpty a.notes
  | .otp => nonEmpty a.otp

theorem entry_field (u : Bytes) (now exp : Str) {a : EntryArgs} {t n p : Str} (ht : a.title = some t) (hn : a.username = some n)
    (hp : a.password = some p) (f : Field) : xfield (entryXml u now exp a t n p) f.key = wanted a f := by
  unfold xfield
  rw [entry_values]
  cases f with
  | title =>
    rw [show wanted a .title = some t from ht]
    rw [if_pos (by decide)]
    rfl
  | username =>
    rw [show wanted a .username = some n from hn]
    rw [if_neg (by decide), if_pos (by decide)]
    rfl
  | password =>
    rw [show wanted a .password = some p from hp]
    rw [if_neg (by decide), if_neg (by decide), if_pos (by decide)]
    rfl
  | url =>
    rw [if_neg (by decide), if_neg (by decide), if_neg (by decide), if_pos (by decide), if_neg (by decide), if_neg (by decide)]
    simp only [List.nil_append, List.append_nil]
    exact optValue_text _ _
  | notes =>
    rw [if_neg (by decide), if_neg (by decide), if_neg (by decide), if_neg (by decide), if_pos (by decide), if_neg (by decide)]
    simp only [List.nil_append, List.append_nil]
    exact optValue_text _ _
  | otp =>
    rw [if_neg (by decide), if_neg (by decide), if_neg (by decide), if_neg (by decide), if_neg (by decide), if_pos (by decide)]
    simp only [List.nil_append]
    exact optValue_text _ _

/-- No other fields. -/
theorem entry_other (u : Bytes) (now exp : Str) (a : EntryArgs) (t n p k : Str) (h : ∀ f : Field, k ≠ f.key) :
    xfield (entryXml u now exp a t n p) k = none := by
  unfold xfield
  rw [entry_values, if_neg (show k ≠ "Title".toList from h .title), if_neg (show k ≠ "UserName".toList from h .username), if_neg (show k ≠ "Password".toList from h .password), if_neg (show k ≠ "URL".toList from h .url), if_neg (show k ≠ "Notes".toList from h .notes), if_neg (show k ≠ "otp".toList from h .otp)]
  rfl

theorem entry_mark (u : Bytes) (now exp : Str) (a : EntryArgs) (t n p k : Str) :
    (xvalues (entryXml u now exp a t n p) k).head?.bind (Xml.attr · "Protected".toList) =
      if k = "Password".toList then some "True".toList
      else if k = "otp".toList then (nonEmpty a.otp).map fun _ => "True".toList else none := by
  have hno : ∀ v : Option Str, (optValue v none).head?.bind (Xml.attr · "Protected".toList) = none := by
    intro v; unfold optValue; cases nonEmpty v <;> rfl
  rw [entry_values]
  by_cases h1 : k = "Title".toList
  · subst h1; rw [if_pos rfl, if_neg (by decide), if_neg (by decide)]; rfl
  by_cases h2 : k = "UserName".toList
  · subst h2; rw [if_neg (by decide), if_pos rfl, if_neg (by decide), if_neg (by decide)]; rfl
  by_cases h3 : k = "Password".toList
  · subst h3; rw [if_neg (by decide), if_neg (by decide), if_pos rfl, if_pos rfl]; rfl
  rw [if_neg h1, if_neg h2, if_neg h3, if_neg h3]
  by_cases h4 : k = "URL".toList
  · subst h4
    rw [if_pos rfl, if_neg (by decide), if_neg (by decide), if_neg (by decide)]
    simp only [List.nil_append, List.append_nil]
    exact hno _
  rw [if_neg h4]
  by_cases h5 : k = "Notes".toList
  · subst h5
    rw [if_pos rfl, if_neg (by decide), if_neg (by decide)]
    simp only [List.nil_append, List.append_nil]
    exact hno _
  rw [if_neg h5]
  by_cases h6 : k = "otp".toList
  · subst h6
    rw [if_pos rfl, if_pos rfl]
    simp only [List.nil_append]
    exact optValue_mark _
  · rw [if_neg h6, if_neg h6]; rfl

/-! ## Well-formed fields, read off the content -/

theorem map_contents {α} {l : List Nat} {r : List Xml} {c : Nat → Option Xml} (e : l.map c = r.map some) {f : Nat → α} {g : Xml → α}
    (h : ∀ a ∈ l, ∀ y, c a = some y → f a = g y) : l.map f = r.map g := by
  induction l generalizing r with
  | nil => cases r with
    | nil => rfl
    | cons _ _ => cases e
  | cons a l ih =>
    cases r with
    | nil => cases e
    | cons b r =>
      rw [List.map_cons, List.map_cons] at e
      injection e with e1 e2
      rw [List.map_cons, List.map_cons, h a (List.mem_cons_self ..) b e1, ih e2 fun a ha => h a (List.mem_cons_of_mem _ ha)]

def xkeys (x : Xml) : List (Option Str) := (xall x "String".toList).map fun s => (xall s "Key".toList).head?.bind Xml.text

/-- String fields of a content: one key with a text and one value each, no key twice. -/
def xfieldsOk (x : Xml) : Bool :=
  ((xall x "String".toList).all fun s => (xall s "Key".toList).length == 1 && (xall s "Value".toList).length == 1 &&
    ((xall s "Key".toList).head?.bind Xml.text).isSome) && decide (xkeys x).Nodup

theorem all_map_bool {α} (l : List α) (f : α → Bool) : l.all f = (l.map f).all id := by
  induction l with
  | nil => rfl
  | cons a l ih => rw [List.map_cons, List.all_cons, List.all_cons, ih]; rfl

theorem content_keys {s : Db} (hs : Inv s) {e : Nat} {x : Xml} (h : content s e = some x) : keysOf s.heap e = xkeys x := by
  unfold keysOf xkeys
  refine map_contents (content_all hs h _).2 fun a _ y hy => ?_
  exact content_sub hs hy _

theorem content_len {s : Db} (hs : Inv s) {e : Nat} {x : Xml} (h : content s e = some x) (t : Str) :
    (s.heap.all e t).length = (xall x t).length := by
  have := congrArg List.length (content_all hs h t).1
  rwa [List.length_map, List.length_map] at this

theorem content_fieldsOk {s : Db} (hs : Inv s) {e : Nat} {x : Xml} (h : content s e = some x) (hx : xfieldsOk x = true) :
    Fields s.heap e := by
  apply fields_of_ok
  rw [← hx]
  unfold fieldsOk xfieldsOk
  rw [content_keys hs h]
  congr 1
  rw [all_map_bool, all_map_bool (xall x "String".toList)]
  congr 1
  refine map_contents (content_all hs h _).2 fun a _ y hy => ?_
  rw [content_len hs hy, content_len hs hy]
  congr 2
  exact content_sub hs hy _

theorem entry_fieldsOk (u : Bytes) (now exp : Str) (a : EntryArgs) (t n p : Str) : xfieldsOk (entryXml u now exp a t n p) = true := by
  have hx : ∀ key v q, (xall (stringXml key v q) "Key".toList).head?.bind Xml.text = some key := fun _ _ _ => rfl
  have hall : xall (entryXml u now exp a t n p) "String".toList = [stringXml "Title".toList t none, stringXml "UserName".toList n none,
        stringXml "Password".toList p (some "True".toList)] ++ optX "URL".toList a.url none ++ optX "Notes".toList a.notes none ++
        optX "otp".toList a.otp (some "True".toList) := by
    rw [entry_all, if_neg (by decide), if_neg (by decide), if_neg (by decide), if_pos rfl, if_neg (by decide), if_neg (by decide)]
    simp only [List.nil_append, List.append_nil]
  have hopt : ∀ key v q, optX key v q = [] ∨ ∃ w, optX key v q = [stringXml key w q] := by
    intro key v q
    unfold optX
    cases v with
    | none => exact .inl rfl
    | some w =>
      by_cases hw : w = []
      · left; simp [hw]
      · right; exact ⟨w, by simp [hw]⟩
  unfold xfieldsOk xkeys
  rw [hall]
  rcases hopt "URL".toList a.url none with e1 | ⟨w1, e1⟩ <;> rcases hopt "Notes".toList a.notes none with e2 | ⟨w2, e2⟩ <;>
    rcases hopt "otp".toList a.otp (some "True".toList) with e3 | ⟨w3, e3⟩ <;> rw [e1, e2, e3] <;> rfl

end Verif.Api
