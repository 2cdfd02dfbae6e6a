import Verif.Api.VaultMore
import Verif.Props.C37_CustomProps
/-!
# C71: the database is a vault of cards
-/
namespace Verif.Props
open Verif XPath Spec Api

section
variable {s s' : Db}

theorem some_card {x : Nat} : (vaultOf s).IsElem x ↔ ¬ NoCard (s.heap.tag x) :=
  ⟨fun ⟨_, h⟩ => (card_inv h).1, fun h => ⟨_, card_some h⟩⟩

theorem entry_card {x : Nat} : (vaultOf s).IsEntry x ↔ s.heap.tag x = "Entry".toList := by
  constructor
  · rintro ⟨c, h1, h2⟩
    obtain ⟨_, rfl⟩ := card_inv h1
    exact h2
  · intro h
    exact ⟨_, card_some (by rw [h]; decide), h⟩

theorem group_card {x : Nat} : (vaultOf s).IsGroup x ↔ s.heap.tag x = "Group".toList := by
  constructor
  · rintro ⟨c, h1, h2⟩
    obtain ⟨_, rfl⟩ := card_inv h1
    exact h2
  · intro h
    exact ⟨_, card_some (by rw [h]; decide), h⟩

theorem elem_of {t : Str} (h : ¬ NoCard t) : t = "Entry".toList ∨ t = "Group".toList := by
  by_cases e1 : t = "Entry".toList
  · exact .inl e1
  · by_cases e2 : t = "Group".toList
    · exact .inr e2
    · exact absurd ⟨e1, e2⟩ h

/-- What may be asked is a call on objects that have the method. -/
theorem ask_typed {env : Env} {o : Op} (h : o.Ask env (vaultOf s)) : o.call.Typed s.heap := by
  have el : ∀ {x}, (vaultOf s).IsElem x → Spec.IsElem s.heap x := fun h => elem_of (some_card.mp h)
  have fi : ∀ {e a}, (∃ f, (vaultOf s).HasFile e f ∧ f.handle = a) → IsAttach s.heap a := by
    rintro e a ⟨f, h, rfl⟩
    exact (all_sub (has_file.mp h).2.1).2
  cases o with
  | setUuid => exact el h
  | setIcon => exact el h.1
  | setName => exact group_card.mp h.1
  | setNotes => exact group_card.mp h.1
  | setTags => exact entry_card.mp h.1
  | setTime => exact el h.1
  | setExpires => exact el h
  | touch => exact el h
  | setField => exact entry_card.mp h.1
  | setCustom => exact entry_card.mp h.1
  | deleteCustom => exact entry_card.mp h.1
  | setAutoEnabled => exact entry_card.mp h
  | setAutoText => exact entry_card.mp h.1
  | addFile => exact entry_card.mp h.1
  | setFileId e a i => exact fi h.2
  | setFileName e a t => exact fi h.2.1
  | deleteFile e a => exact fi h.2
  | saveHistory => exact entry_card.mp h
  | deleteHistory => exact entry_card.mp h.1
  | clearHistory => exact entry_card.mp h
  | addGroup => exact group_card.mp h.1
  | addEntry => exact group_card.mp h.1
  | delete => exact el h.1
  | moveGroup => exact ⟨group_card.mp h.1, group_card.mp h.2⟩
  | moveEntry => exact ⟨entry_card.mp h.1, group_card.mp h.2⟩
  | emptyGroup => exact group_card.mp h

def noHandle : Except PyErr Unit → Except PyErr (Option Nat)
  | .ok _ => .ok none
  | .error e => .error e

theorem then_none {m : M Unit} {r : Except PyErr Unit} (h : m s = (r, s')) : (do m; pure none : M (Option Nat)) s = (noHandle r, s') := by
  rw [bind_run, h]
  cases r <;> rfl

theorem run_state (env : Env) (o : Op) (s : Db) : (o.run env s).2 = (o.call.run env s).2 := by
  have key : ∀ {α β} (m : M α) (f : α → β), ((do let x ← m; pure (f x) : M β) s).2 = (m s).2 := by
    intro α β m f
    rw [bind_run]
    cases m s with
    | mk r t => cases r <;> rfl
  cases o with
  | addGroup g n i t => exact (key (addGroup env g (some n) i t) some).trans (key (addGroup env g (some n) i t) fun _ => ()).symm
  | addEntry g a f => exact (key (addEntry env g a f) some).trans (key (addEntry env g a f) fun _ => ()).symm
  | addFile e i n => exact (key (addAttachment e i (some n)) some).trans (key (addAttachment e i (some n)) fun _ => ()).symm
  | _ => exact key _ fun _ => none

theorem auto_core (hs : Sound s) {e : Nat} (ht : s.heap.tag e = "Entry".toList) (p : AutoProp) {m : M Unit} {w : Option Str}
    (hw : ∀ t, w = some t → XmlText t)
    (hm : m s = (match (elsAt s.heap p.path e).head? with | none => (.error .attribute, s) | some q => setText q w s)) :
    ∃ r s', m s = (r, s') ∧ (match (cardOf s.heap e).auto p with
      | [] => r = .error .attribute ∧ vaultOf s' = vaultOf s
      | _ :: _ => r = .ok () ∧ vaultOf s' = (vaultOf s).change e (.setAuto p w)) ∧ ∀ y, ¬ NoCard (s'.heap.tag y) → Neat s'.heap y := by
  have hx : ¬ NoCard (s.heap.tag e) := by rw [ht]; decide
  rw [hm]
  have hc : (cardOf s.heap e).auto p = (elsAt s.heap p.path e).map s.heap.text := rfl
  rw [hc]
  cases hl : elsAt s.heap p.path e with
  | nil => exact ⟨_, s, rfl, ⟨rfl, rfl⟩, hs.neat⟩
  | cons q l =>
    obtain ⟨s', h1, h2⟩ := text_changed hs.inv q hw
    have h3 := auto_did hs hx hl h2
    exact ⟨_, s', h1, ⟨rfl, h3.vault⟩, h3.neat⟩

theorem has_entry {g : Nat} (hg : s.heap.tag g = "Group".toList) (t n : Str) :
    (vaultOf s).HasEntry g t n ↔ HasEntry s.heap g t n := by
  have hf : ∀ e k v, (cardOf s.heap e).field k = some (some v) ↔ field s.heap e k = some v := by
    intro e k v
    rw [field_eq]
    show prop s.heap e k = _ ↔ _
    cases prop s.heap e k with
    | none => simp
    | some o => cases o <;> simp
  constructor
  · rintro ⟨c, h1, e, h2, d, h3, h4, h5⟩
    obtain ⟨_, rfl⟩ := card_inv h1
    obtain ⟨_, rfl⟩ := card_inv h3
    obtain ⟨k1, k2⟩ := mem_all.mp h2
    exact ⟨e, k1, k2, (hf ..).mp h4, (hf ..).mp h5⟩
  · rintro ⟨e, h1, h2, h3, h4⟩
    exact ⟨_, card_some (by rw [hg]; decide), e, mem_all.mpr ⟨h1, h2⟩, _, card_some (by rw [h2]; decide), (hf ..).mpr h3, (hf ..).mpr h4⟩

theorem sound_quiet (hs : Sound s) (a : Nat) : Sound { s with ticks := a } :=
  ⟨inv_quiet hs.inv a s.uuids, hs.skeleton, hs.shaped, hs.neat⟩

theorem touch_core (env : Env) (hs : Sound s) {x : Nat} (hx : ¬ NoCard (s.heap.tag x)) (modify : Bool) :
    ∃ r s', touch env x modify s = (r, s') ∧
      (match encodeTime s.version (env.now s.ticks) with
      | .ok w => r = .ok () ∧ vaultOf s' = if modify then
          (({ vaultOf s with ticks := s.ticks + 1 } : Vault).setTime x .accessed w).setTime x .modified w
          else ({ vaultOf s with ticks := s.ticks + 1 } : Vault).setTime x .accessed w
      | .error e => vaultOf s' = { vaultOf s with ticks := s.ticks + 1 } ∧
          r = if (cardOf s.heap x).time .accessed = none ∧ (modify = false ∨ (cardOf s.heap x).time .modified = none) then .ok () else .error e) ∧
      ∀ y, ¬ NoCard (s'.heap.tag y) → Neat s'.heap y := by
  have hs1 := sound_quiet hs (s.ticks + 1)
  have hrun : touch env x modify s = (setTime x "LastAccessTime".toList (env.now s.ticks) >>= fun _ =>
      if modify then setTime x "LastModificationTime".toList (env.now s.ticks) else pure ()) { s with ticks := s.ticks + 1 } := by
    unfold touch
    rw [bind_of (show nowUtc env s = (.ok (env.now s.ticks), { s with ticks := s.ticks + 1 }) from rfl)]
  rw [hrun]
  generalize hq : ({ s with ticks := s.ticks + 1 } : Db) = q at hs1 ⊢
  have hv : vaultOf q = { vaultOf s with ticks := s.ticks + 1 } := by rw [← hq]; rfl
  have hh : q.heap = s.heap := by rw [← hq]; rfl
  have hver : q.version = s.version := by rw [← hq]
  rw [← hv, ← hver, ← hh]
  have hx : ¬ NoCard (q.heap.tag x) := by rw [hh]; exact hx
  cases hw : encodeTime q.version (env.now s.ticks) with
  | ok w =>
    obtain ⟨t, a1, a2, a3⟩ := setTime_did hs1 hx .accessed hw
    replace a1 : setTime x "LastAccessTime".toList (env.now s.ticks) q = (.ok (), t) := a1
    rw [bind_of a1]
    cases modify with
    | false => exact ⟨_, t, rfl, ⟨rfl, a3.vault⟩, a3.neat⟩
    | true =>
      have ht : Sound t := by
        have := sound_step env hs1 (c := .setTime x "LastAccessTime".toList (env.now s.ticks)) (elem_of hx)
        rw [show (Call.setTime x "LastAccessTime".toList (env.now s.ticks)).run env q = _ from a1] at this
        exact this a3.neat
      have e : (vaultOf t).version = q.version := by rw [a3.vault]; rfl
      have hx' : ¬ NoCard (t.heap.tag x) := by
        refine some_card.mp ?_
        rw [a3.vault]
        obtain ⟨c, hc⟩ := some_card.mpr hx
        refine ⟨if c.time .accessed = none then c else c.setTime .accessed w, ?_⟩
        show (if x = x then _ else _) = _
        rw [if_pos rfl, hc]; rfl
      obtain ⟨u, b1, _, b3⟩ := setTime_did ht hx' .modified (v := env.now s.ticks) (w := w) (by rw [show t.version = q.version from e]; exact hw)
      refine ⟨_, u, b1, ⟨rfl, ?_⟩, b3.neat⟩
      rw [b3.vault, a3.vault]; rfl
  | error e =>
    have key : ∀ p : TimeProp, setTime x p.tag (env.now s.ticks) q = (if (cardOf q.heap x).time p = none then .ok () else .error e, q) := by
      intro p
      obtain ⟨h1, h2⟩ := setTime_run hs1.inv x p.tag (env.now s.ticks)
      cases ht : timeEl q.heap x p.tag with
      | none => rw [h1 ht, if_pos ((time_card p).mpr ht)]
      | some k => rw [(h2 k ht).1 e hw, if_neg fun h => by rw [(time_card p).mp h] at ht; cases ht]
    have k1 := key .accessed
    have k2 := key .modified
    replace k1 : setTime x "LastAccessTime".toList (env.now s.ticks) q = _ := k1
    replace k2 : setTime x "LastModificationTime".toList (env.now s.ticks) q = _ := k2
    by_cases e1 : (cardOf q.heap x).time .accessed = none
    · rw [if_pos e1] at k1
      rw [bind_of k1]
      cases modify with
      | false => exact ⟨_, q, rfl, ⟨rfl, by rw [if_pos ⟨e1, .inl rfl⟩]⟩, hs1.neat⟩
      | true =>
        refine ⟨_, q, k2, ⟨rfl, ?_⟩, hs1.neat⟩
        by_cases e2 : (cardOf q.heap x).time .modified = none
        · rw [if_pos e2, if_pos ⟨e1, .inr e2⟩]
        · rw [if_neg e2, if_neg fun h => h.2.elim (fun h => nomatch h) e2]
    · rw [if_neg e1] at k1
      refine ⟨.error e, q, ?_, ⟨rfl, by rw [if_neg fun h => e1 h.1]⟩, hs1.neat⟩
      rw [bind_run, k1]

theorem step_core (env : Env) (hs : Sound s) (o : Op) (ho : o.Ask env (vaultOf s)) :
    ∃ r s', o.run env s = (r, s') ∧ o.Step env (vaultOf s) r (vaultOf s') ∧ ∀ y, ¬ NoCard (s'.heap.tag y) → Neat s'.heap y := by
  cases o with
  | setUuid x u =>
    obtain ⟨s', h1, h2⟩ := text_did hs (some_card.mp ho) .uuid (b64_xml u)
    exact ⟨_, s', then_none h1, ⟨rfl, h2.vault⟩, h2.neat⟩
  | setIcon x v =>
    obtain ⟨s', h1, h2⟩ := text_did hs (some_card.mp ho.1) .icon ho.2
    exact ⟨_, s', then_none h1, ⟨rfl, h2.vault⟩, h2.neat⟩
  | setName g v =>
    obtain ⟨s', h1, h2⟩ := text_did (x := g) hs (by rw [group_card.mp ho.1]; decide) .name ho.2
    exact ⟨_, s', then_none h1, ⟨rfl, h2.vault⟩, h2.neat⟩
  | setNotes g v =>
    obtain ⟨s', h1, h2⟩ := text_did (x := g) hs (by rw [group_card.mp ho.1]; decide) .notes ho.2
    exact ⟨_, s', then_none h1, ⟨rfl, h2.vault⟩, h2.neat⟩
  | setTags e ts =>
    obtain ⟨s', h1, h2⟩ := text_did (x := e) hs (by rw [entry_card.mp ho.1]; decide) .tags ho.2
    exact ⟨_, s', then_none h1, ⟨rfl, h2.vault⟩, h2.neat⟩
  | setTime x p v =>
    have hx := some_card.mp ho.1
    obtain ⟨h1, h2⟩ := setTime_run hs.inv x p.tag v
    cases hq : timeEl s.heap x p.tag with
    | none =>
      refine ⟨_, s, then_none (h1 hq), ⟨_, card_some hx, ?_⟩, hs.neat⟩
      rw [(time_card p).mpr hq]
      exact ⟨rfl, rfl⟩
    | some q =>
      have hc : (cardOf s.heap x).time p = some (s.heap.text q) := by
        show (timeEl s.heap x p.tag).map _ = _
        rw [hq]; rfl
      cases hw : encodeTime s.version v with
      | error e =>
        refine ⟨_, s, then_none ((h2 q hq).1 e hw), ⟨_, card_some hx, ?_⟩, hs.neat⟩
        rw [hc, show encodeTime (vaultOf s).version v = _ from hw]
        exact ⟨rfl, rfl⟩
      | ok w =>
        obtain ⟨s', h3, _, h4⟩ := setTime_did hs hx p hw
        refine ⟨_, s', then_none h3, ⟨_, card_some hx, ?_⟩, h4.neat⟩
        rw [hc, show encodeTime (vaultOf s).version v = _ from hw]
        exact ⟨rfl, h4.vault⟩
  | setExpires x b =>
    have hx := some_card.mp ho
    cases hq : timeEl s.heap x "Expires".toList with
    | none =>
      have h1 : setExpires x b s = (.error .attribute, s) := by rw [setExpires_run, hq]
      refine ⟨_, s, then_none h1, ⟨_, card_some hx, ?_⟩, hs.neat⟩
      rw [(time_card .expires).mpr hq]
      exact ⟨rfl, rfl⟩
    | some q =>
      obtain ⟨s', h3, _, h4⟩ := setExpires_did hs hx b hq
      refine ⟨_, s', then_none h3, ⟨_, card_some hx, ?_⟩, h4.neat⟩
      have hc : (cardOf s.heap x).time .expires = some (s.heap.text q) := by
        show (timeEl s.heap x "Expires".toList).map _ = _
        rw [hq]; rfl
      rw [hc]
      exact ⟨rfl, h4.vault⟩
  | touch x modify =>
    have hx := some_card.mp ho
    obtain ⟨r, s', h1, h2, h3⟩ := touch_core env hs hx modify
    refine ⟨_, s', then_none h1, ⟨_, card_some hx, _, rfl, ?_⟩, h3⟩
    cases hw : encodeTime s.version (env.now s.ticks) with
    | ok w =>
      rw [hw] at h2
      rw [show encodeTime (vaultOf s).version (env.now (vaultOf s).ticks) = _ from hw]
      rw [h2.1]
      exact ⟨rfl, h2.2⟩
    | error e =>
      rw [hw] at h2
      rw [show encodeTime (vaultOf s).version (env.now (vaultOf s).ticks) = _ from hw]
      rw [h2.2]
      refine ⟨h2.1, ?_⟩
      split <;> rfl
  | setField e f v =>
    have hx : ¬ NoCard (s.heap.tag e) := by rw [entry_card.mp ho.1]; decide
    obtain ⟨s', h1, h2⟩ := field_did env hs hx (o := .std f v) ho.2
    exact ⟨_, s', then_none h1, ⟨_, card_some hx, rfl, h2.vault⟩, h2.neat⟩
  | setCustom e k v p =>
    have hx : ¬ NoCard (s.heap.tag e) := by rw [entry_card.mp ho.1]; decide
    by_cases hr : k ∈ reservedKeys
    · have h1 : setCustom env e k (some v) p s = (.error .assertion, s) := by
        unfold setCustom
        rw [if_pos hr]; rfl
      exact ⟨_, s, then_none h1, ⟨fun _ => ⟨rfl, rfl⟩, fun h => absurd hr h⟩, hs.neat⟩
    · obtain ⟨s', h1, h2⟩ := field_did env hs hx (o := .custom k v p) ⟨hr, ho.2⟩
      exact ⟨_, s', then_none h1, ⟨fun h => absurd h hr, fun _ => ⟨rfl, h2.vault⟩⟩, h2.neat⟩
  | deleteCustom e k =>
    have hx : ¬ NoCard (s.heap.tag e) := by rw [entry_card.mp ho.1]; decide
    rcases dropField_did env hs hx ho.2 with ⟨h0, s', h1, h2⟩ | ⟨h0, h1⟩
    · exact ⟨_, s', then_none h1, ⟨_, card_some hx, fun h => absurd h h0, fun _ => ⟨rfl, h2.vault⟩⟩, h2.neat⟩
    · exact ⟨_, s, then_none h1, ⟨_, card_some hx, fun _ => ⟨rfl, rfl⟩, fun h => absurd h0 h⟩, hs.neat⟩
  | setAutoEnabled e b =>
    have ht := entry_card.mp ho
    obtain ⟨r, s', h1, h2, h3⟩ := auto_core hs ht .enabled (m := setAutoEnabled e b) (w := b.map pyBool)
      (by
        intro t h
        cases b with
        | none => cases h
        | some b => injection h with h; subst h; cases b <;> decide)
      (setAutoEnabled_run e b s)
    refine ⟨_, s', then_none h1, ⟨_, card_some (by rw [ht]; decide), ?_⟩, h3⟩
    split at h2
    · rename_i hc; rw [hc, h2.1]; exact ⟨rfl, h2.2⟩
    · rename_i hc; rw [hc, h2.1]; exact ⟨rfl, h2.2⟩
  | setAutoText e w t =>
    have ht := entry_card.mp ho.1
    obtain ⟨r, s', h1, h2, h3⟩ := auto_core hs ht (if w then .window else .sequence) (m := setAuto e w t) (w := t) ho.2
      (by rw [setAuto_run]; cases w <;> rfl)
    refine ⟨_, s', then_none h1, ⟨_, _, card_some (by rw [ht]; decide), rfl, ?_⟩, h3⟩
    split at h2
    · rename_i hc; rw [hc, h2.1]; exact ⟨rfl, h2.2⟩
    · rename_i hc; rw [hc, h2.1]; exact ⟨rfl, h2.2⟩
  | addFile e i n =>
    have ht := entry_card.mp ho.1
    obtain ⟨s', h1, h2⟩ := addAttachment_did (x := e) hs (by rw [ht]; decide) i ho.2
    refine ⟨.ok (some s.next), s', ?_, ⟨s.next, free_new hs.inv (Nat.le_refl _), rfl, h2.vault⟩, h2.neat⟩
    show (addAttachment e i (some n) >>= _) s = _
    rw [bind_of h1]; rfl
  | setFileId e a i =>
    obtain ⟨he, f, hf, rfl⟩ := ho
    obtain ⟨hx, ha, hfe⟩ := has_file.mp hf
    have hnum : f.number = (s.heap.find f.handle "Value".toList).map fun v => s.heap.attr v "Ref".toList := congrArg File.number hfe
    cases hc : s.heap.find f.handle "Value".toList with
    | none =>
      have h1 : setAttId f.handle i s = (.error .attribute, s) := by
        unfold setAttId
        rw [bind_of (findKid_run _ _ s), hc]; rfl
      refine ⟨_, s, then_none h1, ⟨f, hf, rfl, ?_⟩, hs.neat⟩
      rw [hnum, hc]
      exact ⟨rfl, rfl⟩
    | some q =>
      obtain ⟨s', h1, h2⟩ := setAttId_did hs hx ha hc i
      refine ⟨_, s', then_none h1, ⟨f, hf, rfl, ?_⟩, h2.neat⟩
      rw [hnum, hc]
      exact ⟨rfl, h2.vault⟩
  | setFileName e a t =>
    obtain ⟨he, ⟨f, hf, rfl⟩, hv⟩ := ho
    obtain ⟨hx, ha, hfe⟩ := has_file.mp hf
    have hname : f.name = (s.heap.find f.handle "Key".toList).map s.heap.text := congrArg File.name hfe
    cases hc : s.heap.find f.handle "Key".toList with
    | none =>
      have h1 : setAttName f.handle t s = (.error .attribute, s) := by
        unfold setAttName
        rw [bind_of (findKid_run _ _ s), hc]; rfl
      refine ⟨_, s, then_none h1, ⟨f, hf, rfl, ?_⟩, hs.neat⟩
      rw [hname, hc]
      exact ⟨rfl, rfl⟩
    | some q =>
      obtain ⟨s', h1, h2⟩ := setAttName_did hs hx ha hc hv
      refine ⟨_, s', then_none h1, ⟨f, hf, rfl, ?_⟩, h2.neat⟩
      rw [hname, hc]
      exact ⟨rfl, h2.vault⟩
  | deleteFile e a =>
    obtain ⟨he, f, hf, rfl⟩ := ho
    obtain ⟨hx, ha, _⟩ := has_file.mp hf
    obtain ⟨s', h1, h2⟩ := deleteAttachment_did hs hx ha
    exact ⟨_, s', then_none h1, ⟨rfl, h2.vault⟩, h2.neat⟩
  | saveHistory e =>
    have ht := entry_card.mp ho
    obtain ⟨s', n, fs, h1, h2, h3, h4, h5, h6⟩ := saveHistory_did env hs ht
    exact ⟨_, s', then_none h1, ⟨_, n, fs, card_some (by rw [ht]; decide), h2, rfl, h3, h4, h5, h6.vault⟩, h6.neat⟩
  | deleteHistory e h =>
    obtain ⟨_, c, l, h1, h2, h3⟩ := ho
    obtain ⟨_, rfl⟩ := card_inv h1
    obtain ⟨s', a1, _, a3⟩ := deleteOne_did hs h2 h3
    exact ⟨_, s', then_none a1, ⟨rfl, a3.vault⟩, a3.neat⟩
  | clearHistory e =>
    have ht := entry_card.mp ho
    have hx : ¬ NoCard (s.heap.tag e) := by rw [ht]; decide
    cases hf : s.heap.find e "History".toList with
    | none =>
      refine ⟨_, s, then_none ((C46_refused.2.2 hf none).2), ⟨_, card_some hx, ?_⟩, hs.neat⟩
      have hc : (cardOf s.heap e).past = none := by
        show (s.heap.find e "History".toList).map _ = _
        rw [hf]; rfl
      rw [hc]
      exact ⟨rfl, rfl⟩
    | some k =>
      obtain ⟨s', h1, _, h3⟩ := clear_did hs ht hf
      refine ⟨_, s', then_none h1, ⟨_, card_some hx, ?_⟩, h3.neat⟩
      have hc : (cardOf s.heap e).past = some (s.heap.all k "Entry".toList) := by
        show (s.heap.find e "History".toList).map _ = _
        rw [hf]; rfl
      rw [hc]
      exact ⟨rfl, h3.vault⟩
  | addGroup g n i t =>
    obtain ⟨hg, h1, h2, h3, now, h4⟩ := ho
    obtain ⟨s', a1, _, a3⟩ := addGroup_did env hs (group_card.mp hg) (n := n) (now := now) (icon := i) (notes := t) ⟨⟨rfl, h1⟩, h2, h3, h4⟩
    refine ⟨.ok (some s.next), s', ?_, ⟨now, s.next, h4, free_new hs.inv (Nat.le_refl _), rfl, a3.vault⟩, a3.neat⟩
    show (addGroup env g (some n) i t >>= _) s = _
    rw [bind_of a1]; rfl
  | addEntry g a force =>
    obtain ⟨hg, ⟨t, n, p, now, exp, b1, b2, b3, b4, b5, b6, b7, b8, b9⟩, c1, c2, c3, c4, c5⟩ := ho
    have ht := group_card.mp hg
    have hok : ArgsOk env s a now exp t n p :=
      ⟨⟨b1, fun c hc => (b2 c hc).2⟩, ⟨b3, fun c hc => (b4 c hc).2⟩, ⟨b5, b6⟩, c1, c2, c3, c4, c5, b7, b8⟩
    have hg0 : g ≠ 0 := tag_ne_zero hs.inv (by rw [ht]; decide)
    have hF : EntriesOk s.heap := fun e he => (hs.neat e (by rw [he]; decide)).fields
    have hH : ¬ InHist s.heap g := spine_hist hs.inv hs.shaped (by rw [ht]; decide)
    obtain ⟨o, o1, o2⟩ := dup_iff env hs.inv hF hg0 ht hH b1 b3 b2 b4
    by_cases hd : force = false ∧ (vaultOf s).HasEntry g t n
    · obtain ⟨rfl, hd⟩ := hd
      obtain ⟨x, e1, e2⟩ := (C40_refused env hs.inv hF hg0 (tag_mem (by rw [ht]; decide)) ht hH hok b2 b4).1 ((has_entry ht t n).mp hd)
      have := e2 (path_current hs (b9 rfl hd))
      subst this
      refine ⟨.error .exception, s, ?_, ⟨t, n, p, b1, b3, b5, fun _ => ⟨rfl, rfl⟩, fun h => absurd ⟨rfl, hd⟩ h⟩, hs.neat⟩
      show (addEntry env g a false >>= _) s = _
      rw [bind_run, e1]
    · have hf : (o.isSome && !force) = false := by
        cases hb : force with
        | true => simp
        | false =>
          have : ¬ o.isSome = true := fun h => hd ⟨hb, (has_entry ht t n).mpr (o2.mp h)⟩
          simpa using this
      obtain ⟨s', a1, _, a3⟩ := addEntry_did env hs ht hok o1 hf
      refine ⟨.ok (some s.next), s', ?_, ⟨t, n, p, b1, b3, b5, fun h => absurd h hd, fun _ =>
        ⟨now, exp, s.next, b7, b8, free_new hs.inv (Nat.le_refl _), rfl, a3.vault⟩⟩, a3.neat⟩
      show (addEntry env g a force >>= _) s = _
      rw [bind_of a1]; rfl
  | delete x =>
    obtain ⟨s', h1, _, h3⟩ := delete_did hs (some_card.mp ho.1) ho.2
    exact ⟨_, s', then_none h1, ⟨rfl, h3.vault⟩, h3.neat⟩
  | moveGroup x g =>
    have hx := group_card.mp ho.1
    have hg := group_card.mp ho.2
    have hb : ¬ NoCard (s.heap.tag x) := by rw [hx]; decide
    by_cases hr : Reach s.heap x g
    · exact ⟨_, s, then_none (append_refused hs.inv (card_mem hb) hr),
        ⟨fun _ => ⟨rfl, rfl⟩, fun h => absurd ((below_reach hs hx hg).mpr hr) h⟩, hs.neat⟩
    · obtain ⟨s', h1, _, _, h4⟩ := move_did hs hb hg hr
      exact ⟨_, s', then_none h1, ⟨fun h => absurd ((below_reach hs hx hg).mp h) hr, fun _ => ⟨rfl, (h4 hx).vault⟩⟩, (h4 hx).neat⟩
  | moveEntry x g =>
    have hx := entry_card.mp ho.1
    have hg := group_card.mp ho.2
    obtain ⟨s', h1, _, h3, _⟩ := move_did (x := x) hs (by rw [hx]; decide) hg (entry_no_group hs hx hg)
    exact ⟨_, s', then_none h1, ⟨rfl, (h3 hx).vault⟩, (h3 hx).neat⟩
  | emptyGroup g =>
    obtain ⟨s', h1, h2⟩ := empty_did hs (group_card.mp ho)
    exact ⟨_, s', then_none h1, ⟨rfl, h2.vault⟩, h2.neat⟩

/-- Every operation does to the database what the machine does to the vault, with the same result, and the database stays sound. -/
theorem C71_step (env : Env) (hs : Sound s) (o : Op) (ho : o.Ask env (vaultOf s)) :
    ∃ r s', o.run env s = (r, s') ∧ o.Step env (vaultOf s) r (vaultOf s') ∧ Sound s' := by
  obtain ⟨r, s', h1, h2, h3⟩ := step_core env hs o ho
  have he : s' = (o.call.run env s).2 := by rw [← run_state, h1]
  refine ⟨r, s', h1, h2, ?_⟩
  rw [he] at h3 ⊢
  exact sound_step env hs (ask_typed ho) h3

/-- So for every sequence of operations, of any length. -/
theorem C71_run (env : Env) {l : List (Op × Except PyErr (Option Nat))} (hs : Sound s) (h : Ran env s l s') :
    Moves env (vaultOf s) l (vaultOf s') ∧ Sound s' := by
  induction h with
  | nil => exact ⟨.nil _, hs⟩
  | @cons s t o l ho _ ih =>
    obtain ⟨r, u, h1, h2, h3⟩ := C71_step env hs o ho
    rw [h1] at ih ⊢
    obtain ⟨h4, h5⟩ := ih h3
    exact ⟨.cons ho h2 h4, h5⟩

/-- Cards an operation is not about stay as they are; what it takes away is missing from the lists, and that is all. -/
theorem C71_frame {env : Env} {v v' : Vault} {r : Except PyErr (Option Nat)} {o : Op} (h : o.Step env v r v') {y : Nat} {c : Card}
    (hc : v.card y = some c) (hy : y ∉ o.about) : v'.card y = some c ∨ ∃ x ∈ o.taken, v'.card y = some (c.unlink x) := by
  have chg : ∀ {w : Vault} {x : Nat} {f : Card → Card}, y ≠ x → (w.change x f).card y = w.card y := fun h => if_neg h
  have put : ∀ {w : Vault} {x : Nat} {d : Card}, y ≠ x → (w.put x d).card y = w.card y := fun h => if_neg h
  have new : ∀ {x : Nat}, v.card x = none → y ≠ x := by rintro x hx rfl; rw [hx] at hc; cases hc
  have unl : ∀ x, (v.unlink x).card y = some (c.unlink x) := fun x => by show (v.card y).map _ = _; rw [hc]; rfl
  have ne : ∀ {x : Nat}, y ∉ [x] → y ≠ x := fun h e => h (List.mem_singleton.mpr e)
  cases o with
  | setUuid x u => rw [h.2, chg (ne hy)]; exact .inl hc
  | setIcon x u => rw [h.2, chg (ne hy)]; exact .inl hc
  | setName x u => rw [h.2, chg (ne hy)]; exact .inl hc
  | setNotes x u => rw [h.2, chg (ne hy)]; exact .inl hc
  | setTags x u => rw [h.2, chg (ne hy)]; exact .inl hc
  | setTime x p t =>
    left
    obtain ⟨d, _, h⟩ := h
    split at h
    · rw [h.2]; exact hc
    · rw [h.2]; exact hc
    · rw [h.2]; exact (chg (ne hy)).trans hc
  | setExpires x b =>
    left
    obtain ⟨d, _, h⟩ := h
    split at h
    · rw [h.2]; exact hc
    · rw [h.2]; exact (chg (ne hy)).trans hc
  | touch x m =>
    left
    obtain ⟨d, _, u, rfl, h⟩ := h
    have hc' : ({ v with ticks := v.ticks + 1 } : Vault).card y = some c := hc
    split at h
    · rw [h.2]
      split
      · exact (chg (ne hy)).trans ((chg (ne hy)).trans hc')
      · exact (chg (ne hy)).trans hc'
    · rw [h.1]; exact hc
  | setField x f t =>
    obtain ⟨d, _, _, h⟩ := h
    rw [h, chg (ne hy)]; exact .inl hc
  | setCustom x k t p =>
    by_cases hk : k ∈ reservedKeys
    · rw [(h.1 hk).2]; exact .inl hc
    · rw [(h.2 hk).2, chg (ne hy)]; exact .inl hc
  | deleteCustom x k =>
    obtain ⟨d, _, h1, h2⟩ := h
    by_cases hk : k ∈ reservedKeys ∨ d.field k = none
    · rw [(h1 hk).2]; exact .inl hc
    · rw [(h2 hk).2, chg (ne hy)]; exact .inl hc
  | setAutoEnabled x b =>
    left
    obtain ⟨d, _, h⟩ := h
    split at h
    · rw [h.2]; exact hc
    · rw [h.2]; exact (chg (ne hy)).trans hc
  | setAutoText x b t =>
    left
    obtain ⟨d, p, _, _, h⟩ := h
    split at h
    · rw [h.2]; exact hc
    · rw [h.2]; exact (chg (ne hy)).trans hc
  | addFile x i n =>
    obtain ⟨a, _, _, h⟩ := h
    rw [h, chg (ne hy)]; exact .inl hc
  | setFileId x a i =>
    left
    obtain ⟨f, _, _, h⟩ := h
    split at h
    · rw [h.2]; exact hc
    · rw [h.2]; exact (chg (ne hy)).trans hc
  | setFileName x a t =>
    left
    obtain ⟨f, _, _, h⟩ := h
    split at h
    · rw [h.2]; exact hc
    · rw [h.2]; exact (chg (ne hy)).trans hc
  | deleteFile x a => rw [h.2, chg (ne hy)]; exact .inl hc
  | saveHistory x =>
    obtain ⟨d, n, fs, _, h1, _, _, _, _, h⟩ := h
    rw [h, put (new h1.1), chg (ne hy)]; exact .inl hc
  | deleteHistory x k => rw [h.2]; exact .inr ⟨k, List.mem_singleton.mpr rfl, unl k⟩
  | clearHistory x =>
    left
    obtain ⟨d, _, h⟩ := h
    split at h
    · rw [h.2]; exact hc
    · rw [h.2]; exact (chg (ne hy)).trans hc
  | addGroup g n i t =>
    obtain ⟨now, x, _, h1, _, h⟩ := h
    rw [h]
    exact .inl ((put (new h1.1)).trans ((chg (ne hy)).trans hc))
  | addEntry g a force =>
    left
    obtain ⟨t, n, p, _, _, _, h1, h2⟩ := h
    by_cases hd : force = false ∧ v.HasEntry g t n
    · rw [(h1 hd).2]; exact hc
    · obtain ⟨now, exp, x, _, _, h3, _, h⟩ := h2 hd
      rw [h]
      exact (put (new h3.1)).trans ((chg (ne hy)).trans hc)
  | delete x => rw [h.2]; exact .inr ⟨x, List.mem_singleton.mpr rfl, unl x⟩
  | moveGroup x g =>
    by_cases hb : v.Below x g
    · rw [(h.1 hb).2]; exact .inl hc
    · rw [(h.2 hb).2]
      exact .inr ⟨x, List.mem_singleton.mpr rfl, (chg (ne hy)).trans (unl x)⟩
  | moveEntry x g =>
    rw [h.2]
    exact .inr ⟨x, List.mem_singleton.mpr rfl, (chg (ne hy)).trans (unl x)⟩
  | emptyGroup g => rw [h.2, chg (ne hy)]; exact .inl hc

/-! ## What is read is what is on the card -/

/-- Every getter of an entry or group is a function of its card. -/
theorem C71_reads (env : Env) (hs : Sound s) {x : Nat} {c : Card} (hc : (vaultOf s).card x = some c) :
    getUuid x s = (uuidOfText (c.text .uuid), s) ∧ getIcon x s = (.ok (c.text .icon), s) ∧ getName x s = (.ok (c.text .name), s) ∧
    getGroupNotes x s = (.ok (c.text .notes), s) ∧
    getTags x s = (.ok (match c.text .tags with
      | none => []
      | some v => if v = [] then [] else Api.splitOn ';' (v.map fun c => if c = ',' then ';' else c)), s) ∧
    (∀ f : Api.Field, getStd env x f s = (.ok (c.field f.key).join, s)) ∧
    (∀ k, Plain k → getCustom env x k s = (if k ∈ reservedKeys then .error .assertion else .ok (c.field k).join, s)) ∧
    (∀ k, Plain k → Api.isProtected env x k s = (.ok (c.mark k == some "True".toList), s)) ∧
    (∀ p : TimeProp, getTime x p.tag s = (readTime (vaultOf s).version (c.time p).join, s)) ∧
    getExpires x s = ((match c.time .expires with
      | none => .error .attribute
      | some t => .ok (t.map fun t => t == "True".toList)), s) ∧
    getAutoEnabled x s = ((match c.auto .enabled with
      | [] => .error .attribute
      | t :: _ => .ok (t.map fun t => t == "True".toList)), s) ∧
    (∀ w, getAuto x w s = (.ok (nonEmpty (c.auto (if w then .window else .sequence)).head?.join), s)) ∧
    groupEntries x s = (.ok c.entries, s) ∧ groupSubgroups x s = (.ok c.groups, s) ∧ history x s = (.ok (c.past.getD []), s) := by
  obtain ⟨hx, rfl⟩ := card_inv hc
  have hm := card_mem hx
  have h0 := card_pos hs.inv hx
  have hf : ∀ k, Plain k → getField env x k s = (.ok ((cardOf s.heap x).field k).join, s) := fun k hk => by
    rw [getField_run env hs.inv h0 hm hk, field_eq]; rfl
  have ht : ∀ p : TimeProp, (timeEl s.heap x p.tag).map s.heap.text = (cardOf s.heap x).time p := fun p => rfl
  refine ⟨?_, getSub_run .., getSub_run .., getSub_run .., ?_, fun f => hf _ (plain_std f), fun k hk => ?_, fun k hk => ?_, fun p => ?_, ?_, ?_, fun w => ?_, rfl, rfl, ?_⟩
  · unfold getUuid
    rw [bind_of (getSub_run x _ s)]; rfl
  · unfold getTags
    rw [bind_of (getSub_run x _ s)]
    show _ = (Except.ok (match sub s.heap x "Tags".toList with | none => _ | some v => _), s)
    cases sub s.heap x "Tags".toList with
    | none => rfl
    | some v => rfl
  · unfold getCustom
    by_cases hr : k ∈ reservedKeys
    · rw [if_pos hr, if_pos hr]; rfl
    · rw [if_neg hr, if_neg hr]; exact hf k hk
  · exact isProtected_run env hs.inv h0 hm hk
  · rw [getTime_run]
    unfold timeText
    show (readTime s.version _, s) = (readTime s.version ((timeEl s.heap x p.tag).map s.heap.text).join, s)
    cases timeEl s.heap x p.tag <;> rfl
  · rw [getExpires_run]
    show _ = ((match (timeEl s.heap x "Expires".toList).map s.heap.text with | none => _ | some t => _), s)
    cases timeEl s.heap x "Expires".toList <;> rfl
  · unfold getAutoEnabled
    rw [bind_of (findDeep_run x _ s)]
    show _ = ((match (elsAt s.heap ["AutoType".toList, "Enabled".toList] x).map s.heap.text with | [] => _ | t :: _ => _), s)
    cases elsAt s.heap ["AutoType".toList, "Enabled".toList] x with
    | nil => rfl
    | cons q l =>
      show (orAttr (some q) >>= _) s = _
      rw [bind_of (orAttr_some q s), bind_of (textOf_run q s)]; rfl
  · unfold getAuto
    rw [bind_of (findDeep_run x _ s)]
    have : (cardOf s.heap x).auto (if w then .window else .sequence) = (elsAt s.heap (autoPath w) x).map s.heap.text := by cases w <;> rfl
    rw [this]
    cases elsAt s.heap (autoPath w) x with
    | nil => rfl
    | cons q l =>
      show (textOf q >>= _) s = _
      rw [bind_of (textOf_run q s)]
      show _ = (Except.ok (nonEmpty (s.heap.text q)), s)
      unfold nonEmpty
      cases s.heap.text q with
      | none => rfl
      | some t =>
        show (Except.ok (if some t = some [] then none else some t), s) = (Except.ok (if t = [] then none else some t), s)
        by_cases e : t = []
        · rw [if_pos e, if_pos (by rw [e])]
        · rw [if_neg e, if_neg fun h => e (by injection h)]
  · rw [history_run]
    show _ = (Except.ok (((s.heap.find x "History".toList).map fun k => s.heap.all k "Entry".toList).getD []), s)
    cases s.heap.find x "History".toList <;> rfl

/-- So are the attachments: `attachments` of an entry in a group lists those that have a name, and each gives its name and number. -/
theorem C71_files (env : Env) (hs : Sound s) {x : Nat} {c : Card} (hc : (vaultOf s).card x = some c) :
    (∀ f ∈ c.files,
      attName f.handle s = ((match f.name with | none => .error .attribute | some t => .ok t), s) ∧
      attId f.handle s = ((match f.number with | none => .error .attribute | some none => .error .key | some (some t) => pyInt t), s)) ∧
    (MatchesAll env.re → (∃ g d, (vaultOf s).card g = some d ∧ d.kind = "Group".toList ∧ x ∈ d.entries) →
      entryAttachments env x s = (.ok ((c.files.filter fun f => f.name.isSome).map File.handle), s)) := by
  obtain ⟨hx, rfl⟩ := card_inv hc
  constructor
  · intro f hf
    obtain ⟨a, _, rfl⟩ := List.mem_map.mp hf
    constructor
    · unfold attName
      show (findKid a "Key".toList >>= _) s = ((match (s.heap.find a "Key".toList).map s.heap.text with | none => _ | some t => _), s)
      rw [bind_of (findKid_run a _ s)]
      cases s.heap.find a "Key".toList with
      | none => rfl
      | some q =>
        show (orAttr (some q) >>= _) s = _
        rw [bind_of (orAttr_some q s), textOf_run]; rfl
    · unfold attId
      show (findKid a "Value".toList >>= _) s =
        ((match (s.heap.find a "Value".toList).map (fun v => s.heap.attr v "Ref".toList) with | none => _ | some none => _ | some (some t) => _), s)
      rw [bind_of (findKid_run a _ s)]
      cases s.heap.find a "Value".toList with
      | none => rfl
      | some q =>
        show (orAttr (some q) >>= _) s = _
        rw [bind_of (orAttr_some q s), bind_of (attrOf_run q _ s)]
        show _ = ((match some (s.heap.attr q "Ref".toList) with | none => _ | some none => _ | some (some t) => _), s)
        cases s.heap.attr q "Ref".toList with
        | none => rfl
        | some r => rfl
  · rintro hre ⟨g, d, h1, h2, h3⟩
    obtain ⟨_, rfl⟩ := card_inv h1
    rw [entryAttachments_run env hs.inv (all_sub h3).2 (entry_hist hs.inv hs.shaped h2 h3) hre]
    have : attsOf s.heap x = (((s.heap.all x "Binary".toList).map (fileOf s.heap)).filter fun f => f.name.isSome).map File.handle := by
      rw [List.filter_map, List.map_map]
      show _ = List.map (fun b => b) _
      rw [List.map_id']
      unfold attsOf
      refine List.filter_congr fun b _ => ?_
      show _ = ((s.heap.find b "Key".toList).map s.heap.text).isSome
      unfold Heap.find
      cases s.heap.all b "Key".toList <;> rfl
    rw [this]; rfl

/-- `custom_properties` lists the fields of the card that are not reserved, each once. -/
theorem C71_custom (env : Env) (hs : Sound s) {x : Nat} {c : Card} (hc : (vaultOf s).card x = some c) (hk : ∀ k, c.field k ≠ none → Plain k) :
    ∃ l, customProps env x s = (.ok l, s) ∧ (l.map Prod.fst).Nodup ∧
      ∀ k v, (k, v) ∈ l ↔ ∃ t, k = some t ∧ t ∉ reservedKeys ∧ c.field t = some v := by
  obtain ⟨hx, rfl⟩ := card_inv hc
  exact C37_listing env hs.inv (card_pos hs.inv hx) (card_mem hx) (hs.neat x hx).fields hk

theorem mem_roots (hs : Sound s) {r : Nat} : r ∈ (vaultOf s).roots ↔ IsRoot s.heap r := by
  obtain ⟨d, m, o, hk⟩ := hs.skeleton
  show r ∈ rootsOf s.heap ↔ _
  rw [roots_of hk]
  constructor
  · intro h
    exact ⟨d, o, hk.doc, hk.tag, by rw [hk.root]; exact List.mem_singleton.mpr rfl, h⟩
  · rintro ⟨d', o', h1, _, h3, h4⟩
    rw [hk.doc] at h1
    injection h1 with h1
    rw [← h1, hk.root, List.mem_singleton] at h3
    rw [← h3]; exact h4

theorem current_under (hs : Sound s) {g : Nat} : (vaultOf s).Current g ↔ ∃ r, IsRoot s.heap r ∧ Under s.heap r g := by
  constructor
  · rintro ⟨r, h1, h2⟩
    refine ⟨r, (mem_roots hs).mp h1, ?_⟩
    clear h1
    induction h2 with
    | refl => exact .refl
    | sub _ hc hy ih =>
      obtain ⟨_, rfl⟩ := card_inv hc
      exact .sub ih hy
  · rintro ⟨r, h1, h2⟩
    refine ⟨r, (mem_roots hs).mpr h1, ?_⟩
    have ht : s.heap.tag r = "Group".toList := by
      obtain ⟨_, _, _, _, _, h⟩ := h1
      exact (all_kid h).2
    induction h2 with
    | refl => exact .refl
    | @sub g c hu hc ih =>
      have hg : s.heap.tag g = "Group".toList := by
        cases hu with
        | refl => exact ht
        | sub _ h => exact (all_kid h).2
      exact .sub ih (card_some (by rw [hg]; decide)) hc

/-- `groups` and `entries` are the groups below the roots and what is in them, `root_group` the first root. -/
theorem C71_lists (env : Env) (hs : Sound s) :
    (∃ l, allGroups env s = (.ok l, s) ∧ l.Nodup ∧ ∀ g, g ∈ l ↔ (vaultOf s).Current g) ∧
    (∃ l, allEntries env s = (.ok l, s) ∧ l.Nodup ∧ ∀ e, e ∈ l ↔ ∃ g c, (vaultOf s).Current g ∧ (vaultOf s).card g = some c ∧ e ∈ c.entries) ∧
    rootGroup env s = (.ok (vaultOf s).roots.head?, s) := by
  obtain ⟨d, m, r, hk⟩ := hs.skeleton
  obtain ⟨gs, g1, g2, g3⟩ := C68_groups env hs.inv hs.shaped hk
  refine ⟨⟨gs, g1, g2, fun g => (g3 g).trans (current_under hs).symm⟩, ?_, ?_⟩
  · obtain ⟨gs', es, of_, h1, h2, h3, h4, h5⟩ := C68_entries env hs.inv hs.shaped hk
    rw [g1] at h1
    injection h1 with h1 _
    injection h1 with h1
    subst h1
    have hof : ∀ g, of_ g = s.heap.all g "Entry".toList := by
      intro g
      have := h3 g
      injection this with this _
      injection this with this
      exact this.symm
    refine ⟨es, h2, h4, fun e => ?_⟩
    rw [h5.mem_iff, List.mem_flatMap]
    constructor
    · rintro ⟨g, k1, k2⟩
      have hcur := (current_under hs).mpr ((g3 g).mp k1)
      obtain ⟨r, r1, r2⟩ := hcur
      have := below_tag hs r1 r2
      exact ⟨g, _, ⟨r, r1, r2⟩, card_some (by rw [this]; decide), by rw [hof] at k2; exact k2⟩
    · rintro ⟨g, c, k1, k2, k3⟩
      obtain ⟨_, rfl⟩ := card_inv k2
      exact ⟨g, (g3 g).mpr ((current_under hs).mp k1), by rw [hof]; exact k3⟩
  · rw [rootGroup_run env hs.inv]
    have : rootEls s.heap = rootsOf s.heap := by
      rw [roots_of hk]
      have hd : (s.heap.kids 0).take 1 = [d] := by
        have := hk.doc
        unfold docEl at this
        cases hl : s.heap.kids 0 with
        | nil => rw [hl] at this; cases this
        | cons a l => rw [hl] at this; injection this with this; rw [this]; rfl
      unfold rootEls
      rw [hd, List.flatMap_cons, List.flatMap_nil, List.append_nil, if_pos hk.tag, hk.root, List.flatMap_cons, List.flatMap_nil, List.append_nil]
    rw [this]; rfl

/-! ## Files -/

/-- A tree in which a sound database can be read. -/
structure SoundXml (x : Xml) : Prop where
  tag : x.tag = "KeePassFile".toList
  info : (xall x "Meta".toList).length = 1
  root : (xall x "Root".toList).length = 1
  shaped : ShapedXml x
  neat : Xml.All (fun t a v ks => ¬ NoCard t → XNeat (.mk t a v ks)) x

theorem content_each (hs : Inv s) {e : Nat} {x : Xml} (h : content s e = some x) {P : Str → List (Str × Str) → Option Str → List Xml → Prop}
    (hx : Xml.All P x) {j : Nat} (hr : Reach s.heap e j) : ∃ y, content s j = some y ∧ P y.tag y.attrs y.text y.kids := by
  obtain ⟨n, h1, rfl⟩ := content_node h
  obtain ⟨y, hy, rfl⟩ := List.mem_map.mp ((reach_iff hs h1 j).mp hr)
  obtain ⟨hm, rfl⟩ := Node.get?_some h1
  have hg := Node.get?_mem hs.world.uniq (Node.nodes_trans hm hy)
  refine ⟨y.xml, ?_, ?_⟩
  · unfold content; rw [hg]; rfl
  · have := all_nodes hx y hy
    cases y with
    | mk i t a v ks => rw [Node.xml, Node.xmlL_eq]; exact this

/-- A database read from such a tree is sound. -/
theorem C71_opened {k : Kdbx} {x : Xml} (hk : k.tree = .ok x) (hx : SoundXml x) {a b : Nat} (hl : k.load a b = .ok s) : Sound s := by
  obtain ⟨s', e, hi, hd, hc, _⟩ := load_ok hk a b
  rw [hl] at e
  injection e with e
  subst e
  have one : ∀ t, (xall x t).length = 1 → ∃ n, s.heap.all 1 t = [n] := by
    intro t ht
    rw [← content_len hi hc t] at ht
    match h : s.heap.all 1 t with
    | [] => rw [h] at ht; cases ht
    | [n] => exact ⟨n, rfl⟩
    | p :: q :: l => rw [h] at ht; simp at ht
  obtain ⟨m, hm⟩ := one _ hx.info
  obtain ⟨r, hr⟩ := one _ hx.root
  refine ⟨hi, ⟨1, m, r, hd, (content_tag hc).trans hx.tag, hm, hr⟩,
    fun p c h0 hk' => content_shaped hi hc hx.shaped (load_reach hl hi (kid_mem hi hk').2 h0) hk', fun y hy => ?_⟩
  obtain ⟨z, h1, h2⟩ := content_each hi hc hx.neat (load_reach hl hi (card_mem hy) (card_pos hi hy))
  refine (content_neat hi h1).mpr ?_
  have := h2 (by rw [← content_tag h1]; exact hy)
  cases z
  exact this

end

/-! The sample database is sound, and the operations can be done in it. -/
theorem sample_sound : Sound Sample.db := by
  refine ⟨Sample.db_inv, ⟨_, _, _, sample_skeleton⟩, sample_shaped, fun x hx => ?_⟩
  have h : (Sample.db.world.ids.all fun x => decide (NoCard (Sample.db.heap.tag x)) ||
      ((singles.all fun t => decide ((Sample.db.heap.all x t).length ≤ 1)) && fieldsOk Sample.db.heap x)) = true := by decide +kernel
  have h := List.all_eq_true.mp h x (card_mem hx)
  rw [decide_eq_false hx, Bool.false_or, Bool.and_eq_true] at h
  exact ⟨fun t ht => of_decide_eq_true (List.all_eq_true.mp h.1 t ht), fields_of_ok h.2⟩

/-- A snapshot is taken, the password changed, a group added and the group it is in moved into it, which is refused; then an entry is moved
there and another deleted. -/
def story : List Op := [.saveHistory 23, .setField 23 .password "new".toList, .addGroup 93 "Sub".toList none none, .moveGroup 93 183,
  .moveEntry 23 183, .delete 76]

def storyRun (s : Db) : List Op → Db
  | [] => s
  | o :: l => storyRun (o.run Sample.env s).2 l

theorem is_ok {α : Type} {r : Except PyErr α} (h : r.toOption.isSome = true) : ∃ v, r = .ok v := by
  cases r with
  | ok v => exact ⟨v, rfl⟩
  | error e => cases h

example : ∃ l, l.map Prod.fst = story ∧ Ran Sample.env Sample.db l (storyRun Sample.db story) := by
  refine ⟨_, ?_, .cons (?_ : Op.Ask _ _ (.saveHistory 23)) (.cons (?_ : Op.Ask _ _ (.setField 23 .password "new".toList))
    (.cons (?_ : Op.Ask _ _ (.addGroup 93 "Sub".toList none none)) (.cons (?_ : Op.Ask _ _ (.moveGroup 93 183))
    (.cons (?_ : Op.Ask _ _ (.moveEntry 23 183)) (.cons (?_ : Op.Ask _ _ (.delete 76)) (.nil _))))))⟩
  · rfl
  · exact entry_card.mpr (by decide +kernel)
  · exact ⟨entry_card.mpr (by decide +kernel), by decide⟩
  · exact ⟨group_card.mpr (by decide +kernel), by decide, nofun, nofun, is_ok (by decide +kernel)⟩
  · exact ⟨group_card.mpr (by decide +kernel), group_card.mpr (by decide +kernel)⟩
  · exact ⟨entry_card.mpr (by decide +kernel), group_card.mpr (by decide +kernel)⟩
  · refine ⟨some_card.mpr (by decide +kernel), .inr ⟨14, _, card_some (by decide +kernel), .inl (by decide +kernel)⟩⟩

/-- What the calls gave. -/
example : ((Op.moveGroup 93 183).run Sample.env (storyRun Sample.db (story.take 3))).1 = .error .value ∧
    ((Op.addGroup 93 "Sub".toList none none).run Sample.env (storyRun Sample.db (story.take 2))).1 = .ok (some 183) ∧
    (groupEntries 183 (storyRun Sample.db story)).1 = .ok [23] ∧
    (getStd Sample.env 23 .password (storyRun Sample.db story)).1 = .ok (some "new".toList) := by
  refine ⟨?_, ?_, ?_, ?_⟩ <;> decide +kernel

/-- Another one: a file is attached, renamed and given other data, another is taken off, and the window for auto-type is set. -/
def papers : List Op := [.addFile 23 1 "note.txt".toList, .setFileName 23 148 (some "memo.txt".toList), .setFileId 23 148 0, .deleteFile 23 47,
  .setAutoEnabled 23 (some false), .setAutoText 23 true (some "*Mail*".toList)]

example : ∃ l, l.map Prod.fst = papers ∧ Ran Sample.env Sample.db l (storyRun Sample.db papers) := by
  have file : ∀ {s : Db} {e a : Nat}, ¬ NoCard (s.heap.tag e) → a ∈ s.heap.all e "Binary".toList → ∃ f, (vaultOf s).HasFile e f ∧ f.handle = a :=
    fun {s _ a} h1 h2 => ⟨fileOf s.heap a, has_file.mpr ⟨h1, h2, rfl⟩, rfl⟩
  refine ⟨_, ?_, .cons (?_ : Op.Ask _ _ (.addFile 23 1 "note.txt".toList)) (.cons (?_ : Op.Ask _ _ (.setFileName 23 148 (some "memo.txt".toList)))
    (.cons (?_ : Op.Ask _ _ (.setFileId 23 148 0)) (.cons (?_ : Op.Ask _ _ (.deleteFile 23 47))
    (.cons (?_ : Op.Ask _ _ (.setAutoEnabled 23 (some false))) (.cons (?_ : Op.Ask _ _ (.setAutoText 23 true (some "*Mail*".toList))) (.nil _))))))⟩
  · rfl
  · exact ⟨entry_card.mpr (by decide +kernel), by decide⟩
  · refine ⟨entry_card.mpr (by decide +kernel), file (by decide +kernel) (by decide +kernel), ?_⟩
    intro t h; injection h with h; subst h; decide
  · exact ⟨entry_card.mpr (by decide +kernel), file (by decide +kernel) (by decide +kernel)⟩
  · exact ⟨entry_card.mpr (by decide +kernel), file (by decide +kernel) (by decide +kernel)⟩
  · exact entry_card.mpr (by decide +kernel)
  · refine ⟨entry_card.mpr (by decide +kernel), ?_⟩
    intro t h; injection h with h; subst h; decide

example : (entryAttachments Sample.env 23 (storyRun Sample.db papers)).1 = .ok [148] ∧
    (attName 148 (storyRun Sample.db papers)).1 = .ok (some "memo.txt".toList) ∧
    (attId 148 (storyRun Sample.db papers)).1 = .ok 0 ∧
    (getAutoEnabled 23 (storyRun Sample.db papers)).1 = .ok (some false) := by
  refine ⟨?_, ?_, ?_, ?_⟩ <;> decide +kernel

end Verif.Props
