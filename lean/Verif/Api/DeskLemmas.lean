import Verif.Spec.Desk
import Verif.Api.VaultMore
import Verif.Props.C45_History
import Verif.Props.C59_Metadata
/-!
# Operations on cards and the desk
-/
namespace Verif.Api
open Verif XPath Spec

/-! ## The credentials and the data of a KDBX4 database -/

/-- The call changes none of them. -/
structure Fixes {α} (m : M α) : Prop where
  eq : ∀ s, (m s).2.binaries = s.binaries ∧ (m s).2.password = s.password ∧ (m s).2.keyfile = s.keyfile

theorem fixes_still {α} {m : M α} (h : Still m) : Fixes m := ⟨fun s => by rw [h.eq s]; exact ⟨rfl, rfl, rfl⟩⟩

theorem fixes_bind {α β} {m : M α} {k : α → M β} (h1 : Fixes m) (h2 : ∀ a, Fixes (k a)) : Fixes (m >>= k) := by
  refine ⟨fun s => ?_⟩
  have e : (m >>= k) s = match m s with | (.ok a, s') => k a s' | (.error e, s') => (.error e, s') := rfl
  rw [e]
  have a1 := h1.eq s
  generalize m s = r at a1
  obtain ⟨r, t⟩ := r
  cases r with
  | error e => exact a1
  | ok a =>
    obtain ⟨b1, b2, b3⟩ := (h2 a).eq t
    exact ⟨b1.trans a1.1, b2.trans a1.2.1, b3.trans a1.2.2⟩

theorem fixes_setText (i : Nat) (v : Option Str) : Fixes (setText i v) := ⟨fun s => by
  unfold setText
  split
  · exact ⟨rfl, rfl, rfl⟩
  · split <;> exact ⟨rfl, rfl, rfl⟩⟩
theorem fixes_setAttr (i : Nat) (k v : Str) : Fixes (setAttr i k v) := ⟨fun s => by
  unfold setAttr
  split <;> exact ⟨rfl, rfl, rfl⟩⟩
theorem fixes_removeKid (p c : Nat) : Fixes (removeKid p c) := ⟨fun s => by
  unfold removeKid
  split <;> exact ⟨rfl, rfl, rfl⟩⟩
theorem fixes_removeOld (p : Nat) (o : Option Nat) : Fixes (removeOld p o) := by
  cases o with
  | none => exact fixes_still (still_pure _)
  | some c => exact fixes_removeKid p c
theorem fixes_appendEl (p c : Nat) : Fixes (appendEl p c) := ⟨fun s => by
  unfold appendEl
  split
  · exact ⟨rfl, rfl, rfl⟩
  · split <;> exact ⟨rfl, rfl, rfl⟩⟩
theorem fixes_insertEl (p : Nat) (i : Int) (c : Nat) : Fixes (insertEl p i c) := ⟨fun s => by
  unfold insertEl
  split
  · exact ⟨rfl, rfl, rfl⟩
  · split <;> exact ⟨rfl, rfl, rfl⟩⟩
theorem fixes_make (p : Nat) (x : Xml) : Fixes (make p x) := ⟨fun _ => ⟨rfl, rfl, rfl⟩⟩
theorem fixes_now (env : Env) : Fixes (nowUtc env) := ⟨fun _ => ⟨rfl, rfl, rfl⟩⟩
theorem fixes_newUuid (env : Env) : Fixes (newUuid env) := ⟨fun _ => ⟨rfl, rfl, rfl⟩⟩
theorem fixes_pure {α} (a : α) : Fixes (pure a) := fixes_still (still_pure a)
theorem fixes_fail {α} (e : PyErr) : Fixes (fail e : M α) := fixes_still (still_fail e)
theorem fixes_lift {α} (x : Except PyErr α) : Fixes (lift x) := fixes_still (still_lift x)
theorem fixes_reads {α} (f : Db → α) : Fixes (reads f) := fixes_still (still_reads f)
theorem fixes_orAttr {α} (o : Option α) : Fixes (orAttr o) := fixes_still (still_orAttr o)

/-- Discharges `Fixes` goals. -/
macro "fixes" : tactic => `(tactic| repeat' first
  | with_reducible exact fixes_pure _ | with_reducible exact fixes_fail _ | with_reducible exact fixes_lift _
  | with_reducible exact fixes_reads _ | with_reducible exact fixes_orAttr _ | with_reducible exact fixes_setText _ _
  | with_reducible exact fixes_setAttr _ _ _ | with_reducible exact fixes_removeKid _ _ | with_reducible exact fixes_removeOld _ _
  | with_reducible exact fixes_appendEl _ _ | with_reducible exact fixes_insertEl _ _ _ | with_reducible exact fixes_make _ _
  | with_reducible exact fixes_now _ | with_reducible exact fixes_newUuid _
  | assumption | with_reducible apply fixes_bind | intro _ | split)

theorem fixes_setSub (e : Nat) (t : Str) (v : Option Str) : Fixes (setSub e t v) := by unfold setSub findKid; fixes
theorem fixes_setTime (e : Nat) (p : Str) (v : DateTime) : Fixes (setTime e p v) := by unfold setTime findKid; fixes
theorem fixes_setExpires (e : Nat) (v : Bool) : Fixes (setExpires e v) := by unfold setExpires findKid; fixes
theorem fixes_touch (env : Env) (e : Nat) (b : Bool) : Fixes (touch env e b) := by
  unfold touch
  refine fixes_bind (fixes_now _) fun _ => fixes_bind (fixes_setTime _ _ _) fun _ => ?_
  split
  · exact fixes_setTime _ _ _
  · exact fixes_pure _
theorem fixes_delete (e : Nat) : Fixes (delete e) := by unfold delete parentOf; fixes
theorem fixes_setField (env : Env) (e : Nat) (k : Str) (v : Option Str) (p : Option Bool) : Fixes (setField env e k v p) := by
  unfold setField
  refine fixes_bind (fixes_still (still_xpathFirst _ _ _)) fun _ => fixes_bind (fixes_still (still_markFor _ _ _ _)) fun _ => ?_
  fixes
theorem fixes_setStd (env : Env) (e : Nat) (f : Field) (v : Option Str) : Fixes (setStd env e f v) := by
  have h : ∀ p, Fixes (setField env e f.key v p) := fixes_setField env e f.key v
  unfold setStd
  split
  · refine fixes_bind (fixes_still (still_getField _ _ _)) fun _ => ?_
    split <;> exact h _
  · refine fixes_bind (fixes_still (still_getField _ _ _)) fun _ => ?_
    split <;> exact h _
  · exact h _
theorem fixes_setCustom (env : Env) (e : Nat) (k : Str) (v : Option Str) (p : Bool) : Fixes (setCustom env e k v p) := by
  unfold setCustom
  split
  · exact fixes_fail _
  · exact fixes_setField ..
theorem fixes_deleteCustom (env : Env) (e : Nat) (k : Str) : Fixes (deleteCustom env e k) := by
  unfold deleteCustom
  refine fixes_bind (fixes_still (still_fieldKeys _ _)) fun _ => ?_
  split
  · refine fixes_bind (fixes_still (still_xpathFirst _ _ _)) fun _ => ?_
    fixes
  · exact fixes_fail _
theorem fixes_setAutoEnabled (e : Nat) (v : Option Bool) : Fixes (setAutoEnabled e v) := by unfold setAutoEnabled findDeep; fixes
theorem fixes_setAuto (e : Nat) (w : Bool) (v : Option Str) : Fixes (setAuto e w v) := by unfold setAuto findDeep; fixes
theorem fixes_saveHistory (e : Nat) : Fixes (saveHistory e) := by
  unfold saveHistory findKid
  refine fixes_bind (fixes_still (still_contentOf _)) fun _ => ?_
  fixes
theorem fixes_deleteHistory (e : Nat) (h : Option Nat) (all : Bool) : Fixes (deleteHistory e h all) := by unfold deleteHistory findKid; fixes
theorem fixes_addAttachment (e : Nat) (i : Int) (n : Option Str) : Fixes (addAttachment e i n) := by unfold addAttachment; fixes
theorem fixes_setAttId (a : Nat) (i : Int) : Fixes (setAttId a i) := by unfold setAttId findKid; fixes
theorem fixes_setAttName (a : Nat) (v : Option Str) : Fixes (setAttName a v) := by unfold setAttName findKid; fixes
theorem fixes_baseKids (env : Env) (i : Option Str) (b : Bool) (x : Option DateTime) : Fixes (baseKids env i b x) := by unfold baseKids; fixes
theorem fixes_newGroup (env : Env) (a b c : Option Str) : Fixes (newGroup env a b c) := by
  unfold newGroup
  refine fixes_bind (fixes_baseKids _ _ _ _) fun _ => ?_
  fixes
theorem fixes_newEntry (env : Env) (a : EntryArgs) : Fixes (newEntry env a) := by
  unfold newEntry
  refine fixes_bind (fixes_baseKids _ _ _ _) fun _ => ?_
  fixes
theorem fixes_addGroup (env : Env) (g : Nat) (a b c : Option Str) : Fixes (addGroup env g a b c) :=
  fixes_bind (fixes_newGroup _ _ _ _) fun _ => fixes_make _ _
theorem fixes_groupPath (g : Nat) : Fixes (groupPath g) := by
  unfold groupPath
  refine fixes_bind (fixes_still (still_placeOf _)) fun _ => ?_
  fixes
theorem fixes_addEntry (env : Env) (g : Nat) (a : EntryArgs) (f : Bool) : Fixes (addEntry env g a f) := by
  unfold addEntry
  refine fixes_bind (fixes_still (still_findEntry _ _ _)) fun _ => ?_
  split
  · exact fixes_bind (fixes_groupPath _) fun _ => fixes_fail _
  · exact fixes_bind (fixes_newEntry _ _) fun _ => fixes_make _ _
theorem fixes_emptyLoop (g : Nat) (t : Str) (n : Nat) : Fixes (emptyLoop g t n) := by
  induction n with
  | zero => unfold emptyLoop findKids; fixes
  | succ n ih =>
    unfold emptyLoop findKids
    refine fixes_bind (fixes_reads _) fun l => ?_
    cases l with
    | nil => exact fixes_pure _
    | cons x l => exact fixes_bind (fixes_delete x) fun _ => ih
theorem fixes_emptyGroup (g : Nat) : Fixes (emptyGroup g) :=
  fixes_bind (fixes_reads _) fun _ => fixes_bind (fixes_emptyLoop _ _ _) fun _ => fixes_emptyLoop _ _ _

theorem fixes_op (env : Env) (o : Op) : Fixes (o.run env) := by
  have none_ : ∀ {m : M Unit}, Fixes m → Fixes (m >>= fun _ => (pure none : M (Option Nat))) := fun h => fixes_bind h fun _ => fixes_pure _
  cases o with
  | setUuid => exact none_ (fixes_setSub ..)
  | setIcon => exact none_ (fixes_setSub ..)
  | setName => exact none_ (fixes_setSub ..)
  | setNotes => exact none_ (fixes_setSub ..)
  | setTags => exact none_ (fixes_setSub ..)
  | setTime => exact none_ (fixes_setTime ..)
  | setExpires => exact none_ (fixes_setExpires ..)
  | touch => exact none_ (fixes_touch ..)
  | setField => exact none_ (fixes_setStd ..)
  | setCustom => exact none_ (fixes_setCustom ..)
  | deleteCustom => exact none_ (fixes_deleteCustom ..)
  | setAutoEnabled => exact none_ (fixes_setAutoEnabled ..)
  | setAutoText => exact none_ (fixes_setAuto ..)
  | addFile => exact fixes_bind (fixes_addAttachment ..) fun _ => fixes_pure _
  | setFileId => exact none_ (fixes_setAttId ..)
  | setFileName => exact none_ (fixes_setAttName ..)
  | deleteFile => exact none_ (fixes_delete ..)
  | saveHistory => exact none_ (fixes_saveHistory ..)
  | deleteHistory => exact none_ (fixes_deleteHistory ..)
  | clearHistory => exact none_ (fixes_deleteHistory ..)
  | addGroup => exact fixes_bind (fixes_addGroup ..) fun _ => fixes_pure _
  | addEntry => exact fixes_bind (fixes_addEntry ..) fun _ => fixes_pure _
  | delete => exact none_ (fixes_delete ..)
  | moveGroup => exact none_ (fixes_appendEl ..)
  | moveEntry => exact none_ (fixes_appendEl ..)
  | emptyGroup => exact none_ (fixes_emptyGroup ..)

/-! ## The part of the document that holds the settings -/

/-- The tags that are never below `Meta`. -/
def spineTags : List Str := ["KeePassFile".toList, "Root".toList, "Group".toList, "Entry".toList, "History".toList, "String".toList]

theorem spine_home : ∀ t ∈ spineTags, ∃ l, homes.lookup t = some l ∧ ∀ p ∈ l, p ∈ spineTags := by decide

section
variable {s s' : Db} {d m r : Nat}

theorem meta_mem (hk : Skeleton s.heap d m r) : m ∈ s.heap.kids d ∧ s.heap.tag m = "Meta".toList :=
  all_sub (by rw [hk.info]; exact List.mem_singleton.mpr rfl)

theorem meta_tags (hs : Sound s) (hk : Skeleton s.heap d m r) {i : Nat} (h : Reach s.heap m i) : s.heap.tag i ∉ spineTags := by
  have hm := meta_mem hk
  have hm0 := kid_ne_zero hs.inv hm.1
  induction h with
  | refl => rw [hm.2]; decide
  | @snoc b c hb hc ih =>
    intro ht
    obtain ⟨l, h1, h2⟩ := spine_home _ ht
    have hb0 : b ≠ 0 := by
      cases hb with
      | refl => exact hm0
      | snoc _ h => exact kid_ne_zero hs.inv h
    exact ih (h2 _ (hs.shaped b c hb0 hc l h1))

theorem meta_apart (hs : Sound s) (hk : Skeleton s.heap d m r) {x : Nat} (hx : s.heap.tag x ∈ spineTags) : ¬ Reach s.heap m x :=
  fun h => meta_tags hs hk h hx

theorem card_spine {t : Str} (h : ¬ NoCard t) : t ∈ spineTags := by
  by_cases e1 : t = "Entry".toList
  · rw [e1]; decide
  · by_cases e2 : t = "Group".toList
    · rw [e2]; decide
    · exact absurd ⟨e1, e2⟩ h

/-- Nothing of a card is below `Meta`. -/
theorem meta_part (hs : Sound s) (hk : Skeleton s.heap d m r) {y q : Nat} (hy : ¬ NoCard (s.heap.tag y)) (hp : Part s.heap y q) :
    ¬ Reach s.heap m q := by
  induction hp with
  | self => exact meta_apart hs hk (card_spine hy)
  | @kid p q hp hq _ ih =>
    intro h
    cases h with
    | refl =>
      have e := parent_eq hs.inv hq (meta_mem hk).1
      subst e
      exact (skeleton_part hs.inv hk hy).1 hp
    | snoc h hq' =>
      rw [parent_eq hs.inv hq' hq] at h
      exact ih h

/-- What is below `Meta` is to be left alone. -/
def metaFrame (h : Heap) (m : Nat) : Frame := { F := fun i => Reach h m i, P := fun _ _ => False, doc := true }

theorem meta_good (hs : Sound s) (hk : Skeleton s.heap d m r) : Good (metaFrame s.heap m) s := by
  have hm := meta_mem hk
  have hm0 := kid_ne_zero hs.inv hm.1
  refine ⟨hs.inv, fun i hi => ?_, fun h => ?_, fun p c h1 h2 h3 h4 h => ?_, nofun, nofun, nofun⟩
  · cases hi with
    | refl => exact (kid_mem hs.inv hm.1).1
    | snoc _ h => exact (kid_mem hs.inv h).1
  · exact zero_not_reach hs.inv hm0 h
  · cases h with
    | refl =>
      rw [parent_eq hs.inv h4 hm.1] at h3
      exact h3 hk.tag
    | snoc h h5 =>
      rw [parent_eq hs.inv h5 h4] at h
      exact h1 h

theorem meta_own (hs : Sound s) (hk : Skeleton s.heap d m r) {x : Nat} (hx : ¬ NoCard (s.heap.tag x)) : Own (metaFrame s.heap m) s x := by
  refine ⟨card_mem hx, card_pos hs.inv hx, meta_apart hs hk (card_spine hx), ?_⟩
  show s.heap.tag x ≠ "KeePassFile".toList
  intro e
  rw [e] at hx
  exact hx (by decide)

theorem meta_movable (hk : Skeleton s.heap d m r) {x : Nat} (h0 : x ≠ 0) (hm : x ∈ s.world.ids) (hd : s.heap.tag x ≠ "KeePassFile".toList)
    (hf : ¬ Reach s.heap m x) : Movable (metaFrame s.heap m) s x := by
  refine ⟨hm, h0, fun h => ?_, fun p hp => ⟨fun h => hf (.snoc h hp), fun _ h => h⟩⟩
  rw [hk.doc] at h
  injection h with h
  exact hd (h ▸ hk.tag)

theorem void_keeps {α} {f : Frame} {s : Db} {m : M α} {Q : α → Db → Prop} (h : Run f s m Q) : Keeps f s (void m) :=
  Api.Run.bind h fun _ _ _ _ => keeps_pure ()

theorem op_keeps (env : Env) (hs : Sound s) (hk : Skeleton s.heap d m r) (o : Op) (ho : o.Ask env (vaultOf s)) :
    Keeps (metaFrame s.heap m) s (o.call.run env) := by
  have E : ∀ {x}, (vaultOf s).IsElem x → ¬ NoCard (s.heap.tag x) := fun ⟨_, h⟩ => (card_inv h).1
  have EE : ∀ {x}, (vaultOf s).IsEntry x → ¬ NoCard (s.heap.tag x) := fun ⟨_, h, _⟩ => (card_inv h).1
  have EG : ∀ {x}, (vaultOf s).IsGroup x → ¬ NoCard (s.heap.tag x) := fun ⟨_, h, _⟩ => (card_inv h).1
  have own : ∀ {x}, ¬ NoCard (s.heap.tag x) → Own (metaFrame s.heap m) s x := fun h => meta_own hs hk h
  have mov : ∀ {x}, ¬ NoCard (s.heap.tag x) → Movable (metaFrame s.heap m) s x := fun h =>
    meta_movable hk (own h).ne (own h).mem (own h).hist (own h).free
  have hist : ∀ {x}, ¬ NoCard (s.heap.tag x) → ∀ k ∈ s.heap.all x "History".toList, ¬ (metaFrame s.heap m).F k ∧ ∀ t, ¬ (metaFrame s.heap m).P k t :=
    fun h k hk' => ⟨((own h).kid (meta_good hs hk) (all_sub hk').1).2.2, fun _ h => h⟩
  have att : ∀ {e a}, (vaultOf s).IsEntry e → (∃ f, (vaultOf s).HasFile e f ∧ f.handle = a) → Own (metaFrame s.heap m) s a := by
    rintro e a he ⟨f, hf, rfl⟩
    obtain ⟨k1, k2⟩ := all_sub (has_file.mp hf).2.1
    refine (own (EE he)).sub (meta_good hs hk) k1 ?_
    rw [k2]
    show "Binary".toList ≠ "KeePassFile".toList
    decide
  cases o with
  | setUuid x u => exact keeps_setSub (own (E ho)) id nofun nofun
  | setIcon x v => exact keeps_setSub (own (E ho.1)) id nofun nofun
  | setName g v => exact keeps_setSub (own (EG ho.1)) id nofun nofun
  | setNotes g v => exact keeps_setSub (own (EG ho.1)) id nofun nofun
  | setTags e ts => exact keeps_setSub (own (EE ho.1)) id nofun nofun
  | setTime x p v => exact keeps_setTime (own (E ho.1)) nofun nofun
  | setExpires x v => exact keeps_setExpires (own (E ho))
  | touch x b => exact keeps_touch env (own (E ho))
  | setField e f v => exact keeps_setStd env (own (EE ho.1)) id nofun nofun
  | setCustom e k v p => exact keeps_setCustom env (own (EE ho.1)) id (.inr fun _ h => h) nofun nofun
  | deleteCustom e k => exact keeps_deleteCustom env (own (EE ho.1)) id (.inr fun _ h => h)
  | setAutoEnabled e v => exact keeps_setAutoEnabled (own (EE ho))
  | setAutoText e w v => exact keeps_setAuto (own (EE ho.1))
  | addFile e i n => exact void_keeps (keeps_addAttachment (own (EE ho.1)) id nofun nofun)
  | setFileId e a i => exact keeps_setAttId (att ho.1 ho.2)
  | setFileName e a v => exact keeps_setAttName (att ho.1 ho.2.1)
  | deleteFile e a =>
    have o := att ho.1 ho.2
    exact keeps_delete (meta_movable hk o.ne o.mem o.hist o.free)
  | saveHistory e =>
    exact keeps_saveHistory (own (EE ho)) (fun k hk => ⟨(hist (EE ho) k hk).1, id⟩) id nofun nofun
  | deleteHistory e h => exact keeps_deleteHistory (own (EE ho.1)) (hist (EE ho.1)) id
  | clearHistory e => exact keeps_deleteHistory (own (EE ho)) (hist (EE ho)) id
  | addGroup g n i t =>
    have o := own (EG ho.1)
    exact void_keeps (keeps_addGroup env o.mem o.ne o.free id nofun nofun)
  | addEntry g a f =>
    have o := own (EG ho.1)
    exact void_keeps (keeps_addEntry env o.mem o.ne o.free id nofun nofun)
  | delete x => exact keeps_delete (mov (E ho.1))
  | moveGroup x g =>
    have o := own (EG ho.2)
    exact (keeps_appendEl (mov (EG ho.1)) o.mem o.free (fun _ => id) (fun _ => (own (EG ho.1)).free) nofun nofun).keeps
  | moveEntry x g =>
    have o := own (EG ho.2)
    exact (keeps_appendEl (mov (EE ho.1)) o.mem o.free (fun _ => id) (fun _ => (own (EE ho.1)).free) nofun nofun).keeps
  | emptyGroup g =>
    have o := own (EG ho)
    exact keeps_emptyGroup o.ne o.free id id

/-- The desk is read from what is below `Meta`. -/
theorem desk_same {d' r' : Nat} (hk : Skeleton s.heap d m r) (hk' : Skeleton s'.heap d' m r')
    (hm : ∀ i, Reach s.heap m i → s'.heap i = s.heap i)
    (ht : s'.binaries = s.binaries ∧ s'.password = s.password ∧ s'.keyfile = s.keyfile) : deskOf s' = deskOf s := by
  have hall : ∀ i, Reach s.heap m i → ∀ t, s'.heap.all i t = s.heap.all i t := by
    intro i hi t
    unfold Heap.all
    rw [kids_congr (hm i hi)]
    exact List.filter_congr fun k hk => by rw [tag_congr (hm k (.snoc hi hk))]
  refine Desk.ext ?_ ?_ ht.1 ht.2.1 ht.2.2
  · funext n
    show (metaEls s'.heap n).map _ = (metaEls s.heap n).map _
    rw [metaEls_skel hk, metaEls_skel hk', hall m .refl]
    exact List.map_congr_left fun k hk => text_same (hm k (.kid (all_sub hk).1))
  · show (metaEls s'.heap _).map _ = (metaEls s.heap _).map _
    rw [metaEls_skel hk, metaEls_skel hk', hall m .refl]
    refine List.map_congr_left fun k hk => ?_
    have hkr := Reach.kid (h := s.heap) (all_sub hk).1
    rw [hall k hkr]
    refine List.map_congr_left fun b hb => ?_
    have := hm b (.snoc hkr (all_sub hb).1)
    unfold storedOf
    rw [attr_same this, attr_same this, text_same this]

end

end Verif.Api
