import Verif.Spec.Whole
import Verif.Props.C73_SearchCards
import Verif.Props.C75_Desk
import Verif.Props.C51_Reindex
/-!
# Single steps of the machine on offices: clock, moves, places, recycle bin
-/
namespace Verif.Props
open Verif XPath Spec Api

section
variable {s s' : Db}

theorem map_run {α β} (m : M α) (f : α → β) (s : Db) : (do let x ← m; pure (f x) : M β) s = ((m s).1.map f, (m s).2) := by
  rw [bind_run]
  cases m s with
  | mk r t => cases r <;> rfl

/-! ## The clock -/

theorem expired_run (env : Env) (hs : Sound s) {x : Nat} {c : Card} (hc : (vaultOf s).card x = some c) :
    ∃ s', expired env x s = (((vaultOf s).expired env c).1, s') ∧ officeOf s' = ⟨((vaultOf s).expired env c).2, deskOf s⟩ ∧ Sound s' := by
  have hx := (C71_reads env hs hc).2.2.2.2.2.2.2.2.2.1
  unfold Api.expired Vault.expired
  rw [bind_run, hx]
  cases c.time .expires with
  | none => exact ⟨s, rfl, rfl, hs⟩
  | some t =>
    simp only []
    by_cases ht : t = some "True".toList
    · subst ht
      have hs1 : Sound { s with ticks := s.ticks + 1 } := sound_creds hs (s.ticks + 1) s.password s.keyfile s.binaries
      refine ⟨{ s with ticks := s.ticks + 1 }, ?_, rfl, hs1⟩
      have ht : getTime x "ExpiryTime".toList { s with ticks := s.ticks + 1 } = (readTime s.version (c.time .expiry).join, { s with ticks := s.ticks + 1 }) :=
        (C71_reads env hs1 (x := x) hc).2.2.2.2.2.2.2.2.1 .expiry
      rw [if_pos (by rfl), if_pos rfl]
      show (nowUtc env >>= _) s = _
      rw [bind_run]
      show (getTime x "ExpiryTime".toList >>= _) { s with ticks := s.ticks + 1 } = _
      rw [bind_run, ht]
      show _ = (c.expired s.version (env.now s.ticks), _)
      unfold Card.expired
      cases readTime s.version (c.time .expiry).join with
      | error e => rfl
      | ok t => cases t <;> rfl
    · refine ⟨s, ?_, by rw [if_neg ht]; rfl, hs⟩
      rw [if_neg ht, if_neg]
      · rfl
      · intro h
        cases t with
        | none => cases h
        | some t =>
          injection h with h
          exact ht (congrArg some (beq_iff_eq.mp h))

theorem due_run (env : Env) (hs : Sound s) (q : Bool) :
    ∃ s', credChange env q s = (((officeOf s).due env q).1, s') ∧ officeOf s' = ((officeOf s).due env q).2 ∧ Sound s' := by
  have hread := C75_reads env hs
  have hdays : ∀ {t : Db}, Sound t → (deskOf t).texts = (deskOf s).texts → credDays env q t = ((deskOf s).days q, t) := by
    intro t ht e
    have := (C75_reads env ht).2.1 q
    rw [this]
    unfold Desk.days
    rw [← e]
    rfl
  unfold credChange Office.due
  rw [bind_run, hread.2.2.1, show (officeOf s).vault.version = (vaultOf s).version from rfl]
  cases (officeOf s).desk.texts changeDate with
  | nil => exact ⟨s, rfl, rfl, hs⟩
  | cons t l =>
    simp only []
    cases decodeTime (vaultOf s).version t with
    | error e => exact ⟨s, rfl, rfl, hs⟩
    | ok d =>
      simp only [Except.map]
      rw [bind_run, hdays hs rfl, show (officeOf s).desk = deskOf s from rfl]
      cases hn : (deskOf s).days q with
      | error e => exact ⟨s, rfl, rfl, hs⟩
      | ok n =>
        by_cases h1 : n = some (-1)
        · subst h1
          exact ⟨s, rfl, rfl, hs⟩
        · simp only [if_neg h1]
          have hs1 : Sound { s with ticks := s.ticks + 1 } := sound_creds hs (s.ticks + 1) s.password s.keyfile s.binaries
          refine ⟨{ s with ticks := s.ticks + 1 }, ?_, rfl, hs1⟩
          have hnow : (officeOf s).vault.ticks = s.ticks := rfl
          rw [hnow]
          show (lift ((env.now s.ticks).daysSince d) >>= _) { s with ticks := s.ticks + 1 } = _
          rw [bind_run, lift_run]
          cases (env.now s.ticks).daysSince d with
          | error e => rfl
          | ok m =>
            simp only []
            rw [bind_run, hdays hs1 rfl, hn]
            cases n <;> rfl

/-! ## Moves -/

/-- A single move: `appendEl` is what `move_entry`, `move_group`, `append` and trashing do. -/
theorem moveTo_run (env : Env) (hs : Sound s) {x g : Nat} (hx : (vaultOf s).IsElem x) (hg : (vaultOf s).IsGroup g) :
    ∃ q s', appendEl g x s = (q, s') ∧ (vaultOf s).MoveTo env x g (noHandle q) (vaultOf s') ∧ deskOf s' = deskOf s ∧ Sound s' := by
  have key : ∀ o : Op, o.Ask env (vaultOf s) → o.run env = (do appendEl g x; pure none) →
      ∃ q s', appendEl g x s = (q, s') ∧ o.Step env (vaultOf s) (noHandle q) (vaultOf s') ∧ deskOf s' = deskOf s ∧ Sound s' := by
    intro o ho hr
    obtain ⟨r, s', h1, h2, h3⟩ := C71_step env hs o ho
    have hd := C75_apart env hs o ho
    have e := map_run (appendEl g x) (fun _ => (none : Option Nat)) s
    rw [h1] at hd
    rw [hr] at h1
    rw [h1] at e
    injection e with e1 e2
    refine ⟨(appendEl g x s).1, s', Prod.ext rfl e2.symm, ?_, hd, h3⟩
    have : noHandle (appendEl g x s).1 = r := by rw [e1]; cases (appendEl g x s).1 <;> rfl
    rw [this]
    exact h2
  rcases elem_of (some_card.mp hx) with e | e
  · have hx' := entry_card.mpr e
    obtain ⟨q, s', h1, h2, h3⟩ := key (.moveEntry x g) ⟨hx', hg⟩ rfl
    exact ⟨q, s', h1, .inl ⟨hx', h2⟩, h3⟩
  · have hx' := group_card.mpr e
    obtain ⟨q, s', h1, h2, h3⟩ := key (.moveGroup x g) ⟨hx', hg⟩ rfl
    exact ⟨q, s', h1, .inr ⟨hx', h2⟩, h3⟩

/-- No move changes what a handle stands for. -/
theorem moveTo_kind {env : Env} {v v' : Vault} {x g : Nat} {r : Except PyErr (Option Nat)} (h : v.MoveTo env x g r v') (y : Nat) :
    (v'.card y).map Card.kind = (v.card y).map Card.kind := by
  have hm : ∀ f : Vault → Vault, (∀ u : Vault, ((f u).card y).map Card.kind = (u.card y).map Card.kind) →
      ((f (v.unlink x)).card y).map Card.kind = (v.card y).map Card.kind := by
    intro f hf
    rw [hf]
    show ((v.card y).map (Card.unlink x)).map Card.kind = _
    cases v.card y <;> rfl
  have hc : ∀ (u : Vault) (f : Card → Card), (∀ c, (f c).kind = c.kind) → ((u.change g f).card y).map Card.kind = (u.card y).map Card.kind := by
    intro u f hf
    unfold Vault.change
    simp only []
    split
    · rename_i e
      subst e
      cases u.card y with
      | none => rfl
      | some c => simp only [Option.map_some, hf]
    · rfl
  rcases h with ⟨_, h⟩ | ⟨_, h⟩
  · rw [h.2]
    exact hm (fun u => u.addEntry g x) fun u => hc u _ fun _ => rfl
  · by_cases hb : v.Below x g
    · rw [(h.1 hb).2]
    · rw [(h.2 hb).2]
      exact hm (fun u => u.addGroup g x) fun u => hc u _ fun _ => rfl

theorem isElem_kind {v : Vault} {y : Nat} : v.IsElem y ↔ ((v.card y).map Card.kind).isSome = true := by
  unfold Vault.IsElem
  cases v.card y <;> simp

theorem isGroup_kind {v : Vault} {y : Nat} : v.IsGroup y ↔ (v.card y).map Card.kind = some "Group".toList := by
  unfold Vault.IsGroup
  cases v.card y <;> simp

theorem append_run (env : Env) {g : Nat} {xs : List Nat} (hs : Sound s) (hg : (vaultOf s).IsGroup g) (hx : ∀ x ∈ xs, (vaultOf s).IsElem x) :
    ∃ q s', groupAppendAll g xs s = (q, s') ∧ (vaultOf s).AppendTo env g xs (q.map fun _ => .done) (vaultOf s') ∧ deskOf s' = deskOf s ∧ Sound s' := by
  induction xs generalizing s with
  | nil => exact ⟨.ok (), s, rfl, .nil _, rfl, hs⟩
  | cons x xs ih =>
    obtain ⟨q, t, h1, h2, h3, h4⟩ := moveTo_run env hs (hx x (List.mem_cons_self ..)) hg
    cases q with
    | error e =>
      exact ⟨.error e, t, by rw [groupAppendAll, bind_run, h1], .stop h2, h3, h4⟩
    | ok u =>
      obtain ⟨q', t', g1, g2, g3, g4⟩ := ih h4 (by rw [isGroup_kind, moveTo_kind h2, ← isGroup_kind]; exact hg) (fun y hy => by
        rw [isElem_kind, moveTo_kind h2, ← isElem_kind]; exact hx y (List.mem_cons_of_mem _ hy))
      exact ⟨q', t', by rw [groupAppendAll, bind_of h1]; exact g1, .next h2 g2, g3.trans h3, g4⟩

/-! ## Another place among the entries -/

theorem take_entries (p : Nat → Bool) {A R : List Nat} (hA : ∀ a ∈ A, p a = false) (i : Nat) :
    (((A ++ R).take (i + A.length)).filter p).length ≤ i := by
  rw [Nat.add_comm, List.take_length_add_append, List.filter_append, List.filter_eq_nil_iff.mpr (fun a ha => by rw [hA a ha]; exact nofun),
    List.nil_append]
  exact Nat.le_trans (List.length_filter_le ..) (by rw [List.length_take]; omega)

/-- `reindex` of an entry of any group: it is put in some place among the children, the other children keep their order. -/
theorem reindex_any (hs : Inv s) {g e : Nat} {i : Int} (hg : s.heap.tag g = "Group".toList) (he : e ∈ s.heap.all g "Entry".toList) :
    ∃ k s', reindex e i s = (.ok (), s') ∧ Inv s' ∧ s' = { s with world := s'.world } ∧ docEl s'.heap = docEl s.heap ∧
      (∀ j, j ≠ g → s'.heap j = s.heap j) ∧
      (∃ r, s.heap g = some r ∧ s'.heap g = some { r with kids := (r.kids.filter (· != e)).take k ++ e :: (r.kids.filter (· != e)).drop k }) ∧
      (0 ≤ i → (((((s.heap.kids g).filter (· != e)).take k).filter (fun c => s.heap.tag c == "Entry".toList)).length : Int) ≤ i) := by
  obtain ⟨hm, het⟩ := all_sub he
  have hg0 : g ≠ 0 := tag_ne_zero hs (by rw [hg]; decide)
  have he0 := kid_ne_zero hs hm
  obtain ⟨hem, hgm⟩ := kid_mem hs hm
  -- the children before the first entry
  obtain ⟨A, c, R, hk, hct, hA⟩ : ∃ A c R, s.heap.kids g = A ++ c :: R ∧ s.heap.tag c = "Entry".toList ∧ ∀ a ∈ A, s.heap.tag a ≠ "Entry".toList := by
    have : ∀ l : List Nat, e ∈ l → ∃ A c R, l = A ++ c :: R ∧ s.heap.tag c = "Entry".toList ∧ ∀ a ∈ A, s.heap.tag a ≠ "Entry".toList := by
      intro l
      induction l with
      | nil => nofun
      | cons x l ih =>
        intro h
        by_cases hx : s.heap.tag x = "Entry".toList
        · exact ⟨[], x, l, rfl, hx, nofun⟩
        · rcases List.mem_cons.mp h with h | h
          · exact absurd (h ▸ het) hx
          · obtain ⟨A, c, R, h1, h2, h3⟩ := ih h
            refine ⟨x :: A, c, R, by rw [h1]; rfl, h2, fun a ha => ?_⟩
            rcases List.mem_cons.mp ha with ha | ha
            · rw [ha]; exact hx
            · exact h3 a ha
    exact this _ hm
  have hf := firstEntry_run hk hct hA
  obtain ⟨t, a1, a2, a3, a4⟩ := removeKid_ok hs hg0 hm
  have hmv : Moved s.heap t.heap e 0 := a4
  have hmt : ∀ j, j ∈ t.world.ids ↔ j ∈ s.world.ids := by
    intro j
    rw [← heap_some, ← heap_some, hmv j]
    cases s.heap j <;> simp
  obtain ⟨n, hn'⟩ := get_of_mem ((hmt e).mpr hem)
  have hdn : g ∉ n.ids := by
    rw [← reach_iff a2 hn']
    intro hr
    exact no_cycle hs hm ((moved_below hs hmv hs.zero_mem (zero_not_reach hs he0) (j := g)).mp hr)
  have hd0 := moved_doc hs hmv (kid_not_doc hs hg0 hm)
  have hdoc : docEl t.heap ≠ some e := by rw [hd0]; exact kid_not_doc hs hg0 hm
  obtain ⟨u, b1, b2, b3, b4, b5⟩ := insertEl_ok a2 hn' he0 hg0 ((hmt g).mpr hgm) hdn hdoc (i + (A.length : Int))
  obtain ⟨r, hr⟩ := heap_some.mpr hgm
  refine ⟨insertPos (t.heap.kids g).length (i + (A.length : Int)), u, ?_, b2, by rw [b3, a3], b4.trans hd0, ?_, ⟨r, hr, ?_⟩, ?_⟩
  · unfold reindex
    rw [bind_of (groupOf_kid hs hg hm), bind_of (orAttr_some g s), bind_of hf, bind_of a1]
    exact b1
  · intro j hj
    rw [b5 j, hmv j, Option.map_map]
    cases hr : s.heap j with
    | none => rfl
    | some r =>
      have hnot : e ∉ r.kids := by
        intro hc
        have : e ∈ s.heap.kids j := by unfold Heap.kids; rw [hr]; exact hc
        exact hj (parent_eq hs this hm)
      simp only [Option.map_some, Function.comp_apply]
      congr 1
      unfold insertedKids
      rw [if_neg hj]
      cases r with
      | mk rt ra rx rk =>
        simp only at hnot ⊢
        congr 1
        by_cases j0 : j = 0
        · rw [if_pos j0, List.filter_append, Node.filter_ne_self hnot, Node.filter_ne_self hnot]
          simp [bne]
        · rw [if_neg j0, Node.filter_ne_self hnot, Node.filter_ne_self hnot]
  · rw [b5 g, hmv g, hr]
    simp only [Option.map_some]
    congr 2
    rw [if_neg hg0]
    unfold insertedKids
    rw [if_pos rfl]
    have hnot : e ∉ r.kids.filter (· != e) := by simp [bne]
    rw [Node.filter_ne_self hnot]
  · intro hi
    have hpos : insertPos (t.heap.kids g).length (i + (A.length : Int)) = i.toNat + A.length := by
      unfold insertPos
      rw [if_pos (by omega)]
      omega
    have hAe : e ∉ A := fun h => hA e h het
    rw [hpos, hk, List.filter_append, Node.filter_ne_self hAe]
    have := take_entries (fun c => s.heap.tag c == "Entry".toList) (A := A) (R := (c :: R).filter (· != e))
      (fun a ha => by rw [beq_eq_false_iff_ne]; exact hA a ha) i.toNat
    omega

theorem reindex_run (env : Env) (hs : Sound s) {g e : Nat} {c : Card} {i : Int} (hc : (vaultOf s).card g = some c) (hkind : c.kind = "Group".toList)
    (he : e ∈ c.entries) :
    ∃ s', reindex e i s = (.ok (), s') ∧ (vaultOf s).Reindexed e i (vaultOf s') ∧ deskOf s' = deskOf s ∧ Sound s' := by
  obtain ⟨hb, rfl⟩ := card_inv hc
  have hx : s.heap.tag g = "Group".toList := hkind
  have he' : e ∈ s.heap.all g "Entry".toList := he
  have het := (all_sub he').2
  obtain ⟨k, s', h1, h2, h3, h7, h6, ⟨r, r0, r1⟩, hi⟩ := reindex_any (i := i) hs.inv hx he'
  have ht : s'.heap.tag g = s.heap.tag g := by unfold Heap.tag; rw [r1, r0]; rfl
  have hq : ∀ j ∈ s.world.ids, j ≠ 0 → j ≠ g → s'.heap j = s.heap j := fun j _ _ hne => h6 j hne
  have htag : ∀ j, s'.heap.tag j = s.heap.tag j := fun j => by
    by_cases hj : j = g
    · rw [hj, ht]
    · exact tag_congr (h6 j hj)
  have hkids : s'.heap.kids g = ((s.heap.kids g).filter (· != e)).take k ++ e :: ((s.heap.kids g).filter (· != e)).drop k := by
    unfold Heap.kids; rw [r1, r0]; rfl
  have hall : ∀ t, s'.heap.all g t = (s'.heap.kids g).filter (fun c => s.heap.tag c == t) := fun t => by
    unfold Heap.all
    exact List.filter_congr fun c _ => by rw [htag]
  have hother : ∀ t, t ≠ "Entry".toList → s'.heap.all g t = s.heap.all g t := by
    intro t hne
    rw [hall t, hkids, List.filter_append, List.filter_cons, if_neg (by rw [het, beq_iff_eq]; exact fun h => hne h.symm), ← List.filter_append,
      List.take_append_drop, List.filter_filter]
    unfold Heap.all
    refine List.filter_congr fun c _ => ?_
    by_cases hce : c = e
    · rw [hce, het]
      rw [beq_eq_false_iff_ne.mpr (fun h => hne h.symm)]
      rfl
    · simp [hce]
  have l : Local s s' g none := by
    refine ⟨h2, hb, ⟨g, .self, ht, hq⟩, fun j hj _ => ?_, h7, by rw [h3]⟩
    rw [htag, not_mem_tag hj]
    exact bodyNil
  have a : ∀ t, NoCard t → SameAt s.heap s'.heap g t := fun t hbt =>
    Local.other (T := "Entry".toList) hs.inv hq (fun j hj => l.tag hs.inv hj) (.inl rfl) hbt.1 (hother t hbt.1)
  have hn : ∀ y, ¬ NoCard (s'.heap.tag y) → Neat s'.heap y :=
    l.all_neat hs ⟨fun t ht => by rw [(a t (by revert t; decide)).all]; exact (hs.neat g hb).once t ht, (a _ (by decide)).fields (hs.neat g hb).fields⟩
  have hty : (Call.reindex e i).Typed s.heap := het
  have hs' : s' = ((Call.reindex e i).run env s).2 := (congrArg Prod.snd h1).symm
  have hsnd : Sound s' := by
    rw [hs'] at hn ⊢
    exact sound_step env hs hty hn
  refine ⟨s', h1, ?_, ?_, hsnd⟩
  · refine ⟨g, cardOf s.heap g, (((s.heap.kids g).filter (· != e)).take k).filter (fun c => s.heap.tag c == "Entry".toList),
      (((s.heap.kids g).filter (· != e)).drop k).filter (fun c => s.heap.tag c == "Entry".toList), hc, he, ?_, hi, ?_⟩
    · rw [← List.filter_append, List.take_append_drop]
      show ((s.heap.kids g).filter _).filter _ = _
      rw [List.filter_filter, List.filter_filter]
      exact List.filter_congr fun c _ => Bool.and_comm _ _
    · rw [l.vault hs (f := fun c => { c with entries := s'.heap.all g "Entry".toList }) (by rw [card_lists ht a, hother "Group".toList (by decide)]; rfl)]
      rw [change_state (by rw [h3]; rfl) (by rw [h3]; rfl), hall, hkids, List.filter_append, List.filter_cons, if_pos (by rw [het]; rfl)]
  · obtain ⟨d, m, r, hk⟩ := hs.skeleton
    have hk' : Skeleton s'.heap d m r := by
      rw [hs']
      exact (Props.C52_structure env hs.inv hk (.step _ (.refl s) hty)).2
    refine desk_same hk hk' (fun j hj => h6 j fun hjg => ?_) (by rw [h3]; exact ⟨rfl, rfl, rfl⟩)
    exact (meta_own hs hk hb).free (by rw [hjg] at hj; exact hj)

/-! ## The recycle bin -/

theorem uuid_card {x : Nat} {c : Card} (env : Env) (hs : Sound s) (hc : (vaultOf s).card x = some c) : getUuid x s = ((vaultOf s).uuid x, s) := by
  rw [(C71_reads env hs hc).1]
  unfold Vault.uuid
  rw [hc]

theorem same_card {x y : Nat} (env : Env) (hs : Sound s) (hx : (vaultOf s).IsElem x) (hy : (vaultOf s).IsElem y) :
    sameUuid x y s = ((vaultOf s).sameUuid x y, s) := by
  obtain ⟨c, hc⟩ := hx
  obtain ⟨d, hd⟩ := hy
  unfold Api.sameUuid Vault.sameUuid
  rw [bind_run, uuid_card env hs hc]
  cases (vaultOf s).uuid x with
  | error e => rfl
  | ok a =>
    simp only []
    rw [bind_run, uuid_card env hs hd]
    cases (vaultOf s).uuid y <;> rfl

theorem has_uuid (hs : Sound s) {x : Nat} (hx : ¬ NoCard (s.heap.tag x)) (u : Str) : HasUuid s.heap x u ↔ (cardOf s.heap x).text .uuid = some u := by
  have h1 := (hs.neat x hx).once "UUID".toList (by decide)
  show (∃ k ∈ s.heap.all x "UUID".toList, _) ↔ sub s.heap x "UUID".toList = some u
  unfold sub Heap.find
  cases hl : s.heap.all x "UUID".toList with
  | nil => exact ⟨nofun, nofun⟩
  | cons a l =>
    rw [hl] at h1
    have hn : l = [] := by cases l with
      | nil => rfl
      | cons b l => simp at h1
    subst hn
    exact ⟨fun ⟨k, h, e⟩ => by rw [List.mem_singleton.mp h] at e; exact e, fun h => ⟨a, List.mem_singleton.mpr rfl, h⟩⟩

/-- The bin is the first group of the database with the uuid of the setting. -/
theorem bin_run (env : Env) (hs : Sound s) : (∃ e, (deskOf s).bin = .error e ∧ recycleBin env s = (.error e, s)) ∨
    ∃ u o, (deskOf s).bin = .ok u ∧ recycleBin env s = (.ok o, s) ∧ (∀ b, o = some b → (vaultOf s).Has u b) ∧ (o = none → ∀ b, ¬ (vaultOf s).Has u b) := by
  unfold recycleBin Desk.bin
  rw [bind_of (metaEl_run env hs.inv (by decide +kernel)), show (deskOf s).texts binSetting = (metaEls s.heap "RecycleBinUUID".toList).map s.heap.text from rfl]
  cases metaEls s.heap "RecycleBinUUID".toList with
  | nil => exact .inl ⟨_, rfl, rfl⟩
  | cons el l =>
    rw [bind_of (show orAttr (el :: l).head? s = (.ok el, s) from rfl), bind_of (textOf_run el s), bind_run, lift_run]
    simp only [List.map_cons]
    cases uuidOfText (s.heap.text el) with
    | error e => exact .inl ⟨e, rfl, rfl⟩
    | ok u =>
      right
      have hf : Fair s env.re .group { first := true, kwargs := [.uuid u] } := by
        refine ⟨rfl, nofun, nofun, fun k hk => ?_, fun k _ => kw_compiles_exact k, fun k hk => ?_⟩
        · rw [List.mem_singleton.mp hk]
          show Kind.group ≠ Kind.attachment
          decide
        · rw [List.mem_singleton.mp hk]
          nofun
      obtain ⟨is, h1, _, _, h2⟩ := C73_groups env hs true hf
      have hmem : ∀ g, g ∈ is ↔ (vaultOf s).Has u g := by
        intro g
        rw [h2 g]
        constructor
        · rintro ⟨h3, c, h4, h5⟩
          obtain ⟨t, h6, h7⟩ := h5 _ (List.mem_singleton.mpr rfl)
          have h7 : some t = some (b64encode u) := h7
          exact ⟨h3, c, h4, h6.trans h7⟩
        · rintro ⟨h3, c, h4, h5⟩
          refine ⟨h3, c, h4, fun k hk => ?_⟩
          rw [List.mem_singleton.mp hk]
          exact ⟨_, h5, rfl⟩
      refine ⟨u, is.head?, rfl, ?_, fun b hb => (hmem b).mp (List.mem_of_mem_head? hb), fun hn b hb => ?_⟩
      · show (foundOne (findGroups env.re s.world true _), s) = _
        rw [h1]
        rfl
      · cases is with
        | nil => exact nomatch (hmem b).mpr hb
        | cons a l => cases hn

theorem trash_run (env : Env) (hs : Sound s) {x : Nat} (ha : (Task.trash x).Ask env (officeOf s)) :
    ∃ q s', trash env x s = (q, s') ∧ (officeOf s).Trashed env x (q.map fun _ => .done) (officeOf s') ∧ Sound s' := by
  obtain ⟨hx, hne, ⟨now, hnow⟩, hlen⟩ := ha
  have hx : (vaultOf s).IsElem x := hx
  obtain ⟨root, hroot⟩ : ∃ r, (vaultOf s).roots.head? = some r := by
    cases h : (vaultOf s).roots with
    | nil => exact absurd h hne
    | cons a l => exact ⟨a, rfl⟩
  have hrg : (vaultOf s).IsGroup root := by
    obtain ⟨_, _, _, _, _, h⟩ := (mem_roots hs).mp (List.mem_of_mem_head? hroot)
    exact group_card.mpr (all_sub h).2
  have hrun := (C71_lists env hs).2.2
  rw [hroot] at hrun
  have hsame := same_card env hs hx ⟨hrg.choose, hrg.choose_spec.1⟩
  have hT : ∀ {q : Except PyErr Unit} {s' : Db}, trash env x s = (q, s') → Sound s' →
      (match (vaultOf s).sameUuid x root, (deskOf s).bin with
        | .error e, _ => q = .error e ∧ officeOf s' = officeOf s
        | .ok true, _ => q = .error .unableToRecycle ∧ officeOf s' = officeOf s
        | .ok false, .error e => q = .error e ∧ officeOf s' = officeOf s
        | .ok false, .ok u =>
          (∃ b ux, (vaultOf s).Has u b ∧ (vaultOf s).uuid x = .ok ux ∧
            (((vaultOf s).Twin ux b ∧ q = .error .unableToRecycle ∧ officeOf s' = officeOf s) ∨
             (¬ (vaultOf s).Twin ux b ∧ ∃ p, (vaultOf s).MoveTo env x b p (vaultOf s') ∧ q.map (fun _ => Reply.done) = p.map (fun _ => .done) ∧ deskOf s' = deskOf s))) ∨
          ((∀ b, ¬ (vaultOf s).Has u b) ∧ ∃ n v p, (Op.addGroup root "Recycle Bin".toList none none).Step env (vaultOf s) (.ok (some n)) v ∧
            v.MoveTo env x n p (vaultOf s') ∧ q.map (fun _ => Reply.done) = p.map (fun _ => .done) ∧
            deskOf s' = (deskOf s).setBin (env.uuid1 s.uuids))) →
      ∃ q s', trash env x s = (q, s') ∧ (officeOf s).Trashed env x (q.map fun _ => .done) (officeOf s') ∧ Sound s' := by
    intro q s' h1 h2 h3
    refine ⟨q, s', h1, ⟨root, hroot, ?_⟩, h2⟩
    rw [show (officeOf s).vault = vaultOf s from rfl, show (officeOf s).desk = deskOf s from rfl]
    revert h3
    cases (vaultOf s).sameUuid x root with
    | error e => rintro ⟨rfl, h⟩; exact ⟨rfl, h⟩
    | ok b =>
      cases b with
      | true => rintro ⟨rfl, h⟩; exact ⟨rfl, h⟩
      | false =>
        cases (deskOf s).bin with
        | error e => rintro ⟨rfl, h⟩; exact ⟨rfl, h⟩
        | ok u =>
          rintro (⟨b, ux, h4, h5, h6⟩ | h4)
          · refine .inl ⟨b, ux, h4, h5, ?_⟩
            rcases h6 with ⟨h6, rfl, h7⟩ | h6
            · exact .inl ⟨h6, rfl, h7⟩
            · exact .inr h6
          · exact .inr h4
  have hcan : canBeTrashed env x s = (do
      let same ← sameUuid x root
      if same then pure false
      else
        match ← recycleBin env with
        | none => pure true
        | some bin =>
          let u ← getUuid x
          let el ← xpathFirst env (some bin) (fmt "./UUID[text()=\"{}\"]/..".toList [b64encode u] [])
          pure el.isNone : M Bool) s := by
    unfold canBeTrashed
    rw [bind_of hrun]
    rfl
  -- by cases on the uuids
  cases hsu : (vaultOf s).sameUuid x root with
  | error e =>
    rw [bind_run, hsame, hsu] at hcan
    refine hT (q := .error e) (s' := s) ?_ hs (by rw [hsu]; exact ⟨rfl, rfl⟩)
    unfold trash
    rw [bind_run, hcan]
  | ok same =>
    rw [bind_run, hsame, hsu] at hcan
    cases same with
    | true =>
      refine hT (q := .error .unableToRecycle) (s' := s) ?_ hs (by rw [hsu]; exact ⟨rfl, rfl⟩)
      unfold trash
      rw [bind_run, hcan]
      rfl
    | false =>
      simp only [Bool.false_eq_true, if_false] at hcan
      rcases bin_run env hs with ⟨e, h1, h2⟩ | ⟨u, o, h1, h2, h3, h4⟩
      · rw [bind_run, h2] at hcan
        refine hT (q := .error e) (s' := s) ?_ hs (by rw [hsu, h1]; exact ⟨rfl, rfl⟩)
        unfold trash
        rw [bind_run, hcan]
      · rw [bind_run, h2] at hcan
        cases o with
        | some b =>
          have hb := h3 b rfl
          have hbt := (current_iff hs b).mp hb.1
          have hbc : ¬ NoCard (s.heap.tag b) := by rw [hbt.2]; decide
          obtain ⟨c, hc⟩ := hx
          obtain ⟨ux, hux⟩ : ∃ ux, (vaultOf s).uuid x = .ok ux := by
            unfold Vault.sameUuid at hsu
            cases h : (vaultOf s).uuid x with
            | error e => rw [h] at hsu; cases hsu
            | ok ux => exact ⟨ux, rfl⟩
          have hgu := uuid_card env hs hc
          rw [hux] at hgu
          obtain ⟨el, f1, f2⟩ := first_uuid env hs.inv (card_pos hs.inv hbc) (card_mem hbc) (b64_plain ux)
          have htw : (vaultOf s).Twin ux b ↔ HasUuid s.heap b (b64encode ux) := by
            rw [has_uuid hs hbc]
            constructor
            · rintro ⟨c', k1, k2⟩
              obtain ⟨_, rfl⟩ := card_inv k1
              exact k2
            · intro h
              exact ⟨_, card_some hbc, h⟩
          simp only [] at hcan
          rw [bind_of hgu, bind_of (show xpathFirst env (some b) (fmt "./UUID[text()=\"{}\"]/..".toList [b64encode ux] []) s = _ from f1)] at hcan
          by_cases ht : (vaultOf s).Twin ux b
          · have : el.isNone = false := by
              cases h : el.isNone with
              | false => rfl
              | true => exact absurd (htw.mp ht) (f2.mp h)
            rw [this] at hcan
            refine hT (q := .error .unableToRecycle) (s' := s) ?_ hs (by rw [hsu, h1]; exact .inl ⟨b, ux, hb, hux, .inl ⟨ht, rfl, rfl⟩⟩)
            unfold trash
            rw [bind_of hcan]
            rfl
          · have : el.isNone = true := f2.mpr fun h => ht (htw.mpr h)
            rw [this] at hcan
            obtain ⟨q, s', m1, m2, m3, m4⟩ := moveTo_run env hs ⟨c, hc⟩ (group_card.mpr hbt.2)
            refine hT (q := q) (s' := s') ?_ m4 ?_
            · unfold trash
              rw [bind_of hcan, if_pos rfl]
              unfold binGroup
              rw [bind_of (show _ = (Except.ok b, s) from by rw [bind_of h2]; rfl)]
              exact m1
            · rw [hsu, h1]
              exact .inl ⟨b, ux, hb, hux, .inr ⟨ht, noHandle q, m2, by cases q <;> rfl, m3⟩⟩
        | none =>
          have hcan : canBeTrashed env x s = (.ok true, s) := hcan
          have hask : (Op.addGroup root "Recycle Bin".toList none none).Ask env (vaultOf s) := ⟨hrg, by decide +kernel, nofun, nofun, now, hnow⟩
          obtain ⟨r, s1, a1, a2, a3⟩ := C71_step env hs _ hask
          have ad := C75_apart env hs _ hask
          rw [a1] at ad
          have a2' := a2
          obtain ⟨now', n, b1, b2, rfl, b4⟩ := a2
          have hadd : addGroup env root (some "Recycle Bin".toList) none none s = (.ok n, s1) := by
            have e : (Op.addGroup root "Recycle Bin".toList none none).run env s = _ := map_run (addGroup env root (some "Recycle Bin".toList) none none) some s
            rw [a1] at e
            injection e with e1 e2
            refine Prod.ext ?_ e2.symm
            cases h : (addGroup env root (some "Recycle Bin".toList) none none s).1 with
            | error e => rw [h] at e1; cases e1
            | ok y => rw [h] at e1; injection e1 with e1; injection e1 with e1; rw [e1]
          have hn : (vaultOf s1).card n = some (newGroupCard (env.uuid1 s.uuids) now' "Recycle Bin".toList none none) := by
            rw [b4]
            show (if n = n then _ else _) = _
            rw [if_pos rfl]
            rfl
          obtain ⟨t, l, htl⟩ : ∃ t l, (deskOf s).texts binSetting = t :: l := by
            unfold Desk.bin at h1
            cases h : (deskOf s).texts binSetting with
            | nil => rw [h] at h1; cases h1
            | cons t l => exact ⟨t, l, rfl⟩
          obtain ⟨s2, c1, c2⟩ := setMeta_did env a3 (n := binSetting) (by decide +kernel) (b64encode (env.uuid1 s.uuids))
          have hput : (deskOf s1).put binSetting (b64encode (env.uuid1 s.uuids)) = (.ok none, (deskOf s).setBin (env.uuid1 s.uuids)) := by
            unfold Desk.put Desk.setBin
            rw [ad, htl]
            simp only []
            rw [if_pos (show XmlText (b64encode (env.uuid1 s.uuids)) from fun c hc => (b64_plain _ c hc).2)]
            congr 2
            funext m
            split
            · rename_i hm; rw [hm, htl]; rfl
            · rfl
          rw [hput] at c1 c2
          have hs2 : Sound s2 := by
            have := sound_step env a3 (c := .setMeta binSetting (b64encode (env.uuid1 s.uuids))) trivial
            rw [show (Call.setMeta binSetting (b64encode (env.uuid1 s.uuids))).run env s1 = _ from c1] at this
            exact this c2.neat
          have hv2 : vaultOf s2 = vaultOf s1 := congrArg Office.vault c2.office
          have hx2 : (vaultOf s2).IsElem x := by
            obtain ⟨c, hc⟩ := hx
            have hxn : x ≠ n := by
              rintro rfl
              have := b2.1
              rw [hc] at this
              cases this
            rw [hv2, b4]
            unfold Vault.IsElem
            show ∃ c', (if x = n then _ else if x = root then _ else _) = some c'
            rw [if_neg hxn]
            split
            · rename_i e; rw [← e, hc]; exact ⟨_, rfl⟩
            · exact ⟨c, hc⟩
          obtain ⟨q, s', m1, m2, m3, m4⟩ := moveTo_run env hs2 hx2 (g := n) (by rw [hv2]; exact ⟨_, hn, rfl⟩)
          have hbg : binGroup env s = (.ok n, s2) := by
            unfold binGroup
            rw [bind_of h2]
            simp only []
            rw [bind_of hrun]
            unfold addGroup at hadd
            rw [bind_run] at hadd ⊢
            cases hng : newGroup env (some "Recycle Bin".toList) none none s with
            | mk r t =>
              rw [hng] at hadd
              cases r with
              | error e => cases hadd
              | ok y =>
                simp only [] at hadd ⊢
                rw [bind_of (orAttr_some root t), bind_of hadd]
                unfold setMeta at c1
                rw [bind_run] at c1 ⊢
                rw [metaEl_run env a3.inv (by decide +kernel)] at c1 ⊢
                simp only [] at c1 ⊢
                rw [show metaEls s1.heap binSetting = metaEls s1.heap "RecycleBinUUID".toList from rfl] at c1
                cases hel : (metaEls s1.heap "RecycleBinUUID".toList).head? with
                | none => rw [hel] at c1; cases c1
                | some el =>
                  rw [hel] at c1
                  rw [bind_of (orAttr_some el s1)] at c1 ⊢
                  have hu : getUuid n s1 = (.ok (env.uuid1 s.uuids), s1) := by
                    rw [uuid_card env a3 hn]
                    unfold Vault.uuid
                    rw [hn]
                    exact congrArg (·, s1) (uuid_text_ok hlen)
                  rw [bind_of hu, bind_of c1]
                  rfl
          refine hT (q := q) (s' := s') ?_ m4 ?_
          · unfold trash
            rw [bind_of hcan, if_pos rfl, bind_of hbg]
            exact m1
          · rw [hsu, h1]
            refine .inr ⟨h4 rfl, n, vaultOf s1, noHandle q, a2', ?_, by cases q <;> rfl, ?_⟩
            · rw [← hv2]; exact m2
            · rw [m3]; exact congrArg Office.desk c2.office

end
end Verif.Props
