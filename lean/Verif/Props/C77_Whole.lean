import Verif.Api.WholeData
import Verif.Api.RefuseDesk
/-!
# C77: every method that changes a database, on cards and desk together
-/
namespace Verif.Props
open Verif XPath Spec Api

section
variable {s s' : Db}

/-- All elements are to be where they may be, and attachments and data filed. -/
def filedFrame : Frame where
  F _ := False
  P _ _ := False
  shape := true
  files := true

/-- Whatever methods are called in whatever order, with whatever arguments, and whether or not they raise: attachments keep the one number they
have, and lists of data contain data. -/
theorem C77_filed (env : Env) (hs : Inv s) (hd : DocOk s.heap) (hh : Shaped s.heap) (hf : Filed s.heap)
    (h : Exec env (fun h c => c.Typed h) s s') : Filed s'.heap := by
  suffices Inv s' ∧ DocOk s'.heap ∧ Shaped s'.heap ∧ Filed s'.heap from this.2.2.2
  induction h with
  | refl => exact ⟨hs, hd, hh, hf⟩
  | @step t c _ hL ih =>
    obtain ⟨h1, h2, h3, h4⟩ := ih
    have hg : Good filedFrame t := ⟨h1, fun _ h => h.elim, fun h => h, fun _ _ _ _ _ _ h => h, nofun, fun _ => h3, fun _ _ => h4⟩
    have hG : Guard filedFrame t := ⟨fun _ h => h, fun _ _ h => h.elim, h2⟩
    have hk := (call_keeps env hG hg c hL (fun _ _ _ _ h => h) (fun h => h.elim (fun h => nomatch h) fun h => nomatch h) (fun _ _ _ h => h)
      (fun _ _ _ _ _ h => h) hg).1
    exact ⟨hk.good.inv, (hG.kept hk).doc, hk.good.shape rfl, hk.good.filed rfl rfl⟩

theorem filed_tree {a b : Nat} {k : Kdbx} {x : Xml} (hx : k.tree = .ok x) (hf : FiledXml x) (hl : k.load a b = .ok s) : Filed s.heap := by
  obtain ⟨s', e, hi, hd, hc, _⟩ := load_ok hx a b
  rw [hl] at e
  injection e with e
  subst e
  rw [filed_iff]
  intro p c hk
  by_cases h0 : p = 0
  · rw [h0, hi.zero_tag]
    exact ⟨fun e => absurd e (by decide), fun e => absurd e (by decide)⟩
  · exact content_filed hi hc hf (load_reach hl hi (kid_mem hi hk).2 h0) hk

/-- So they do if they are that way in the file that was opened. -/
theorem C77_opened (env : Env) {k : Kdbx} {x : Xml} (hx : k.tree = .ok x) (hn : x.tag = "KeePassFile".toList) (hh : ShapedXml x) (hf : FiledXml x) {a b : Nat}
    (hl : k.load a b = .ok s) (h : Exec env (fun h c => c.Typed h) s s') : Filed s'.heap := by
  have hsh := C68_opened env hx hn hh hl (.refl s)
  have hfs := filed_tree hx hf hl
  obtain ⟨s0, e, hi, hd, hc, _⟩ := load_ok hx a b
  rw [hl] at e
  injection e with e
  subst e
  refine C77_filed env hi (fun d hd' => ?_) hsh hfs h
  rw [hd] at hd'
  injection hd' with hd'
  subst hd'
  exact (content_tag hc).trans hn

/-- Every method of the machine is a call. -/
theorem task_state (env : Env) (a : Task) (s : Db) : (a.run env s).2 = (a.call.run env s).2 := by
  have key : ∀ {α β} (m : M α) (f : α → β), ((do let x ← m; pure (f x) : M β) s).2 = (m s).2 := by
    intro α β m f
    rw [bind_run]
    cases m s with
    | mk r t => cases r <;> rfl
  cases a with
  | deed a =>
    have e : ((Task.deed a).run env s).2 = _ := key (a.run env) Reply.deed
    rw [e]
    cases a with
    | cards o =>
      have e : ((Deed.cards o).run env s).2 = _ := key (o.run env) (Sum.inl (β := Option Int))
      rw [e, run_state]
      rfl
    | desk o =>
      have e : ((Deed.desk o).run env s).2 = _ := key (o.run env) (Sum.inr (α := Option Nat))
      rw [e, desk_state]
      rfl
  | expired x => exact (key (Api.expired env x) Reply.truth).trans (key (Api.expired env x) fun _ => ()).symm
  | due q => exact (key (Api.credChange env q) Reply.truth).trans (key (Api.credChange env q) fun _ => ()).symm
  | append g xs => exact key (Api.groupAppendAll g xs) fun _ => Reply.done
  | reindex e i => exact key (Api.reindex e i) fun _ => Reply.done
  | trash x => exact key (Api.trash env x) fun _ => Reply.done
  | deleteData n => exact key (Api.deleteBinary env n) fun _ => Reply.done
  | refuse o => exact key (o.call.run env) fun _ => Reply.done

theorem task_typed {env : Env} {a : Task} (ha : a.Ask env (officeOf s)) : a.call.Typed s.heap := by
  have el : ∀ {x}, (vaultOf s).IsElem x → Spec.IsElem s.heap x := fun h => elem_of (some_card.mp h)
  cases a with
  | deed a =>
    cases a with
    | cards o => exact ask_typed (o := o) ha
    | desk o => exact desk_typed o _
  | expired x => exact el ha
  | due q => trivial
  | append g xs => exact ⟨group_card.mp ha.1, fun x hx => el (ha.2 x hx)⟩
  | reindex e i =>
    obtain ⟨g, c, h1, h2, h3⟩ := ha
    obtain ⟨_, rfl⟩ := card_inv h1
    exact (all_sub h3).2
  | trash x => exact el ha.1
  | deleteData n => trivial
  | refuse o => exact refused_typed (o := o) ha

theorem task_filed (env : Env) (hs : Sound s) (hf : Filed s.heap) {a : Task} (ha : a.Ask env (officeOf s)) : Filed (a.run env s).2.heap := by
  rw [task_state]
  obtain ⟨d, m, r, hk⟩ := hs.skeleton
  refine C77_filed env hs.inv (fun d' hd => ?_) hs.shaped hf (.step a.call (.refl s) (task_typed ha))
  rw [hk.doc] at hd
  injection hd with hd
  rw [← hd]
  exact hk.tag

/-- Every method, called on elements and data that the office knows, gives what the machine says and leaves what the machine says. -/
theorem C77_step (env : Env) (hs : Sound s) (hf : Filed s.heap) (a : Task) (ha : a.Ask env (officeOf s)) :
    a.Step env (officeOf s) (a.run env s).1 (officeOf (a.run env s).2) ∧ Sound (a.run env s).2 ∧ Filed (a.run env s).2.heap := by
  suffices h : a.Step env (officeOf s) (a.run env s).1 (officeOf (a.run env s).2) ∧ Sound (a.run env s).2 from ⟨h.1, h.2, task_filed env hs hf ha⟩
  have done : ∀ {m : M Unit} {q : Except PyErr Unit} {t : Db}, m s = (q, t) →
      (do m; pure Reply.done : M Reply) s = (q.map fun _ => Reply.done, t) := by
    intro m q t h
    rw [map_run m (fun _ => Reply.done), h]
  cases a with
  | deed a =>
    obtain ⟨h1, h2⟩ := C75_step env hs a ha
    have e : (Task.deed a).run env s = _ := map_run (a.run env) Reply.deed s
    rw [e]
    exact ⟨⟨_, rfl, h1⟩, h2⟩
  | expired x =>
    obtain ⟨c, hc⟩ := ha
    obtain ⟨t, h1, h2, h3⟩ := expired_run env hs hc
    have e : (Task.expired x).run env s = _ := map_run (Api.expired env x) Reply.truth s
    rw [e, h1]
    exact ⟨⟨c, hc, rfl, h2⟩, h3⟩
  | due q =>
    obtain ⟨t, h1, h2, h3⟩ := due_run env hs q
    have e : (Task.due q).run env s = _ := map_run (Api.credChange env q) Reply.truth s
    rw [e, h1]
    exact ⟨⟨rfl, h2⟩, h3⟩
  | append g xs =>
    obtain ⟨q, t, h1, h2, h3, h4⟩ := append_run env hs ha.1 ha.2
    have e : (Task.append g xs).run env s = _ := done h1
    rw [e]
    exact ⟨⟨h2, h3⟩, h4⟩
  | reindex x i =>
    obtain ⟨g, c, h1, h2, h3⟩ := ha
    obtain ⟨t, r1, r2, r3, r4⟩ := reindex_run env hs (i := i) h1 h2 h3
    have e : (Task.reindex x i).run env s = _ := done r1
    rw [e]
    exact ⟨⟨rfl, r2, r3⟩, r4⟩
  | trash x =>
    obtain ⟨q, t, h1, h2, h3⟩ := trash_run env hs ha
    have e : (Task.trash x).run env s = _ := done h1
    rw [e]
    exact ⟨h2, h3⟩
  | deleteData n =>
    obtain ⟨q, t, h1, h2, h3⟩ := deleteData_run env hs hf n ha
    have e : (Task.deleteData n).run env s = _ := done h1
    rw [e]
    exact ⟨h2, h3⟩
  | refuse o =>
    obtain ⟨q, t, h1, h2, h3⟩ := refused_step env hs o ha
    have e : (Task.refuse o).run env s = _ := done h1
    have hd := refused_apart env hs o ha
    rw [h1] at hd
    rw [e]
    exact ⟨⟨q, rfl, h2, hd⟩, h3⟩

/-- Over any number of calls. -/
theorem C77_run (env : Env) {l : List (Task × Except PyErr Reply)} (hs : Sound s) (hf : Filed s.heap) (h : Served env s l s') :
    Proceeds env (officeOf s) l (officeOf s') ∧ Sound s' ∧ Filed s'.heap := by
  induction h with
  | nil => exact ⟨.nil _, hs, hf⟩
  | @cons s t a l ha _ ih =>
    obtain ⟨h1, h2, h3⟩ := C77_step env hs hf a ha
    obtain ⟨h4, h5⟩ := ih h2 h3
    exact ⟨.cons ha h1 h4, h5⟩

end

/-! ## The hypotheses hold -/

theorem filed_of {s : Db} (hs : Inv s) (h : (s.world.ids.all fun p => (s.heap.kids p).all fun c =>
    (s.heap.tag p != "Entry".toList || s.heap.tag c != "Binary".toList ||
      ((fileParts.all fun t => decide ((s.heap.all c t).length ≤ 1)) && (s.heap.kids c).all fun k => (s.heap.kids k).isEmpty)) &&
    (s.heap.tag p != "Binaries".toList || (s.heap.tag c == "Binary".toList && (s.heap.kids c).isEmpty))) = true) : Filed s.heap := by
  rw [filed_iff]
  intro p c hc
  have h := List.all_eq_true.mp (List.all_eq_true.mp h p (kid_mem hs hc).2) c hc
  rw [Bool.and_eq_true] at h
  constructor
  · intro e1 e2
    have h := h.1
    rw [show (s.heap.tag p != "Entry".toList) = false by rw [e1]; rfl, show (s.heap.tag c != "Binary".toList) = false by rw [e2]; rfl,
      Bool.false_or, Bool.false_or, Bool.and_eq_true] at h
    exact ⟨fun t ht => of_decide_eq_true (List.all_eq_true.mp h.1 t ht), fun k hk => List.isEmpty_iff.mp (List.all_eq_true.mp h.2 k hk)⟩
  · intro e1
    have h := h.2
    rw [show (s.heap.tag p != "Binaries".toList) = false by rw [e1]; rfl, Bool.false_or, Bool.and_eq_true] at h
    exact ⟨beq_iff_eq.mp h.1, List.isEmpty_iff.mp h.2⟩

theorem sample_filed : Filed Sample.db.heap := filed_of Sample.db_inv (by decide +kernel)

/-- Data are deleted, an entry is asked whether it expired, put last and then in the bin, which is made; a group is moved, and the credentials are
asked about. -/
def chores : List Task := [.deleteData 1, .expired 23, .reindex 23 1, .trash 23, .append 14 [122, 93], .due true, .deed (.cards (.delete 76))]

def choresRun (s : Db) : List Task → Db
  | [] => s
  | a :: l => choresRun (a.run Sample.env s).2 l

/-- Every attachment has a number. -/
theorem numbered_of {s : Db} {n : Nat} (h : (s.world.ids.all fun e => (s.heap.all e "Binary".toList).all fun a => NoCard (s.heap.tag e) ||
    (List.range 10).any fun k => (fileOf s.heap a).number == some (some (natStr k))) = true) : (Task.deleteData n).Ask Sample.env (officeOf s) := by
  intro e c _ hc f hf
  obtain ⟨hn, rfl⟩ := card_inv hc
  obtain ⟨a, ha, rfl⟩ := List.mem_map.mp hf
  have h := List.all_eq_true.mp (List.all_eq_true.mp h e (card_mem hn)) a ha
  rw [decide_eq_false hn, Bool.false_or] at h
  obtain ⟨k, _, hk⟩ := List.any_eq_true.mp h
  exact ⟨k, beq_iff_eq.mp hk⟩

theorem reindex_ask {env : Env} {s : Db} {g e : Nat} {i : Int} (hg : s.heap.tag g = "Group".toList) (he : e ∈ s.heap.all g "Entry".toList) :
    (Task.reindex e i).Ask env (officeOf s) := by
  refine ⟨g, _, card_some (s := s) ?_, hg, he⟩
  rw [hg]; decide

example : ∃ l, l.map Prod.fst = chores ∧ Served Sample.env Sample.db l (choresRun Sample.db chores) := by
  refine ⟨_, ?_, .cons (?_ : Task.Ask _ _ (.deleteData 1)) (.cons (?_ : Task.Ask _ _ (.expired 23)) (.cons (?_ : Task.Ask _ _ (.reindex 23 1))
    (.cons (?_ : Task.Ask _ _ (.trash 23)) (.cons (?_ : Task.Ask _ _ (.append 14 [122, 93])) (.cons (?_ : Task.Ask _ _ (.due true))
    (.cons (?_ : Task.Ask _ _ (.deed (.cards (.delete 76)))) (.nil _)))))))⟩
  · rfl
  · exact numbered_of (by decide +kernel)
  · exact some_card.mpr (by decide +kernel)
  · exact reindex_ask (g := 14) (by decide +kernel) (by decide +kernel)
  · refine ⟨some_card.mpr (by decide +kernel), ?_, is_ok (by decide +kernel), by decide +kernel⟩
    decide +kernel
  · refine ⟨group_card.mpr (by decide +kernel), fun x hx => some_card.mpr ?_⟩
    simp only [List.mem_cons, List.not_mem_nil, or_false] at hx
    rcases hx with rfl | rfl <;> decide +kernel
  · trivial
  · exact ⟨some_card.mpr (by decide +kernel), .inr ⟨14, _, card_some (by decide +kernel), .inl (by decide +kernel)⟩⟩

example : (choresRun Sample.db chores).binaries = [[0, 10], [0, 12]] ∧
    (expired Sample.env 23 Sample.db).1 = .ok true ∧
    (groupEntries 14 (choresRun Sample.db (chores.take 3))).1 = .ok [76, 23] ∧
    (groupEntries 148 (choresRun Sample.db chores)).1 = .ok [23] ∧
    (allGroups Sample.env (choresRun Sample.db chores)).1 = .ok [14, 148, 122, 93] ∧
    (attId 119 (choresRun Sample.db chores)).1 = .ok 1 ∧ (attBinary Sample.env 119 (choresRun Sample.db chores)).1 = .ok [12] := by
  refine ⟨?_, ?_, ?_, ?_, ?_, ?_, ?_⟩ <;> decide +kernel

end Verif.Props
