import Verif.Props.C39_AddEntry
/-!
# C40: `add_entry` refuses duplicates
-/
namespace Verif.Props
open Verif XPath Spec Api

/-- The group directly contains an entry with this title and username. -/
def HasEntry (h : Heap) (g : Nat) (t n : Str) : Prop :=
  ∃ e ∈ h.kids g, h.tag e = "Entry".toList ∧ field h e "Title".toList = some t ∧ field h e "UserName".toList = some n

/-- Every entry has well-formed string fields. -/
def EntriesOk (h : Heap) : Prop := ∀ e, h.tag e = "Entry".toList → Fields h e

/-- No group contains two entries with the same title and username. -/
def Distinct (h : Heap) : Prop := ∀ g e₁ e₂ t n, h.tag g = "Group".toList → e₁ ∈ h.kids g → e₂ ∈ h.kids g →
  h.tag e₁ = "Entry".toList → h.tag e₂ = "Entry".toList →
  field h e₁ "Title".toList = some t → field h e₁ "UserName".toList = some n →
  field h e₂ "Title".toList = some t → field h e₂ "UserName".toList = some n → e₁ = e₂

theorem mem_all {h : Heap} {e k : Nat} {t : Str} : k ∈ h.all e t ↔ k ∈ h.kids e ∧ h.tag k = t := by
  unfold Heap.all
  rw [List.mem_filter, beq_iff_eq]

/-- The duplicate check. -/
theorem dup_iff (env : Env) {s : Db} (hs : Inv s) (hF : EntriesOk s.heap) {dest : Nat} (h0 : dest ≠ 0)
    (hg : s.heap.tag dest = "Group".toList) (hh : ¬ InHist s.heap dest) {a : EntryArgs} {t n : Str}
    (ht : a.title = some t) (hn : a.username = some n) (pt : Plain t) (pn : Plain n) :
    ∃ o, findEntry env false (dupArgs dest a) s = (.ok o, s) ∧ (o.isSome = true ↔ HasEntry s.heap dest t n) := by
  obtain ⟨o, h1, h2⟩ := dup_run env hs h0 ht hn pt pn
  refine ⟨o, h1, h2.trans ?_⟩
  constructor
  · rintro ⟨e, he, _, g1, g2⟩
    obtain ⟨k1, k2⟩ := mem_all.mp he
    exact ⟨e, k1, k2, (value_field (hF e k2) _ _).mp g1, (value_field (hF e k2) _ _).mp g2⟩
  · rintro ⟨e, k1, k2, g1, g2⟩
    refine ⟨e, mem_all.mpr ⟨k1, k2⟩, ?_, (value_field (hF e k2) _ _).mpr g1, (value_field (hF e k2) _ _).mpr g2⟩
    rw [hist_kid hs k1]
    rintro (h | h)
    · rw [hg] at h; exact absurd h (by decide)
    · exact hh h

/-- For arguments that can be written, `add_entry` without force raises exactly if the group has such an entry, and
then nothing at all changes: no element, no credential, no clock reading and no uuid. -/
theorem C40_refused (env : Env) {s : Db} (hs : Inv s) (hF : EntriesOk s.heap) {dest : Nat} (h0 : dest ≠ 0) (hm : dest ∈ s.world.ids)
    (hg : s.heap.tag dest = "Group".toList) (hh : ¬ InHist s.heap dest) {a : EntryArgs} {now exp t n p : Str}
    (h : ArgsOk env s a now exp t n p) (pt : Plain t) (pn : Plain n) :
    (HasEntry s.heap dest t n → ∃ x, addEntry env dest a false s = (.error x, s) ∧
      ((groupPath dest s).1.isOk = true → x = .exception)) ∧
    (¬ HasEntry s.heap dest t n → ∃ s', addEntry env dest a false s = (.ok s.next, s')) := by
  obtain ⟨o, h1, h2⟩ := dup_iff env hs hF h0 hg hh h.title.1 h.username.1 pt pn
  constructor
  · intro hd
    have ho := h2.mpr hd
    unfold addEntry
    rw [bind_of h1, if_pos (by rw [ho]; rfl), bind_run]
    have hst := groupPath_state dest s
    cases hp : groupPath dest s with
    | mk r s1 =>
      rw [hp] at hst
      replace hst : s1 = s := hst
      subst hst
      cases r with
      | error x => exact ⟨x, rfl, fun h => by cases h⟩
      | ok l => exact ⟨.exception, rfl, fun _ => rfl⟩
  · intro hd
    have ho : o.isSome = false := by
      cases hx : o.isSome with
      | false => rfl
      | true => exact absurd (h2.mp hx) hd
    obtain ⟨s', g, _⟩ := add_ok (inv_quiet hs (s.ticks + 1) (s.uuids + 1)) hm (entryXml (env.uuid1 s.uuids) now exp a t n p)
    exact ⟨s', by rw [addEntry_ok h h1 (by rw [ho]; rfl)]; exact g⟩

/-- With force the duplicate is added. -/
theorem C40_forced (env : Env) {s : Db} (hs : Inv s) (hF : EntriesOk s.heap) {dest : Nat} (h0 : dest ≠ 0) (hm : dest ∈ s.world.ids)
    (hg : s.heap.tag dest = "Group".toList) (hh : ¬ InHist s.heap dest) {a : EntryArgs} {now exp t n p : Str}
    (h : ArgsOk env s a now exp t n p) (pt : Plain t) (pn : Plain n) :
    ∃ s', addEntry env dest a true s = (.ok s.next, s') := by
  obtain ⟨o, h1, h2⟩ := dup_iff env hs hF h0 hg hh h.title.1 h.username.1 pt pn
  obtain ⟨s', g, _⟩ := add_ok (inv_quiet hs (s.ticks + 1) (s.uuids + 1)) hm (entryXml (env.uuid1 s.uuids) now exp a t n p)
  exact ⟨s', by rw [addEntry_ok h h1 (by simp)]; exact g⟩

/-- A group additions go to. -/
structure Target (s : Db) (g : Nat) : Prop where
  pos : g ≠ 0
  tag : s.heap.tag g = "Group".toList
  hist : ¬ InHist s.heap g

theorem Target.mem {s : Db} {g : Nat} (h : Target s g) : g ∈ s.world.ids :=
  tag_mem (by rw [h.tag]; decide)

/-- A title and username that a search takes literally. `None` is allowed. -/
def PlainArgs (a : EntryArgs) : Prop := (∀ t, a.title = some t → Plain t) ∧ ∀ n, a.username = some n → Plain n

theorem distinct_step {env : Env} {s s' : Db} (hs : Inv s) (hF : EntriesOk s.heap) (hD : Distinct s.heap) {dest : Nat} (hd : Target s dest)
    {a : EntryArgs} (ha : PlainArgs a) {r : Except PyErr Nat} (h : addEntry env dest a false s = (r, s')) :
    Inv s' ∧ EntriesOk s'.heap ∧ Distinct s'.heap ∧ ∀ g, Target s g → Target s' g := by
  cases r with
  | error x =>
    obtain ⟨t, u, rfl⟩ := addEntry_error h
    exact ⟨inv_quiet hs t u, hF, hD, fun g hg => ⟨hg.pos, hg.tag, hg.hist⟩⟩
  | ok i =>
    obtain ⟨o, now, exp, t, n, p, g1, g2, e1, e2, e3, _, _, _⟩ := addEntry_inv h
    obtain ⟨rfl, h1, h2, h3, h4⟩ := addEntry_all hs hd.mem h
    obtain ⟨o', g1', g3⟩ := dup_iff env hs hF hd.pos hd.tag hd.hist e1 e2 (ha.1 t e1) (ha.2 n e2)
    rw [g1'] at g1
    injection g1 with g1
    injection g1 with g1
    subst g1
    have hno : ¬ HasEntry s.heap dest t n := fun hx => by rw [g3.mpr hx] at g2; cases g2
    have hs' := h1.inv
    have h0 : s.next ≠ 0 := by have := hs.bound 0 hs.zero_mem; omega
    have hid : s.next ∈ s'.world.ids := (kid_mem hs' (added_n hs h4)).1
    have hread : ∀ f : Field, field s'.heap s.next f.key = wanted a f := by
      intro f
      have := h2.fields f
      unfold getStd at this
      rw [getField_run env hs' h0 hid (plain_std f)] at this
      injection this with this _
      injection this
    have r1 : field s'.heap s.next "Title".toList = some t := (hread .title).trans e1
    have r2 : field s'.heap s.next "UserName".toList = some n := (hread .username).trans e2
    have hds : s.heap.tag dest ≠ "String".toList := by rw [hd.tag]; decide
    have hold : ∀ e, s.heap.tag e = "Entry".toList → e ∈ s.world.ids ∧ e ≠ dest ∧ e < s.next := by
      intro e he
      have hm : e ∈ s.world.ids := tag_mem (by rw [he]; decide)
      exact ⟨hm, fun e' => by rw [e', hd.tag] at he; exact absurd he (by decide), hs.bound e hm⟩
    have hf : ∀ e, s.heap.tag e = "Entry".toList → ∀ key, field s'.heap e key = field s.heap e key := by
      intro e he key
      obtain ⟨a1, a2, _⟩ := hold e he
      exact (added_field hs h4 a1 a2 hds key).2.2.1
    have hEnt : ∀ e, s'.heap.tag e = "Entry".toList → s.heap.tag e = "Entry".toList ∨ e = s.next := fun e => (h1.entries e).mp
    refine ⟨hs', ?_, ?_, ?_⟩
    · intro e he
      rcases hEnt e he with he | rfl
      · obtain ⟨a1, a2, _⟩ := hold e he
        exact added_fields hs h4 a1 a2 hds (hF e he)
      · exact h3
    · intro g x y tt nn hg hx hy tx ty fx1 fx2 fy1 fy2
      have hg' := (h1.groups g).mp hg
      have hgl : g < s.next := hs.bound g (tag_mem (by rw [hg']; decide))
      have kid : ∀ {c}, c ∈ s'.heap.kids g → c ∈ s.heap.kids g ∨ (c = s.next ∧ g = dest) := fun hc => added_old_kid hs h4 hgl hc
      have old : ∀ {c}, c ∈ s.heap.kids g → s'.heap.tag c = "Entry".toList → s.heap.tag c = "Entry".toList := by
        intro c hc htc
        rcases hEnt c htc with h | rfl
        · exact h
        · exact absurd (hs.bound _ (kid_mem hs hc).1) (Nat.lt_irrefl _)
      rcases kid hx with kx | ⟨rfl, rfl⟩
      · have ox := old kx tx
        rw [hf x ox] at fx1 fx2
        rcases kid hy with ky | ⟨rfl, rfl⟩
        · have oy := old ky ty
          rw [hf y oy] at fy1 fy2
          exact hD g x y tt nn hg' kx ky ox oy fx1 fx2 fy1 fy2
        · rw [r1] at fy1; rw [r2] at fy2
          injection fy1 with fy1; injection fy2 with fy2
          subst fy1 fy2
          exact absurd ⟨x, kx, ox, fx1, fx2⟩ hno
      · rcases kid hy with ky | ⟨rfl, -⟩
        · have oy := old ky ty
          rw [hf y oy] at fy1 fy2
          rw [r1] at fx1; rw [r2] at fx2
          injection fx1 with fx1; injection fx2 with fx2
          subst fx1 fx2
          exact absurd ⟨y, ky, oy, fy1, fy2⟩ hno
        · rfl
    · intro g hg
      have hgl : g < s.next := hs.bound g hg.mem
      exact ⟨hg.pos, (h1.groups g).mpr hg.tag, fun hh => hg.hist ((added_hist_old hs hs' h4 rfl hgl).mp hh)⟩

/-- Additions one after the other, each of them succeeding or raising. -/
def runAdds (env : Env) : List (Nat × EntryArgs) → Db → Db
  | [], s => s
  | (g, a) :: ops, s => runAdds env ops (addEntry env g a false s).2

/-- Any sequence of additions without force keeps the pairs of title and username distinct in every group. -/
theorem C40_sequence (env : Env) (ops : List (Nat × EntryArgs)) {s : Db} (hs : Inv s) (hF : EntriesOk s.heap) (hD : Distinct s.heap)
    (ht : ∀ op ∈ ops, Target s op.1) (hp : ∀ op ∈ ops, PlainArgs op.2) :
    Inv (runAdds env ops s) ∧ EntriesOk (runAdds env ops s).heap ∧ Distinct (runAdds env ops s).heap := by
  induction ops generalizing s with
  | nil => exact ⟨hs, hF, hD⟩
  | cons op ops ih =>
    obtain ⟨g, a⟩ := op
    cases hr : addEntry env g a false s with
    | mk r s' =>
      obtain ⟨h1, h2, h3, h4⟩ := distinct_step hs hF hD (ht _ (List.mem_cons_self ..)) (hp _ (List.mem_cons_self ..)) hr
      show Inv (runAdds env ops (addEntry env g a false s).2) ∧ EntriesOk (runAdds env ops (addEntry env g a false s).2).heap ∧
        Distinct (runAdds env ops (addEntry env g a false s).2).heap
      rw [hr]
      exact ih h1 h2 h3 (fun op h => h4 _ (ht op (List.mem_cons_of_mem _ h))) fun op h => hp op (List.mem_cons_of_mem _ h)

/-! ## Titles with a quote -/

def quoted : EntryArgs := { title := some "x\" and \"a\"=\"b".toList, username := some "u".toList, password := some "p".toList }

theorem run_pair {α} {m : M α} {s : Db} {r : Except PyErr α} (h : (m s).1 = r) : m s = (r, (m s).2) := Prod.ext h rfl

def quoted₁ : Db := (addEntry Sample.env 93 quoted false Sample.db).2
def quoted₂ : Db := (addEntry Sample.env 93 quoted false quoted₁).2

/-- A quotation mark in the title changes the query: the same entry is added twice. -/
theorem C40_quote_twice : addEntry Sample.env 93 quoted false Sample.db = (.ok 148, quoted₁) ∧
    addEntry Sample.env 93 quoted false quoted₁ = (.ok 174, quoted₂) ∧ [148, 174] <:+ quoted₂.heap.kids 93 :=
  ⟨run_pair (by decide +kernel), run_pair (by decide +kernel), by decide +kernel⟩

def always : EntryArgs := { title := some "x\" or \"a\"=\"a".toList, username := some "ann".toList, password := some "p".toList }

/-- It can also refuse an entry that is not there. -/
theorem C40_quote_refused : (addEntry Sample.env 93 always false Sample.db).1 = .error .exception ∧
    (∀ e ∈ Sample.db.heap.kids 93, field Sample.db.heap e "Title".toList ≠ always.title) := by
  refine ⟨by decide +kernel, ?_⟩
  have : ((Sample.db.heap.kids 93).all fun e => decide (field Sample.db.heap e "Title".toList ≠ always.title)) = true := by decide +kernel
  intro e he
  simpa using List.all_eq_true.mp this e he

/-! ## The hypotheses hold for the sample database -/

theorem sample_noHist {j : Nat} (hall : (Sample.db.world.nodes.all fun n => n.tag != "History".toList || !n.ids.contains j) = true) :
    ¬ InHist Sample.db.heap j := by
  rintro ⟨k, ht, _, hr⟩
  have hk : k ∈ Sample.db.world.ids := tag_mem (by rw [ht]; decide)
  obtain ⟨n, hn⟩ := get_of_mem hk
  have h1 := (reach_iff Sample.db_inv hn _).mp hr
  have := List.all_eq_true.mp hall n (Node.get?_some hn).1
  rw [← node_tag hn, ht] at this
  simp at this
  exact this h1

theorem sample_targets : Target Sample.db 14 ∧ Target Sample.db 93 :=
  ⟨⟨by decide, by decide +kernel, sample_noHist (by decide +kernel)⟩, ⟨by decide, by decide +kernel, sample_noHist (by decide +kernel)⟩⟩

theorem sample_entriesOk : EntriesOk Sample.db.heap := by
  intro e he
  have hm : e ∈ Sample.db.world.ids := tag_mem (by rw [he]; decide)
  have : (Sample.db.world.ids.all fun e => Sample.db.heap.tag e != "Entry".toList || fieldsOk Sample.db.heap e) = true := by decide +kernel
  have := List.all_eq_true.mp this e hm
  rw [he] at this
  exact fields_of_ok (by simpa using this)

/-- The pair of an entry. -/
def pairOf (h : Heap) (e : Nat) : Option Str × Option Str := (field h e "Title".toList, field h e "UserName".toList)

theorem sample_distinct : Distinct Sample.db.heap := by
  intro g x y t n hg hx hy tx ty a b c d
  have hm : g ∈ Sample.db.world.ids := tag_mem (by rw [hg]; decide)
  have : (Sample.db.world.ids.all fun g => Sample.db.heap.tag g != "Group".toList || (Sample.db.heap.all g "Entry".toList).all fun x =>
      (Sample.db.heap.all g "Entry".toList).all fun y => x == y || pairOf Sample.db.heap x != pairOf Sample.db.heap y) = true := by decide +kernel
  have := List.all_eq_true.mp this g hm
  rw [hg, bne_self_eq_false, Bool.false_or] at this
  have := List.all_eq_true.mp (List.all_eq_true.mp this x (mem_all.mpr ⟨hx, tx⟩)) y (mem_all.mpr ⟨hy, ty⟩)
  rw [Bool.or_eq_true, beq_iff_eq, bne_iff_ne] at this
  rcases this with h | h
  · exact h
  · exact absurd (by unfold pairOf; rw [a, b, c, d]) h

example : HasEntry Sample.db.heap 93 "bank".toList "ann".toList ∧ Plain "bank".toList ∧ (groupPath 93 Sample.db).1.isOk = true :=
  ⟨⟨102, by decide +kernel, by decide +kernel, by decide +kernel, by decide +kernel⟩, by decide, by decide +kernel⟩
example : ∀ op ∈ [(93, sampleArgs), (14, sampleArgs), (93, sampleArgs), (93, { sampleArgs with title := none })], PlainArgs op.2 := by
  intro op hop
  simp only [List.mem_cons, List.not_mem_nil, or_false] at hop
  rcases hop with rfl | rfl | rfl | rfl <;> refine ⟨?_, ?_⟩ <;> rintro t ⟨⟩ <;> decide

end Verif.Props
