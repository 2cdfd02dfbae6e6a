import Verif.Api.KeepOps
import Verif.Spec.Structure
/-!
# What the methods of the database leave alone
-/
namespace Verif.Api
open Verif XPath Spec

variable {f : Frame} {s : Db}

/-! ## New elements -/

theorem keeps_baseKids (env : Env) (icon : Option Str) (b : Bool) (t : Option DateTime) : Keeps f s (baseKids env icon b t) := by
  unfold baseKids
  exact (run_newUuid env).bind fun _ _ _ _ => (still_lift _).keeps.bind fun _ _ _ _ => (run_now env).bind fun _ _ _ _ =>
    (still_reads _).keeps.bind fun _ _ _ _ => (still_lift _).keeps.bind fun _ _ _ _ => (still_lift _).keeps.bind fun _ _ _ _ =>
    keeps_pure _

theorem run_newGroup (env : Env) (a b c : Option Str) : Run f s (newGroup env a b c) fun x _ => x.tag = "Group".toList ∧ TidyXml x ∧ ShapedXml x ∧ Tame x := by
  suffices h : Run f s (newGroup env a b c) fun x _ => x.tag = "Group".toList from
    h.result.mono fun _ _ _ h => ⟨h.1, tidy_group h.2, shaped_group h.2, tame_group h.2⟩
  unfold newGroup
  exact (keeps_baseKids env _ _ _).bind fun _ _ _ _ => (still_lift _).keeps.bind fun _ _ _ _ => (still_lift _).keeps.bind fun _ _ _ _ =>
    (run_pure _).mono fun x _ _ h => by rw [h.2]; rfl

theorem run_newEntry (env : Env) (a : EntryArgs) : Run f s (newEntry env a) fun x _ => x.tag = "Entry".toList ∧ TidyXml x ∧ ShapedXml x ∧ Tame x := by
  suffices h : Run f s (newEntry env a) fun x _ => x.tag = "Entry".toList from
    h.result.mono fun _ _ _ h => ⟨h.1, tidy_entry h.2, shaped_entry h.2, tame_entry h.2⟩
  unfold newEntry
  exact (keeps_baseKids env _ _ _).bind fun _ _ _ _ => (still_lift _).keeps.bind fun _ _ _ _ => (still_lift _).keeps.bind fun _ _ _ _ =>
    (still_lift _).keeps.bind fun _ _ _ _ => (still_lift _).keeps.bind fun _ _ _ _ => (still_lift _).keeps.bind fun _ _ _ _ =>
    (still_lift _).keeps.bind fun _ _ _ _ => (still_lift _).keeps.bind fun _ _ _ _ =>
    (run_pure _).mono fun x _ _ h => by rw [h.2]; rfl

theorem keeps_addGroup (env : Env) {g : Nat} {a b c : Option Str} (hm : g ∈ s.world.ids) (h0 : g ≠ 0) (hF : ¬ f.F g)
    (hP : ¬ f.P g "Group".toList) (hB : f.fine = true → s.heap.tag g ∈ boxTags) (hS : f.shape = true → s.heap.tag g = "Group".toList) :
    Run f s (addGroup env g a b c) fun i t => i ∈ t.world.ids ∧ i ≠ 0 ∧ t.heap.tag i = "Group".toList := by
  unfold addGroup
  refine (run_newGroup env a b c).bind fun x t ht ⟨hx, hy, hz, hw⟩ => ?_
  refine (run_make (ht.ids g hm) h0 hF (by rw [hx]; exact hP) (fun h => ⟨by rw [ht.tag g hm]; exact hB h, hy⟩)
      (fun h => ⟨by rw [ht.tag g hm, hS h, hx]; decide, hz⟩) fun h _ => tame_takes (by rw [ht.tag g hm, hS h]; decide) hw).mono fun i t _ h => ⟨h.1, h.2.1, by rw [h.2.2.2.1]; exact hx⟩

theorem keeps_addEntry (env : Env) {g : Nat} {a : EntryArgs} {b : Bool} (hm : g ∈ s.world.ids) (h0 : g ≠ 0) (hF : ¬ f.F g)
    (hP : ¬ f.P g "Entry".toList) (hB : f.fine = true → s.heap.tag g ∈ boxTags) (hS : f.shape = true → s.heap.tag g = "Group".toList) :
    Run f s (addEntry env g a b) fun i t => i ∈ t.world.ids ∧ i ≠ 0 ∧ t.heap.tag i = "Entry".toList := by
  unfold addEntry
  refine (still_findEntry env _ _).run.bind fun o t _ ⟨ht, _⟩ => ?_
  subst ht
  split
  · exact (still_groupPath g).keeps.bind fun _ _ _ _ => run_fail _
  · refine (run_newEntry env a).bind fun x t ht ⟨hx, hy, hz, hw⟩ => ?_
    refine (run_make (ht.ids g hm) h0 hF (by rw [hx]; exact hP) (fun h => ⟨by rw [ht.tag g hm]; exact hB h, hy⟩)
      (fun h => ⟨by rw [ht.tag g hm, hS h, hx]; decide, hz⟩) fun h _ => tame_takes (by rw [ht.tag g hm, hS h]; decide) hw).mono fun i t _ h => ⟨h.1, h.2.1, by rw [h.2.2.2.1]; exact hx⟩

/-! ## Results of searches -/

/-- The tags of the elements that searches return. -/
def castTags : List Str := ["Entry".toList, "Group".toList, "Binary".toList]

theorem cast_box {t : Str} (h : t ∈ castTags) : t ∈ boxTags := by
  have : ∀ b ∈ castTags, b ∈ boxTags := by decide
  exact this t h

theorem castOk_tag {l : Loc} (h : castOk l = .ok ()) : l.node.tag ∈ castTags := by
  unfold castOk at h
  unfold castTags
  split at h
  · next e => rw [e]; simp
  · split at h
    · next e => rw [e]; simp
    · split at h
      · next e => rw [e]; simp
      · cases h

theorem castAll_tag : ∀ {S : List Loc}, castAll S = .ok () → ∀ l ∈ S, l.node.tag ∈ castTags
  | [], _, l, hl => by cases hl
  | m :: S, h, l, hl => by
    rw [castAll] at h
    cases hm : castOk m with
    | error e => rw [hm] at h; cases h
    | ok u =>
      rw [hm] at h
      rcases List.mem_cons.mp hl with e | e
      · rw [e]; exact castOk_tag hm
      · exact castAll_tag (S := S) h l e

theorem query_locs {re : Regex} {w : Node} {ctx : Option Nat} {q : Str} {S : List Loc} (h : query re w ctx q = .ok S) :
    ∀ l ∈ S, l ∈ allLocs w := by
  rw [query_eq] at h
  cases h1 : parse q with
  | error e => rw [h1] at h; cases h
  | ok p =>
    rw [h1] at h
    replace h : (evalInstrs re p.instrs (startLocs w ctx p.abs)).bind _ = _ := h
    cases h2 : evalInstrs re p.instrs (startLocs w ctx p.abs) with
    | error e => rw [h2] at h; cases h
    | ok r =>
      rw [h2] at h
      injection h with h
      intro l hl
      rw [← h] at hl
      exact (List.mem_filter.mp hl).1

theorem loc_tag (hs : Inv s) {l : Loc} (hl : l ∈ allLocs s.world) (ht : l.node.tag ≠ []) :
    l.node.id ≠ 0 ∧ l.node.id ∈ s.world.ids ∧ s.heap.tag l.node.id = l.node.tag := by
  have h0 : l.node.id ≠ 0 := by
    intro e
    have := allLocs_inj hs.world hl (docNode_mem _) (by rw [e]; rfl)
    rw [this] at ht
    exact ht rfl
  have hg := place_get hs hl h0
  exact ⟨h0, heap_some.mp ⟨_, by unfold Db.heap Node.view; rw [hg]; rfl⟩, node_tag hg⟩

theorem find_tag (hs : Inv s) {re : Regex} {pre : Str} {xp : Bool → List (Str × Str)} {a : FindArgs} {o : Option Nat}
    (h : foundOne (find re s.world pre xp a) = .ok o) {i : Nat} (hi : o = some i) :
    i ≠ 0 ∧ i ∈ s.world.ids ∧ s.heap.tag i ∈ castTags := by
  unfold find at h
  cases hb : buildQuery pre xp a with
  | error e => rw [hb] at h; cases h
  | ok q =>
    rw [hb] at h
    replace h : foundOne ((query re s.world a.tree q).bind _) = _ := h
    cases hq : query re s.world a.tree q with
    | error e => rw [hq] at h; cases h
    | ok S =>
      rw [hq] at h
      replace h : foundOne ((castAll S).bind _) = _ := h
      cases hc : castAll S with
      | error e => rw [hc] at h; cases h
      | ok u =>
        rw [hc] at h
        replace h : foundOne (.ok (if a.first || a.path.isSome then Found.one (S.map fun l => l.node.id).head? else .list (S.map fun l => l.node.id))) = _ := h
        split at h
        · injection h with h
          rw [hi] at h
          obtain ⟨l, hl, rfl⟩ := List.mem_map.mp (List.mem_of_mem_head? h)
          have ht := castAll_tag hc l hl
          obtain ⟨a1, a2, a3⟩ := loc_tag hs (query_locs hq l hl) (by intro e; rw [e] at ht; exact absurd ht (by decide))
          exact ⟨a1, a2, by rw [a3]; exact ht⟩
        · cases h

theorem run_findGroup (env : Env) (r : Bool) (a : FindArgs) : Run f s (findGroup env r a) fun o u => u = s ∧
    ∀ i, o = some i → i ≠ 0 ∧ i ∈ s.world.ids ∧ s.heap.tag i ∈ castTags := by
  refine Run.of_good fun hg => (still_findGroup env r a).run.mono fun o u _ ⟨h1, h2⟩ => ⟨h1, fun i hi => ?_⟩
  injection h2 with h2 _
  exact find_tag hg.inv h2 hi

theorem run_metaEl (env : Env) {n : Str} (hn : TagName n) : Run f s (metaEl env n) fun o u => u = s ∧
    ∀ i, o = some i → i ≠ 0 ∧ i ∈ s.world.ids ∧ s.heap.tag i = n ∧ ∃ m, i ∈ s.heap.kids m ∧ s.heap.tag m = "Meta".toList := by
  refine Run.of_good fun hg => (still_metaEl env n).run.mono fun o u _ ⟨h1, h2⟩ => ⟨h1, fun i hi => ?_⟩
  rw [metaEl_run env hg.inv hn] at h2
  injection h2 with h2 _
  injection h2 with h2
  rw [hi] at h2
  have := List.mem_of_mem_head? h2
  unfold metaEls at this
  obtain ⟨d, _, h3⟩ := List.mem_flatMap.mp this
  split at h3
  · obtain ⟨m, hm, h4⟩ := List.mem_flatMap.mp h3
    obtain ⟨h5, h6⟩ := List.mem_filter.mp h4
    exact ⟨kid_ne_zero hg.inv h5, (kid_mem hg.inv h5).1, beq_iff_eq.mp h6, m, h5, beq_iff_eq.mp (List.mem_filter.mp hm).2⟩
  · cases h3

/-! ## The methods -/

/-- What is to be left alone are only some children, tagged `Meta`, `Root` and `Group`, of the document element and of
`Root` elements, and the uuids of some entries and groups. -/
structure Guard (f : Frame) (s : Db) : Prop where
  free : ∀ i, ¬ f.F i
  at_ : ∀ p t, f.P p t → p ∈ s.world.ids ∧
    ((s.heap.tag p ∈ ["KeePassFile".toList, "Root".toList] ∧ t ∈ ["Meta".toList, "Root".toList, "Group".toList]) ∨
     (s.heap.tag p ∈ ["Entry".toList, "Group".toList] ∧ t = "UUID".toList ∧ f.uuid = true))
  doc : ∀ d, docEl s.heap = some d → s.heap.tag d = "KeePassFile".toList

theorem Guard.kept {t : Db} (h : Guard f s) (hk : Kept f s t) : Guard f t := by
  refine ⟨h.free, fun p x hp => ?_, fun d hd => ?_⟩
  · obtain ⟨a, b⟩ := h.at_ p x hp
    exact ⟨hk.ids p a, by rw [hk.tag p a]; exact b⟩
  · rw [hk.doc] at hd
    rw [hk.tag d ?_]
    · exact h.doc d hd
    · exact tag_mem (by rw [h.doc d hd]; decide)

theorem Guard.kid (h : Guard f s) (p : Nat) (t : Str) (hP : f.P p t) : t ∈ ["Meta".toList, "Root".toList, "Group".toList, "UUID".toList] := by
  rcases (h.at_ p t hP).2 with ⟨_, h1⟩ | ⟨_, h1, _⟩
  · simp only [List.mem_cons, List.not_mem_nil, or_false] at h1 ⊢
    rcases h1 with h1 | h1 | h1
    · exact .inl h1
    · exact .inr (.inl h1)
    · exact .inr (.inr (.inl h1))
  · rw [h1]; decide

theorem Guard.no {p : Nat} {t : Str} (h : Guard f s) (hp : s.heap.tag p ∉ ["KeePassFile".toList, "Root".toList])
    (ht : f.uuid = true → t ≠ "UUID".toList) : ¬ f.P p t := by
  intro hP
  rcases (h.at_ p t hP).2 with ⟨h1, _⟩ | ⟨_, h1, h2⟩
  · exact hp h1
  · exact ht h2 h1

theorem Guard.none {p : Nat} {t : Str} (h : Guard f s)
    (hp : s.heap.tag p ∉ ["KeePassFile".toList, "Root".toList, "Entry".toList, "Group".toList]) : ¬ f.P p t := by
  intro hP
  simp only [List.mem_cons, List.not_mem_nil, or_false, not_or] at hp
  rcases (h.at_ p t hP).2 with ⟨h1, _⟩ | ⟨h1, _, _⟩
  · simp only [List.mem_cons, List.not_mem_nil, or_false] at h1
    rcases h1 with h1 | h1
    · exact hp.1 h1
    · exact hp.2.1 h1
  · simp only [List.mem_cons, List.not_mem_nil, or_false] at h1
    rcases h1 with h1 | h1
    · exact hp.2.2.1 h1
    · exact hp.2.2.2 h1

theorem not_skel {t : Str} (h : t ∈ castTags) : t ∉ ["KeePassFile".toList, "Root".toList] := by
  unfold castTags at h
  rcases List.mem_cons.mp h with h | h
  · rw [h]; decide
  · rcases List.mem_cons.mp h with h | h
    · rw [h]; decide
    · rw [List.mem_singleton.mp h]; decide

theorem keeps_setMeta (env : Env) {n v : Str} (hF : ∀ i, ¬ f.F i) (hn : f.uuid = true → TagName n ∧ n ≠ "UUID".toList)
    (hL : f.fine = true → TagName n ∧ n ∈ leafTags) : Keeps f s (setMeta env n v) := by
  unfold setMeta
  by_cases hU : TagName n
  · refine Run.of_good fun hg => ?_
    refine (run_metaEl env hU).bind fun o u _ ⟨hu, ho⟩ => ?_
    subst hu
    refine (run_orAttr o).bind fun e w _ ⟨hw, he⟩ => ?_
    subst hw
    exact keeps_setText _ _ (hF _) (fun h => by rw [(ho e he).2.2.1]; exact (hn h).2) fun h => by rw [(ho e he).2.2.1]; exact (hL h).2
  · exact (still_metaEl env n).keeps.bind fun _ _ _ _ => (still_orAttr _).keeps.bind fun _ _ _ _ => keeps_setText _ _ (hF _) (fun h => absurd (hn h).1 hU) fun h => absurd (hL h).1 hU

theorem keeps_setCredDate (env : Env) {d : DateTime} (hF : ∀ i, ¬ f.F i) : Keeps f s (setCredDate env d) := by
  refine Run.of_good fun hg => ?_
  unfold setCredDate
  refine (run_metaEl env (by decide)).bind fun o u _ ⟨hu, ho⟩ => ?_
  subst hu
  refine (run_reads _).bind fun ver w _ ⟨hw, _⟩ => ?_
  subst hw
  refine (run_lift _).bind fun y w _ ⟨hw, _⟩ => ?_
  subst hw
  refine (run_orAttr o).bind fun e w _ ⟨hw, he⟩ => ?_
  subst hw
  exact keeps_setText _ _ (hF _) (fun _ => by rw [(ho e he).2.2.1]; decide) fun _ => by rw [(ho e he).2.2.1]; decide

theorem keeps_setPassword (env : Env) {p : Option Str} (hF : ∀ i, ¬ f.F i) : Keeps f s (setPassword env p) := by
  unfold setPassword
  exact (run_change (g := fun s => { s with password := p }) rfl (Nat.le_refl _) rfl (Nat.le_refl _)).bind fun _ _ _ _ =>
    (run_now env).bind fun _ _ _ _ => keeps_setCredDate env hF

theorem keeps_setKeyfile (env : Env) {p : Option Str} (hF : ∀ i, ¬ f.F i) : Keeps f s (setKeyfile env p) := by
  unfold setKeyfile
  exact (run_change (g := fun s => { s with keyfile := p }) rfl (Nat.le_refl _) rfl (Nat.le_refl _)).bind fun _ _ _ _ =>
    (run_now env).bind fun _ _ _ _ => keeps_setCredDate env hF

theorem keeps_credChange (env : Env) (b : Bool) : Keeps f s (credChange env b) := by
  unfold credChange
  refine (still_credDate env).keeps.bind fun o _ _ _ => ?_
  cases o with
  | none => exact keeps_pure _
  | some d =>
    refine (still_credDays env b).keeps.bind fun days _ _ _ => ?_
    split
    · exact keeps_pure _
    · refine (run_now env).bind fun _ _ _ _ => (still_lift _).keeps.bind fun _ _ _ _ => (still_credDays env b).keeps.bind fun k _ _ _ => ?_
      cases k with
      | none => exact run_fail _
      | some k => exact keeps_pure _

/-! ## The root group and the recycle bin -/

/-- The groups directly in `Root`. -/
def rootEls (h : Heap) : List Nat :=
  ((h.kids 0).take 1).flatMap fun d =>
    if h.tag d = "KeePassFile".toList then (h.all d "Root".toList).flatMap fun r => h.all r "Group".toList else []

theorem mem_rootEls {h : Heap} {x : Nat} : x ∈ rootEls h ↔ IsRoot h x := by
  unfold rootEls IsRoot docEl
  constructor
  · intro hx
    obtain ⟨d, hd, hx⟩ := List.mem_flatMap.mp hx
    split at hx
    · next ht =>
      obtain ⟨r, hr, hx⟩ := List.mem_flatMap.mp hx
      refine ⟨d, r, ?_, ht, hr, hx⟩
      cases hk : h.kids 0 with
      | nil => rw [hk] at hd; cases hd
      | cons a l =>
        rw [hk] at hd
        rw [List.mem_singleton.mp hd]; rfl
    · cases hx
  · rintro ⟨d, r, hd, ht, hr, hx⟩
    refine List.mem_flatMap.mpr ⟨d, ?_, ?_⟩
    · cases hk : h.kids 0 with
      | nil => rw [hk] at hd; cases hd
      | cons a l =>
        rw [hk] at hd
        injection hd with hd
        rw [hd]
        exact List.mem_singleton.mpr rfl
    · rw [if_pos ht]
      exact List.mem_flatMap.mpr ⟨r, hr, hx⟩

theorem parse_root : parse "/KeePassFile/Root/Group".toList =
    .ok ⟨true, ["KeePassFile".toList, "Root".toList, "Group".toList].map Instr.child⟩ := by decide +kernel

theorem root_tag {h : Heap} {x : Nat} (hx : IsRoot h x) : h.tag x = "Group".toList := by
  obtain ⟨_, _, _, _, _, hx⟩ := hx
  exact beq_iff_eq.mp (List.mem_filter.mp hx).2

/-- `root_group` is the first group in `Root`. -/
theorem rootGroup_run (env : Env) (hs : Inv s) : rootGroup env s = (.ok (rootEls s.heap).head?, s) := by
  have hx := xpath_abs env hs parse_root none
  have hgo : ∀ (h : Heap) (d : Nat), findDeep.go h ["Root".toList, "Group".toList] d =
      (h.all d "Root".toList).flatMap fun m => h.all m "Group".toList := by
    intro h d
    simp only [findDeep.go]
    congr 1
    funext m
    simp
  simp only [hgo] at hx
  replace hx : xpath env none "/KeePassFile/Root/Group".toList s = (.ok (rootEls s.heap), s) := hx
  unfold xpath at hx
  injection hx with hx _
  cases hq : query env.re s.world none "/KeePassFile/Root/Group".toList with
  | error e => rw [hq] at hx; cases hx
  | ok S =>
    rw [hq] at hx
    replace hx : (S.map fun l => l.node.id) = rootEls s.heap := by injection hx
    have hc : castAll S = .ok () := by
      refine castAll_ok fun l hl => ?_
      have hm : l.node.id ∈ rootEls s.heap := by rw [← hx]; exact List.mem_map.mpr ⟨l, hl, rfl⟩
      have ht := root_tag (mem_rootEls.mp hm)
      have h0 : l.node.id ≠ 0 := tag_ne_zero hs (by rw [ht]; decide)
      have hg := place_get hs (query_locs hq l hl) h0
      rw [node_tag hg] at ht
      unfold castOk
      rw [if_neg (by rw [ht]; decide), if_pos ht]
    unfold rootGroup findGroup findGroups find
    have hb : buildQuery (if true = true then "//Group".toList else "/Group".toList) groupXp { path := some [], first := true } =
        .ok "/KeePassFile/Root/Group".toList := by decide +kernel
    rw [hb]
    have e : foundOne ((query env.re s.world none "/KeePassFile/Root/Group".toList).bind fun ls =>
        (castAll ls).bind fun _ => .ok (.one (ls.map fun l => l.node.id).head?)) = .ok (rootEls s.heap).head? := by
      rw [hq]
      show foundOne ((castAll S).bind _) = _
      rw [hc, ← hx]
      rfl
    rw [← e]
    rfl

theorem run_rootGroup (env : Env) : Run f s (rootGroup env) fun o u => u = s ∧ ∀ i, o = some i → i ≠ 0 ∧ i ∈ s.world.ids ∧ s.heap.tag i = "Group".toList := by
  refine Run.of_good fun hg => (still_rootGroup env).run.mono fun o u _ ⟨h1, h2⟩ => ⟨h1, fun i hi => ?_⟩
  rw [rootGroup_run env hg.inv] at h2
  injection h2 with h2 _
  injection h2 with h2
  rw [hi] at h2
  have ht := root_tag (mem_rootEls.mp (List.mem_of_mem_head? h2))
  exact ⟨tag_ne_zero hg.inv (by rw [ht]; decide), tag_mem (by rw [ht]; decide), ht⟩

theorem run_groupUuid (env : Env) (b : Bytes) : Run f s (findGroup env true { first := true, kwargs := [.uuid b] })
    fun o u => u = s ∧ ∀ i, o = some i → i ≠ 0 ∧ i ∈ s.world.ids ∧ s.heap.tag i = "Group".toList := by
  refine Run.of_good fun hg => (still_findGroup env true _).run.mono fun o u _ ⟨h1, h2⟩ => ⟨h1, fun i hi => ?_⟩
  have hkw : ∀ k ∈ [Kw.uuid b], KwOk .group k := by
    intro k hk
    rw [List.mem_singleton.mp hk]
    show Kind.group ≠ Kind.attachment
    decide
  injection h2 with h2 _
  have h2 : foundOne (find env.re s.world (preText .group true) Kind.group.xp { first := true, kwargs := [.uuid b] }) = .ok o := h2
  cases hr : find env.re s.world (preText .group true) Kind.group.xp { first := true, kwargs := [.uuid b] } with
  | error e => rw [hr] at h2; cases h2
  | ok r =>
    obtain ⟨is, rfl, hsub, hmem⟩ := find_partial hg.inv.world rfl (by simp) (by simp) hkw hr
    rw [hr] at h2
    injection h2 with h2
    rw [hi] at h2
    obtain ⟨x, hx, rfl, hM⟩ := (hmem i).mp (List.mem_of_mem_head? h2)
    have hgx := Node.get?_mem hg.inv.world.uniq hx
    have ht : s.heap.tag x.id = "Group".toList := by rw [node_tag hgx]; exact hM.tag
    exact ⟨tag_ne_zero hg.inv (by rw [ht]; decide), tag_mem (by rw [ht]; decide), ht⟩

theorem run_recycleBin (env : Env) : Run f s (recycleBin env) fun o u => u = s ∧ ∀ i, o = some i → i ≠ 0 ∧ i ∈ s.world.ids ∧ s.heap.tag i = "Group".toList := by
  refine Run.of_good fun hg => ?_
  unfold recycleBin
  refine (still_metaEl env _).run.bind fun o u _ ⟨hu, _⟩ => ?_
  subst hu
  refine (run_orAttr o).bind fun e w _ ⟨hw, _⟩ => ?_
  subst hw
  refine (still_textOf e).run.bind fun t w _ ⟨hw, _⟩ => ?_
  subst hw
  refine (run_lift _).bind fun t w _ ⟨hw, _⟩ => ?_
  subst hw
  exact run_groupUuid env _

theorem group_castTag : "Group".toList ∈ castTags := by decide

/-- The recycle bin is a group. -/
theorem run_binGroup (env : Env) (h : Guard f s) : Run f s (binGroup env) fun g t => g ≠ 0 ∧ g ∈ t.world.ids ∧ t.heap.tag g = "Group".toList := by
  refine Run.of_good fun hg => ?_
  unfold binGroup
  refine (run_recycleBin env).bind fun o u _ ⟨hu, ho⟩ => ?_
  subst hu
  cases o with
  | some g => exact (run_pure g).mono fun g' t _ h' => by rw [h'.1, h'.2]; exact ho g rfl
  | none =>
    refine (run_rootGroup env).bind fun root w _ ⟨hw, hr⟩ => ?_
    subst hw
    refine (run_newGroup env _ _ _).bind fun x t ht ⟨hx, hy, hz, htm⟩ => ?_
    refine (run_orAttr root).bind fun r w _ ⟨hw, er⟩ => ?_
    subst hw
    obtain ⟨a1, a2, a3⟩ := hr r er
    refine (run_make (ht.ids r a2) a1 (h.free r) ((h.kept ht).no (by rw [ht.tag r a2, a3]; decide) (fun _ => by rw [hx]; decide))
      (fun _ => ⟨by rw [ht.tag r a2, a3]; decide, hy⟩) (fun _ => ⟨by rw [ht.tag r a2, a3, hx]; decide, hz⟩)
      fun _ _ => tame_takes (by rw [ht.tag r a2, a3]; decide) htm).bind fun g w hw ⟨b1, b2, _, b4, _⟩ => ?_
    refine Run.of_good fun hgw => ?_
    refine (run_metaEl env (by decide)).bind fun o v _ ⟨hv, hel⟩ => ?_
    subst hv
    refine (run_orAttr o).bind fun e v _ ⟨hv, he⟩ => ?_
    subst hv
    refine (still_getUuid g).run.bind fun u' v _ ⟨hv, _⟩ => ?_
    subst hv
    refine (keeps_setText e _ (h.free e) (fun _ => by rw [(hel e he).2.2.1]; decide) fun _ => by rw [(hel e he).2.2.1]; decide).bind fun _ z hz _ => ?_
    refine (run_pure g).mono fun g' t' _ h' => ?_
    rw [h'.1, h'.2]
    refine ⟨b2, hz.ids g b1, ?_⟩
    rw [hz.tag g b1, b4, hx]

/-- `trash` of an element that may be taken from where it is, or that is refused. -/
theorem keeps_trash (env : Env) {x : Nat} (h : Guard f s) (hxt : s.heap.tag x ∈ castTags) (hx : canBeTrashed env x s = (.ok true, s) → Movable f s x)
    (hS : f.shape = true → Home "Group".toList (s.heap.tag x))
    (hX : f.shape = true → f.files = true → s.heap.tag x = "Entry".toList ∨ s.heap.tag x = "Group".toList := by nofun) : Keeps f s (trash env x) := by
  unfold trash
  refine (still_canBeTrashed env x).run.bind fun ok u _ ⟨hu, hok⟩ => ?_
  subst hu
  cases ok with
  | false => exact run_fail _
  | true =>
    have hm := hx hok
    refine Run.of_good fun hg => ?_
    show Keeps f u (binGroup env >>= fun bin => groupAppend bin x)
    refine (run_binGroup env h).bind fun g t ht ⟨a1, a2, a3⟩ => ?_
    exact (keeps_appendEl (hm.kept ht) a2 (h.free g) (fun _ => (h.kept ht).no (by rw [a3]; decide) fun _ => by
      rw [ht.tag x hm.mem]; rintro e; rw [e] at hxt; exact absurd hxt (by decide)) (fun _ => h.free x) (fun _ => by rw [a3]; decide)
      (fun hf => by rw [a3, ht.tag x hm.mem]; exact hS hf) fun hf hf' => by rw [ht.tag x hm.mem]; exact hX hf hf').keeps

theorem keeps_emptyLoop {g : Nat} {tag : Str} (h0 : g ≠ 0) (hF : ¬ f.F g) (hP : ¬ f.P g tag) (n : Nat) : ∀ s, Keeps f s (emptyLoop g tag n) := by
  induction n with
  | zero =>
    intro s
    unfold emptyLoop
    refine (run_reads _).bind fun l u _ _ => ?_
    cases l with
    | nil => exact keeps_pure ()
    | cons => exact run_fail _
  | succ n ih =>
    intro s
    refine Run.of_good fun hg => ?_
    unfold emptyLoop
    refine (run_reads _).bind fun l u _ ⟨hu, hl⟩ => ?_
    subst hu
    cases l with
    | nil => exact keeps_pure ()
    | cons x l =>
      have hx : x ∈ u.heap.all g tag := by rw [← hl]; exact List.mem_cons_self ..
      obtain ⟨b1, b2⟩ := List.mem_filter.mp hx
      refine (keeps_delete (kid_movable hg h0 hF ?_ b1)).bind fun _ t _ _ => ih t
      rw [beq_iff_eq.mp b2]; exact hP

theorem keeps_emptyGroup {g : Nat} (h0 : g ≠ 0) (hF : ¬ f.F g) (h1 : ¬ f.P g "Group".toList) (h2 : ¬ f.P g "Entry".toList) :
    Keeps f s (emptyGroup g) := by
  unfold emptyGroup
  exact (still_reads _).keeps.bind fun _ _ _ _ => (keeps_emptyLoop h0 hF h1 _ _).bind fun _ _ _ _ => keeps_emptyLoop h0 hF h2 _ _

theorem tagName_binaries : TagName "Binaries".toList := by decide

theorem keeps_addBinary (env : Env) {d : Bytes} {c p : Bool} (h : Guard f s) : Keeps f s (addBinary env d c p) := by
  refine Run.of_good fun hg => ?_
  unfold addBinary
  refine (run_reads _).bind fun ver u _ ⟨hu, _⟩ => ?_
  subst hu
  split
  · exact (run_change (g := fun s => { s with binaries := s.binaries ++ [(if p then 1 else 0) :: d] }) rfl (Nat.le_refl _) rfl (Nat.le_refl _)).bind fun _ _ _ _ =>
      (still_binaries env).keeps.bind fun _ _ _ _ => keeps_pure _
  · refine (run_metaEl env tagName_binaries).bind fun o u _ ⟨hu, ho⟩ => ?_
    subst hu
    refine (still_binaries env).run.bind fun bs u _ ⟨hu, _⟩ => ?_
    subst hu
    refine (run_orAttr o).bind fun el u _ ⟨hu, he⟩ => ?_
    subst hu
    obtain ⟨a1, a2, a3, m, a4, a5⟩ := ho el he
    exact (run_make a2 a1 (h.free el) (h.none (by rw [a3]; decide))
      (fun _ => ⟨by rw [a3]; decide, tidy_binary⟩) (fun _ => ⟨by rw [a3]; exact (by decide : Home "Binaries".toList "Binary".toList), shaped_leaf⟩)
      fun _ _ => binary_takes a3 a4 a5).bind fun _ _ _ _ => (still_binaries env).keeps.bind fun _ _ _ _ => keeps_pure _

theorem keeps_popBinary (env : Env) {i : Int} (h : Guard f s) : Keeps f s (popBinary env i) := by
  refine Run.of_good fun hg => ?_
  unfold popBinary
  refine (run_reads _).bind fun ver u _ ⟨hu, _⟩ => ?_
  subst hu
  split
  · refine (run_reads _).bind fun bs u _ ⟨hu, _⟩ => ?_
    subst hu
    split
    · exact run_fail _
    · next k _ => exact run_change (g := fun s => { s with binaries := s.binaries.eraseIdx k }) rfl (Nat.le_refl _) rfl (Nat.le_refl _)
  · refine (run_metaEl env tagName_binaries).bind fun o u _ ⟨hu, ho⟩ => ?_
    subst hu
    refine (run_orAttr o).bind fun el u _ ⟨hu, he⟩ => ?_
    subst hu
    obtain ⟨a1, a2, a3, m, a4, a5⟩ := ho el he
    refine (run_reads _).bind fun cs u _ ⟨hu, _⟩ => ?_
    subst hu
    split
    · exact run_fail _
    · exact (keeps_removeKid a1 (h.free el) fun _ => h.none (by rw [a3]; decide)).keeps

theorem keeps_deleteAll (l : List Nat) : ∀ s, (∀ c ∈ l, Movable f s c) → Keeps f s (deleteAll l) := by
  induction l with
  | nil => intro s _; exact keeps_pure ()
  | cons c l ih =>
    intro s h
    unfold deleteAll
    exact (keeps_delete (h c (List.mem_cons_self ..))).bind fun _ t ht _ => ih t fun k hk => (h k (List.mem_cons_of_mem _ hk)).kept ht

theorem keeps_decrementAll (l : List Nat) (hF : ∀ i, ¬ f.F i) : ∀ s, Keeps f s (decrementAll l) := by
  induction l with
  | nil => intro s; exact keeps_pure ()
  | cons c l ih =>
    intro s
    unfold decrementAll setAttId
    refine (still_attId c).keeps.bind fun i t ht _ => Run.bind (Q := fun _ _ => True) ?_ fun _ t _ _ => ih t
    exact (still_reads _).keeps.bind fun _ _ _ _ => (still_orAttr _).keeps.bind fun _ _ _ _ => keeps_setAttr _ _ _ (hF _) (by decide)

theorem plain_intStr (i : Int) : Plain (intStr i) := by
  cases i with
  | ofNat n => exact plain_natStr n
  | negSucc n =>
    intro c hc
    rcases List.mem_cons.mp hc with h | h
    · rw [h]; decide
    · exact plain_natStr (n + 1) c h

/-- The references to a binary are `Binary` elements of the document. -/
theorem run_findRefs (env : Env) (i : Int) : Run f s (findAttachmentList env true { kwargs := [.attr "id".toList (some (intStr i))] })
    fun l u => u = s ∧ ∀ b ∈ l, b ≠ 0 ∧ b ∈ s.world.ids ∧ s.heap.tag b = "Binary".toList := by
  refine Run.of_good fun hg => (still_findAttachmentList env true _).run.mono fun l u _ ⟨h1, h2⟩ => ⟨h1, fun b hb => ?_⟩
  have hko : ∀ k ∈ [Kw.attr "id".toList (some (intStr i))], KwOk .attachment k := by
    intro k hk
    rw [List.mem_singleton.mp hk]
    exact ⟨rfl, plain_intStr i⟩
  injection h2 with h2 _
  rw [findAttachments_eq] at h2
  cases hr : find env.re s.world (preText .attachment true) Kind.attachment.xp { kwargs := [.attr "id".toList (some (intStr i))] } with
  | error e => rw [hr] at h2; cases h2
  | ok r =>
    obtain ⟨is, rfl, hsub, hmem⟩ := find_partial hg.inv.world rfl (by simp) (by simp) hko hr
    rw [hr] at h2
    injection h2 with h2
    subst h2
    obtain ⟨x, hx, rfl, hM⟩ := (hmem b).mp hb
    have hgx := Node.get?_mem hg.inv.world.uniq hx
    have ht : s.heap.tag x.id = "Binary".toList := by rw [node_tag hgx]; exact hM.tag
    exact ⟨tag_ne_zero hg.inv (by rw [ht]; decide), tag_mem (by rw [ht]; decide), ht⟩

theorem Guard.movable {x : Nat} (h : Guard f s) (hx : s.heap.tag x ∈ castTags) (hg : Good f s)
    (hP : ∀ p, x ∈ s.heap.kids p → ¬ f.P p (s.heap.tag x)) : Movable f s x := by
  have hne : s.heap.tag x ≠ [] := by intro e; rw [e] at hx; exact absurd hx (by decide)
  refine ⟨tag_mem hne, tag_ne_zero hg.inv hne, fun hd => ?_, fun p hp => ⟨h.free p, fun _ => hP p hp⟩⟩
  rw [h.doc x hd] at hx
  exact absurd hx (by decide)

theorem keeps_deleteBinary (env : Env) {i : Int} (h : Guard f s) : Keeps f s (deleteBinary env i) := by
  refine Run.of_good fun hg => ?_
  unfold deleteBinary
  refine (keeps_popBinary env h).bind fun _ t ht _ => ?_
  have hgt := h.kept ht
  refine (run_findRefs env i).bind fun l u _ ⟨hu, hl⟩ => ?_
  subst hu
  refine (keeps_deleteAll l u fun c hc => ?_).bind fun _ w hw _ => ?_
  · obtain ⟨_, _, a3⟩ := hl c hc
    refine hgt.movable (by rw [a3]; decide) ht.good fun p _ hP => ?_
    rw [a3] at hP
    exact absurd (h.kid p _ hP) (by decide)
  · exact (still_xpathCast env _).keeps.bind fun g z _ _ => keeps_decrementAll g h.free z

end Verif.Api
