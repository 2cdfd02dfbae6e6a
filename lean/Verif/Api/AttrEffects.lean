import Verif.Api.AttrLemmas
/-!
# What assigning an attribute changes
-/
namespace Verif.Api
open Verif XPath Spec

theorem kidSwap_of {s s' : Db} (hs : Inv s) {e : Nat} {T : Str} (hv : s'.version = s.version)
    (other : ∀ j, j ≠ 0 → j ≠ e → j < s.next → s'.heap j = s.heap j) {r : Node.Rec} (h1 : s.heap e = some r) {p : Nat → Bool} {l : List Nat}
    (h2 : s'.heap e = some { r with kids := r.kids.filter p ++ l }) (hp : ∀ k ∈ r.kids, p k = false → s.heap.tag k = T)
    (hl : ∀ k ∈ l, s'.heap.tag k = T) : KidSwap s s' e T := by
  refine ⟨hv, fun j hj h0 he => other j h0 he (hs.bound j hj), ⟨r, _, h1, h2, rfl, rfl, rfl⟩, ?_⟩
  intro t ht
  unfold Heap.all Heap.kids
  rw [h1, h2]
  show (r.kids.filter p ++ l).filter _ = r.kids.filter _
  rw [List.filter_append]
  have hnil : l.filter (fun k => s'.heap.tag k == t) = [] := by
    rw [List.filter_eq_nil_iff]
    intro k hk hc
    rw [hl k hk, beq_iff_eq] at hc
    exact ht hc.symm
  rw [hnil, List.append_nil, List.filter_filter]
  apply List.filter_congr
  intro k hk
  have hke : k ∈ s.heap.kids e := by unfold Heap.kids; rw [h1]; exact hk
  obtain ⟨f1, f2, f3⟩ := kid_facts hs hke
  rw [tag_congr (other k f1 f2 f3)]
  cases hpk : p k with
  | true => rw [Bool.and_true]
  | false =>
    rw [Bool.and_false, hp k hk hpk]
    symm
    rw [beq_eq_false_iff_ne]
    exact Ne.symm ht

/-- Removing a child with the tag, if there is one. -/
theorem removeOld_swap {s : Db} (hs : Inv s) {e : Nat} (he : e ≠ 0) (hm : e ∈ s.world.ids) {T : Str} {old : Option Nat}
    (hold : ∀ f, old = some f → f ∈ s.heap.all e T) : ∃ s', removeOld e old s = (.ok (), s') ∧ Inv s' ∧ KidSwap s s' e T ∧
      (old = none → s' = s) ∧ ∀ f, old = some f → Detached s s' e f := by
  cases old with
  | none => exact ⟨s, rfl, hs, .refl hm T, fun _ => rfl, fun _ h => nomatch h⟩
  | some f =>
    obtain ⟨a, b⟩ := all_sub (hold f rfl)
    obtain ⟨s', h1, h2⟩ := detach_ok hs he a
    refine ⟨s', h1, h2.inv, ?_, fun h => (nomatch h), fun g hg => ?_⟩
    · obtain ⟨r, r1, r2⟩ := h2.here
      refine kidSwap_of hs (by rw [h2.state]) (fun j h0 hj _ => h2.other j h0 hj) r1 (p := (· != f)) (l := []) (by rw [r2, List.append_nil]) ?_ (by simp)
      intro k _ hk
      have : k = f := by simpa using hk
      rw [this, b]
    · injection hg with hg; subst hg; exact h2

/-- `_set_subelement_text`, whatever happens. -/
theorem setSub_swap {s : Db} (hs : Inv s) {e : Nat} (he : e ≠ 0) (hm : e ∈ s.world.ids) (tag : Str) (v : Option Str) {r : Except PyErr Unit} {s' : Db}
    (h : setSub e tag v s = (r, s')) : Inv s' ∧ KidSwap s s' e tag := by
  have bad : ∀ x, textEl tag [] v = .error x → Inv s' ∧ KidSwap s s' e tag := by
    intro x hx
    obtain ⟨s1, a1, a2, a3, _⟩ := removeOld_swap hs he hm (T := tag) (old := s.heap.find e tag) fun f hf => List.mem_of_mem_head? hf
    unfold setSub at h
    rw [bind_of (findKid_run e tag s), bind_of a1, hx] at h
    have : s' = s1 := (congrArg Prod.snd h).symm
    subst this
    exact ⟨a2, a3⟩
  cases v with
  | none => exact bad .type rfl
  | some v =>
    by_cases hv : XmlText v
    · obtain ⟨s1, h1, h2⟩ := setSub_ok hs he hm tag hv
      rw [h1] at h
      have : s' = s1 := (congrArg Prod.snd h).symm
      subst this
      obtain ⟨r, r1, r2⟩ := h2.here
      refine ⟨h2.inv, kidSwap_of hs (by rw [h2.state]) h2.other r1 r2 ?_ ?_⟩
      · intro k hk hp
        have : some k = s.heap.find e tag := by simpa using hp
        exact (find_kid this.symm).2
      · intro k hk
        rw [List.mem_singleton] at hk
        subst hk
        unfold Heap.tag; rw [h2.new]; rfl
    · refine bad .value ?_
      unfold textEl argText
      simp only [if_neg hv]
      rfl

/-- `_set_string_field`, whatever happens. -/
theorem setField_swap (env : Env) {s : Db} (hs : Inv s) {e : Nat} (he : e ≠ 0) (hm : e ∈ s.world.ids) (hf : Fields s.heap e) {key : Str} (hk : Plain key)
    (v : Option Str) (prot : Option Bool) {r : Except PyErr Unit} {s' : Db} (h : setField env e key v prot s = (r, s')) :
    Inv s' ∧ KidSwap s s' e "String".toList ∧ ∀ k, k ≠ key → prop s'.heap e k = prop s.heap e k := by
  have bad : ∀ x, stringEl key v (newMark s.heap e key prot) = .error x →
      Inv s' ∧ KidSwap s s' e "String".toList ∧ ∀ k, k ≠ key → prop s'.heap e k = prop s.heap e k := by
    intro x hx
    obtain ⟨s1, a1, a2, a3, a4, a5⟩ := removeOld_swap hs he hm (T := "String".toList) (old := (fieldEls s.heap e key).head?)
      fun f hf => (List.mem_filter.mp (List.mem_of_mem_head? hf)).1
    unfold setField at h
    rw [bind_of (first_field env hs he hm hk), bind_of (markFor_run env hs he hm hk prot), bind_of a1, hx] at h
    have : s' = s1 := (congrArg Prod.snd h).symm
    subst this
    refine ⟨a2, a3, fun k hne => ?_⟩
    rcases fieldEls_cases hf key with ⟨c, _⟩ | ⟨f, w, c, _⟩
    · rw [a4 (by rw [c]; rfl)]
    · have := (deleted_field hs hf c (a5 f (by rw [c]; rfl))).prop k
      rw [this, if_neg hne]
  have bad' : (∀ w, v = some w → ¬ (XmlText key ∧ XmlText w)) → ∃ x, stringEl key v (newMark s.heap e key prot) = .error x := by
    intro hb
    unfold stringEl textEl argText
    by_cases hkx : XmlText key
    · cases v with
      | none => refine ⟨.type, ?_⟩; simp only [if_pos hkx]; rfl
      | some w =>
        refine ⟨.value, ?_⟩
        simp only [if_pos hkx, if_neg fun c => hb w rfl ⟨hkx, c⟩]
        rfl
    · refine ⟨.value, ?_⟩; simp only [if_neg hkx]; rfl
  cases v with
  | none => obtain ⟨x, hx⟩ := bad' fun _ h => nomatch h; exact bad x hx
  | some v =>
    by_cases hv : XmlText key ∧ XmlText v
    · obtain ⟨s1, h1, h2⟩ := setField_ok env hs he hm hf hk hv.1 hv.2 prot
      rw [h1] at h
      have : s' = s1 := (congrArg Prod.snd h).symm
      subst this
      obtain ⟨r, r1, r2⟩ := h2.replaced.here
      refine ⟨h2.inv, kidSwap_of hs (by rw [h2.state]) h2.replaced.other r1 r2 ?_ ?_, fun k hne => by rw [h2.prop k, if_neg hne]⟩
      · intro k hk hp
        have : k ∈ fieldEls s.heap e key := by simpa using hp
        exact (all_sub (List.mem_filter.mp this).1).2
      · intro k hk
        rw [List.mem_singleton] at hk
        subst hk
        exact h2.newTag
    · obtain ⟨x, hx⟩ := bad' (by rintro w ⟨⟩; exact hv); exact bad x hx

/-! ## Changing the text of an element -/

/-- The ways up from the elements a getter looks at. -/
def looked : Attr → List (List Str)
  | .uuid => [["UUID".toList]]
  | .icon => [["IconID".toList]]
  | .name => [["Name".toList]]
  | .groupNotes => [["Notes".toList]]
  | .tags => [["Tags".toList]]
  | .expires => [["Expires".toList, "Times".toList]]
  | .time t => [[t.tag, "Times".toList]]
  | .autoEnabled => [["Enabled".toList, "AutoType".toList]]
  | .autoText w => [(autoPath w).reverse]
  | .field _ | .custom _ => [["Key".toList, "String".toList], ["Value".toList, "String".toList]]

theorem looked_plain (a : Attr) : ∀ r ∈ looked a, "Entry".toList ∉ r ∧ "Group".toList ∉ r := by
  cases a with
  | time t => cases t <;> decide
  | autoText w => cases w <;> decide
  | field f => exact (by decide : ∀ r ∈ [["Key".toList, "String".toList], ["Value".toList, "String".toList]], "Entry".toList ∉ r ∧ "Group".toList ∉ r)
  | custom k => exact (by decide : ∀ r ∈ [["Key".toList, "String".toList], ["Value".toList, "String".toList]], "Entry".toList ∉ r ∧ "Group".toList ∉ r)
  | _ => decide

theorem all_up {h : Heap} {i k : Nat} {t : Str} (hk : k ∈ h.all i t) : Up h k [t] i := .step hk (.here i)

theorem changed_els {s s' : Db} {q : Nat} {v : Option Str} (h : TextChanged s s' q v) (p : List Str) : ∀ e, elsAt s'.heap p e = elsAt s.heap p e := by
  induction p with
  | nil => intro e; rfl
  | cons t p ih =>
    intro e
    show (s'.heap.all e t).flatMap _ = (s.heap.all e t).flatMap _
    rw [h.all, funext ih]

/-- Getters that look elsewhere. -/
theorem changed_seen {s s' : Db} {q : Nat} {v : Option Str} (h : TextChanged s s' q v) {i : Nat} {b : Attr}
    (hx : ∀ x r, Up s.heap x r i → r ∈ looked b → x ≠ q) : seen s'.heap i b = seen s.heap i b := by
  have ht : ∀ x r, Up s.heap x r i → r ∈ looked b → s'.heap.text x = s.heap.text x := fun x r h1 h2 => h.text (hx x r h1 h2)
  have one : ∀ t, [t] ∈ looked b → (s'.heap.find i t).map s'.heap.text = (s.heap.find i t).map s.heap.text := by
    intro t hl
    rw [h.find]
    cases hh : s.heap.find i t with
    | none => rfl
    | some k => simp only [Option.map_some]; rw [ht k _ (all_up (List.mem_of_mem_head? hh)) hl]
  have two : ∀ t, [t, "Times".toList] ∈ looked b → (timeEl s'.heap i t).map s'.heap.text = (timeEl s.heap i t).map s.heap.text := by
    intro t hl
    rw [changed_timeEl h]
    cases hh : timeEl s.heap i t with
    | none => rfl
    | some k =>
      obtain ⟨m, h1, h2⟩ := Option.bind_eq_some_iff.mp hh
      simp only [Option.map_some]
      rw [ht k _ (.step (List.mem_of_mem_head? h2) (all_up (List.mem_of_mem_head? h1))) hl]
  have deep : ∀ p, p.reverse ∈ looked b → (elsAt s'.heap p i).head?.map s'.heap.text = (elsAt s.heap p i).head?.map s.heap.text := by
    intro p hl
    rw [changed_els h]
    cases hh : (elsAt s.heap p i).head? with
    | none => rfl
    | some k =>
      have := up_els p (.here i) (List.mem_of_mem_head? hh)
      rw [List.append_nil] at this
      simp only [Option.map_some]
      rw [ht k _ this hl]
  have str : ["Key".toList, "String".toList] ∈ looked b → ["Value".toList, "String".toList] ∈ looked b → ∀ k, prop s'.heap i k = prop s.heap i k := by
    intro hl1 hl2 key
    have hk : ∀ f ∈ s.heap.all i "String".toList, hasKey s'.heap f key = hasKey s.heap f key := by
      intro f hf
      unfold hasKey
      rw [h.all, Bool.eq_iff_iff, List.any_eq_true, List.any_eq_true]
      constructor
      · rintro ⟨c, h1, h2⟩; exact ⟨c, h1, by rw [ht c _ (.step h1 (all_up hf)) hl1] at h2; exact h2⟩
      · rintro ⟨c, h1, h2⟩; exact ⟨c, h1, by rw [ht c _ (.step h1 (all_up hf)) hl1]; exact h2⟩
    have hv : valueEls s'.heap i key = valueEls s.heap i key := by
      unfold valueEls fieldEls
      rw [h.all, List.filter_congr hk, funext fun k => h.all k "Value".toList]
    unfold prop
    rw [hv]
    cases hh : (valueEls s.heap i key).head? with
    | none => rfl
    | some w =>
      obtain ⟨g, hg1, hg2⟩ := List.mem_flatMap.mp (List.mem_of_mem_head? hh)
      simp only [Option.map_some]
      rw [ht w _ (.step hg2 (all_up (List.mem_filter.mp hg1).1)) hl2]
  cases b with
  | uuid => exact one _ (List.mem_singleton.mpr rfl)
  | icon => exact one _ (List.mem_singleton.mpr rfl)
  | name => exact one _ (List.mem_singleton.mpr rfl)
  | groupNotes => exact one _ (List.mem_singleton.mpr rfl)
  | tags => exact one _ (List.mem_singleton.mpr rfl)
  | expires => exact two _ (List.mem_singleton.mpr rfl)
  | time t => exact two _ (List.mem_singleton.mpr rfl)
  | autoEnabled => exact deep _ (List.mem_singleton.mpr rfl)
  | autoText w => exact deep _ (List.mem_singleton.mpr rfl)
  | field f => exact str (by unfold looked; simp) (by unfold looked; simp) _
  | custom k => exact str (by unfold looked; simp) (by unfold looked; simp) _

/-! ## Every assignment -/

/-- The key of a string field. -/
def keyOf : Attr → Option Str
  | .field f => some f.key
  | .custom k => some k
  | _ => none

/-- What an assignment can do. -/
inductive Effect (s s' : Db) (e : Nat) (a : Attr) : Prop where
  | none : s' = s → Effect s s' e a
  | kids : Inv s' → KidSwap s s' e (topTag a) → (∀ key, keyOf a = some key → ∀ k, k ≠ key → prop s'.heap e k = prop s.heap e k) → ¬ InPlace a → Effect s s' e a
  | text (q : Nat) (v : Option Str) (r : List Str) : TextChanged s s' q v → Up s.heap q r e → looked a = [r] → InPlace a → Effect s s' e a

theorem setText_effect {s : Db} (hs : Inv s) {q : Nat} {v : Option Str} {r : Except PyErr Unit} {s' : Db} (h : setText q v s = (r, s')) :
    s' = s ∨ TextChanged s s' q v := by
  by_cases hv : ∀ t, v = some t → XmlText t
  · obtain ⟨s1, h1, h2⟩ := text_changed hs q hv
    rw [h1] at h
    have : s' = s1 := (congrArg Prod.snd h).symm
    subst this
    exact .inr h2
  · cases v with
    | none => exact absurd (fun _ h => nomatch h) hv
    | some t =>
      have : ¬ XmlText t := fun c => hv (by rintro u ⟨⟩; exact c)
      unfold setText at h
      simp only [if_neg this] at h
      exact .inl (congrArg Prod.snd h).symm

theorem setExpires_run (e : Nat) (v : Bool) (s : Db) : setExpires e v s = (match timeEl s.heap e "Expires".toList with
    | none => (.error .attribute, s)
    | some p => setText p (some (pyBool v)) s) := by
  unfold setExpires timeEl
  rw [bind_of (findKid_run e _ s)]
  cases s.heap.find e "Times".toList with
  | none => rfl
  | some t =>
    rw [bind_of (orAttr_some t s), bind_of (findKid_run t _ s)]
    simp only [Option.bind_some]
    cases s.heap.find t "Expires".toList with
    | none => rfl
    | some p => rw [bind_of (orAttr_some p s)]

theorem setAutoEnabled_run (e : Nat) (v : Option Bool) (s : Db) : setAutoEnabled e v s =
    (match (elsAt s.heap ["AutoType".toList, "Enabled".toList] e).head? with
    | none => (.error .attribute, s)
    | some p => setText p (v.map pyBool) s) := by
  unfold setAutoEnabled
  rw [bind_of (findDeep_run e _ s)]
  cases (elsAt s.heap ["AutoType".toList, "Enabled".toList] e).head? with
  | none => rfl
  | some p => rw [bind_of (orAttr_some p s)]

theorem setAuto_run (e : Nat) (w : Bool) (v : Option Str) (s : Db) : setAuto e w v s =
    (match (elsAt s.heap (autoPath w) e).head? with
    | none => (.error .attribute, s)
    | some p => setText p v s) := by
  unfold setAuto
  rw [bind_of (findDeep_run e _ s)]
  cases (elsAt s.heap (autoPath w) e).head? with
  | none => rfl
  | some p => rw [bind_of (orAttr_some p s)]

theorem timeEl_up {h : Heap} {e p : Nat} {t : Str} (hp : timeEl h e t = some p) : Up h p [t, "Times".toList] e := by
  obtain ⟨m, h1, h2⟩ := Option.bind_eq_some_iff.mp hp
  exact .step (List.mem_of_mem_head? h2) (all_up (List.mem_of_mem_head? h1))

/-- Whatever is assigned, and whether or not it raises. -/
theorem assign_effect (env : Env) {s : Db} (hs : Inv s) {e : Nat} (he : e ≠ 0) (hm : e ∈ s.world.ids) {a : Attr} (hk : KeyOk a)
    (hf : keyOf a ≠ none → Fields s.heap e) (v : AttrVal) {r : Except PyErr Unit} {s' : Db} (h : assign env e a v s = (r, s')) : Effect s s' e a := by
  have unm : ∀ {r : Except PyErr Unit} {s' : Db}, (fail .unmodelled : M Unit) s = (r, s') → Effect s s' e a :=
    fun h => .none (congrArg Prod.snd h).symm
  have sub : ∀ (v : Option Str), keyOf a = none → ¬ InPlace a → setSub e (topTag a) v s = (r, s') → Effect s s' e a := by
    intro v h1 h2 h3
    obtain ⟨a1, a2⟩ := setSub_swap hs he hm _ v h3
    exact .kids a1 a2 (by rw [h1]; intro key hc; cases hc) h2
  have str : ∀ key v prot, keyOf a = some key → topTag a = "String".toList → ¬ InPlace a → Plain key → setField env e key v prot s = (r, s') → Effect s s' e a := by
    intro key v prot h1 ht h2 hp h3
    obtain ⟨a1, a2, a3⟩ := setField_swap env hs he hm (hf (by rw [h1]; simp)) hp v prot h3
    refine .kids a1 (by rw [ht]; exact a2) (fun k hk => ?_) h2
    rw [h1] at hk
    injection hk with hk
    subst hk
    exact a3
  have txt : ∀ q v l, Up s.heap q l e → looked a = [l] → InPlace a → setText q v s = (r, s') → Effect s s' e a := by
    intro q v l h1 h2 h3 h4
    rcases setText_effect hs h4 with h5 | h5
    · exact .none h5
    · exact .text q v l h5 h1 h2 h3
  match a, v, h with
  | .uuid, .uuid b, h => exact sub _ rfl id h
  | .icon, .text v, h => exact sub _ rfl id h
  | .name, .text v, h => exact sub _ rfl id h
  | .groupNotes, .text v, h => exact sub _ rfl id h
  | .tags, .tags v, h => exact sub _ rfl id h
  | .expires, .flag (some b), h =>
    have h : setExpires e b s = _ := h
    rw [setExpires_run] at h
    cases hp : timeEl s.heap e "Expires".toList with
    | none => rw [hp] at h; exact .none (congrArg Prod.snd h).symm
    | some p => rw [hp] at h; exact txt p _ _ (timeEl_up hp) rfl trivial h
  | .time t, .time (some d), h =>
    have h : setTime e t.tag d s = _ := h
    cases hp : timeEl s.heap e t.tag with
    | none => rw [(setTime_run hs e t.tag d).1 hp] at h; exact .none (congrArg Prod.snd h).symm
    | some p =>
      obtain ⟨b1, b2⟩ := (setTime_run hs e t.tag d).2 p hp
      cases hx : encodeTime s.version d with
      | error x => rw [b1 x hx] at h; exact .none (congrArg Prod.snd h).symm
      | ok x =>
        obtain ⟨s1, c1, c2⟩ := b2 x hx
        rw [c1] at h
        have : s' = s1 := (congrArg Prod.snd h).symm
        subst this
        exact .text p _ _ c2 (timeEl_up hp) rfl trivial
  | .autoEnabled, .flag b, h =>
    have h : setAutoEnabled e b s = _ := h
    rw [setAutoEnabled_run] at h
    cases hp : (elsAt s.heap ["AutoType".toList, "Enabled".toList] e).head? with
    | none => rw [hp] at h; exact .none (congrArg Prod.snd h).symm
    | some p => rw [hp] at h; exact txt p _ _ (up_els _ (.here e) (List.mem_of_mem_head? hp)) rfl trivial h
  | .autoText w, .text v, h =>
    have h : setAuto e w v s = _ := h
    rw [setAuto_run] at h
    cases hp : (elsAt s.heap (autoPath w) e).head? with
    | none => rw [hp] at h; exact .none (congrArg Prod.snd h).symm
    | some p =>
      rw [hp] at h
      have := up_els _ (.here e) (List.mem_of_mem_head? hp)
      rw [List.append_nil] at this
      exact txt p _ _ this rfl trivial h
  | .field f, .text v, h =>
    have h : setStd env e f v s = _ := h
    have hstd : ∃ prot, setField env e f.key v prot s = (r, s') := by
      unfold setStd at h
      have gen : ∀ k, Plain k → (getField env e k >>= fun old =>
          if old.getD [] ≠ [] then setField env e k v else setField env e k v (some true)) s = (r, s') → ∃ prot, setField env e k v prot s = (r, s') := by
        intro k hk h
        rw [bind_of (getField_run env hs he hm hk)] at h
        split at h
        · exact ⟨_, h⟩
        · exact ⟨_, h⟩
      cases f with
      | password => exact gen _ (plain_std .password) h
      | otp => exact gen _ (plain_std .otp) h
      | _ => exact ⟨_, h⟩
    obtain ⟨prot, h⟩ := hstd
    exact str f.key v prot rfl rfl id (plain_std f) h
  | .custom k, .text v, h =>
    have h : setCustom env e k v false s = _ := h
    unfold setCustom at h
    split at h
    · exact .none (congrArg Prod.snd h).symm
    · exact str k v _ rfl rfl id hk h
  | .expires, .flag none, h => exact unm h
  | .time _, .time none, h => exact unm h
  | .uuid, .text _, h | .uuid, .flag _, h | .uuid, .time _, h | .uuid, .tags _, h => exact unm h
  | .icon, .uuid _, h | .icon, .flag _, h | .icon, .time _, h | .icon, .tags _, h => exact unm h
  | .name, .uuid _, h | .name, .flag _, h | .name, .time _, h | .name, .tags _, h => exact unm h
  | .groupNotes, .uuid _, h | .groupNotes, .flag _, h | .groupNotes, .time _, h | .groupNotes, .tags _, h => exact unm h
  | .tags, .uuid _, h | .tags, .flag _, h | .tags, .time _, h | .tags, .text _, h => exact unm h
  | .expires, .uuid _, h | .expires, .tags _, h | .expires, .time _, h | .expires, .text _, h => exact unm h
  | .time _, .uuid _, h | .time _, .tags _, h | .time _, .flag _, h | .time _, .text _, h => exact unm h
  | .autoEnabled, .uuid _, h | .autoEnabled, .tags _, h | .autoEnabled, .time _, h | .autoEnabled, .text _, h => exact unm h
  | .autoText _, .uuid _, h | .autoText _, .tags _, h | .autoText _, .time _, h | .autoText _, .flag _, h => exact unm h
  | .field _, .uuid _, h | .field _, .tags _, h | .field _, .time _, h | .field _, .flag _, h => exact unm h
  | .custom _, .uuid _, h | .custom _, .tags _, h | .custom _, .time _, h | .custom _, .flag _, h => exact unm h

theorem Effect.inv {s s' : Db} {e : Nat} {a : Attr} (hs : Inv s) (h : Effect s s' e a) : Inv s' := by
  cases h with
  | none h => rw [h]; exact hs
  | kids h => exact h
  | text q v r h => exact h.inv

theorem Effect.version {s s' : Db} {e : Nat} {a : Attr} (h : Effect s s' e a) : s'.version = s.version := by
  cases h with
  | none h => rw [h]
  | kids _ h => exact h.version
  | text q v r h => exact h.version

theorem Effect.mem {s s' : Db} {e : Nat} {a : Attr} (h : Effect s s' e a) {i : Nat} (hi : i ∈ s.world.ids) (h0 : i ≠ 0) : i ∈ s'.world.ids := by
  cases h with
  | none h => rw [h]; exact hi
  | kids _ h =>
    by_cases hie : i = e
    · subst hie; obtain ⟨_, r', _, h2, _⟩ := h.here; exact heap_some.mp ⟨r', h2⟩
    · obtain ⟨r, hr⟩ := heap_some.mpr hi
      exact heap_some.mp ⟨r, by rw [h.other i hi h0 hie]; exact hr⟩
  | text q v r h => exact (h.ids i).mpr hi

theorem inPlace_inj {a b : Attr} (ha : InPlace a) {r : List Str} (h1 : looked a = [r]) (h2 : r ∈ looked b) : a = b := by
  have hb : ∀ f, r ∈ [["Key".toList, "String".toList], ["Value".toList, "String".toList]] → a = f := by
    intro f hc
    have : ∀ r' ∈ looked a, r' ∉ [["Key".toList, "String".toList], ["Value".toList, "String".toList]] := by
      clear h1 h2 hc
      match a, ha with
      | .expires, _ => decide
      | .time t, _ => cases t <;> decide
      | .autoEnabled, _ => decide
      | .autoText w, _ => cases w <;> decide
    exact absurd hc (this r (by rw [h1]; exact List.mem_singleton.mpr rfl))
  cases b with
  | field f => exact hb _ h2
  | custom k => exact hb _ h2
  | time u =>
    match a, ha, h1 with
    | .expires, _, h1 => injection h1 with h1; subst h1; revert h2; cases u <;> decide
    | .time t, _, h1 => injection h1 with h1; subst h1; revert h2; cases u <;> cases t <;> decide
    | .autoEnabled, _, h1 => injection h1 with h1; subst h1; revert h2; cases u <;> decide
    | .autoText w, _, h1 => injection h1 with h1; subst h1; revert h2; cases u <;> cases w <;> decide
  | autoText u =>
    match a, ha, h1 with
    | .expires, _, h1 => injection h1 with h1; subst h1; revert h2; cases u <;> decide
    | .time t, _, h1 => injection h1 with h1; subst h1; revert h2; cases u <;> cases t <;> decide
    | .autoEnabled, _, h1 => injection h1 with h1; subst h1; revert h2; cases u <;> decide
    | .autoText w, _, h1 => injection h1 with h1; subst h1; revert h2; cases u <;> cases w <;> decide
  | _ =>
    match a, ha, h1 with
    | .expires, _, h1 => injection h1 with h1; subst h1; revert h2; decide
    | .time t, _, h1 => injection h1 with h1; subst h1; revert h2; cases t <;> decide
    | .autoEnabled, _, h1 => injection h1 with h1; subst h1; revert h2; decide
    | .autoText w, _, h1 => injection h1 with h1; subst h1; revert h2; cases w <;> decide

/-- A number for each tag. -/
def topNo : Attr → Option Nat
  | .uuid => some 0
  | .icon => some 1
  | .name => some 2
  | .groupNotes => some 3
  | .tags => some 4
  | .expires | .time _ => some 5
  | .autoEnabled | .autoText _ => some 6
  | .field _ | .custom _ => some 7

theorem topTag_no (a : Attr) : ["UUID".toList, "IconID".toList, "Name".toList, "Notes".toList, "Tags".toList, "Times".toList, "AutoType".toList,
    "String".toList].findIdx? (· == topTag a) = topNo a := by
  cases a <;> (unfold topTag topNo; dsimp only; decide)

theorem top_inj {a b : Attr} (ha : ¬ InPlace a) (h : topTag b = topTag a) : a = b ∨ ∃ k k', keyOf a = some k ∧ keyOf b = some k' := by
  have no : topNo b = topNo a := by rw [← topTag_no b, ← topTag_no a, h]
  cases a <;> first | exact absurd trivial ha | (cases b <;> first | (cases no; done) | exact .inl rfl | exact .inr ⟨_, _, rfl, rfl⟩)

theorem key_spot {b : Attr} {k : Str} (h : keyOf b = some k) : spot b = .string k ∧ ∀ {g : Heap} {i : Nat}, Api.seen g i b = prop g i k := by
  cases b with
  | field f => injection h with h; subst h; exact ⟨by cases f <;> rfl, rfl⟩
  | custom f => injection h with h; subst h; exact ⟨rfl, rfl⟩
  | _ => cases h

/-- Other attributes are seen as before. -/
theorem Effect.seen {s s' : Db} {e : Nat} {a : Attr} (h : Effect s s' e a) (hs : Inv s) (hte : s.heap.tag e = "Entry".toList ∨ s.heap.tag e = "Group".toList)
    {i : Nat} (hi : i ∈ s.world.ids) (h0 : i ≠ 0) (hti : s.heap.tag i = "Entry".toList ∨ s.heap.tag i = "Group".toList) {b : Attr}
    (hne : i ≠ e ∨ spot b ≠ spot a) : Api.seen s'.heap i b = Api.seen s.heap i b := by
  cases h with
  | none h => rw [h]
  | kids h1 h2 h3 h4 =>
    by_cases hie : i = e
    · subst hie
      by_cases htop : topTag b = topTag a
      · have hsp : spot b ≠ spot a := hne.resolve_left (fun h => h rfl)
        rcases top_inj h4 htop with c | ⟨k, k', c1, c2⟩
        · exact absurd (by rw [c]) hsp
        · rw [(key_spot c2).2, (key_spot c2).2]
          refine h3 k c1 k' fun c => hsp ?_
          rw [(key_spot c2).1, (key_spot c1).1, c]
      · exact h2.seen hs hte hi h0 (.inr htop)
    · exact h2.seen hs hte hi h0 (.inl hie)
  | text q v r h1 h2 h3 h4 =>
    refine changed_seen h1 fun x l hu hl hxq => ?_
    subst hxq
    have p1 := looked_plain b l hl
    have p2 := looked_plain a r (by rw [h3]; exact List.mem_singleton.mpr rfl)
    obtain ⟨j1, j2⟩ := up_inj hs h2 hu (by rcases hte with c | c <;> rw [c]; exact p1.1; exact p1.2)
      (by rcases hti with c | c <;> rw [c]; exact p2.1; exact p2.2)
    subst j2
    have := inPlace_inj h4 h3 hl
    rcases hne with c | c
    · exact c j1.symm
    · exact c (by rw [this])

/-! ## Storing a value -/

theorem single_changed {s s' : Db} {q : Nat} {v : Option Str} (h : TextChanged s s' q v) (p : List Str) : ∀ {e : Nat}, Single s.heap p e → Single s'.heap p e := by
  induction p with
  | nil => intro e _; trivial
  | cons t p ih =>
    intro e hp
    refine ⟨?_, ?_⟩
    · rw [h.all]; exact hp.1
    · rw [h.all]; exact fun k hk => ih (hp.2 k hk)

theorem els_one (h : Heap) (t : Str) (e : Nat) : elsAt h [t] e = h.all e t := by
  show (h.all e t).flatMap (fun k => [k]) = _
  induction h.all e t with
  | nil => rfl
  | cons a l ih => rw [List.flatMap_cons, ih]; rfl

theorem assign_ok (env : Env) {s : Db} (hs : Inv s) {e : Nat} (he : e ≠ 0) (hm : e ∈ s.world.ids) {a : Attr} (ho : Once s.heap e (spot a))
    {v : AttrVal} (hf : Fits a v) {w : Option Str} (hw : spelled s.version v = .ok w) (hst : Storable s.heap e a w) :
    ∃ s', assign env e a v s = (.ok (), s') ∧ Inv s' ∧ Once s'.heap e (spot a) ∧ written s'.heap e (spot a) = some w := by
  have sub : ∀ tag t, spot a = .path [tag] → w = some t → ∃ s', setSub e tag (some t) s = (.ok (), s') ∧ Inv s' ∧ Once s'.heap e (spot a) ∧
      written s'.heap e (spot a) = some w := by
    intro tag t h1 h2
    obtain ⟨s', a1, a2⟩ := setSub_ok hs he hm tag (hst.xml t h2)
    rw [h1] at ho ⊢
    have hall := a2.all_new hs ho.1
    refine ⟨s', a1, a2.inv, ⟨by rw [hall]; exact Nat.le_refl 1, fun _ _ => trivial⟩, ?_⟩
    unfold written
    dsimp only
    rw [els_one, hall, h2]
    show some (s'.heap.text s.next) = _
    unfold Heap.text
    rw [a2.new]
    rfl
  have txt : ∀ p q, spot a = .path p → (elsAt s.heap p e).head? = some q → ∃ s', setText q w s = (.ok (), s') ∧ Inv s' ∧ Once s'.heap e (spot a) ∧
      written s'.heap e (spot a) = some w := by
    intro p q h1 h2
    obtain ⟨s', a1, a2⟩ := text_changed hs q hst.xml
    rw [h1] at ho ⊢
    refine ⟨s', a1, a2.inv, single_changed a2 p ho, ?_⟩
    unfold written
    dsimp only
    rw [changed_els a2, h2]
    simp only [Option.map_some]
    rw [a2.here]
    have hu := up_els p (.here e) (List.mem_of_mem_head? h2)
    cases hu' : p.reverse ++ [] with
    | nil => rw [hu'] at hu; cases hu; exact hm
    | cons t r =>
      rw [hu'] at hu
      cases hu with
      | step hq _ => exact (kid_mem hs (all_sub hq).1).1
  have str : ∀ o : SetOp, o.Ok → spot a = .string o.key → some o.value = w → ∃ s', runSet env e o s = (.ok (), s') ∧ Inv s' ∧ Once s'.heap e (spot a) ∧
      written s'.heap e (spot a) = some w := by
    intro o h1 h2 h3
    rw [h2] at ho ⊢
    obtain ⟨s', a1, a2⟩ := runSet_ok env hs he hm ho h1
    refine ⟨s', a1, a2.inv, a2.fields, ?_⟩
    show prop s'.heap e o.key = _
    rw [a2.prop, if_pos rfl, h3]
  have some_of : ¬ InPlace a → ∃ t, w = some t := fun h => Option.ne_none_iff_exists'.mp (hst.given h)
  have time : ∀ t, spot a = .path ["Times".toList, t] → InPlace a → ∃ q, timeEl s.heap e t = some q ∧ (elsAt s.heap ["Times".toList, t] e).head? = some q := by
    intro t h1 h2
    have h3 := hst.there h2
    rw [h1] at ho h3
    have ho : Single s.heap ["Times".toList, t] e := ho
    have e1 := head_one ho.1
    have : (elsAt s.heap ["Times".toList, t] e).head? = timeEl s.heap e t := by
      show ((s.heap.all e "Times".toList).flatMap (elsAt s.heap [t])).head? = _
      unfold timeEl Heap.find
      rw [e1]
      cases (s.heap.all e "Times".toList).head? with
      | none => rfl
      | some k =>
        show (List.flatMap (elsAt s.heap [t]) [k]).head? = (s.heap.all k t).head?
        rw [List.flatMap_cons, List.flatMap_nil, List.append_nil, els_one]
    unfold written at h3
    dsimp only at h3
    rw [this] at h3 ⊢
    cases hq : timeEl s.heap e t with
    | none => rw [hq] at h3; exact absurd rfl h3
    | some q => exact ⟨q, rfl, rfl⟩
  have deep : ∀ p, spot a = .path p → InPlace a → ∃ q, (elsAt s.heap p e).head? = some q := by
    intro p h1 h2
    have h3 := hst.there h2
    rw [h1] at h3
    unfold written at h3
    dsimp only at h3
    cases hq : (elsAt s.heap p e).head? with
    | none => rw [hq] at h3; exact absurd rfl h3
    | some q => exact ⟨q, rfl⟩
  match a, v, hf with
  | .uuid, .uuid b, _ => injection hw with hw; exact sub _ _ rfl hw.symm
  | .icon, .text v, _ =>
    obtain ⟨t, ht⟩ := some_of id
    injection hw with hw; subst hw; subst ht; exact sub _ _ rfl rfl
  | .name, .text v, _ =>
    obtain ⟨t, ht⟩ := some_of id
    injection hw with hw; subst hw; subst ht; exact sub _ _ rfl rfl
  | .groupNotes, .text v, _ =>
    obtain ⟨t, ht⟩ := some_of id
    injection hw with hw; subst hw; subst ht; exact sub _ _ rfl rfl
  | .tags, .tags l, _ => injection hw with hw; exact sub _ _ rfl hw.symm
  | .field f, .text v, _ =>
    obtain ⟨t, ht⟩ := some_of id
    injection hw with hw; subst hw; subst ht
    exact str (.std f t) (hst.xml t rfl) (by cases f <;> rfl) rfl
  | .custom k, .text v, _ =>
    obtain ⟨t, ht⟩ := some_of id
    injection hw with hw; subst hw; subst ht
    obtain ⟨k1, k2, k3⟩ := hst.key k rfl
    exact str (.custom k t false) ⟨k1, k2, k3, hst.xml t rfl⟩ rfl rfl
  | .expires, .flag (some b), _ =>
    obtain ⟨q, q1, q2⟩ := time _ rfl trivial
    obtain ⟨s', t1, t2⟩ := txt _ q rfl q2
    refine ⟨s', ?_, t2⟩
    show setExpires e b s = _
    rw [setExpires_run, q1]
    have : w = some (pyBool b) := by cases b <;> (injection hw with hw; exact hw.symm)
    rw [this] at t1
    exact t1
  | .time t, .time (some d), _ =>
    have hsp : spot (.time t) = .path ["Times".toList, t.tag] := by cases t <;> rfl
    obtain ⟨q, q1, q2⟩ := time t.tag hsp trivial
    obtain ⟨s', t1, t2⟩ := txt _ q hsp q2
    refine ⟨s', ?_, t2⟩
    show setTime e t.tag d s = _
    have hw : (encodeTime s.version d).map some = .ok w := hw
    cases hx : encodeTime s.version d with
    | error x => rw [hx] at hw; cases hw
    | ok x =>
      rw [hx] at hw
      injection hw with hw
      rw [← hw] at t1
      obtain ⟨m, m1, m2⟩ := Option.bind_eq_some_iff.mp q1
      unfold setTime
      rw [bind_of (findKid_run e _ s), m1]
      dsimp only
      rw [bind_of (findKid_run m _ s), m2]
      dsimp only
      rw [bind_of (reads_run _ s), bind_run, lift_run, hx]
      exact t1
  | .autoEnabled, .flag b, _ =>
    obtain ⟨q, q1⟩ := deep _ rfl trivial
    obtain ⟨s', t1, t2⟩ := txt _ q rfl q1
    refine ⟨s', ?_, t2⟩
    show setAutoEnabled e b s = _
    rw [setAutoEnabled_run, q1]
    have : w = b.map pyBool := by
      match b, hw with
      | none, hw => injection hw with hw; exact hw.symm
      | some true, hw => injection hw with hw; exact hw.symm
      | some false, hw => injection hw with hw; exact hw.symm
    rw [this] at t1
    exact t1
  | .autoText x, .text v, _ =>
    have hsp : spot (.autoText x) = .path (autoPath x) := by cases x <;> rfl
    obtain ⟨q, q1⟩ := deep _ hsp trivial
    obtain ⟨s', t1, t2⟩ := txt _ q hsp q1
    refine ⟨s', ?_, t2⟩
    show setAuto e x v s = _
    rw [setAuto_run, q1]
    injection hw with hw
    rw [← hw] at t1
    exact t1

end Verif.Api
