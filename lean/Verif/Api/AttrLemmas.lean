import Verif.Spec.Attributes
import Verif.Api.TimeLemmas
/-!
# Reading and assigning attributes
-/
namespace Verif.Api
open Verif XPath Spec

/-! ## What the getters look at -/

theorem go_elsAt (h : Heap) (p : List Str) : ∀ e, findDeep.go h p e = elsAt h p e := by
  induction p with
  | nil => intro e; rfl
  | cons t p ih =>
    intro e
    rw [findDeep.go, elsAt]
    congr 1
    funext k
    exact ih k

theorem findDeep_run (e : Nat) (p : List Str) (s : Db) : findDeep e p s = (.ok (elsAt s.heap p e).head?, s) := by
  unfold findDeep
  rw [reads_run, go_elsAt]

/-- The tag of the child a setter replaces. -/
def topTag : Attr → Str
  | .uuid => "UUID".toList
  | .icon => "IconID".toList
  | .name => "Name".toList
  | .groupNotes => "Notes".toList
  | .tags => "Tags".toList
  | .expires | .time _ => "Times".toList
  | .autoEnabled | .autoText _ => "AutoType".toList
  | .field _ | .custom _ => "String".toList

/-- What the getter looks at. -/
def seen (h : Heap) (e : Nat) : Attr → Option (Option Str)
  | .uuid => (h.find e "UUID".toList).map h.text
  | .icon => (h.find e "IconID".toList).map h.text
  | .name => (h.find e "Name".toList).map h.text
  | .groupNotes => (h.find e "Notes".toList).map h.text
  | .tags => (h.find e "Tags".toList).map h.text
  | .expires => (timeEl h e "Expires".toList).map h.text
  | .time t => (timeEl h e t.tag).map h.text
  | .autoEnabled => (elsAt h ["AutoType".toList, "Enabled".toList] e).head?.map h.text
  | .autoText w => (elsAt h (autoPath w) e).head?.map h.text
  | .field f => prop h e f.key
  | .custom k => prop h e k

theorem join_map {α β} (o : Option α) (f : α → Option β) : (o.map f).join = o.bind f := by cases o <;> rfl

theorem sub_join (h : Heap) (e : Nat) (t : Str) : sub h e t = ((h.find e t).map h.text).join := (join_map _ _).symm

/-- Keys the library can put into a query. -/
def KeyOk : Attr → Prop
  | .custom k => Plain k
  | _ => True

theorem getAttr_run (env : Env) {s : Db} (hs : Inv s) {e : Nat} (he : e ≠ 0) (hm : e ∈ s.world.ids) {a : Attr} (hk : KeyOk a) :
    getAttr env e a s = (meaning s.version a (seen s.heap e a), s) := by
  cases a with
  | uuid =>
    show (getUuid e >>= _) s = _
    unfold getUuid
    rw [bind_run, bind_of (getSub_run e _ s), lift_run, sub_join]
    show _ = (meaning s.version .uuid ((s.heap.find e "UUID".toList).map s.heap.text), s)
    generalize (s.heap.find e "UUID".toList).map s.heap.text = w
    unfold meaning uuidOfText
    dsimp only
    cases w.join with
    | none => rfl
    | some t =>
      dsimp only
      cases b64decode t with
      | error x => rfl
      | ok b =>
        dsimp only
        by_cases hb : b.length = 16
        · rw [if_pos hb, if_pos hb]; rfl
        · rw [if_neg hb, if_neg hb]
  | icon =>
    show (getSub e _ >>= _) s = _
    rw [bind_of (getSub_run e _ s), sub_join]
    rfl
  | name =>
    show (getSub e _ >>= _) s = _
    rw [bind_of (getSub_run e _ s), sub_join]
    rfl
  | groupNotes =>
    show (getSub e _ >>= _) s = _
    rw [bind_of (getSub_run e _ s), sub_join]
    rfl
  | tags =>
    show (getTags e >>= _) s = _
    unfold getTags
    rw [bind_run, bind_of (getSub_run e _ s), sub_join]
    show _ = (meaning s.version .tags ((s.heap.find e "Tags".toList).map s.heap.text), s)
    generalize (s.heap.find e "Tags".toList).map s.heap.text = w
    unfold meaning
    dsimp only
    cases w.join <;> rfl
  | expires =>
    show (getExpires e >>= _) s = _
    rw [bind_run, getExpires_run]
    unfold meaning seen
    cases timeEl s.heap e "Expires".toList <;> rfl
  | time t =>
    show (getTime e t.tag >>= _) s = _
    rw [bind_run, getTime_run]
    unfold timeText
    rw [← join_map]
    show _ = (meaning s.version (.time t) ((timeEl s.heap e t.tag).map s.heap.text), s)
    generalize (timeEl s.heap e t.tag).map s.heap.text = w
    unfold meaning readTime
    dsimp only
    cases w.join with
    | none => rfl
    | some x =>
      dsimp only
      cases decodeTime s.version (some x) <;> rfl
  | autoEnabled =>
    show (getAutoEnabled e >>= _) s = _
    unfold getAutoEnabled
    rw [bind_run, bind_of (findDeep_run e _ s)]
    unfold meaning seen
    cases (elsAt s.heap ["AutoType".toList, "Enabled".toList] e).head? with
    | none => rfl
    | some x =>
      rw [bind_of (orAttr_some x s), bind_of (textOf_run x s)]
      rfl
  | autoText w =>
    show (getAuto e w >>= _) s = _
    unfold getAuto
    rw [bind_run, bind_of (findDeep_run e _ s)]
    show _ = (meaning s.version (.autoText w) ((elsAt s.heap (autoPath w) e).head?.map s.heap.text), s)
    cases (elsAt s.heap (autoPath w) e).head? with
    | none => rfl
    | some x =>
      dsimp only
      rw [bind_of (textOf_run x s)]
      rfl
  | field f =>
    show (getField env e f.key >>= _) s = _
    rw [bind_of (getField_run env hs he hm (plain_std f)), field_eq]
    rfl
  | custom k =>
    show (getCustom env e k >>= _) s = _
    unfold getCustom
    show _ = ((if k ∈ reservedKeys then .error .assertion else .ok (.text (prop s.heap e k).join) : Except PyErr AttrVal), s)
    by_cases h : k ∈ reservedKeys
    · rw [if_pos h, if_pos h]; rfl
    · rw [if_neg h, if_neg h, bind_of (getField_run env hs he hm hk), field_eq]
      rfl

/-- With one element at every step the getters read what is written at the place. -/
theorem head_one {α} {l : List α} (h : l.length ≤ 1) : l = l.head?.toList := by
  match l, h with
  | [], _ => rfl
  | [a], _ => rfl

theorem seen_written {h : Heap} {e : Nat} {a : Attr} (ho : Once h e (spot a)) : seen h e a = written h e (spot a) := by
  have one : ∀ t, (h.find e t).map h.text = (elsAt h [t] e).head?.map h.text := by
    intro t
    have : elsAt h [t] e = h.all e t := by
      show (h.all e t).flatMap (fun k => [k]) = _
      induction h.all e t with
      | nil => rfl
      | cons a l ih => rw [List.flatMap_cons, ih]; rfl
    rw [this]
    rfl
  have two : ∀ t, Single h ["Times".toList, t] e → (timeEl h e t).map h.text = (elsAt h ["Times".toList, t] e).head?.map h.text := by
    intro t ht
    have h1 := head_one ht.1
    show _ = ((h.all e "Times".toList).flatMap (elsAt h [t])).head?.map h.text
    unfold timeEl Heap.find
    rw [h1]
    cases (h.all e "Times".toList).head? with
    | none => rfl
    | some k =>
      show ((h.all k t).head?).map h.text = (List.flatMap (elsAt h [t]) [k]).head?.map h.text
      rw [List.flatMap_cons, List.flatMap_nil, List.append_nil]
      have : elsAt h [t] k = h.all k t := by
        show (h.all k t).flatMap (fun k => [k]) = _
        induction h.all k t with
        | nil => rfl
        | cons a l ih => rw [List.flatMap_cons, ih]; rfl
      rw [this]
  match a, ho with
  | .uuid, _ => exact one _
  | .icon, _ => exact one _
  | .name, _ => exact one _
  | .groupNotes, _ => exact one _
  | .tags, _ => exact one _
  | .expires, ho => exact two _ ho
  | .time .expiry, ho => exact two _ ho
  | .time .ctime, ho => exact two _ ho
  | .time .atime, ho => exact two _ ho
  | .time .mtime, ho => exact two _ ho
  | .autoEnabled, _ => rfl
  | .autoText false, _ => rfl
  | .autoText true, _ => rfl
  | .field .title, _ => rfl
  | .field .username, _ => rfl
  | .field .password, _ => rfl
  | .field .url, _ => rfl
  | .field .notes, _ => rfl
  | .field .otp, _ => rfl
  | .custom _, _ => rfl

/-! ## The way up from an element -/

/-- From `q` the elements with these tags lead up to `e`. -/
inductive Up (h : Heap) : Nat → List Str → Nat → Prop where
  | here (e : Nat) : Up h e [] e
  | step {q k e : Nat} {t : Str} {r : List Str} : q ∈ h.all k t → Up h k r e → Up h q (t :: r) e

theorem up_els {h : Heap} (p : List Str) : ∀ {e q b : Nat} {r : List Str}, Up h e r b → q ∈ elsAt h p e → Up h q (p.reverse ++ r) b := by
  induction p with
  | nil => intro e q b r hu hq; rw [elsAt, List.mem_singleton] at hq; subst hq; exact hu
  | cons t p ih =>
    intro e q b r hu hq
    obtain ⟨k, hk, hq⟩ := List.mem_flatMap.mp hq
    have := ih (.step hk hu) hq
    rw [List.reverse_cons, List.append_assoc]
    exact this

theorem up_inj {s : Db} (hs : Inv s) {r : List Str} : ∀ {r2 : List Str} {q e e2 : Nat}, Up s.heap q r e → Up s.heap q r2 e2 →
    s.heap.tag e ∉ r2 → s.heap.tag e2 ∉ r → e = e2 ∧ r = r2 := by
  induction r with
  | nil =>
    intro r2 q e e2 h1 h2 h3 _
    cases h1
    cases h2 with
    | here => exact ⟨rfl, rfl⟩
    | step hq _ => exact absurd (by rw [(all_sub hq).2]; exact List.mem_cons_self ..) h3
  | cons t r ih =>
    intro r2 q e e2 h1 h2 h3 h4
    cases h1 with
    | step hq hu =>
      cases h2 with
      | here => exact absurd (by rw [(all_sub hq).2]; exact List.mem_cons_self ..) h4
      | step hq2 hu2 =>
        have hk := parent_eq hs (all_sub hq).1 (all_sub hq2).1
        subst hk
        obtain ⟨a, b⟩ := ih hu hu2 (fun x => h3 (List.mem_cons_of_mem _ x)) (fun x => h4 (List.mem_cons_of_mem _ x))
        exact ⟨a, by rw [b, ← (all_sub hq).2, ← (all_sub hq2).2]⟩

/-! ## Changing the children of an element that have a tag -/

/-- Only children of `e` with the tag were taken away or added. -/
structure KidSwap (s s' : Db) (e : Nat) (T : Str) : Prop where
  version : s'.version = s.version
  other : ∀ j, j ∈ s.world.ids → j ≠ 0 → j ≠ e → s'.heap j = s.heap j
  here : ∃ r r', s.heap e = some r ∧ s'.heap e = some r' ∧ r'.tag = r.tag ∧ r'.attrs = r.attrs ∧ r'.text = r.text
  all : ∀ t, t ≠ T → s'.heap.all e t = s.heap.all e t

namespace KidSwap
variable {s s' : Db} {e : Nat} {T : Str}

theorem refl (hm : e ∈ s.world.ids) (T : Str) : KidSwap s s e T := by
  obtain ⟨r, hr⟩ := heap_some.mpr hm
  exact ⟨rfl, fun _ _ _ _ => rfl, ⟨r, r, hr, hr, rfl, rfl, rfl⟩, fun _ _ => rfl⟩

theorem tag (h : KidSwap s s' e T) {j : Nat} (hj : j ∈ s.world.ids) (h0 : j ≠ 0) : s'.heap.tag j = s.heap.tag j := by
  by_cases hje : j = e
  · subst hje
    obtain ⟨r, r', h1, h2, h3, _⟩ := h.here
    unfold Heap.tag; rw [h1, h2]; exact h3
  · exact tag_congr (h.other j hj h0 hje)

theorem text (h : KidSwap s s' e T) {j : Nat} (hj : j ∈ s.world.ids) (h0 : j ≠ 0) : s'.heap.text j = s.heap.text j := by
  by_cases hje : j = e
  · subst hje
    obtain ⟨r, r', h1, h2, _, _, h3⟩ := h.here
    unfold Heap.text; rw [h1, h2]; exact h3
  · exact text_congr (h.other j hj h0 hje)

theorem all_other (h : KidSwap s s' e T) (hs : Inv s) {j : Nat} (hj : j ∈ s.world.ids) (h0 : j ≠ 0) (hje : j ≠ e) (t : Str) :
    s'.heap.all j t = s.heap.all j t := by
  unfold Heap.all
  rw [kids_congr (h.other j hj h0 hje)]
  apply List.filter_congr
  intro c hc
  rw [h.tag (kid_mem hs hc).1 (kid_ne_zero hs hc)]

/-- Below an element found by a tag that `e` does not have. -/
theorem all_below (h : KidSwap s s' e T) (hs : Inv s) {i j : Nat} {t : Str} (hj : j ∈ s.heap.all i t) (ht : t ≠ s.heap.tag e) (t' : Str) :
    s'.heap.all j t' = s.heap.all j t' := by
  obtain ⟨a, b⟩ := all_sub hj
  refine h.all_other hs (kid_mem hs a).1 (kid_ne_zero hs a) ?_ t'
  rintro rfl
  exact ht b.symm

theorem text_below (h : KidSwap s s' e T) (hs : Inv s) {i j : Nat} {t : Str} (hj : j ∈ s.heap.all i t) : s'.heap.text j = s.heap.text j :=
  h.text (kid_mem hs (all_sub hj).1).1 (kid_ne_zero hs (all_sub hj).1)

theorem els (h : KidSwap s s' e T) (hs : Inv s) (p : List Str) : ∀ {i j : Nat} {t : Str}, j ∈ s.heap.all i t → t ≠ s.heap.tag e →
    s.heap.tag e ∉ p → elsAt s'.heap p j = elsAt s.heap p j := by
  induction p with
  | nil => intros; rfl
  | cons u p ih =>
    intro i j t hj ht hp
    show (s'.heap.all j u).flatMap (elsAt s'.heap p) = (s.heap.all j u).flatMap (elsAt s.heap p)
    rw [h.all_below hs hj ht]
    have : ∀ l : List Nat, (∀ k ∈ l, k ∈ s.heap.all j u) → l.flatMap (elsAt s'.heap p) = l.flatMap (elsAt s.heap p) := by
      intro l hl
      induction l with
      | nil => rfl
      | cons k l ihl =>
        rw [List.flatMap_cons, List.flatMap_cons, ihl fun x hx => hl x (List.mem_cons_of_mem _ hx),
          ih (hl k (List.mem_cons_self ..)) (fun c => hp (by rw [← c]; exact List.mem_cons_self ..)) fun c => hp (List.mem_cons_of_mem _ c)]
    exact this _ fun k hk => hk

theorem hasKey (h : KidSwap s s' e T) (hs : Inv s) (hS : s.heap.tag e ≠ "String".toList) {i j : Nat}
    (hj : j ∈ s.heap.all i "String".toList) (key : Str) : Spec.hasKey s'.heap j key = Spec.hasKey s.heap j key := by
  unfold Spec.hasKey
  rw [h.all_below hs hj (Ne.symm hS), Bool.eq_iff_iff, List.any_eq_true, List.any_eq_true]
  constructor
  · rintro ⟨c, h1, h2⟩; exact ⟨c, h1, by rw [h.text_below hs h1] at h2; exact h2⟩
  · rintro ⟨c, h1, h2⟩; exact ⟨c, h1, by rw [h.text_below hs h1]; exact h2⟩

theorem valueEls (h : KidSwap s s' e T) (hs : Inv s) (hS : s.heap.tag e ≠ "String".toList) {i : Nat}
    (hi : s'.heap.all i "String".toList = s.heap.all i "String".toList) (key : Str) :
    Spec.valueEls s'.heap i key = Spec.valueEls s.heap i key := by
  unfold Spec.valueEls fieldEls
  rw [hi]
  have e1 : (s.heap.all i "String".toList).filter (fun k => Spec.hasKey s'.heap k key) =
      (s.heap.all i "String".toList).filter fun k => Spec.hasKey s.heap k key :=
    List.filter_congr fun k hk => h.hasKey hs hS hk key
  rw [e1]
  have : ∀ l : List Nat, (∀ k ∈ l, k ∈ s.heap.all i "String".toList) → l.flatMap (fun k => s'.heap.all k "Value".toList) =
      l.flatMap fun k => s.heap.all k "Value".toList := by
    intro l hl
    induction l with
    | nil => rfl
    | cons k l ih =>
      rw [List.flatMap_cons, List.flatMap_cons, ih fun j hj => hl j (List.mem_cons_of_mem _ hj),
        h.all_below hs (hl k (List.mem_cons_self ..)) (Ne.symm hS)]
  exact this _ fun k hk => (List.mem_filter.mp hk).1

theorem prop (h : KidSwap s s' e T) (hs : Inv s) (hS : s.heap.tag e ≠ "String".toList) {i : Nat}
    (hi : s'.heap.all i "String".toList = s.heap.all i "String".toList) (key : Str) :
    Spec.prop s'.heap i key = Spec.prop s.heap i key := by
  unfold Spec.prop
  rw [h.valueEls hs hS hi]
  cases hh : (Spec.valueEls s.heap i key).head? with
  | none => rfl
  | some w =>
    obtain ⟨g, _, hg2⟩ := List.mem_flatMap.mp (List.mem_of_mem_head? hh)
    simp only [Option.map_some]
    rw [h.text_below hs hg2]

/-- Reading at another element, or another child. -/
theorem seen (h : KidSwap s s' e T) (hs : Inv s) (he : s.heap.tag e = "Entry".toList ∨ s.heap.tag e = "Group".toList) {i : Nat}
    (hi : i ∈ s.world.ids) (h0 : i ≠ 0) {b : Attr} (hb : i ≠ e ∨ topTag b ≠ T) : Api.seen s'.heap i b = Api.seen s.heap i b := by
  have hall : s'.heap.all i (topTag b) = s.heap.all i (topTag b) := by
    by_cases hie : i = e
    · subst hie
      rcases hb with hb | hb
      · exact absurd rfl hb
      · exact h.all _ hb
    · exact h.all_other hs hi h0 hie _
  have hne : ∀ t, t ≠ "Entry".toList → t ≠ "Group".toList → t ≠ s.heap.tag e := by
    intro t h1 h2
    rcases he with h | h <;> rw [h] <;> assumption
  have hfind : ∀ t, topTag b = t → s'.heap.find i t = s.heap.find i t := by
    rintro t rfl
    unfold Heap.find
    rw [hall]
  have one : ∀ t, topTag b = t → (s'.heap.find i t).map s'.heap.text = (s.heap.find i t).map s.heap.text := by
    intro t ht
    rw [hfind t ht]
    cases hh : s.heap.find i t with
    | none => rfl
    | some k => simp only [Option.map_some]; rw [h.text_below hs (List.mem_of_mem_head? hh)]
  have two : ∀ u, topTag b = "Times".toList → (timeEl s'.heap i u).map s'.heap.text = (timeEl s.heap i u).map s.heap.text := by
    intro u ht
    unfold timeEl
    rw [hfind _ ht]
    cases hh : s.heap.find i "Times".toList with
    | none => rfl
    | some k =>
      have hk := List.mem_of_mem_head? hh
      simp only [Option.bind_some]
      have : s'.heap.find k u = s.heap.find k u := by
        unfold Heap.find
        rw [h.all_below hs hk (hne _ (by decide) (by decide))]
      rw [this]
      cases hq : s.heap.find k u with
      | none => rfl
      | some q => simp only [Option.map_some]; rw [h.text_below hs (List.mem_of_mem_head? hq)]
  have deep : ∀ p, topTag b = "AutoType".toList → p ≠ [] → (∀ t ∈ p, t ≠ "Entry".toList ∧ t ≠ "Group".toList) →
      (elsAt s'.heap ("AutoType".toList :: p) i).head?.map s'.heap.text = (elsAt s.heap ("AutoType".toList :: p) i).head?.map s.heap.text := by
    intro p ht hp0 hp
    have hels : elsAt s'.heap ("AutoType".toList :: p) i = elsAt s.heap ("AutoType".toList :: p) i := by
      show (s'.heap.all i "AutoType".toList).flatMap (elsAt s'.heap p) = (s.heap.all i "AutoType".toList).flatMap (elsAt s.heap p)
      rw [← ht, hall]
      have : ∀ l : List Nat, (∀ k ∈ l, k ∈ s.heap.all i (topTag b)) → l.flatMap (elsAt s'.heap p) = l.flatMap (elsAt s.heap p) := by
        intro l hl
        induction l with
        | nil => rfl
        | cons k l ihl =>
          rw [List.flatMap_cons, List.flatMap_cons, ihl fun x hx => hl x (List.mem_cons_of_mem _ hx),
            h.els hs p (hl k (List.mem_cons_self ..)) (by rw [ht]; exact hne _ (by decide) (by decide)) ?_]
          intro hc
          obtain ⟨a, b⟩ := hp _ hc
          rcases he with h | h
          · exact a h
          · exact b h
      exact this _ fun k hk => hk
    rw [hels]
    cases hh : (elsAt s.heap ("AutoType".toList :: p) i).head? with
    | none => rfl
    | some q =>
      have hu := up_els _ (.here i) (List.mem_of_mem_head? hh)
      simp only [Option.map_some]
      have : s'.heap.text q = s.heap.text q := by
        cases hr : ("AutoType".toList :: p).reverse ++ [] with
        | nil => simp at hr
        | cons t r =>
          rw [hr] at hu
          cases hu with
          | step hq _ => exact h.text_below hs hq
      rw [this]
  have str : ∀ k, topTag b = "String".toList → Spec.prop s'.heap i k = Spec.prop s.heap i k := by
    intro k ht
    rw [ht] at hall
    exact h.prop hs (Ne.symm (hne _ (by decide) (by decide))) hall k
  cases b with
  | uuid => exact one _ rfl
  | icon => exact one _ rfl
  | name => exact one _ rfl
  | groupNotes => exact one _ rfl
  | tags => exact one _ rfl
  | expires => exact two _ rfl
  | time t => exact two _ rfl
  | autoEnabled => exact deep _ rfl (by decide) (by decide)
  | autoText w => cases w <;> exact deep _ rfl (by decide) (by decide)
  | field f => exact str _ rfl
  | custom k => exact str _ rfl

end KidSwap

end Verif.Api
