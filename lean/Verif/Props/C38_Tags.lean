import Verif.Api.SearchApi
import Verif.Api.Sample
/-!
# C38: tags round-trip
-/
namespace Verif.Props
open Verif XPath Spec Api

/-- A tag without separators. -/
def TagText (t : Str) : Prop := ∀ c ∈ t, c ≠ ',' ∧ c ≠ ';'

instance (t : Str) : Decidable (TagText t) := by unfold TagText; infer_instance

/-- The tags written in a text: the pieces between separators, none in the empty text. -/
def tagsIn (v : Str) : List Str := if v = [] then [] else splitOn ';' (v.map fun c => if c = ',' then ';' else c)

theorem splitOn_plain (t : Str) (h : ∀ c ∈ t, c ≠ ';') : splitOn ';' t = [t] := by
  induction t with
  | nil => rfl
  | cons c t ih =>
    unfold Api.splitOn
    rw [if_neg (h c (List.mem_cons_self ..)), ih fun x hx => h x (List.mem_cons_of_mem _ hx)]

theorem splitOn_sep (t r : Str) (h : ∀ c ∈ t, c ≠ ';') : splitOn ';' (t ++ ';' :: r) = t :: splitOn ';' r := by
  induction t with
  | nil => show splitOn ';' (';' :: r) = _; rw [Api.splitOn, if_pos rfl]
  | cons c t ih =>
    show splitOn ';' (c :: (t ++ ';' :: r)) = _
    rw [Api.splitOn, if_neg (h c (List.mem_cons_self ..)), ih fun x hx => h x (List.mem_cons_of_mem _ hx)]

theorem splitOn_join (ts : List Str) (hne : ts ≠ []) (h : ∀ t ∈ ts, TagText t) : splitOn ';' (joinTags ts) = ts := by
  induction ts with
  | nil => exact absurd rfl hne
  | cons t ts ih =>
    have ht : ∀ c ∈ t, c ≠ ';' := fun c hc => (h t (List.mem_cons_self ..) c hc).2
    cases ts with
    | nil => exact splitOn_plain t ht
    | cons u us =>
      show splitOn ';' (t ++ ';' :: joinTags (u :: us)) = _
      rw [splitOn_sep _ _ ht, ih (by simp) fun x hx => h x (List.mem_cons_of_mem _ hx)]

theorem joinTags_noComma (ts : List Str) (h : ∀ t ∈ ts, TagText t) : ∀ c ∈ joinTags ts, c ≠ ',' := by
  induction ts with
  | nil => intro c hc; cases hc
  | cons t ts ih =>
    have ht : ∀ c ∈ t, c ≠ ',' := fun c hc => (h t (List.mem_cons_self ..) c hc).1
    cases ts with
    | nil => exact ht
    | cons u us =>
      intro c hc
      replace hc : c ∈ t ++ ';' :: joinTags (u :: us) := hc
      rcases List.mem_append.mp hc with hc | hc
      · exact ht c hc
      · rcases List.mem_cons.mp hc with rfl | hc
        · decide
        · exact ih (fun x hx => h x (List.mem_cons_of_mem _ hx)) c hc

theorem map_noComma (v : Str) (h : ∀ c ∈ v, c ≠ ',') : (v.map fun c => if c = ',' then ';' else c) = v := by
  induction v with
  | nil => rfl
  | cons c v ih =>
    rw [List.map_cons, if_neg (h c (List.mem_cons_self ..)), ih fun x hx => h x (List.mem_cons_of_mem _ hx)]

theorem joinTags_nil (ts : List Str) (h : joinTags ts = []) : ts = [] ∨ ts = [[]] := by
  match ts, h with
  | [], _ => exact .inl rfl
  | [t], h => exact .inr (by rw [show t = [] from h])
  | t :: u :: us, h =>
    have h : t ++ ';' :: joinTags (u :: us) = [] := h
    simp at h

theorem tagsIn_join (ts : List Str) (h : ∀ t ∈ ts, TagText t) (h1 : ts ≠ [[]]) : tagsIn (joinTags ts) = ts := by
  unfold tagsIn
  split
  · next he =>
    rcases joinTags_nil ts he with h | h
    · exact h.symm
    · exact absurd h h1
  · next he =>
    rw [map_noComma _ (joinTags_noComma ts h), splitOn_join ts (by rintro rfl; exact he rfl) h]

theorem joinTags_xml (ts : List Str) (h : ∀ t ∈ ts, XmlText t) : XmlText (joinTags ts) := by
  induction ts with
  | nil => exact (by decide : XmlText [])
  | cons t ts ih =>
    cases ts with
    | nil => exact h t (List.mem_cons_self ..)
    | cons u us =>
      have h2 := ih fun x hx => h x (List.mem_cons_of_mem _ hx)
      have h1 := h t (List.mem_cons_self ..)
      intro c hc
      replace hc : c ∈ t ++ ';' :: joinTags (u :: us) := hc
      rcases List.mem_append.mp hc with hc | hc
      · exact h1 c hc
      · rcases List.mem_cons.mp hc with rfl | hc
        · exact (by decide : XmlText [';']) _ (List.mem_singleton.mpr rfl)
        · exact h2 c hc

theorem getTags_run (e : Nat) (s : Db) : getTags e s = (.ok (((sub s.heap e "Tags".toList).map tagsIn).getD []), s) := by
  unfold getTags
  rw [bind_of (getSub_run e _ s)]
  cases sub s.heap e "Tags".toList with
  | none => rfl
  | some v => rfl

/-- Setting tags and reading them returns the list; every other text child and every string field reads as before,
and no other element of the database changes. -/
theorem C38_roundtrip (env : Env) {s : Db} (hs : Inv s) {e : Nat} (he : e ≠ 0) (hm : e ∈ s.world.ids)
    (hu : (s.heap.all e "Tags".toList).length ≤ 1) (ts : List Str) (ht : ∀ t ∈ ts, TagText t ∧ XmlText t) (h1 : ts ≠ [[]]) :
    ∃ s', setTags e ts s = (.ok (), s') ∧ getTags e s' = (.ok ts, s') ∧ Inv s' ∧
      (∀ j, j ≠ 0 → j ≠ e → j < s.next → s'.heap j = s.heap j) ∧
      (∀ t, t ≠ "Tags".toList → sub s'.heap e t = sub s.heap e t) ∧
      (∀ f : Field, (getStd env e f s').1 = (getStd env e f s).1) := by
  obtain ⟨s', h2, h3⟩ := setSub_ok hs he hm "Tags".toList (joinTags_xml ts fun t h => (ht t h).2)
  refine ⟨s', h2, ?_, h3.inv, h3.other, fun t h => h3.sub_other hs h, ?_⟩
  · rw [getTags_run, h3.sub_new hs hu]
    show (Except.ok (tagsIn (joinTags ts)), s') = _
    rw [tagsIn_join ts (fun t h => (ht t h).1) h1]
  · intro f
    unfold getStd
    rw [getField_run env h3.inv he h3.mem (plain_std f), getField_run env hs he hm (plain_std f),
      h3.field_eq hs (by decide)]

theorem splitOn_infix (w : Str) : ∀ t ∈ splitOn ';' w, t <:+: w ∧ ∀ c ∈ t, c ≠ ';' := by
  have key : ∀ w : Str, ∃ y ys, splitOn ';' w = y :: ys ∧ (y <+: w ∧ ∀ c ∈ y, c ≠ ';') ∧
      ∀ t ∈ ys, t <:+: w ∧ ∀ c ∈ t, c ≠ ';' := by
    intro w
    induction w with
    | nil => exact ⟨[], [], rfl, ⟨List.nil_prefix, by simp⟩, by simp⟩
    | cons x xs ih =>
      obtain ⟨y, ys, h1, h2, h3⟩ := ih
      have up : ∀ t, t <:+: xs → t <:+: x :: xs := fun t h => h.trans (List.suffix_cons x xs).isInfix
      unfold Api.splitOn
      by_cases hx : x = ';'
      · rw [if_pos hx, h1]
        refine ⟨[], y :: ys, rfl, ⟨List.nil_prefix, by simp⟩, ?_⟩
        intro t ht
        rcases List.mem_cons.mp ht with rfl | ht
        · exact ⟨up _ h2.1.isInfix, h2.2⟩
        · exact ⟨up _ (h3 t ht).1, (h3 t ht).2⟩
      · rw [if_neg hx, h1]
        refine ⟨x :: y, ys, rfl, ⟨List.cons_prefix_cons.mpr ⟨rfl, h2.1⟩, ?_⟩, fun t ht => ⟨up _ (h3 t ht).1, (h3 t ht).2⟩⟩
        intro c hc
        rcases List.mem_cons.mp hc with rfl | hc
        · exact hx
        · exact h2.2 c hc
  intro t ht
  obtain ⟨y, ys, h1, h2, h3⟩ := key w
  rw [h1] at ht
  rcases List.mem_cons.mp ht with rfl | ht
  · exact ⟨h2.1.isInfix, h2.2⟩
  · exact h3 t ht

theorem map_eq_noSep (u t : Str) (h : (u.map fun c => if c = ',' then ';' else c) = t) (ht : ∀ c ∈ t, c ≠ ';') : u = t := by
  have : ∀ c ∈ u, c ≠ ',' := by
    rintro c hc rfl
    refine ht ';' ?_ rfl
    rw [← h]
    exact List.mem_map.mpr ⟨',', hc, by simp⟩
  rw [map_noComma u this] at h
  exact h

theorem tagsIn_infix (v : Str) : ∀ t ∈ tagsIn v, t <:+: v := by
  intro t ht
  unfold tagsIn at ht
  split at ht
  · cases ht
  · obtain ⟨⟨p, q, h⟩, h2⟩ := splitOn_infix _ t ht
    have h := h.symm
    obtain ⟨v1, v2, e1, e2, e3⟩ := List.map_eq_append_iff.mp h
    obtain ⟨v3, v4, f1, f2, f3⟩ := List.map_eq_append_iff.mp e2
    rw [map_eq_noSep v4 t f3 h2] at f1
    exact ⟨v3, v2, by rw [e1, f1]⟩

/-- Searching by tags never misses a current entry that carries all of them. -/
theorem C38_search (env : Env) {s : Db} (hs : Inv s) {e : Nat} (hd : InDoc s.heap e) (htag : s.heap.tag e = "Entry".toList)
    (hh : ¬ InHist s.heap e) (ts qs : List Str) (ht : getTags e s = (.ok ts, s)) (hq : qs ≠ []) (hp : ∀ q ∈ qs, Plain q)
    (hall : ∀ q ∈ qs, q ∈ ts) :
    ∃ l, findEntryList env true { kwargs := [.tags qs] } s = (.ok l, s) ∧ e ∈ l := by
  obtain ⟨l, h1, _, h3⟩ := findEntryList_run env hs (ks := [.tags qs]) (by
    intro k hk
    rw [List.mem_singleton.mp hk]
    exact ⟨rfl, hq, hp⟩)
  refine ⟨l, h1, (h3 e).mpr ?_⟩
  obtain ⟨n, hn⟩ := get_of_mem (inDoc_mem hs hd).1
  refine ⟨n, hn, hd, htag, hh, ?_⟩
  intro k hk
  rw [List.mem_singleton.mp hk]
  show ∃ m ∈ n.kids, m.tag = "Tags".toList ∧ ∀ t ∈ qs, t <:+: m.text.getD []
  rw [getTags_run] at ht
  have ht : ((sub s.heap e "Tags".toList).map tagsIn).getD [] = ts := by
    have := congrArg Prod.fst ht
    simpa only [Except.ok.injEq] using this
  obtain ⟨hnm, hid⟩ := Node.get?_some hn
  subst hid
  have hfind : s.heap.find n.id "Tags".toList = ((n.kids.filter fun k => k.tag == "Tags".toList).map Node.id).head? := by
    unfold Heap.find
    rw [node_all hs hnm]
  unfold sub at ht
  rw [hfind] at ht
  cases hf : n.kids.filter fun k => k.tag == "Tags".toList with
  | nil =>
    rw [hf] at ht
    replace ht : [] = ts := ht
    subst ht
    obtain ⟨q, r, rfl⟩ := List.exists_cons_of_ne_nil hq
    exact absurd (hall q (List.mem_cons_self ..)) (by simp)
  | cons m ms =>
    have hm : m ∈ n.kids.filter fun k => k.tag == "Tags".toList := by rw [hf]; exact List.mem_cons_self ..
    obtain ⟨hm1, hm2⟩ := List.mem_filter.mp hm
    refine ⟨m, hm1, by simpa using hm2, ?_⟩
    intro q hqm
    rw [hf] at ht
    replace ht : ((s.heap.text m.id).map tagsIn).getD [] = ts := ht
    rw [node_text (kid_get hs.world.uniq hnm hm1)] at ht
    have hqt := hall q hqm
    rw [← ht] at hqt
    cases hx : m.text with
    | none => rw [hx] at hqt; cases hqt
    | some v => rw [hx] at hqt; exact tagsIn_infix v q hqt

/-- The search looks for substrings, so it also finds entries that do not carry the tag: `ome` finds the
entry tagged `home` and `net`. -/
theorem C38_substring : getTags 23 Sample.db = (.ok ["home".toList, "net".toList], Sample.db) ∧
    (findEntryList Sample.env true { kwargs := [.tags ["ome".toList]] } Sample.db).1 = .ok [23] := by
  refine ⟨?_, by decide +kernel⟩
  rw [getTags_run]
  exact Prod.ext (by decide +kernel) rfl

/-- One empty tag is not kept. -/
theorem C38_one_empty : ∃ s', setTags 23 [[]] Sample.db = (.ok (), s') ∧ (getTags 23 s').1 = .ok [] :=
  ⟨(setTags 23 [[]] Sample.db).2, Prod.ext (by decide +kernel) rfl, by decide +kernel⟩

/-- A tag with a separator is split. -/
theorem C38_separator : ∃ s', setTags 23 ["a,b".toList] Sample.db = (.ok (), s') ∧
    (getTags 23 s').1 = .ok ["a".toList, "b".toList] :=
  ⟨(setTags 23 ["a,b".toList] Sample.db).2, Prod.ext (by decide +kernel) rfl, by decide +kernel⟩

theorem sample_inDoc : InDoc Sample.db.heap 23 :=
  ⟨1, by decide +kernel, .snoc (.snoc (.snoc .refl (show 13 ∈ _ by decide +kernel)) (show 14 ∈ _ by decide +kernel))
    (by decide +kernel)⟩

/-- The hypotheses hold for the sample entry. -/
example : Inv Sample.db ∧ 23 ∈ Sample.db.world.ids ∧ (Sample.db.heap.all 23 "Tags".toList).length ≤ 1 ∧
    (∀ t ∈ ["a b".toList, [], "ü".toList], TagText t ∧ XmlText t) :=
  ⟨Sample.db_inv, by decide +kernel, by decide +kernel, by decide⟩
example : InDoc Sample.db.heap 23 ∧ Sample.db.heap.tag 23 = "Entry".toList ∧
    (∀ q ∈ ["net".toList], q ∈ ["home".toList, "net".toList]) := ⟨sample_inDoc, by decide +kernel, by decide⟩
example : ¬ InHist Sample.db.heap 23 := by

  rintro ⟨k, ht, _, hr⟩
  have hk : k ∈ Sample.db.world.ids := tag_mem (by rw [ht]; decide)
  obtain ⟨n, hn⟩ := get_of_mem hk
  have h1 := (reach_iff Sample.db_inv hn _).mp hr
  have hall : (Sample.db.world.nodes.all fun n => n.tag != "History".toList || !n.ids.contains 23) = true := by decide +kernel
  have := List.all_eq_true.mp hall n (Node.get?_some hn).1
  rw [← node_tag hn, ht] at this
  simp at this
  exact this h1

end Verif.Props
