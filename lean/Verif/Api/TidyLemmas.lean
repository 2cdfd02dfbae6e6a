import Verif.Spec.Tidy
import Verif.Api.NewLemmas
import Verif.Api.TextLemmas
import Verif.Api.MoveLemmas
import Verif.Kdbx.Protect
/-!
# Tidy databases
-/
namespace Verif.Api
open Verif XPath Spec

theorem box_not_leaf {t : Str} (h : t ∈ boxTags) : t ∉ leafTags := by
  have : ∀ b ∈ boxTags, b ∉ leafTags := by decide
  exact this t h

theorem fine_kids {t : Str} {a : List (Str × Str)} {x : Option Str} {b b' : Bool} (h : Fine t a x b)
    (hb : b' = false → b = false ∨ t ∈ boxTags) : Fine t a x b' := by
  refine ⟨h.name, h.attrs, h.once, h.text, fun h' => h.inner ?_, fun ht => ?_⟩
  · rcases h' with h' | h'
    · exact hb h'
    · exact .inr h'
  · cases b' with
    | true => rfl
    | false =>
      rcases hb rfl with e | e
      · rw [h.leaf ht] at e; cases e
      · exact absurd ht (box_not_leaf e)

theorem fine_text {t : Str} {a : List (Str × Str)} {x y : Option Str} {b : Bool} (h : Fine t a x b) (ht : t ∈ leafTags)
    (hy : ∀ s, y = some s → XmlText s) : Fine t a y b := by
  refine ⟨h.name, h.attrs, h.once, hy, fun h' => ?_, h.leaf⟩
  rcases h' with e | e
  · rw [h.leaf ht] at e; cases e
  · exact absurd ht (box_not_leaf e)

theorem putAttr_names (k v : Str) (a : List (Str × Str)) :
    (Node.putAttr k v a).map Prod.fst = if k ∈ a.map Prod.fst then a.map Prod.fst else a.map Prod.fst ++ [k] := by
  unfold Node.putAttr
  have e : (a.any (·.1 == k)) = true ↔ k ∈ a.map Prod.fst := by
    rw [List.any_eq_true, List.mem_map]
    simp
  by_cases h : k ∈ a.map Prod.fst
  · rw [if_pos h, if_pos (e.mpr h), List.map_map]
    apply List.map_congr_left
    intro p _
    show (if p.1 == k then (k, v) else p).1 = p.1
    split
    · next h => exact (beq_iff_eq.mp h).symm
    · rfl
  · rw [if_neg h, if_neg (fun h' => h (e.mp h')), List.map_append]
    rfl

theorem fine_attr {t : Str} {a : List (Str × Str)} {x : Option Str} {b : Bool} (h : Fine t a x b) {k v : Str}
    (hk : Xml.isName k = true) (hv : XmlText v) : Fine t (Node.putAttr k v a) x b := by
  refine ⟨h.name, fun p hp => ?_, ?_, h.text, h.inner, h.leaf⟩
  · unfold Node.putAttr at hp
    split at hp
    · obtain ⟨q, hq, e⟩ := List.mem_map.mp hp
      split at e
      · rw [← e]; exact ⟨hk, hv⟩
      · rw [← e]; exact h.attrs q hq
    · rcases List.mem_append.mp hp with hp | hp
      · exact h.attrs p hp
      · rw [List.mem_singleton.mp hp]; exact ⟨hk, hv⟩
  · rw [putAttr_names]
    split
    · exact h.once
    · next hn => exact List.nodup_append.mpr ⟨h.once, by simp, by
        intro x hx y hy e
        rw [List.mem_singleton.mp hy] at e
        exact hn (e ▸ hx)⟩

theorem fine_mk {t : Str} {x : Option Str} {b : Bool} (hn : Xml.isName t = true) (hx : ∀ s, x = some s → XmlText s)
    (hi : b = false ∨ t ∈ boxTags → x = none) (hl : t ∈ leafTags → b = true) : Fine t [] x b :=
  ⟨hn, fun _ h => (nomatch h), List.nodup_nil, hx, fun h s hs => (by rw [hi h] at hs; cases hs), hl⟩

/-- A tree of elements is tidy when all its elements are. -/
theorem tidyXml_iff (n : Node) : TidyXml n.xml ↔ ∀ k ∈ n.nodes, Fine k.tag k.attrs k.text k.kids.isEmpty := by
  induction n using Node.ind with
  | h i t a x ks ih =>
    have hl : (ks.map Node.xml).isEmpty = ks.isEmpty := by cases ks <;> rfl
    rw [Node.xml_mk, Node.nodes_mk]
    constructor
    · intro h k hk
      obtain ⟨h1, h2⟩ := Xml.all_root h
      rcases List.mem_cons.mp hk with e | e
      · rw [e]; rw [hl] at h1; exact h1
      · obtain ⟨c, hc, hk⟩ := List.mem_flatMap.mp e
        exact (ih c hc).mp (h2 _ (List.mem_map_of_mem hc)) k hk
    · intro h
      refine .mk ?_ fun k hk => ?_
      · rw [hl]; exact h _ (List.mem_cons_self ..)
      · obtain ⟨c, hc, rfl⟩ := List.mem_map.mp hk
        exact (ih c hc).mpr fun k hk => h k (List.mem_cons_of_mem _ (List.mem_flatMap.mpr ⟨c, hc, hk⟩))

theorem tidy_valid {x : Xml} (h : TidyXml x) : x.Valid := by
  induction x using Xml.ind with
  | h t a x ks ih =>
    obtain ⟨h1, h2⟩ := Xml.all_root h
    refine .mk ⟨h1.name, h1.attrs, h1.once, h1.text, fun hk => h1.inner (.inl ?_)⟩ fun k hk => ih k hk (h2 k hk)
    cases ks with
    | nil => exact absurd rfl hk
    | cons => rfl

variable {s t : Db}

theorem tidy_content (hs : Inv s) (h : TidyHeap s.heap) {e : Nat} {x : Xml} (he : e ≠ 0) (hc : content s e = some x) : TidyXml x := by
  obtain ⟨n, hn, rfl⟩ := content_node hc
  obtain ⟨hm, hid⟩ := Node.get?_some hn
  rw [tidyXml_iff]
  intro k hk
  have hg := Node.get?_mem hs.world.uniq (Node.nodes_trans hm hk)
  have h0 : k.id ≠ 0 := by
    intro e0
    have := (reach_iff hs hn k.id).mpr (Node.mem_nodes_ids hk)
    rw [e0] at this
    exact zero_not_reach hs he this
  have := h k.id k.rec' h0 (by unfold Db.heap Node.view; rw [hg]; rfl)
  have hl : (k.kids.map Node.id).isEmpty = k.kids.isEmpty := by cases k.kids <;> rfl
  show Fine k.tag k.attrs k.text k.kids.isEmpty
  rw [← hl]
  exact this

theorem content_tidy (hs : Inv s) {e : Nat} {x : Xml} (hc : content s e = some x) (h : TidyXml x) {j : Nat} {r : Node.Rec}
    (hj : Reach s.heap e j) (hr : s.heap j = some r) : Fine r.tag r.attrs r.text r.kids.isEmpty := by
  obtain ⟨n, hn, rfl⟩ := content_node hc
  obtain ⟨hm, hid⟩ := Node.get?_some hn
  obtain ⟨k, hk, rfl⟩ := List.mem_map.mp ((reach_iff hs hn j).mp hj)
  have hg := Node.get?_mem hs.world.uniq (Node.nodes_trans hm hk)
  have e : s.heap k.id = some k.rec' := by unfold Db.heap Node.view; rw [hg]; rfl
  rw [e] at hr
  injection hr with hr
  rw [← hr]
  have hl : (k.kids.map Node.id).isEmpty = k.kids.isEmpty := by cases k.kids <;> rfl
  show Fine k.tag k.attrs k.text (k.kids.map Node.id).isEmpty
  rw [hl]
  exact (tidyXml_iff n).mp h k hk

theorem tidy_added (ht : Inv t) (h : TidyHeap s.heap) {p : Nat} (hA : Added s.heap t.heap p s.next t.next) {x : Xml}
    (hx : TidyXml x) (hc : content t s.next = some x) (hp : s.heap.tag p ∈ boxTags) : TidyHeap t.heap := by
  intro j r h0 hr
  by_cases hj : s.next ≤ j
  · have hlt : j < t.next := ht.bound j (heap_some.mp ⟨r, hr⟩)
    exact content_tidy ht hc hx ((hA.below j).mpr ⟨hj, hlt⟩) hr
  · by_cases e : j = p
    · obtain ⟨q, h1, h2⟩ := hA.here
      rw [e, h2] at hr
      injection hr with hr
      rw [← hr]
      have ht : q.tag ∈ boxTags := by
        have : s.heap.tag p = q.tag := by unfold Heap.tag; rw [h1]; rfl
        rw [← this]; exact hp
      exact fine_kids (h p q (e ▸ h0) h1) fun _ => .inr ht
    · rw [hA.other j e (by omega)] at hr
      exact h j r h0 hr

/-! ## New trees -/

theorem tidy_leaf {t : Str} {a : List (Str × Str)} {w : Str} (hn : Xml.isName t = true) (hb : t ∉ boxTags) (hw : XmlText w)
    (ha : ∀ p ∈ a, Xml.isName p.1 = true ∧ XmlText p.2) (ho : (a.map Prod.fst).Nodup) : TidyXml (Xml.mk t a (some w) []) :=
  .mk ⟨hn, ha, ho, fun s hs => by injection hs with hs; rw [← hs]; exact hw, fun h => by
    rcases h with h | h
    · cases h
    · exact absurd h hb, fun _ => rfl⟩ fun _ h => nomatch h

theorem tidy_textEl {t : Str} {v : Option Str} {x : Xml} (hn : Xml.isName t = true) (hb : t ∉ boxTags)
    (h : textEl t [] v = .ok x) : TidyXml x := by
  obtain ⟨w, _, hw, rfl⟩ := textEl_inv h
  exact tidy_leaf hn hb hw (fun _ h => nomatch h) List.nodup_nil

theorem tidy_node {t : Str} {ks : List Xml} (hn : Xml.isName t = true) (hl : t ∉ leafTags) (hk : ∀ k ∈ ks, TidyXml k) :
    TidyXml (Xml.mk t [] none ks) :=
  .mk (fine_mk hn nofun (fun _ => rfl) fun h => absurd h hl) hk

theorem tidy_string {key : Str} {v : Option Str} {p : Option Str} {x : Xml} (hp : ∀ q, p = some q → XmlText q)
    (h : stringEl key v p = .ok x) : TidyXml x := by
  have go : ∀ as : List (Str × Str), (∀ q ∈ as, Xml.isName q.1 = true ∧ XmlText q.2) → (as.map Prod.fst).Nodup → (do
      let k ← textEl "Key".toList [] (some key)
      let v ← textEl "Value".toList as v
      pure (Xml.mk "String".toList [] none [k, v])) = .ok x → TidyXml x := by
    intro as h1 h2 h
    cases hk : textEl "Key".toList [] (some key) with
    | error e => rw [hk] at h; cases h
    | ok k =>
      rw [hk] at h
      have h : (textEl "Value".toList as v >>= fun v => pure (Xml.mk "String".toList [] none [_, v])) = .ok x := h
      cases hv : textEl "Value".toList as v with
      | error e => rw [hv] at h; cases h
      | ok y =>
        rw [hv] at h
        injection h with h
        rw [← h]
        obtain ⟨w, _, hw, rfl⟩ := textEl_inv hv
        refine tidy_node (by decide) (by decide) fun z hz => ?_
        rcases List.mem_cons.mp hz with e | e
        · rw [e]; exact tidy_textEl (by decide) (by decide) hk
        · rw [List.mem_singleton.mp e]; exact tidy_leaf (by decide) (by decide) hw h1 h2
  cases p with
  | none => exact go [] (fun _ h => nomatch h) List.nodup_nil h
  | some q =>
    refine go [("Protected".toList, q)] (fun y hy => ?_) (by simp) h
    rw [List.mem_singleton.mp hy]
    exact ⟨show Xml.isName "Protected".toList = true by decide, hp q rfl⟩

theorem tidy_optString {key : Str} {v : Option Str} {p : Option Str} {l : List Xml} (hp : ∀ q, p = some q → XmlText q)
    (h : optString key v p = .ok l) : ∀ x ∈ l, TidyXml x := by
  cases v with
  | none => injection h with h; rw [← h]; exact fun _ h => nomatch h
  | some t =>
    have h : (if t = [] then .ok [] else (stringEl key (some t) p >>= fun x => pure [x]) : Except PyErr (List Xml)) = .ok l := h
    by_cases ht : t = []
    · rw [if_pos ht] at h; injection h with h; rw [← h]; exact fun _ h => nomatch h
    · rw [if_neg ht] at h
      cases h1 : stringEl key (some t) p with
      | error e => rw [h1] at h; cases h
      | ok x =>
        rw [h1] at h; injection h with h; rw [← h]
        intro y hy
        rw [List.mem_singleton.mp hy]
        exact tidy_string hp h1

theorem tidy_optText {tag : Str} {v : Option Str} {l : List Xml} (hn : Xml.isName tag = true) (hb : tag ∉ boxTags)
    (h : optText tag v = .ok l) : ∀ x ∈ l, TidyXml x := by
  cases v with
  | none => injection h with h; rw [← h]; exact fun _ h => nomatch h
  | some t =>
    have h : (if t = [] then .ok [] else (textEl tag [] (some t) >>= fun x => pure [x]) : Except PyErr (List Xml)) = .ok l := h
    by_cases ht : t = []
    · rw [if_pos ht] at h; injection h with h; rw [← h]; exact fun _ h => nomatch h
    · rw [if_neg ht] at h
      cases h1 : textEl tag [] (some t) with
      | error e => rw [h1] at h; cases h
      | ok x =>
        rw [h1] at h; injection h with h; rw [← h]
        intro y hy
        rw [List.mem_singleton.mp hy]
        exact tidy_textEl hn hb h1

theorem tidy_optTags {v : Option (List Str)} {l : List Xml} (h : optTags v = .ok l) : ∀ x ∈ l, TidyXml x := by
  cases v with
  | none => injection h with h; rw [← h]; exact fun _ h => nomatch h
  | some t =>
    have h : (if t = [] then .ok [] else (textEl "Tags".toList [] (some (joinTags t)) >>= fun x => pure [x]) : Except PyErr (List Xml)) = .ok l := h
    by_cases ht : t = []
    · rw [if_pos ht] at h; injection h with h; rw [← h]; exact fun _ h => nomatch h
    · rw [if_neg ht] at h
      cases h1 : textEl "Tags".toList [] (some (joinTags t)) with
      | error e => rw [h1] at h; cases h
      | ok x =>
        rw [h1] at h; injection h with h; rw [← h]
        intro y hy
        rw [List.mem_singleton.mp hy]
        exact tidy_textEl (by decide) (by decide) h1

theorem pyBool_xml (b : Bool) : XmlText (pyBool b) := by cases b <;> decide

theorem expiry_xml {env : Env} {ver : Nat × Nat} {e : Option DateTime} {now exp : Str} (hn : XmlText now)
    (h : expiryText env ver e now = .ok exp) : XmlText exp := by
  cases e with
  | none => injection h with h; rw [← h]; exact hn
  | some t =>
    unfold expiryText at h
    simp only at h
    split at h
    · cases h
    · exact encode_xml h

/-- The children put into every new element. -/
theorem tidy_base {env : Env} {icon : Option Str} {b : Bool} {e : Option DateTime} {s s' : Db} {l : List Xml}
    (h : baseKids env icon b e s = (.ok l, s')) : ∀ x ∈ l, TidyXml x := by
  have hi : ∃ is, optText "IconID".toList icon = .ok is := by
    unfold baseKids at h
    obtain ⟨u, s1, _, h⟩ := bind_inv h
    obtain ⟨is, s2, h2, _⟩ := bind_inv h
    exact ⟨is, (lift_inv h2).1⟩
  obtain ⟨is, hi⟩ := hi
  obtain ⟨now, exp, h1, h2, _, rfl⟩ := baseKids_inv h
  have hn := encode_xml h1
  have he := expiry_xml hn h2
  have leaf : ∀ (t : String) (w : Str), Xml.isName t.toList = true → t.toList ∉ boxTags → XmlText w → TidyXml (leafX t w) :=
    fun t w h1 h2 h3 => tidy_leaf h1 h2 h3 (fun _ h => nomatch h) List.nodup_nil
  intro x hx
  unfold baseX at hx
  rw [← optText_inv hi] at hx
  rcases List.mem_cons.mp hx with e | hx
  · rw [e]; exact leaf _ _ (by decide) (by decide) (b64_xml _)
  · rcases List.mem_append.mp hx with hx | hx
    · exact tidy_optText (by decide) (by decide) hi x hx
    · rw [List.mem_singleton.mp hx]
      refine tidy_node (by decide) (by decide) fun k hk => ?_
      simp only [List.mem_cons, List.not_mem_nil, or_false] at hk
      rcases hk with e | e | e | e | e | e | e <;> rw [e] <;> refine leaf _ _ (by decide) (by decide) ?_
      · exact hn
      · exact hn
      · exact hn
      · exact he
      · exact pyBool_xml _
      · decide
      · exact hn

theorem tidy_group {env : Env} {a b c : Option Str} {s s' : Db} {x : Xml} (h : newGroup env a b c s = (.ok x, s')) : TidyXml x := by
  unfold newGroup at h
  obtain ⟨l, s1, h1, h⟩ := bind_inv h
  obtain ⟨n, s2, h2, h⟩ := bind_inv h
  obtain ⟨m, s3, h3, h⟩ := bind_inv h
  obtain ⟨rfl, _⟩ := pure_inv h
  refine tidy_node (by decide) (by decide) fun k hk => ?_
  rcases List.mem_append.mp hk with hk | hk
  · rcases List.mem_append.mp hk with hk | hk
    · exact tidy_base h1 k hk
    · rw [List.mem_singleton.mp hk]; exact tidy_textEl (by decide) (by decide) (lift_inv h2).1
  · exact tidy_optText (by decide) (by decide) (lift_inv h3).1 k hk

theorem tidy_auto : TidyXml autoX := by
  have leaf : ∀ (t : String) (w : Str), Xml.isName t.toList = true → t.toList ∉ boxTags → XmlText w → TidyXml (leafX t w) :=
    fun t w h1 h2 h3 => tidy_leaf h1 h2 h3 (fun _ h => nomatch h) List.nodup_nil
  refine tidy_node (by decide) (by decide) fun k hk => ?_
  simp only [List.mem_cons, List.not_mem_nil, or_false] at hk
  rcases hk with e | e | e | e <;> rw [e]
  · exact leaf _ _ (by decide) (by decide) (by decide)
  · exact leaf _ _ (by decide) (by decide) (by decide)
  · exact leaf _ _ (by decide) (by decide) (by decide)
  · refine tidy_node (by decide) (by decide) fun k hk => ?_
    simp only [List.mem_cons, List.not_mem_nil, or_false] at hk
    rcases hk with e | e <;> rw [e] <;> exact leaf _ _ (by decide) (by decide) (by decide)

theorem tidy_entry {env : Env} {a : EntryArgs} {s s' : Db} {x : Xml} (h : newEntry env a s = (.ok x, s')) : TidyXml x := by
  have tt : ∀ q, some "True".toList = some q → XmlText q := by intro q h; injection h with h; rw [← h]; decide
  have nn : ∀ q, (none : Option Str) = some q → XmlText q := fun _ h => nomatch h
  unfold newEntry at h
  obtain ⟨l, s1, h1, h⟩ := bind_inv h
  obtain ⟨x1, s2, h2, h⟩ := bind_inv h
  obtain ⟨x2, s3, h3, h⟩ := bind_inv h
  obtain ⟨x3, s4, h4, h⟩ := bind_inv h
  obtain ⟨l1, s5, h5, h⟩ := bind_inv h
  obtain ⟨l2, s6, h6, h⟩ := bind_inv h
  obtain ⟨l3, s7, h7, h⟩ := bind_inv h
  obtain ⟨l4, s8, h8, h⟩ := bind_inv h
  obtain ⟨rfl, _⟩ := pure_inv h
  refine tidy_node (by decide) (by decide) fun k hk => ?_
  rcases List.mem_append.mp hk with hk | hk
  · rcases List.mem_append.mp hk with hk | hk
    · rcases List.mem_append.mp hk with hk | hk
      · rcases List.mem_append.mp hk with hk | hk
        · rcases List.mem_append.mp hk with hk | hk
          · rcases List.mem_append.mp hk with hk | hk
            · exact tidy_base h1 k hk
            · simp only [List.mem_cons, List.not_mem_nil, or_false] at hk
              rcases hk with e | e | e <;> rw [e]
              · exact tidy_string nn (lift_inv h2).1
              · exact tidy_string nn (lift_inv h3).1
              · exact tidy_string tt (lift_inv h4).1
          · exact tidy_optString nn (lift_inv h5).1 k hk
        · exact tidy_optString nn (lift_inv h6).1 k hk
      · exact tidy_optString tt (lift_inv h7).1 k hk
    · exact tidy_optTags (lift_inv h8).1 k hk
  · rw [List.mem_singleton.mp hk]; exact tidy_auto

theorem tidy_archive {x : Xml} (h : TidyXml x) (hb : x.tag ∈ boxTags) :
    TidyXml (Xml.mk x.tag x.attrs x.text (dropFirst "History".toList x.kids)) := by
  cases x with
  | mk t a v ks =>
    obtain ⟨h1, h2⟩ := Xml.all_root h
    refine .mk (fine_kids h1 fun _ => .inr hb) fun k hk => h2 k ?_
    have sub : ∀ l : List Xml, ∀ k ∈ dropFirst "History".toList l, k ∈ l := by
      intro l
      induction l with
      | nil => intro k hk; exact hk
      | cons a l ih =>
        intro k hk
        unfold dropFirst at hk
        split at hk
        · exact List.mem_cons_of_mem _ hk
        · rcases List.mem_cons.mp hk with e | e
          · rw [e]; exact List.mem_cons_self ..
          · exact List.mem_cons_of_mem _ (ih k e)
    exact sub ks k hk

theorem tidy_binary {b : Bytes} {n : Nat} {c : Bool} : TidyXml (Xml.mk "Binary".toList
    [("ID".toList, natStr n), ("Compressed".toList, pyBool c)] (some (b64encode b)) []) := by
  refine .mk ⟨by decide, fun p hp => ?_, show ["ID".toList, "Compressed".toList].Nodup by decide, fun s hs => ?_, fun _ s hs => ?_, fun h => absurd h (by decide)⟩ fun _ h => nomatch h
  · simp only [List.mem_cons, List.not_mem_nil, or_false] at hp
    rcases hp with e | e <;> rw [e]
    · exact ⟨show Xml.isName "ID".toList = true by decide, natStr_xml n⟩
    · exact ⟨show Xml.isName "Compressed".toList = true by decide, pyBool_xml c⟩
  · injection hs with hs; rw [← hs]; exact b64_xml _
  · injection hs with hs
    rw [← hs]
    by_cases hb : b = []
    · left; rw [hb]; rfl
    · exact .inr (blank_b64encode b hb)

theorem tidy_attachment {k : Xml} {v : Option Str} {i : Int} (h : textEl "Key".toList [] v = .ok k) :
    TidyXml (Xml.mk "Binary".toList [] none [k, Xml.mk "Value".toList [("Ref".toList, intStr i)] none []]) := by
  refine tidy_node (by decide) (by decide) fun z hz => ?_
  rcases List.mem_cons.mp hz with e | e
  · rw [e]; exact tidy_textEl (by decide) (by decide) h
  · rw [List.mem_singleton.mp e]
    refine .mk ⟨by decide, fun p hp => ?_, by simp, nofun, fun _ => nofun, fun _ => rfl⟩ fun _ h => nomatch h
    rw [List.mem_singleton.mp hp]
    exact ⟨show Xml.isName "Ref".toList = true by decide, intStr_xml i⟩

end Verif.Api
