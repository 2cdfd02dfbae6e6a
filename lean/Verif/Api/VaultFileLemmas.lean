import Verif.Spec.VaultFile
import Verif.Api.VaultNew
import Verif.Api.MoveLemmas
/-!
# A vault and the one read back from its file: lemmas
-/
namespace Verif.Api
open Verif XPath Spec

theorem emptied_norm (t : Option Str) : emptied t = Xml.normText t := by
  cases t with
  | none => rfl
  | some s => cases s <;> rfl

/-! ## Trees -/

theorem norm_kids (x : Xml) : x.norm.kids = x.kids.map Xml.norm := by cases x; rw [Xml.norm_mk]; rfl
theorem norm_tag (x : Xml) : x.norm.tag = x.tag := by cases x; rw [Xml.norm_mk]; rfl
theorem norm_text (x : Xml) : x.norm.text = emptied x.text := by cases x; rw [Xml.norm_mk, emptied_norm]; rfl
theorem norm_attr (x : Xml) (a : Str) : x.norm.attr a = x.attr a := by cases x; rw [Xml.norm_mk]; rfl

theorem norm_all (x : Xml) (t : Str) : xall x.norm t = (xall x t).map Xml.norm := by
  unfold xall
  rw [norm_kids, List.filter_map]
  congr 1
  refine List.filter_congr fun k _ => ?_
  show (k.norm.tag == t) = _
  rw [norm_tag]

theorem norm_has (x : Xml) {q : Str} (hq : q ≠ []) : xhasKey x.norm q = xhasKey x q := by
  unfold xhasKey
  rw [norm_all, List.any_map]
  congr 1
  funext c
  show (c.norm.text == some q) = _
  rw [norm_text]
  cases h : c.text with
  | none => rfl
  | some t =>
    cases t with
    | cons a t => rfl
    | nil =>
      cases q with
      | nil => exact absurd rfl hq
      | cons a q => rfl

theorem norm_values (x : Xml) {q : Str} (hq : q ≠ []) : xvalues x.norm q = (xvalues x q).map Xml.norm := by
  unfold xvalues
  rw [norm_all, List.filter_map, List.flatMap_map, List.map_flatMap]
  have : (fun s => xhasKey s q) ∘ Xml.norm = fun s => xhasKey s q := by funext s; exact norm_has s hq
  rw [this]
  congr 1
  funext s
  exact norm_all s _

theorem norm_els (p : List Str) (x : Xml) : xels p x.norm = (xels p x).map Xml.norm := by
  induction p generalizing x with
  | nil => rfl
  | cons t p ih =>
    show (xall x.norm t).flatMap _ = ((xall x t).flatMap _).map _
    rw [norm_all, List.flatMap_map, List.map_flatMap]
    congr 1
    funext y
    exact ih y

theorem norm_texts (l : List Xml) : (l.map Xml.norm).map Xml.text = (l.map Xml.text).map emptied := by
  rw [List.map_map, List.map_map]
  congr 1
  funext x
  exact norm_text x

theorem emptied_bind {α} (o : Option α) (f g : α → Option Str) (h : ∀ a, g a = emptied (f a)) : o.bind g = emptied (o.bind f) := by
  cases o with
  | none => rfl
  | some a => exact h a

/-- The card of the tree that is read back. -/
theorem norm_card (x : Xml) (R : Nat → Nat → Prop) {c d : Card}
    (hc : c = { xcard x with files := c.files, past := c.past, entries := c.entries, groups := c.groups })
    (hd : d = { xcard x.norm with files := d.files, past := d.past, entries := d.entries, groups := d.groups })
    (hcf : c.files.map File.content = (xcard x).files.map File.content)
    (hdf : d.files.map File.content = (xcard x.norm).files.map File.content)
    (hp : PairsOpt R c.past d.past) (he : Pairs R c.entries d.entries) (hg : Pairs R c.groups d.groups) : ReadBack R c d := by
  have hsub : ∀ t, xsub x.norm t = emptied (xsub x t) := by
    intro t
    unfold xsub
    rw [norm_all, List.head?_map, Option.bind_map]
    exact emptied_bind _ _ _ norm_text
  refine ⟨?_, ?_, ?_, ?_, ?_, ?_, ?_, ?_, hp, he, hg⟩
  · rw [hd, hc]; exact norm_tag x
  · intro p; rw [hd, hc]; exact hsub p.tag
  · intro p
    rw [hd, hc]
    show ((xall x.norm "Times".toList).head?.bind fun t => (xall t p.tag).head?).map Xml.text =
      (((xall x "Times".toList).head?.bind fun t => (xall t p.tag).head?).map Xml.text).map emptied
    rw [norm_all, List.head?_map]
    cases (xall x "Times".toList).head? with
    | none => rfl
    | some t =>
      show ((xall t.norm p.tag).head?).map Xml.text = ((xall t p.tag).head?.map Xml.text).map emptied
      rw [norm_all, List.head?_map]
      cases (xall t p.tag).head? with
      | none => rfl
      | some v => exact congrArg some (norm_text v)
  · rw [hd, hc]
    show (xall x.norm "String".toList).map _ = ((xall x "String".toList).map _).map emptied
    rw [norm_all, List.map_map, List.map_map]
    congr 1
    funext k
    show (xall k.norm "Key".toList).head?.bind Xml.text = emptied ((xall k "Key".toList).head?.bind Xml.text)
    rw [norm_all, List.head?_map, Option.bind_map]
    exact emptied_bind _ _ _ norm_text
  · intro k hk
    rw [hd, hc]
    show (xvalues x.norm k).head?.map Xml.text = ((xvalues x k).head?.map Xml.text).map emptied
    rw [norm_values x hk, List.head?_map]
    cases (xvalues x k).head? with
    | none => rfl
    | some v => exact congrArg some (norm_text v)
  · intro k hk
    rw [hd, hc]
    show (xvalues x.norm k).head?.bind (Xml.attr · "Protected".toList) = (xvalues x k).head?.bind (Xml.attr · "Protected".toList)
    rw [norm_values x hk, List.head?_map]
    cases (xvalues x k).head? with
    | none => rfl
    | some v => exact norm_attr v _
  · rw [hdf]
    have : (c.files.map fun f => (f.name.map emptied, f.number)) = (c.files.map File.content).map fun f => (f.1.map emptied, f.2) := by
      rw [List.map_map]; rfl
    rw [this, hcf]
    show ((xall x.norm "Binary".toList).map _).map _ = (((xall x "Binary".toList).map _).map _).map _
    rw [norm_all, List.map_map, List.map_map, List.map_map, List.map_map]
    congr 1
    funext a
    show ((xall a.norm "Key".toList).head?.map Xml.text, (xall a.norm "Value".toList).head?.map fun v => v.attr "Ref".toList) =
      (((xall a "Key".toList).head?.map Xml.text).map emptied, (xall a "Value".toList).head?.map fun v => v.attr "Ref".toList)
    rw [norm_all, norm_all, List.head?_map, List.head?_map]
    congr 1
    · cases (xall a "Key".toList).head? with
      | none => rfl
      | some v => exact congrArg some (norm_text v)
    · cases (xall a "Value".toList).head? with
      | none => rfl
      | some v => exact congrArg some (norm_attr v _)
  · intro p
    rw [hd, hc]
    show (xels p.path x.norm).map Xml.text = ((xels p.path x).map Xml.text).map emptied
    rw [norm_els, norm_texts]

/-! ## Elements at the same place -/

/-- The same way down from two elements. -/
inductive Walks (h h' : Heap) (d d' : Nat) : Nat → Nat → Prop where
  | top : Walks h h' d d' d d'
  | step {a b n c e : Nat} : Walks h h' d d' a b → (h.kids a)[n]? = some c → (h'.kids b)[n]? = some e → Walks h h' d d' c e

section
variable {s t : Db} {d d' : Nat}

theorem walks_swap {h h' : Heap} {x y : Nat} (w : Walks h h' d d' x y) : Walks h' h d' d y x := by
  induction w with
  | top => exact .top
  | step _ h1 h2 ih => exact .step ih h2 h1

theorem walks_reach {h h' : Heap} {x y : Nat} (w : Walks h h' d d' x y) : Reach h d x := by
  induction w with
  | top => exact .refl
  | step _ h1 _ ih => exact .snoc ih (List.mem_of_getElem? h1)

theorem kids_all_nodup (hs : Inv s) (a : Nat) : (s.heap.kids a).Nodup := by
  unfold Heap.kids
  cases h : s.heap a with
  | none => exact List.nodup_nil
  | some r => exact kids_nodup hs h

theorem walks_left (hs : Inv s) {x y : Nat} (w : Walks s.heap t.heap d d' x y) : ∀ {y'}, Walks s.heap t.heap d d' x y' → y = y' := by
  induction w with
  | top =>
    intro y' w'
    cases w' with
    | top => rfl
    | step w1 h1 _ => exact absurd (walks_reach w1) (no_cycle hs (List.mem_of_getElem? h1))
  | @step a b n c e w1 h1 h2 ih =>
    intro y' w'
    cases w' with
    | top => exact absurd (walks_reach w1) (no_cycle hs (List.mem_of_getElem? h1))
    | @step a' b' n' _ e' w1' h1' h2' =>
      have ha : a = a' := parent_eq hs (List.mem_of_getElem? h1) (List.mem_of_getElem? h1')
      subst ha
      have hb := ih w1'
      subst hb
      have hnd : (s.heap.kids a).Nodup := kids_all_nodup hs a
      have hn : n = n' := by
        obtain ⟨l1, e1⟩ := List.getElem?_eq_some_iff.mp h1
        obtain ⟨l2, e2⟩ := List.getElem?_eq_some_iff.mp h1'
        exact (List.getElem_inj hnd).mp (e1.trans e2.symm)
      subst hn
      rw [h2] at h2'
      injection h2'

theorem content_kids (hs : Inv s) {e : Nat} {x : Xml} (h : content s e = some x) : (s.heap.kids e).map (content s) = x.kids.map some := by
  obtain ⟨n, h1, rfl⟩ := content_node h
  obtain ⟨hm, _⟩ := Node.get?_some h1
  rw [node_kids h1, xml_kids, List.map_map, List.map_map]
  refine List.map_congr_left fun k hk => ?_
  show (s.world.get? k.id).map Node.xml = some k.xml
  rw [Node.get?_mem hs.world.uniq (Node.nodes_trans hm (Node.kid_mem_nodes hk))]
  rfl

theorem walks_content (hs : Inv s) (ht : Inv t) {y : Xml} (hd : content s d = some y) (hd' : content t d' = some y.norm) {a b : Nat}
    (w : Walks s.heap t.heap d d' a b) : ∃ z, content s a = some z ∧ content t b = some z.norm := by
  induction w with
  | top => exact ⟨y, hd, hd'⟩
  | @step a b n c e _ h1 h2 ih =>
    obtain ⟨z, i1, i2⟩ := ih
    have k1 := congrArg (·[n]?) (content_kids hs i1)
    have k2 := congrArg (·[n]?) (content_kids ht i2)
    simp only [List.getElem?_map, h1, h2, norm_kids, Option.map_some] at k1 k2
    cases hz : z.kids[n]? with
    | none => rw [hz] at k1; cases k1
    | some q =>
      rw [hz] at k1 k2
      injection k1 with k1
      injection k2 with k2
      exact ⟨q, k1, k2⟩

theorem pairs_of {α β} {R : α → β → Prop} : ∀ {l : List α} {m : List β}, l.length = m.length →
    (∀ (n : Nat) a b, l[n]? = some a → m[n]? = some b → R a b) → Pairs R l m
  | [], [], _, _ => .nil
  | [], _ :: _, h, _ => by cases h
  | _ :: _, [], h, _ => by cases h
  | a :: l, b :: m, h, hr => .cons (hr 0 a b rfl rfl) (pairs_of (Nat.succ.inj h) fun n x y h1 h2 => hr (n + 1) x y h1 h2)

theorem pairs_filter {α β} {R : α → β → Prop} {p : α → Bool} {q : β → Bool} (hpq : ∀ a b, R a b → p a = q b) {l : List α} {m : List β}
    (h : Pairs R l m) : Pairs R (l.filter p) (m.filter q) := by
  induction h with
  | nil => exact .nil
  | @cons a b l m h1 _ ih =>
    rw [List.filter_cons, List.filter_cons, hpq a b h1]
    split
    · exact .cons h1 ih
    · exact ih

theorem pairs_imp {α β} {R S : α → β → Prop} {l : List α} {m : List β} (h : Pairs R l m) (hi : ∀ a ∈ l, ∀ b, R a b → S a b) : Pairs S l m := by
  induction h with
  | nil => exact .nil
  | @cons a b l m h1 _ ih => exact .cons (hi a (List.mem_cons_self ..) b h1) (ih fun a ha => hi a (List.mem_cons_of_mem _ ha))

theorem walks_all (hs : Inv s) (ht : Inv t) {y : Xml} (hd : content s d = some y) (hd' : content t d' = some y.norm) {a b : Nat}
    (w : Walks s.heap t.heap d d' a b) (g : Str) : Pairs (Walks s.heap t.heap d d') (s.heap.all a g) (t.heap.all b g) := by
  obtain ⟨z, i1, i2⟩ := walks_content hs ht hd hd' w
  have hl : (s.heap.kids a).length = (t.heap.kids b).length := by
    have k1 := congrArg List.length (content_kids hs i1)
    have k2 := congrArg List.length (content_kids ht i2)
    rw [List.length_map, List.length_map] at k1 k2
    rw [norm_kids, List.length_map] at k2
    rw [k1, k2]
  refine pairs_filter (fun x x' wx => ?_) (pairs_of hl fun n x x' h1 h2 => .step w h1 h2)
  obtain ⟨q, j1, j2⟩ := walks_content hs ht hd hd' wx
  rw [content_tag j1, content_tag j2, norm_tag]

theorem pairs_one {α β} {R : α → β → Prop} {a : α} {m : List β} (h : Pairs R [a] m) : ∃ b, m = [b] ∧ R a b := by
  cases h with
  | cons h1 h2 => cases h2; exact ⟨_, rfl, h1⟩

theorem walks_onto (hs : Inv s) (ht : Inv t) {y : Xml} (hd : content s d = some y) (hd' : content t d' = some y.norm) {b : Nat}
    (hr : Reach t.heap d' b) : ∃ a, Walks s.heap t.heap d d' a b := by
  induction hr with
  | refl => exact ⟨d, .top⟩
  | @snoc b c _ hk ih =>
    obtain ⟨a, w⟩ := ih
    obtain ⟨n, hn, e⟩ := List.getElem_of_mem hk
    obtain ⟨z, i1, i2⟩ := walks_content hs ht hd hd' w
    have hl : (s.heap.kids a).length = (t.heap.kids b).length := by
      have k1 := congrArg List.length (content_kids hs i1)
      have k2 := congrArg List.length (content_kids ht i2)
      rw [List.length_map, List.length_map] at k1 k2
      rw [norm_kids, List.length_map] at k2
      rw [k1, k2]
    exact ⟨(s.heap.kids a)[n]'(by omega), .step w (List.getElem?_eq_getElem _) (by rw [List.getElem?_eq_getElem hn, e])⟩

/-- The entry or group `y` is at the place of `x`. -/
def AtPlace (s t : Db) (d d' x y : Nat) : Prop := Walks s.heap t.heap d d' x y ∧ ¬ NoCard (s.heap.tag x)

/-- The database loaded from the tree of another one, as it is read back. -/
theorem from_file (hs : Sound s) (ht : Inv t) {y : Xml} (hdoc : docEl s.heap = some d) (hdoc' : docEl t.heap = some d')
    (hd : content s d = some y) (hd' : content t d' = some y.norm) (hall : ∀ j ∈ t.world.ids, j ≠ 0 → Reach t.heap d' j) :
    FromFile (AtPlace s t d d') (vaultOf s) (vaultOf t) := by
  have wc := fun {a b} => walks_content (a := a) (b := b) hs.inv ht hd hd'
  have wall := fun {a b} => walks_all (a := a) (b := b) hs.inv ht hd hd'
  have tags : ∀ {a b}, Walks s.heap t.heap d d' a b → t.heap.tag b = s.heap.tag a := by
    intro a b w
    obtain ⟨q, j1, j2⟩ := wc w
    rw [content_tag j1, content_tag j2, norm_tag]
  have pl : ∀ {a b g}, Walks s.heap t.heap d d' a b → ¬ NoCard g → Pairs (AtPlace s t d d') (s.heap.all a g) (t.heap.all b g) := by
    intro a b g w hg
    exact pairs_imp (wall w g) fun x hx _ wx => ⟨wx, by rw [(all_kid hx).2]; exact hg⟩
  refine ⟨fun x y y' h1 h2 => walks_left hs.inv h1.1 h2.1, fun x x' y h1 h2 => walks_left ht (walks_swap h1.1) (walks_swap h2.1), ?_, ?_, ?_⟩
  · rintro x x' ⟨w, hx⟩
    obtain ⟨z, i1, i2⟩ := wc w
    refine ⟨_, _, card_some hx, card_some (by rw [tags w]; exact hx), ?_⟩
    refine norm_card z _ (content_card hs.inv i1) (content_card ht i2) (content_files hs.inv i1) (content_files ht i2) ?_
      (pl w (by decide)) (pl w (by decide))
    show PairsOpt _ ((s.heap.find x "History".toList).map _) ((t.heap.find x' "History".toList).map _)
    unfold Heap.find
    have hw := wall w "History".toList
    match h1 : s.heap.all x "History".toList, h2 : t.heap.all x' "History".toList, hw with
    | _, _, .nil => exact .none
    | _, _, .cons hk _ => exact .some (pl hk (by decide))
  · obtain ⟨d0, m, r, hk⟩ := hs.skeleton
    have e0 : d0 = d := by have := hk.doc; rw [hdoc] at this; injection this with this; exact this.symm
    subst e0
    have hr := wall .top "Root".toList
    rw [hk.root] at hr
    obtain ⟨r', hr', w⟩ := pairs_one hr
    show Pairs _ (rootsOf s.heap) (rootsOf t.heap)
    rw [roots_of hk, roots_eq hdoc' hr']
    exact pl w (by decide)
  · intro b c hc
    obtain ⟨hb, _⟩ := card_inv hc
    have hr := hall b (card_mem hb) (card_pos ht hb)
    obtain ⟨a, w⟩ := walks_onto hs.inv ht hd hd' hr
    exact ⟨a, w, by rw [← tags w]; exact hb⟩

theorem norm_neat {z : Xml} (hz : XNeat z) (hk : some [] ∉ (xcard z).keys) : XNeat z.norm := by
  have key : ∀ k ∈ xall z "String".toList, ∃ c a t, xall k "Key".toList = [c] ∧ c.text = some (a :: t) := by
    intro k hk'
    obtain ⟨c, t, h1, h2⟩ := hz.key k hk'
    cases t with
    | cons a t => exact ⟨c, a, t, h1, h2⟩
    | nil =>
      refine absurd (List.mem_map.mpr ⟨k, hk', ?_⟩) hk
      show (xall k "Key".toList).head?.bind Xml.text = some []
      rw [h1]
      exact h2
  refine ⟨fun t ht => by rw [norm_all, List.length_map]; exact hz.once t ht, ?_, ?_, ?_⟩
  · intro k hk'
    rw [norm_all] at hk'
    obtain ⟨k, hk1, rfl⟩ := List.mem_map.mp hk'
    obtain ⟨c, a, t, h1, h2⟩ := key k hk1
    exact ⟨c.norm, a :: t, by rw [norm_all, h1]; rfl, by rw [norm_text, h2]; rfl⟩
  · intro k hk'
    rw [norm_all] at hk'
    obtain ⟨k, hk1, rfl⟩ := List.mem_map.mp hk'
    obtain ⟨v, h1⟩ := hz.value k hk1
    exact ⟨v.norm, by rw [norm_all, h1]; rfl⟩
  · intro q
    rw [norm_all, List.filter_map, List.length_map]
    cases q with
    | cons a q =>
      have : (fun k => xhasKey k (a :: q)) ∘ Xml.norm = fun k => xhasKey k (a :: q) := by funext k; exact norm_has k (by simp)
      rw [this]
      exact hz.uniq _
    | nil =>
      have : (xall z "String".toList).filter ((fun k => xhasKey k []) ∘ Xml.norm) = [] := by
        refine List.filter_eq_nil_iff.mpr fun k hk' => ?_
        obtain ⟨c, a, t, h1, h2⟩ := key k hk'
        show ¬ xhasKey k.norm [] = true
        unfold xhasKey
        rw [norm_all, h1]
        show ¬ ((c.norm.text == some []) || false) = true
        rw [norm_text, h2]
        simp [emptied]
      rw [this]
      exact Nat.zero_le _

/-- It is sound again, unless there was a string field with an empty key. -/
theorem sound_again (hs : Sound s) (ht : Inv t) {y : Xml} (hdoc : docEl s.heap = some d) (hdoc' : docEl t.heap = some d')
    (hd : content s d = some y) (hd' : content t d' = some y.norm) (hall : ∀ j ∈ t.world.ids, j ≠ 0 → Reach t.heap d' j)
    (hkey : ∀ x c, (vaultOf s).card x = some c → some [] ∉ c.keys) : Sound t := by
  have tags : ∀ {a b}, Walks s.heap t.heap d d' a b → t.heap.tag b = s.heap.tag a := by
    intro a b w
    obtain ⟨q, j1, j2⟩ := walks_content hs.inv ht hd hd' w
    rw [content_tag j1, content_tag j2, norm_tag]
  obtain ⟨d0, m, r, hk⟩ := hs.skeleton
  have e0 : d0 = d := by have := hk.doc; rw [hdoc] at this; injection this with this; exact this.symm
  subst e0
  have h0 : d0 ≠ 0 := tag_ne_zero hs.inv (by rw [hk.tag]; decide)
  refine ⟨ht, ?_, ?_, ?_⟩
  · have h1 := walks_all hs.inv ht hd hd' .top "Root".toList
    have h2 := walks_all hs.inv ht hd hd' .top "Meta".toList
    rw [hk.root] at h1
    rw [hk.info] at h2
    obtain ⟨r', h1, _⟩ := pairs_one h1
    obtain ⟨m', h2, _⟩ := pairs_one h2
    exact ⟨d', m', r', hdoc', by rw [tags .top]; exact hk.tag, h2, h1⟩
  · intro p c hp hc
    have hr := hall p (kid_mem ht hc).2 hp
    obtain ⟨a, w⟩ := walks_onto hs.inv ht hd hd' hr
    obtain ⟨e, we⟩ := walks_onto hs.inv ht hd hd' (.snoc hr hc)
    rw [tags w, tags we]
    cases we with
    | top => exact absurd hr (no_cycle ht hc)
    | @step a' b' n _ _ w' k1 k2 =>
      have hb : p = b' := parent_eq ht hc (List.mem_of_getElem? k2)
      subst hb
      have ha : a = a' := walks_left ht (walks_swap w) (walks_swap w')
      subst ha
      refine hs.shaped a e ?_ (List.mem_of_getElem? k1)
      rintro rfl
      exact zero_not_reach hs.inv h0 (walks_reach w)
  · intro b hb
    obtain ⟨a, w⟩ := walks_onto hs.inv ht hd hd' (hall b (card_mem hb) (card_pos ht hb))
    obtain ⟨z, i1, i2⟩ := walks_content hs.inv ht hd hd' w
    have ha : ¬ NoCard (s.heap.tag a) := by rw [← tags w]; exact hb
    refine (content_neat ht i2).mpr (norm_neat ((content_neat hs.inv i1).mp (hs.neat a ha)) ?_)
    have := hkey a _ (card_some ha)
    rw [content_card hs.inv i1] at this
    exact this

end
end Verif.Api
