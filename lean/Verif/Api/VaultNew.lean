import Verif.Api.VaultSteps
import Verif.Props.C40_Duplicates
import Verif.Api.NamedLemmas
/-!
# New cards
-/
namespace Verif.Api
open Verif XPath Spec

/-! ## The card of a content -/

/-- The elements at a place. -/
def xels : List Str → Xml → List Xml
  | [], x => [x]
  | t :: p, x => (xall x t).flatMap (xels p)

/-- The card of an element without entries, groups and history in it. -/
def xcard (x : Xml) : Card where
  kind := x.tag
  text p := xsub x p.tag
  time p := ((xall x "Times".toList).head?.bind fun t => (xall t p.tag).head?).map Xml.text
  keys := (xall x "String".toList).map fun k => (xall k "Key".toList).head?.bind Xml.text
  field k := (xvalues x k).head?.map Xml.text
  mark k := (xvalues x k).head?.bind (Xml.attr · "Protected".toList)
  files := (xall x "Binary".toList).map fun a => ⟨0, (xall a "Key".toList).head?.map Xml.text, (xall a "Value".toList).head?.map fun v => v.attr "Ref".toList⟩
  auto p := (xels p.path x).map Xml.text
  past := none
  entries := []
  groups := []

structure XNeat (x : Xml) : Prop where
  once : ∀ t ∈ singles, (xall x t).length ≤ 1
  key : ∀ k ∈ xall x "String".toList, ∃ c t, xall k "Key".toList = [c] ∧ c.text = some t
  value : ∀ k ∈ xall x "String".toList, ∃ v, xall k "Value".toList = [v]
  uniq : ∀ q, ((xall x "String".toList).filter fun k => xhasKey k q).length ≤ 1

section
variable {s : Db} {e : Nat} {x : Xml}

theorem map_content {β} {l : List Nat} {xs : List Xml} (h : l.map (content s) = xs.map some) {f : Nat → β} {g : Xml → β}
    (hf : ∀ k y, content s k = some y → f k = g y) : l.map f = xs.map g := by
  induction l generalizing xs with
  | nil => cases xs with
    | nil => rfl
    | cons => cases h
  | cons k l ih =>
    cases xs with
    | nil => cases h
    | cons y xs =>
      injection h with h1 h2
      rw [List.map_cons, List.map_cons, hf k y h1, ih h2]

theorem content_map {β} (hs : Inv s) (h : content s e = some x) (t : Str) {f : Nat → β} {g : Xml → β}
    (hf : ∀ k y, content s k = some y → f k = g y) : (s.heap.all e t).map f = (xall x t).map g := map_content (content_all hs h t).2 hf

theorem content_under (hs : Inv s) (h : content s e = some x) {t : Str} {k : Nat} (hk : k ∈ s.heap.all e t) :
    ∃ y ∈ xall x t, content s k = some y := by
  have : content s k ∈ (s.heap.all e t).map (content s) := List.mem_map_of_mem hk
  rw [(content_all hs h t).2] at this
  obtain ⟨y, h1, h2⟩ := List.mem_map.mp this
  exact ⟨y, h1, h2.symm⟩

theorem content_one (hs : Inv s) (h : content s e = some x) {t : Str} {y : Xml} (hy : xall x t = [y]) :
    ∃ k, s.heap.all e t = [k] ∧ content s k = some y := by
  have := (content_all hs h t).2
  rw [hy] at this
  match hl : s.heap.all e t with
  | [] => rw [hl] at this; cases this
  | [k] => rw [hl] at this; injection this with this _; exact ⟨k, rfl, this⟩
  | a :: b :: l => rw [hl] at this; injection this with _ this; cases this

theorem content_els (hs : Inv s) (p : List Str) : ∀ {e : Nat} {x : Xml}, content s e = some x →
    (elsAt s.heap p e).map s.heap.text = (xels p x).map Xml.text := by
  induction p with
  | nil =>
    intro e x h
    show [s.heap.text e] = [x.text]
    rw [content_text h]
  | cons t p ih =>
    intro e x h
    show ((s.heap.all e t).flatMap _).map _ = ((xall x t).flatMap _).map _
    rw [List.map_flatMap, List.map_flatMap, List.flatMap_def, List.flatMap_def]
    exact congrArg List.flatten (content_map hs h t fun k y hy => ih hy)

/-- The card of an element is read from its content. -/
theorem content_card (hs : Inv s) (h : content s e = some x) : cardOf s.heap e = { xcard x with
    files := (cardOf s.heap e).files, past := (cardOf s.heap e).past, entries := (cardOf s.heap e).entries, groups := (cardOf s.heap e).groups } := by
  have htext : ∀ k y, content s k = some y → s.heap.text k = y.text := fun k y hy => content_text hy
  refine Card.ext (content_tag h) ?_ ?_ ?_ ?_ ?_ rfl ?_ rfl rfl rfl
  · funext p; exact content_sub hs h p.tag
  · funext p
    show (timeEl s.heap e p.tag).map s.heap.text = _
    have : ∀ l : List Nat, (l.head?.bind fun k => (s.heap.all k p.tag).head?).map s.heap.text =
        (l.map fun k => ((s.heap.all k p.tag).map s.heap.text).head?).head?.bind id := by
      intro l; cases l with
      | nil => rfl
      | cons a l => show _ = ((s.heap.all a p.tag).map s.heap.text).head?; rw [List.head?_map]; rfl
    have this' : ∀ l : List Xml, (l.head?.bind fun k => (xall k p.tag).head?).map Xml.text =
        (l.map fun k => ((xall k p.tag).map Xml.text).head?).head?.bind id := by
      intro l; cases l with
      | nil => rfl
      | cons a l => show _ = ((xall a p.tag).map Xml.text).head?; rw [List.head?_map]; rfl
    show ((s.heap.all e "Times".toList).head?.bind fun k => (s.heap.all k p.tag).head?).map s.heap.text = _
    rw [this]
    show _ = ((xall x "Times".toList).head?.bind fun t => (xall t p.tag).head?).map Xml.text
    rw [this', content_map hs h _ (g := fun k => ((xall k p.tag).map Xml.text).head?) fun k y hy => by rw [content_map hs hy _ htext]]
  · refine content_map hs h _ fun k y hy => ?_
    unfold Heap.find
    rw [head_bind (s.heap.all k _), head_bind (xall y _), content_map hs hy _ htext]
  · funext k
    show (valueEls s.heap e k).head?.map s.heap.text = (xvalues x k).head?.map Xml.text
    rw [← List.head?_map, ← List.head?_map, (content_values hs h k).1]
  · funext k; exact content_mark hs h k
  · funext p; exact content_els hs _ h

theorem content_files (hs : Inv s) (h : content s e = some x) : (cardOf s.heap e).files.map File.content = (xcard x).files.map File.content := by
  show ((s.heap.all e "Binary".toList).map _).map _ = ((xall x "Binary".toList).map _).map _
  rw [List.map_map, List.map_map]
  refine content_map hs h _ fun k y hy => ?_
  show ((s.heap.find k _).map _, (s.heap.find k _).map _) = ((xall y _).head?.map _, (xall y _).head?.map _)
  unfold Heap.find
  rw [← List.head?_map, ← List.head?_map, ← List.head?_map, ← List.head?_map,
    content_map hs hy "Key".toList (g := Xml.text) fun v z hz => content_text hz,
    content_map hs hy "Value".toList (g := fun v => v.attr "Ref".toList) fun v z hz => content_attr hz _]

theorem content_key (hs : Inv s) (h : content s e = some x) (q : Str) : hasKey s.heap e q = xhasKey x q := by
  unfold hasKey xhasKey
  have : ∀ {α} (l : List α) (f : α → Option Str), (l.any fun c => f c == some q) = (l.map f).any fun t => t == some q := by
    intro α l f
    rw [List.any_map]; rfl
  rw [this (s.heap.all e _), this (xall x _), (content_all hs h _).1]

theorem content_neat (hs : Inv s) (h : content s e = some x) : Neat s.heap e ↔ XNeat x := by
  have hlen : ∀ q, (fieldEls s.heap e q).length = ((xall x "String".toList).filter fun k => xhasKey k q).length := by
    intro q
    have : ∀ {l : List Nat} {xs : List Xml}, l.map (content s) = xs.map some →
        (l.filter fun k => hasKey s.heap k q).length = (xs.filter fun k => xhasKey k q).length := by
      intro l
      induction l with
      | nil => intro xs h; cases xs with
        | nil => rfl
        | cons => cases h
      | cons k l ih =>
        intro xs h
        cases xs with
        | nil => cases h
        | cons y xs =>
          injection h with h1 h2
          rw [List.filter_cons, List.filter_cons, content_key hs h1]
          split
          · rw [List.length_cons, List.length_cons, ih h2]
          · exact ih h2
    exact this (content_all hs h _).2
  have hone : ∀ {k : Nat} {y : Xml} (t : Str), content s k = some y → ∀ {z}, s.heap.all k t = [z] → ∃ w, xall y t = [w] ∧ content s z = some w := by
    intro k y t hy z hz
    have := (content_all hs hy t).2
    rw [hz] at this
    match hl : xall y t with
    | [] => rw [hl] at this; cases this
    | [w] => rw [hl] at this; injection this with this _; exact ⟨w, rfl, this⟩
    | a :: b :: l => rw [hl] at this; injection this with _ this; cases this
  constructor
  · intro n
    refine ⟨fun t ht => by rw [← content_len hs h]; exact n.once t ht, fun y hy => ?_, fun y hy => ?_, fun q => by rw [← hlen]; exact n.fields.uniq q⟩
    all_goals
      obtain ⟨k, hk, ck⟩ : ∃ k ∈ s.heap.all e "String".toList, content s k = some y := by
        have : some y ∈ (xall x "String".toList).map some := List.mem_map_of_mem hy
        rw [← (content_all hs h _).2] at this
        exact List.mem_map.mp this
    · obtain ⟨c, t, h1, h2⟩ := n.fields.key k hk
      obtain ⟨w, h3, h4⟩ := hone _ ck h1
      exact ⟨w, t, h3, by rw [← content_text h4, h2]⟩
    · obtain ⟨v, h1⟩ := n.fields.value k hk
      obtain ⟨w, h3, _⟩ := hone _ ck h1
      exact ⟨w, h3⟩
  · intro n
    refine ⟨fun t ht => by rw [content_len hs h]; exact n.once t ht, fun k hk => ?_, fun k hk => ?_, fun q => by rw [hlen]; exact n.uniq q⟩
    all_goals obtain ⟨y, hy, ck⟩ := content_under hs h hk
    · obtain ⟨c, t, h1, h2⟩ := n.key y hy
      obtain ⟨w, h3, h4⟩ := content_one hs ck h1
      exact ⟨w, t, h3, by rw [content_text h4, h2]⟩
    · obtain ⟨v, h1⟩ := n.value y hy
      obtain ⟨w, h3, _⟩ := content_one hs ck h1
      exact ⟨w, h3⟩

end

/-! ## The cards of new groups and entries -/

theorem times_card (now exp : Str) (b : Bool) (p : TimeProp) :
    ((xall (timesX now exp b) p.tag).head?).map Xml.text = newTimes now exp b p := by
  cases p <;> rfl

theorem xsub_eq {x : Xml} {t : Str} {l : List Xml} (h : xall x t = l) : xsub x t = l.head?.bind Xml.text := by unfold xsub; rw [h]

theorem xvalues_nil {x : Xml} (h : xall x "String".toList = []) (k : Str) : xvalues x k = [] := by unfold xvalues; rw [h]; rfl

theorem newGroup_card (u : Bytes) (now n : Str) (icon notes : Option Str) :
    xcard (groupXml u now n icon notes) = newGroupCard u now n icon notes := by
  obtain ⟨f1, f2, f3, f4, f5⟩ := group_first u now n icon notes
  have hs : xall (groupXml u now n icon notes) "String".toList = [] := by
    rw [group_all, if_neg (by decide), if_neg (by decide), if_neg (by decide), if_neg (by decide), if_neg (by decide)]; rfl
  have hb : xall (groupXml u now n icon notes) "Binary".toList = [] := by
    rw [group_all, if_neg (by decide), if_neg (by decide), if_neg (by decide), if_neg (by decide), if_neg (by decide)]; rfl
  have ht : xall (groupXml u now n icon notes) "Tags".toList = [] := by
    rw [group_all, if_neg (by decide), if_neg (by decide), if_neg (by decide), if_neg (by decide), if_neg (by decide)]; rfl
  refine Card.ext rfl ?_ ?_ ?_ ?_ ?_ ?_ ?_ rfl rfl rfl
  · funext p
    cases p with
    | uuid => exact f1
    | icon => exact f2
    | name => exact f3
    | notes => exact f4
    | tags => exact xsub_eq ht
  · funext p
    show ((xall _ "Times".toList).head?.bind _).map Xml.text = _
    rw [f5]
    exact times_card now now false p
  · show (xall _ "String".toList).map _ = []
    rw [hs]; rfl
  · funext k
    show (xvalues _ k).head?.map _ = none
    rw [xvalues_nil hs]; rfl
  · funext k
    show (xvalues _ k).head?.bind _ = none
    rw [xvalues_nil hs]; rfl
  · show (xall _ "Binary".toList).map _ = []
    rw [hb]; rfl
  · have ha : xall (groupXml u now n icon notes) "AutoType".toList = [] := by
      rw [group_all, if_neg (by decide), if_neg (by decide), if_neg (by decide), if_neg (by decide), if_neg (by decide)]; rfl
    funext q
    have key : ∀ l : List Str, xels ("AutoType".toList :: l) (groupXml u now n icon notes) = [] := fun l => by
      show (xall _ _).flatMap _ = []
      rw [ha]; rfl
    cases q <;> exact congrArg (List.map Xml.text) (key _)

theorem optLeaf_len (t : String) (v : Option Str) : (optLeaf t v).length ≤ 1 := by
  unfold optLeaf
  cases v with
  | none => exact Nat.zero_le _
  | some w =>
    show (if w = [] then [] else [leafX t w]).length ≤ 1
    split
    · exact Nat.zero_le _
    · exact Nat.le_refl _

theorem newGroup_neat (u : Bytes) (now n : Str) (icon notes : Option Str) : XNeat (groupXml u now n icon notes) := by
  have hs : xall (groupXml u now n icon notes) "String".toList = [] := by
    rw [group_all, if_neg (by decide), if_neg (by decide), if_neg (by decide), if_neg (by decide), if_neg (by decide)]; rfl
  refine ⟨fun t ht => ?_, fun k hk => ?_, fun k hk => ?_, fun q => ?_⟩
  · have : t = "UUID".toList ∨ t = "IconID".toList ∨ t = "Name".toList ∨ t = "Notes".toList ∨ t = "Tags".toList ∨ t = "History".toList := by
      unfold singles at ht
      rcases List.mem_cons.mp ht with h | ht
      · exact .inl h
      rcases List.mem_cons.mp ht with h | ht
      · exact .inr (.inl h)
      rcases List.mem_cons.mp ht with h | ht
      · exact .inr (.inr (.inl h))
      rcases List.mem_cons.mp ht with h | ht
      · exact .inr (.inr (.inr (.inl h)))
      rcases List.mem_cons.mp ht with h | ht
      · exact .inr (.inr (.inr (.inr (.inl h))))
      · exact .inr (.inr (.inr (.inr (.inr (List.mem_singleton.mp ht)))))
    rw [group_all]
    rcases this with rfl | rfl | rfl | rfl | rfl | rfl
    · rw [if_pos rfl, if_neg (by decide), if_neg (by decide), if_neg (by decide), if_neg (by decide)]; exact Nat.le_refl _
    · rw [if_neg (by decide), if_pos rfl, if_neg (by decide), if_neg (by decide), if_neg (by decide)]
      simp only [List.nil_append, List.append_nil]; exact optLeaf_len ..
    · rw [if_neg (by decide), if_neg (by decide), if_neg (by decide), if_pos rfl, if_neg (by decide)]; exact Nat.le_refl _
    · rw [if_neg (by decide), if_neg (by decide), if_neg (by decide), if_neg (by decide), if_pos rfl]
      simp only [List.nil_append, List.append_nil]; exact optLeaf_len ..
    · rw [if_neg (by decide), if_neg (by decide), if_neg (by decide), if_neg (by decide), if_neg (by decide)]; exact Nat.zero_le _
    · rw [if_neg (by decide), if_neg (by decide), if_neg (by decide), if_neg (by decide), if_neg (by decide)]; exact Nat.zero_le _
  · rw [hs] at hk; cases hk
  · rw [hs] at hk; cases hk
  · rw [hs]; exact Nat.zero_le _

/-- A string field of a new entry. -/
def fieldXml (f : Str × Str × Option Str) : Xml := stringXml f.1 f.2.1 f.2.2

theorem optX_field (k : Str) (v m : Option Str) : optX k v m = (((nonEmpty v).map fun w => (k, w, m)).toList).map fieldXml := by
  cases v with
  | none => rfl
  | some t =>
    show (if t = [] then [] else [stringXml k t m]) = (((if t = [] then none else some t).map fun w => (k, w, m)).toList).map fieldXml
    split <;> rfl

theorem newEntry_strings (u : Bytes) (now exp : Str) (a : EntryArgs) (t n p : Str) :
    xall (entryXml u now exp a t n p) "String".toList = (newFields a t n p).map fieldXml := by
  rw [entry_all, if_neg (by decide), if_neg (by decide), if_neg (by decide), if_pos rfl, if_neg (by decide), if_neg (by decide)]
  simp only [List.nil_append, List.append_nil]
  unfold newFields
  rw [List.map_append, List.map_append, List.map_append, ← optX_field, ← optX_field, ← optX_field]
  rfl

theorem fieldXml_has (f : Str × Str × Option Str) (k : Str) : xhasKey (fieldXml f) k = (k == f.1) := (stringXml_read ..).2.2.2 k

theorem strings_values (fs : List (Str × Str × Option Str)) (k : Str) :
    ((fs.map fieldXml).filter fun s => xhasKey s k).flatMap (fun s => xall s "Value".toList) =
      (fs.filter fun f => k == f.1).map fun f => valueX f.2.1 f.2.2 := by
  induction fs with
  | nil => rfl
  | cons f fs ih =>
    rw [List.map_cons, List.filter_cons, List.filter_cons, fieldXml_has]
    split
    · rw [List.flatMap_cons, ih, List.map_cons]; rfl
    · exact ih

theorem lookup_filter (fs : List (Str × Str × Option Str)) (k : Str) : fs.lookup k = (fs.filter fun f => k == f.1).head?.map Prod.snd := by
  induction fs with
  | nil => rfl
  | cons f fs ih =>
    obtain ⟨a, b⟩ := f
    rw [List.lookup_cons, List.filter_cons]
    cases h : k == a with
    | true => rfl
    | false => exact ih

theorem valueX_attr (v : Str) (m : Option Str) : (valueX v m).attr "Protected".toList = m := by cases m <;> rfl

theorem newEntry_card (u : Bytes) (now exp : Str) (a : EntryArgs) (t n p : Str) :
    xcard (entryXml u now exp a t n p) = newEntryCard u now exp a t n p := by
  have hs := newEntry_strings u now exp a t n p
  have hv : ∀ k, xvalues (entryXml u now exp a t n p) k = ((newFields a t n p).filter fun f => k == f.1).map fun f => valueX f.2.1 f.2.2 := by
    intro k
    unfold xvalues
    rw [hs]
    exact strings_values _ k
  have none_of : ∀ tag, tag ≠ "UUID".toList → tag ≠ "IconID".toList → tag ≠ "Times".toList → tag ≠ "String".toList → tag ≠ "Tags".toList →
      tag ≠ "AutoType".toList → xall (entryXml u now exp a t n p) tag = [] := by
    intro tag h1 h2 h3 h4 h5 h6
    rw [entry_all, if_neg h1, if_neg h2, if_neg h3, if_neg h4, if_neg h5, if_neg h6]; rfl
  refine Card.ext rfl ?_ ?_ ?_ ?_ ?_ ?_ ?_ rfl rfl rfl
  · funext q
    show xsub _ q.tag = _
    unfold xsub
    cases q with
    | uuid => rw [entry_all, if_pos (by decide)]; rfl
    | icon =>
      rw [entry_all, if_neg (by decide), if_pos (by decide), if_neg (by decide), if_neg (by decide), if_neg (by decide), if_neg (by decide)]
      simp only [List.nil_append, List.append_nil]
      exact optLeaf_text ..
    | name => rw [none_of _ (by decide) (by decide) (by decide) (by decide) (by decide) (by decide)]; rfl
    | notes => rw [none_of _ (by decide) (by decide) (by decide) (by decide) (by decide) (by decide)]; rfl
    | tags =>
      rw [entry_all, if_neg (by decide), if_neg (by decide), if_neg (by decide), if_neg (by decide), if_pos (by decide), if_neg (by decide)]
      simp only [List.nil_append, List.append_nil]
      show (tagsX a.tags).head?.bind Xml.text = tagsText a.tags
      unfold tagsX
      cases tagsText a.tags <;> rfl
  · funext q
    show ((xall _ "Times".toList).head?.bind _).map Xml.text = _
    rw [entry_all, if_neg (by decide), if_neg (by decide), if_pos rfl, if_neg (by decide), if_neg (by decide), if_neg (by decide)]
    exact times_card now exp _ q
  · show (xall (entryXml u now exp a t n p) "String".toList).map (fun k => (xall k "Key".toList).head?.bind Xml.text) = (newFields a t n p).map fun f => some f.1
    rw [hs, List.map_map]
    rfl
  · funext k
    show (xvalues _ k).head?.map Xml.text = ((newFields a t n p).lookup k).map _
    rw [hv, lookup_filter, List.head?_map, Option.map_map, Option.map_map]
    rfl
  · funext k
    show (xvalues _ k).head?.bind _ = ((newFields a t n p).lookup k).bind _
    rw [hv, lookup_filter, List.head?_map]
    cases ((newFields a t n p).filter fun f => k == f.1).head? with
    | none => rfl
    | some f => exact valueX_attr ..
  · show (xall _ "Binary".toList).map _ = []
    rw [none_of _ (by decide) (by decide) (by decide) (by decide) (by decide) (by decide)]; rfl
  · have ha : xall (entryXml u now exp a t n p) "AutoType".toList = [autoX] := by
      rw [entry_all, if_neg (by decide), if_neg (by decide), if_neg (by decide), if_neg (by decide), if_neg (by decide), if_pos rfl]; rfl
    have key : ∀ l : List Str, xels ("AutoType".toList :: l) (entryXml u now exp a t n p) = xels l autoX := fun l => by
      show (xall _ _).flatMap _ = _
      rw [ha, List.flatMap_cons, List.flatMap_nil, List.append_nil]
    funext q
    cases q
    · exact congrArg (List.map Xml.text) (key _)
    · exact congrArg (List.map Xml.text) (key _)
    · exact congrArg (List.map Xml.text) (key _)

def newKeys (a b c : Bool) : List Str :=
  ["Title".toList, "UserName".toList, "Password".toList] ++ (if a then ["URL".toList] else []) ++ (if b then ["Notes".toList] else []) ++
  (if c then ["otp".toList] else [])

theorem newKeys_nodup : ∀ a b c, (newKeys a b c).Nodup := by decide

theorem newFields_keys (a : EntryArgs) (t n p : Str) : ((newFields a t n p).map Prod.fst).Nodup := by
  have : (newFields a t n p).map Prod.fst = newKeys (nonEmpty a.url).isSome (nonEmpty a.notes).isSome (nonEmpty a.otp).isSome := by
    unfold newFields newKeys
    cases nonEmpty a.url <;> cases nonEmpty a.notes <;> cases nonEmpty a.otp <;> rfl
  rw [this]
  exact newKeys_nodup ..

theorem filter_key {fs : List (Str × Str × Option Str)} (h : (fs.map Prod.fst).Nodup) (k : Str) : (fs.filter fun f => k == f.1).length ≤ 1 := by
  induction fs with
  | nil => exact Nat.zero_le _
  | cons f fs ih =>
    rw [List.map_cons, List.nodup_cons] at h
    rw [List.filter_cons]
    split
    · next e =>
      have : fs.filter (fun f => k == f.1) = [] := by
        rw [List.filter_eq_nil_iff]
        intro g hg hc
        refine h.1 ?_
        rw [← beq_iff_eq.mp e, beq_iff_eq.mp hc]
        exact List.mem_map_of_mem hg
      rw [this]; exact Nat.le_refl _
    · exact ih h.2

theorem newEntry_neat (u : Bytes) (now exp : Str) (a : EntryArgs) (t n p : Str) : XNeat (entryXml u now exp a t n p) := by
  have hs := newEntry_strings u now exp a t n p
  refine ⟨fun tag ht => ?_, fun k hk => ?_, fun k hk => ?_, fun q => ?_⟩
  · have htag : (tagsX a.tags).length ≤ 1 := by
      unfold tagsX
      cases tagsText a.tags
      · exact Nat.zero_le _
      · exact Nat.le_refl _
    have hicon := optLeaf_len "IconID" a.icon
    have h1 : tag ≠ "Times".toList := by rintro rfl; exact absurd ht (by decide)
    have h2 : tag ≠ "String".toList := by rintro rfl; exact absurd ht (by decide)
    have h3 : tag ≠ "AutoType".toList := by rintro rfl; exact absurd ht (by decide)
    rw [entry_all, if_neg h1, if_neg h2, if_neg h3]
    simp only [List.append_nil]
    by_cases e1 : tag = "UUID".toList
    · rw [if_pos e1, if_neg (by rw [e1]; decide), if_neg (by rw [e1]; decide)]; exact Nat.le_refl _
    · by_cases e2 : tag = "IconID".toList
      · rw [if_neg e1, if_pos e2, if_neg (by rw [e2]; decide)]; simpa using hicon
      · by_cases e3 : tag = "Tags".toList
        · rw [if_neg e1, if_neg e2, if_pos e3]; simpa using htag
        · rw [if_neg e1, if_neg e2, if_neg e3]; exact Nat.zero_le _
  · rw [hs] at hk
    obtain ⟨f, _, rfl⟩ := List.mem_map.mp hk
    exact ⟨_, _, (stringXml_read ..).2.1, rfl⟩
  · rw [hs] at hk
    obtain ⟨f, _, rfl⟩ := List.mem_map.mp hk
    exact ⟨_, (stringXml_read ..).2.2.1⟩
  · rw [hs, List.filter_map, List.length_map]
    refine Nat.le_trans (Nat.le_of_eq ?_) (filter_key (newFields_keys a t n p) q)
    congr 1
    exact List.filter_congr fun f _ => fieldXml_has f q

theorem newGroup_files (u : Bytes) (now n : Str) (icon notes : Option Str) : xall (groupXml u now n icon notes) "Binary".toList = [] := by
  rw [group_all, if_neg (by decide), if_neg (by decide), if_neg (by decide), if_neg (by decide), if_neg (by decide)]; rfl

theorem newEntry_files (u : Bytes) (now exp : Str) (a : EntryArgs) (t n p : Str) : xall (entryXml u now exp a t n p) "Binary".toList = [] := by
  rw [entry_all, if_neg (by decide), if_neg (by decide), if_neg (by decide), if_neg (by decide), if_neg (by decide), if_neg (by decide)]; rfl

/-! ## Adding -/

section
variable {s s' : Db} {x : Nat}

theorem added_all_other {p n m : Nat} (hs : Inv s) (h : Added s.heap s'.heap p n m) {j : Nat} (hj : j ∈ s.world.ids) {t : Str}
    (ht : j = p → s'.heap.tag n ≠ t) : s'.heap.all j t = s.heap.all j t := by
  obtain ⟨r, hr⟩ := heap_some.mpr hj
  rw [added_all hs h (added_lt hs h hr), if_neg fun e => ht e.1 e.2, List.append_nil]

theorem put_state {v : Vault} {x n : Nat} {f : Card → Card} {c : Card} {a b : Nat} (h1 : a = v.ticks) (h2 : b = v.uuids) :
    { (v.change x f).put n c with ticks := a, uuids := b } = (v.change x f).put n c := by subst h1; subst h2; rfl

/-- A new group or entry in a group. -/
theorem added_did (hs : Sound s) {g : Nat} (hg : s.heap.tag g = "Group".toList) (hs' : Inv s') (hv : s'.version = s.version)
    (h : Added s.heap s'.heap g s.next s'.next) {c : Xml} (hc : content s' s.next = some c) (hct : ¬ NoCard c.tag)
    (hk : ∀ k ∈ c.kids, Xml.All (fun t _ _ _ => structural t = true) k) (hn : XNeat c) (hbin : xall c "Binary".toList = []) :
    Did s' { ((vaultOf s).change g fun d => { d with
      entries := d.entries ++ if c.tag = "Entry".toList then [s.next] else []
      groups := d.groups ++ if c.tag = "Group".toList then [s.next] else [] }).put s.next (xcard c) with ticks := s'.ticks, uuids := s'.uuids } := by
  have hb : ¬ NoCard (s.heap.tag g) := by rw [hg]; decide
  have hgm := card_mem hb
  have hg0 := card_pos hs.inv hb
  have hgl := hs.inv.bound g hgm
  have htn : s'.heap.tag s.next = c.tag := content_tag hc
  have hq : ∀ j ∈ s.world.ids, j ≠ 0 → j ≠ g → s'.heap j = s.heap j := fun j hj _ hne => h.other j hne (hs.inv.bound j hj)
  have htag : ∀ j ∈ s.world.ids, s'.heap.tag j = s.heap.tag j := fun j hj => added_tag hs.inv h (hs.inv.bound j hj)
  have hbelow : ∀ j, s.next ≤ j → j < s'.next → j ≠ s.next → structural (s'.heap.tag j) = true := fun j h1 h2 h3 =>
    content_below hs' hc hk ((h.below j).mpr ⟨h1, h2⟩) h3
  have hbody : ∀ {t}, structural t = true → NoCard t := by
    intro t ht
    unfold structural at ht
    simp only [Bool.and_eq_true, bne_iff_ne] at ht
    exact ⟨ht.1.1, ht.1.2⟩
  have l : Local s s' g (some s.next) := by
    refine ⟨hs', hb, ⟨g, .self, htag g hgm, hq⟩, fun j hj hne => ?_, added_doc hs.inv hs' h hg0, hv⟩
    exact fresh_of (P := fun j => j ≠ s.next) hs.inv hs' (fun j h0 hj hlt => h.other j (fun e => hj (e ▸ hgm)) hlt)
      (fun j h1 h2 h3 => hbody (hbelow j h1 h2 h3)) hj fun e => hne (congrArg some e)
  have hall : ∀ t, s'.heap.all g t = s.heap.all g t ++ if c.tag = t then [s.next] else [] := by
    intro t
    rw [added_all hs.inv h hgl, htn]
    by_cases e : c.tag = t
    · rw [if_pos ⟨rfl, e⟩, if_pos e]
    · rw [if_neg fun h => e h.2, if_neg e]
  have a : ∀ t, NoCard t → SameAt s.heap s'.heap g t := fun t hbt =>
    Local.other (T := "Entry".toList) hs.inv hq htag (.inl rfl) hbt.1
      (by rw [hall, if_neg (by rintro rfl; exact hct hbt), List.append_nil])
  have hkid : ∀ t, structural t = false → s'.heap.all s.next t = [] := by
    intro t ht
    unfold Heap.all
    rw [List.filter_eq_nil_iff]
    intro k hk' hkt
    have hkn : k ≠ s.next := by rintro rfl; exact no_cycle hs' hk' .refl
    have := content_below hs' hc hk (.kid hk') hkn
    rw [beq_iff_eq.mp hkt, ht] at this
    cases this
  have hfiles : (cardOf s'.heap s.next).files = (xcard c).files := by
    have h1 : s'.heap.all s.next "Binary".toList = [] := by
      have := (content_all hs' hc "Binary".toList).2
      rw [hbin] at this
      exact List.map_eq_nil_iff.mp this
    show (s'.heap.all s.next "Binary".toList).map _ = (xall c "Binary".toList).map _
    rw [h1, hbin]; rfl
  have hcard : cardOf s'.heap s.next = xcard c := by
    rw [content_card hs' hc]
    refine Card.ext rfl rfl rfl rfl rfl rfl hfiles rfl ?_ (hkid _ (by decide)) (hkid _ (by decide))
    show (s'.heap.find s.next "History".toList).map _ = none
    unfold Heap.find
    rw [hkid _ (by decide)]; rfl
  have hne : s.next ≠ g := by omega
  have := l.vault_new hs (f := fun d => { d with
      entries := d.entries ++ if c.tag = "Entry".toList then [s.next] else []
      groups := d.groups ++ if c.tag = "Group".toList then [s.next] else [] })
    (by rw [card_lists (htag g hgm) a, hall, hall]; rfl) hne (by rw [htn]; exact hct)
  rw [hcard] at this
  refine ⟨this, l.all_neat_new hs ⟨fun t ht => ?_, (a _ bodyString).fields (hs.neat g hb).fields⟩ ((content_neat hs' hc).mpr hn)⟩
  rw [(a t (by revert t; decide)).all]; exact (hs.neat g hb).once t ht

theorem addGroup_did (env : Env) (hs : Sound s) {g : Nat} (hg : s.heap.tag g = "Group".toList) {n now : Str} {icon notes : Option Str}
    (hok : GroupArgsOk env s (some n) icon notes now n) :
    ∃ s', addGroup env g (some n) icon notes s = (.ok s.next, s') ∧ Inv s' ∧
      Did s' { ((vaultOf s).addGroup g s.next).put s.next (newGroupCard (env.uuid1 s.uuids) now n icon notes) with
        ticks := s.ticks + 1, uuids := s.uuids + 1 } := by
  have hgm : g ∈ s.world.ids := tag_mem (by rw [hg]; decide)
  obtain ⟨s', h1, h2, h3, h4, h5⟩ := add_ok (inv_quiet hs.inv (s.ticks + 1) (s.uuids + 1)) hgm (groupXml (env.uuid1 s.uuids) now n icon notes)
  refine ⟨s', ?_, h2, ?_⟩
  · unfold addGroup
    rw [bind_of (newGroup_ok hok)]
    exact h1
  · have := added_did hs hg h2 (by rw [h3]) h4 h5 (by show ¬ NoCard "Group".toList; decide) (fun k hk => group_kids_tags _ _ _ _ _ k hk) (newGroup_neat ..) (newGroup_files ..)
    rw [newGroup_card] at this
    have e1 : s'.ticks = s.ticks + 1 := by rw [h3]
    have e2 : s'.uuids = s.uuids + 1 := by rw [h3]
    rw [e1, e2] at this
    refine ⟨this.vault.trans ?_, this.neat⟩
    have : ((vaultOf s).change g fun d => { d with
      entries := d.entries ++ if (groupXml (env.uuid1 s.uuids) now n icon notes).tag = "Entry".toList then [s.next] else []
      groups := d.groups ++ if (groupXml (env.uuid1 s.uuids) now n icon notes).tag = "Group".toList then [s.next] else [] }) = (vaultOf s).addGroup g s.next := by
      refine change_eq fun c _ => ?_
      have ht : (groupXml (env.uuid1 s.uuids) now n icon notes).tag = "Group".toList := rfl
      rw [ht, if_neg (show ¬ ("Group".toList = "Entry".toList) by decide), if_pos rfl, List.append_nil]
    rw [this]

theorem addEntry_did (env : Env) (hs : Sound s) {g : Nat} (hg : s.heap.tag g = "Group".toList) {a : EntryArgs} {force : Bool}
    {now exp t n p : Str} {o : Option Nat} (hok : ArgsOk env s a now exp t n p) (ho : findEntry env false (dupArgs g a) s = (.ok o, s))
    (hf : (o.isSome && !force) = false) :
    ∃ s', addEntry env g a force s = (.ok s.next, s') ∧ Inv s' ∧
      Did s' { ((vaultOf s).addEntry g s.next).put s.next (newEntryCard (env.uuid1 s.uuids) now exp a t n p) with
        ticks := s.ticks + 1, uuids := s.uuids + 1 } := by
  have hgm : g ∈ s.world.ids := tag_mem (by rw [hg]; decide)
  obtain ⟨s', h1, h2, h3, h4, h5⟩ := add_ok (inv_quiet hs.inv (s.ticks + 1) (s.uuids + 1)) hgm (entryXml (env.uuid1 s.uuids) now exp a t n p)
  refine ⟨s', (addEntry_ok hok ho hf).trans h1, h2, ?_⟩
  have := added_did hs hg h2 (by rw [h3]) h4 h5 (by show ¬ NoCard "Entry".toList; decide) (fun k hk => entry_kids_tags _ _ _ _ _ _ _ k hk) (newEntry_neat ..) (newEntry_files ..)
  rw [newEntry_card] at this
  have e1 : s'.ticks = s.ticks + 1 := by rw [h3]
  have e2 : s'.uuids = s.uuids + 1 := by rw [h3]
  rw [e1, e2] at this
  refine ⟨this.vault.trans ?_, this.neat⟩
  have : ((vaultOf s).change g fun d => { d with
    entries := d.entries ++ if (entryXml (env.uuid1 s.uuids) now exp a t n p).tag = "Entry".toList then [s.next] else []
    groups := d.groups ++ if (entryXml (env.uuid1 s.uuids) now exp a t n p).tag = "Group".toList then [s.next] else [] }) = (vaultOf s).addEntry g s.next := by
    refine change_eq fun c _ => ?_
    have ht : (entryXml (env.uuid1 s.uuids) now exp a t n p).tag = "Entry".toList := rfl
    rw [ht, if_neg (show ¬ ("Entry".toList = "Group".toList) by decide), if_pos rfl, List.append_nil]
  rw [this]

/-! ## The path of a group that is in the database -/

theorem pathLoop_ok : ∀ (anc : List Node) (p q : List (Option Str)), (pathLoop anc p).isOk = true → (pathLoop anc q).isOk = true := by
  intro anc
  induction anc with
  | nil => intro p q _; rfl
  | cons a anc ih =>
    intro p q h
    unfold pathLoop at h ⊢
    by_cases ht : a.tag = "Group".toList
    · rw [if_pos ht] at h ⊢
      cases hi : isRootIn anc with
      | error e => rw [hi] at h; cases h
      | ok b =>
        rw [hi] at h
        cases b with
        | true => rfl
        | false => exact ih _ _ h
    · rw [if_neg ht] at h ⊢
      exact ih _ _ h

theorem below_tag (hs : Sound s) {r g : Nat} (hr : r ∈ (vaultOf s).roots) (h : (vaultOf s).Below r g) : s.heap.tag g = "Group".toList := by
  obtain ⟨d, m, o, hk⟩ := hs.skeleton
  cases h with
  | refl =>
    have : r ∈ rootsOf s.heap := hr
    rw [roots_of hk] at this
    exact (all_sub this).2
  | sub _ hc hy =>
    obtain ⟨_, rfl⟩ := card_inv hc
    exact (all_sub hy).2

theorem below_path (hs : Sound s) {r g : Nat} (hr : r ∈ (vaultOf s).roots) (h : (vaultOf s).Below r g) :
    ∃ l ∈ allLocs s.world, l.node.id = g ∧ (pathLoop (l.node :: l.anc) []).isOk = true := by
  obtain ⟨d, m, o, hk⟩ := hs.skeleton
  induction h with
  | refl =>
    have hr : r ∈ rootsOf s.heap := hr
    rw [roots_of hk] at hr
    obtain ⟨k1, k2⟩ := all_sub hr
    have ho : s.heap.tag o = "Root".toList := (all_sub (h := s.heap) (i := d) (by rw [hk.root]; exact List.mem_singleton.mpr rfl)).2
    have ho0 : o ≠ 0 := tag_ne_zero hs.inv (by rw [ho]; decide)
    obtain ⟨l, _, h2, rfl⟩ := place_run hs.inv (kid_mem hs.inv k1).1
    obtain ⟨m, _, h4, rfl⟩ := place_run hs.inv (kid_mem hs.inv k1).2
    obtain ⟨h5, _⟩ := place_kid hs.inv h4 ho0 h2 k1
    have h0 : l.node.id ≠ 0 := kid_ne_zero hs.inv k1
    rw [node_tag (place_get hs.inv h2 h0)] at k2
    rw [node_tag (place_get hs.inv h4 ho0)] at ho
    refine ⟨l, h2, rfl, ?_⟩
    have hi : isRootIn l.anc = .ok true := by
      rw [h5]
      unfold isRootIn parentIn
      simp only [if_neg ho0]
      rw [ho]
      rfl
    unfold pathLoop
    rw [if_pos k2, hi]
    rfl
  | sub hb hc hy ih =>
    obtain ⟨m, h1, rfl, h3⟩ := ih
    obtain ⟨_, rfl⟩ := card_inv hc
    have hpt := below_tag hs hr hb
    have hp0 : m.node.id ≠ 0 := tag_ne_zero hs.inv (by rw [hpt]; decide)
    obtain ⟨k1, k2⟩ := all_sub hy
    obtain ⟨l, _, h4, rfl⟩ := place_run hs.inv (kid_mem hs.inv k1).1
    have h0 : l.node.id ≠ 0 := kid_ne_zero hs.inv k1
    obtain ⟨h5, _⟩ := place_kid hs.inv h1 hp0 h4 k1
    rw [node_tag (place_get hs.inv h4 h0)] at k2
    rw [node_tag (place_get hs.inv h1 hp0)] at hpt
    refine ⟨l, h4, rfl, ?_⟩
    have hi : isRootIn l.anc = .ok false := by
      rw [h5]
      unfold isRootIn parentIn
      simp only [if_neg hp0]
      rw [hpt]
      rfl
    unfold pathLoop
    rw [if_pos k2, hi, h5]
    exact pathLoop_ok _ _ _ h3

theorem path_current (hs : Sound s) {g : Nat} (h : (vaultOf s).Current g) : (groupPath g s).1.isOk = true := by
  obtain ⟨r, hr, hb⟩ := h
  obtain ⟨l, h1, rfl, h2⟩ := below_path hs hr hb
  have ht := below_tag hs hr hb
  have h0 : l.node.id ≠ 0 := tag_ne_zero hs.inv (by rw [ht]; decide)
  rw [node_tag (place_get hs.inv h1 h0)] at ht
  unfold pathLoop at h2
  rw [if_pos ht] at h2
  unfold groupPath
  have hp : placeOf l.node.id s = (.ok l, s) := by
    unfold placeOf
    rw [locOf_mem hs.inv.world h1]
  rw [bind_of hp, bind_run, lift_run]
  cases hi : isRootIn l.anc with
  | error e => rw [hi] at h2; cases h2
  | ok b =>
    cases b with
    | true => rfl
    | false =>
      rw [hi] at h2
      show ((if (l.anc.find? fun p => p.tag == "Group".toList).isNone = true then pure []
            else lift (pathLoop l.anc [nameIn l.node]) : M _) s).1.isOk = true
      split
      · rfl
      · exact pathLoop_ok _ _ _ h2

end

end Verif.Api
