import Verif.Api.AttachLemmas
import Verif.Api.NumeralLemmas
import Verif.Api.NewLemmas
import Verif.Props.C47_AddBinary
/-!
# C49: attachments yield the binary they refer to
-/
namespace Verif.Props
open Verif XPath Spec Api

theorem attId_run {s : Db} {a v : Nat} {k : Int} (hv : s.heap.find a "Value".toList = some v)
    (hr : s.heap.attr v "Ref".toList = some (intStr k)) : attId a s = (.ok k, s) := by
  unfold attId
  rw [bind_of (findKid_run a _ s), hv, bind_of (orAttr_some v s), bind_of (attrOf_run v _ s), hr]
  show lift (pyInt (intStr k)) s = _
  rw [pyInt_intStr]
  rfl

theorem attName_run {s : Db} {a v : Nat} (hv : s.heap.find a "Key".toList = some v) : attName a s = (.ok (s.heap.text v), s) := by
  unfold attName
  rw [bind_of (findKid_run a _ s), hv, bind_of (orAttr_some v s), textOf_run]

/-- The element `add_attachment` builds. -/
def attachmentXml (name : Str) (id : Int) : Xml :=
  Xml.mk "Binary".toList [] none [Xml.mk "Key".toList [] (some name) [], Xml.mk "Value".toList [("Ref".toList, intStr id)] none []]

/-- Adding an element elsewhere leaves the binaries the same. -/
theorem added_binaries (env : Env) {s s' : Db} {p m : Nat} (hs : Inv s) (hs' : Inv s')
    (hv : s'.version = s.version ∧ s'.binaries = s.binaries) (h : Added s.heap s'.heap p s.next m) (ht : s.heap.tag p = "Entry".toList) :
    (binaries env s').1 = (binaries env s).1 := by
  cases h4 : versionGe4 s.version with
  | true => rw [binaries_four env h4, binaries_four env (by rw [hv.1]; exact h4), hv.2]
  | false =>
    rw [binaries_three env hs h4, binaries_three env hs' (by rw [hv.1]; exact h4)]
    have hp : p ≠ 0 := by rintro rfl; rw [hs.zero_tag] at ht; exact absurd ht (by decide)
    have e1 : binEls s'.heap = binEls s.heap := by
      unfold binEls
      rw [added_metaEls hs h hp (by rw [ht]; decide) (by rw [ht]; decide)]
      apply flatMap_same
      intro el hel
      obtain ⟨g1, g2⟩ := metaEls_mem hs hel
      rw [added_all hs h (hs.bound el g1), if_neg, List.append_nil]
      rintro ⟨rfl, _⟩
      rw [ht] at g2
      exact absurd g2 (by decide)
    rw [e1]
    have : ∀ (l : List Nat) (acc : List Bytes), (∀ i ∈ l, i ∈ s.world.ids ∧ s.heap.tag i = "Binary".toList) →
        binariesLoop env s'.heap l acc = binariesLoop env s.heap l acc := by
      intro l
      induction l with
      | nil => intro acc _; rfl
      | cons i l ih =>
        intro acc hl
        obtain ⟨g1, g2⟩ := hl i (List.mem_cons_self ..)
        have hi : s'.heap i = s.heap i := by
          refine h.other i ?_ (hs.bound i g1)
          rintro rfl
          rw [ht] at g2
          exact absurd g2 (by decide)
        have ed : binaryData env s'.heap i = binaryData env s.heap i := by
          unfold binaryData
          rw [text_congr hi, attr_congr hi]
        have ei : binaryId s'.heap i = binaryId s.heap i := by
          unfold binaryId
          rw [attr_congr hi]
        rw [binariesLoop, binariesLoop, ed, ei]
        congr 1
        funext d
        congr 1
        funext n
        exact ih _ fun j hj => hl j (List.mem_cons_of_mem _ hj)
    refine this _ _ fun i hi => ?_
    unfold binEls at hi
    obtain ⟨el, _, hi⟩ := List.mem_flatMap.mp hi
    obtain ⟨g1, g2⟩ := all_sub hi
    exact ⟨(kid_mem hs g1).1, g2⟩

/-- `add_attachment` adds one attachment at the end of the entry, with the given id and name; no binary and nothing
else changes. -/
theorem C49_added (env : Env) (hre : MatchesAll env.re) {s : Db} (hs : Inv s) {e : Nat} (ht : s.heap.tag e = "Entry".toList)
    (hh : ¬ InHist s.heap e) (id : Int) {name : Str} (hn : XmlText name) :
    ∃ s' a l, addAttachment e id (some name) s = (.ok a, s') ∧ Inv s' ∧ s' = { s with world := s'.world, next := s'.next } ∧
      Added s.heap s'.heap e a s'.next ∧ content s' a = some (attachmentXml name id) ∧
      attId a s' = (.ok id, s') ∧ attName a s' = (.ok (some name), s') ∧
      entryAttachments env e s = (.ok l, s) ∧ entryAttachments env e s' = (.ok (l ++ [a]), s') ∧
      (binaries env s').1 = (binaries env s).1 := by
  have hm : e ∈ s.world.ids := tag_mem (by rw [ht]; decide)
  obtain ⟨s', h1, h2, h3, h4, h5⟩ := add_ok hs hm (attachmentXml name id)
  have hrun : addAttachment e id (some name) s = (.ok s.next, s') := by
    unfold addAttachment
    have : textEl "Key".toList [] (some name) = .ok (Xml.mk "Key".toList [] (some name) []) := by
      exact textEl_ok hn
    rw [this]
    exact h1
  have hte : s'.heap.tag e = "Entry".toList := by rw [added_tag hs h4 (hs.bound e hm)]; exact ht
  have hhe : ¬ InHist s'.heap e := by rw [added_hist_old hs h2 h4 rfl (hs.bound e hm)]; exact hh
  have hV := content_find h2 h5 "Value".toList
  have hK := content_find h2 h5 "Key".toList
  have fV : (xall (attachmentXml name id) "Value".toList).head? = some (Xml.mk "Value".toList [("Ref".toList, intStr id)] none []) := rfl
  have fK : (xall (attachmentXml name id) "Key".toList).head? = some (Xml.mk "Key".toList [] (some name) []) := rfl
  rw [fV] at hV
  rw [fK] at hK
  obtain ⟨v, hv1, hv2⟩ := Option.map_eq_some_iff.mp hV
  obtain ⟨k, hk1, hk2⟩ := Option.map_eq_some_iff.mp hK
  refine ⟨s', s.next, _, hrun, h2, h3, h4, h5, attId_run hv1 ?_, ?_, entryAttachments_run env hs ht hh hre, ?_, ?_⟩
  · rw [content_attr hv2]; rfl
  · rw [attName_run hk1, content_text hk2]; rfl
  · rw [entryAttachments_run env h2 hte hhe hre]
    suffices h : attsOf s'.heap e = attsOf s.heap e ++ [s.next] by rw [h]
    unfold attsOf
    rw [added_all hs h4 (hs.bound e hm), if_pos ⟨rfl, content_tag h5⟩, List.filter_append]
    congr 1
    · apply List.filter_congr
      intro b hb
      obtain ⟨b1, b2⟩ := all_sub hb
      rw [added_all hs h4 (hs.bound b (kid_mem hs b1).1), if_neg, List.append_nil]
      rintro ⟨rfl, _⟩
      rw [ht] at b2
      exact absurd b2 (by decide)
    · unfold Heap.find at hk1
      cases hl : s'.heap.all s.next "Key".toList with
      | nil => rw [hl] at hk1; cases hk1
      | cons => rw [List.filter_cons, if_pos (by rw [hl]; rfl), List.filter_nil]
  · exact added_binaries env hs h2 ⟨by rw [h3], by rw [h3]⟩ h4 ht

/-- `attachment.data` is the binary at the id of the attachment; an id beyond the list is a `BinaryError`. A negative
id counts from the end, as positions in lists do. Reading changes nothing. -/
theorem C49_data (env : Env) {s : Db} {a : Nat} {i : Int} {bs : List Bytes} (hi : attId a s = (.ok i, s))
    (hb : binaries env s = (.ok bs, s)) :
    (∀ (k : Nat) (d : Bytes), i = k → bs[k]? = some d → attBinary env a s = (.ok d, s)) ∧
    (∀ (k : Nat) (d : Bytes), i + bs.length = k → i < 0 → bs[k]? = some d → attBinary env a s = (.ok d, s)) ∧
    ((bs.length : Int) ≤ i ∨ i + bs.length < 0 → attBinary env a s = (.error .binary, s)) := by
  have run : attBinary env a s = (binaryAt bs i, s) := by
    unfold attBinary
    rw [bind_of hb, bind_of hi, lift_run]
  refine ⟨?_, ?_, ?_⟩
  · rintro k d rfl hd
    have hk : k < bs.length := (List.getElem?_eq_some_iff.mp hd).1
    have : pyIndex bs.length k = some k := by
      unfold pyIndex
      rw [if_pos (by omega), if_pos (by omega)]
      rfl
    rw [run]
    unfold binaryAt
    simp only [this, hd]
  · intro k d hk hneg hd
    have : pyIndex bs.length i = some k := by
      unfold pyIndex
      rw [if_neg (by omega), if_pos (by omega)]
      congr 1
      omega
    rw [run]
    unfold binaryAt
    simp only [this, hd]
  · intro h
    have : pyIndex bs.length i = none := by
      unfold pyIndex
      rcases h with h | h
      · rw [if_pos (by omega), if_neg (by omega)]
      · rw [if_neg (by omega), if_neg (by omega)]
    rw [run]
    unfold binaryAt
    rw [this]

/-- Deleting an attachment removes it from its entry and from nowhere else; the binaries, the other attachments of the
entry and those of every other element are as before. -/
theorem C49_delete (env : Env) {s : Db} (hs : Inv s) {e a : Nat} (ht : s.heap.tag e = "Entry".toList)
    (ha : a ∈ s.heap.all e "Binary".toList) :
    ∃ s', delete a s = (.ok (), s') ∧ Inv s' ∧ s' = { s with world := s'.world } ∧ Dropped s.heap s'.heap [a] ∧
      (binaries env s').1 = (binaries env s).1 ∧ (∀ j, InDoc s'.heap j ↔ InDoc s.heap j ∧ ¬ Reach s.heap a j) ∧
      attsOf s'.heap e = (attsOf s.heap e).filter (· != a) ∧
      (∀ j, j ≠ 0 → j ≠ a → j ≠ e → attsOf s'.heap j = attsOf s.heap j) := by
  have he0 : e ≠ 0 := by rintro rfl; rw [hs.zero_tag] at ht; exact absurd ht (by decide)
  obtain ⟨a1, a2⟩ := all_sub ha
  obtain ⟨s', h1, h2, h3, h4⟩ := delete_ok hs he0 a1
  have h5 := dropped_one hs he0 a1 h4
  have hkey : ∀ b, b ≠ 0 → s'.heap.all b "Key".toList = s.heap.all b "Key".toList := fun b hb =>
    dropped_all_other h5 hb fun d hd => by rw [List.mem_singleton.mp hd, a2]; decide
  have hatts : ∀ j, j ≠ 0 → attsOf s'.heap j = (attsOf s.heap j).filter (· != a) := by
    intro j hj
    unfold attsOf
    rw [dropped_all h5 hj, List.filter_filter, List.filter_filter]
    apply List.filter_congr
    intro b hb
    rw [hkey b (kid_ne_zero hs (all_sub hb).1), Bool.and_comm]
    congr 1
    by_cases e : b = a <;> simp [bne, e]
  refine ⟨s', h1, h2, h3, h5, ?_, ?_, hatts e he0, ?_⟩
  · refine dropped_binaries env hs h2 ⟨by rw [h3], by rw [h3]⟩ h5 ?_ ?_
    · intro d hd; rw [List.mem_singleton.mp hd]; exact a2
    · intro d hd; rw [List.mem_singleton.mp hd]; exact ⟨e, a1, ht⟩
  · intro j
    rw [dropped_inDoc hs h5 (by intro d hd; rw [List.mem_singleton.mp hd]; exact ⟨e, he0, a1⟩)]
    simp
  · intro j hj _ hje
    rw [hatts j hj]
    apply filter_all_true
    intro b hb
    rw [bne_iff_ne]
    rintro rfl
    exact hje (parent_eq hs (all_sub (List.mem_filter.mp hb).1).1 a1)

/-- The attachments of an entry in the history are not found by its `attachments` property, although they are
there. -/
theorem C49_history (env : Env) (hre : MatchesAll env.re) {s : Db} (hs : Inv s) {e : Nat} (he : e ∈ s.world.ids) (h0 : e ≠ 0)
    (hh : InHist s.heap e) : entryAttachments env e s = (.ok [], s) := entryAttachments_hist env hs he h0 hh hre

/-! ## The hypotheses hold for the sample database -/

example : Sample.db.heap.tag 23 = "Entry".toList ∧ attsOf Sample.db.heap 23 = [47] ∧ attsOf Sample.db.heap 56 = [73] ∧
    (attId 47 Sample.db).1 = .ok 0 ∧ (attBinary Sample.env 47 Sample.db).1 = .ok [10] ∧
    (attBinary Sample.env 119 Sample.db).1 = .ok [12] := by decide +kernel

theorem sample_matchesAll : MatchesAll Sample.env.re :=
  ⟨fun _ => true, by simp only [Sample.env]; unfold Verif.Sample.engine; exact if_pos rfl, fun _ => rfl⟩

/-- The number of an attachment is read as Python reads numbers; anything else in its place is refused. -/
theorem C49_id_text {s : Db} {a v : Nat} {t : Str} (hv : s.heap.find a "Value".toList = some v) (ht : s.heap.attr v "Ref".toList = some t) :
    (∀ k, attId a s = (.ok k, s) ↔ Numeral t k) ∧ ((¬ ∃ k, Numeral t k) → attId a s = (.error .value, s)) := by
  have hr : attId a s = (pyInt t, s) := by
    unfold attId
    rw [bind_of (findKid_run a _ s), hv, bind_of (orAttr_some v s), bind_of (attrOf_run v _ s), ht]
    rfl
  rw [hr]
  refine ⟨fun k => ?_, fun h => by rw [(pyInt_no t).mpr h]⟩
  rw [← pyInt_iff]
  exact ⟨fun h => by injection h, fun h => by rw [h]⟩

example : Sample.db.heap.find 47 "Value".toList = some 49 ∧ Sample.db.heap.attr 49 "Ref".toList = some "0".toList ∧ Numeral "0".toList 0 :=
  ⟨by decide +kernel, by decide +kernel, (pyInt_iff _ _).mp (by decide +kernel)⟩

end Verif.Props
