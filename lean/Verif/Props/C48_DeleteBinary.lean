import Verif.Api.RefLemmas
import Verif.Props.C49_Attachments
import Verif.Props.C40_Duplicates
/-!
# C48: `delete_binary` removes a binary, the attachments that refer to it, and keeps the others pointing to their data
-/
namespace Verif.Props
open Verif XPath Spec Api

/-- Attachments `D` removed, references above `n` lowered by one, nothing else changed. -/
structure RefsDeleted (h h' : Heap) (D : List Nat) (n : Nat) : Prop where
  tag : ∀ j, h'.tag j = h.tag j
  text : ∀ j, h'.text j = h.text j
  kids : ∀ j, j ≠ 0 → h'.kids j = (h.kids j).filter fun k => !D.contains k
  attr : ∀ j k, (k = "Ref".toList → ∀ b, IsAtt h b → j ∉ h.all b "Value".toList) → h'.attr j k = h.attr j k
  doc : ∀ j, InDoc h' j ↔ InDoc h j ∧ ∀ d ∈ D, ¬ Reach h d j
  att : ∀ b, IsAtt h' b ↔ IsAtt h b ∧ b ∉ D
  hist : ∀ b, IsAtt h' b → (InHist h' b ↔ InHist h b)
  ref : ∀ b, IsAtt h b → b ∉ D → ∀ k, RefNo h b k → RefNo h' b (if n < k then k - 1 else k)
  settings : ∀ t, t ≠ "Binary".toList → metaEls h' t = metaEls h t
  other : ∀ j, j ≠ 0 → (∀ k ∈ h.kids j, k ∉ D) → (∀ b, IsAtt h b → j ∉ h.all b "Value".toList) → h' j = h j
  first : docEl h' = docEl h

theorem below_leaf {h : Heap} {d : Nat} (hl : ∀ k ∈ h.kids d, h.kids k = []) {x : Nat} (hr : Reach h d x) : x = d ∨ h.kids x = [] := by
  induction hr with
  | refl => exact .inl rfl
  | @snoc y z _ hk ih =>
    rcases ih with rfl | ih
    · exact .inr (hl _ hk)
    · rw [ih] at hk; cases hk

/-- Elements that may be removed as a whole: `Binary` elements with nothing nested. -/
def Removable (s : Db) (D : List Nat) : Prop :=
  ∀ d ∈ D, s.heap.tag d = "Binary".toList ∧ (∃ p, p ≠ 0 ∧ d ∈ s.heap.kids p) ∧ ∀ k ∈ s.heap.kids d, s.heap.kids k = []

theorem att_ne_zero {s : Db} (hs : Inv s) {b : Nat} (h : IsAtt s.heap b) : b ≠ 0 := (inDoc_mem hs h.1).2

section
variable {s s' : Db} {D : List Nat}

theorem dropped_att (hs : Inv s) (h : Dropped s.heap s'.heap D) (hD : Removable s D) (b : Nat) :
    IsAtt s'.heap b ↔ IsAtt s.heap b ∧ b ∉ D := by
  have hval : ∀ j, j ≠ 0 → s'.heap.all j "Value".toList = s.heap.all j "Value".toList := fun j hj =>
    dropped_all_other h hj fun d hd => by rw [(hD d hd).1]; decide
  have hdoc := dropped_inDoc hs h (fun d hd => (hD d hd).2.1) b
  unfold IsAtt
  rw [hdoc, dropped_tag h]
  constructor
  · rintro ⟨⟨h1, h2⟩, h3, h4⟩
    rw [hval b (inDoc_mem hs h1).2] at h4
    exact ⟨⟨h1, h3, h4⟩, fun hb => h2 b hb .refl⟩
  · rintro ⟨⟨h1, h3, h4⟩, h5⟩
    refine ⟨⟨h1, fun d hd hr => ?_⟩, h3, by rw [hval b (inDoc_mem hs h1).2]; exact h4⟩
    rcases below_leaf (hD d hd).2.2 hr with rfl | he
    · exact h5 hd
    · refine h4 ?_
      unfold Heap.all
      rw [he]
      rfl

theorem dropped_refNo (h : Dropped s.heap s'.heap D) (hD : ∀ d ∈ D, s.heap.tag d = "Binary".toList) {b : Nat} (hb : b ≠ 0) (k : Nat) :
    RefNo s'.heap b k ↔ RefNo s.heap b k := by
  unfold RefNo
  rw [dropped_all_other h hb fun d hd => by rw [hD d hd]; decide]
  simp only [dropped_attr h]

theorem dropped_hist (hs : Inv s) (h : Dropped s.heap s'.heap D) {b : Nat} (hf : ∀ d ∈ D, ¬ Reach s.heap d b) :
    InHist s'.heap b ↔ InHist s.heap b := by
  constructor
  · rintro ⟨k, h1, h2, h3⟩
    rw [dropped_tag h] at h1
    have hk0 : k ≠ 0 := by rintro rfl; rw [hs.zero_tag] at h1; exact absurd h1 (by decide)
    exact ⟨k, h1, h2, dropped_reach hs h hk0 h3⟩
  · rintro ⟨k, h1, h2, h3⟩
    have hk0 : k ≠ 0 := by rintro rfl; rw [hs.zero_tag] at h1; exact absurd h1 (by decide)
    refine ⟨k, by rw [dropped_tag h]; exact h1, h2, ?_⟩
    clear h2
    induction h3 with
    | refl => exact .refl
    | @snoc x y hx hk ih =>
      have hx0 : x ≠ 0 := by rintro rfl; exact hk0 (reach_zero hs hx)
      refine .snoc (ih fun d hd hr => hf d hd (.snoc hr hk)) ?_
      rw [dropped_kids h hx0, List.mem_filter]
      refine ⟨hk, ?_⟩
      rw [Bool.not_eq_true', List.contains_eq_mem, decide_eq_false_iff_not]
      exact fun hd => hf y hd .refl

theorem dropped_atts (hs : Inv s) (ha : Atts s.heap) (h : Dropped s.heap s'.heap D) (hD : Removable s D) : Atts s'.heap := by
  constructor
  · intro b hb
    obtain ⟨h1, h2⟩ := (dropped_att hs h hD b).mp hb
    obtain ⟨p, p1, p2⟩ := ha.parent b h1
    have p0 : p ≠ 0 := by rintro rfl; rw [hs.zero_tag] at p2; exact absurd p2 (by decide)
    refine ⟨p, ?_, by rw [dropped_tag h]; exact p2⟩
    rw [dropped_kids h p0, List.mem_filter]
    refine ⟨p1, ?_⟩
    rw [Bool.not_eq_true', List.contains_eq_mem, decide_eq_false_iff_not]
    exact h2
  · intro b hb
    obtain ⟨h1, h2⟩ := (dropped_att hs h hD b).mp hb
    obtain ⟨k, hk⟩ := ha.ref b h1
    exact ⟨k, (dropped_refNo h (fun d hd => (hD d hd).1) (att_ne_zero hs h1) k).mpr hk⟩
  · intro b hb k hk
    obtain ⟨h1, h2⟩ := (dropped_att hs h hD b).mp hb
    rw [dropped_kids h (att_ne_zero hs h1)] at hk
    have hk' := (List.mem_filter.mp hk).1
    rw [dropped_kids h (kid_ne_zero hs hk'), ha.leaf b h1 k hk']
    rfl
end

/-- The second part of `delete_binary`: remove the references and lower those above. -/
theorem refs_deleted (env : Env) {s : Db} (hs : Inv s) (ha : Atts s.heap) (n : Nat) :
    ∃ s' D, (do
        let refs ← findAttachmentList env true { kwargs := [.attr "id".toList (some (intStr n))] }
        deleteAll refs
        let gt ← xpathCast env (fmt "//Binary/Value[@Ref > \"{}\"]/..".toList [intStr n] [])
        decrementAll gt : M Unit) s = (.ok (), s') ∧ Inv s' ∧ s' = { s with world := s'.world } ∧ (∀ b, b ∈ D ↔ Gone s.heap n b) ∧
      RefsDeleted s.heap s'.heap D n ∧ Atts s'.heap ∧ (binaries env s').1 = (binaries env s).1 := by
  obtain ⟨D, d1, d2, d3⟩ := findRefs_run env hs ha n
  have hp : ∀ d ∈ D, ∃ p, p ≠ 0 ∧ d ∈ s.heap.kids p ∧ s.heap.tag p = "Entry".toList := by
    intro d hd
    obtain ⟨p, p1, p2⟩ := ha.parent d ((d3 d).mp hd).1
    exact ⟨p, by rintro rfl; rw [hs.zero_tag] at p2; exact absurd p2 (by decide), p1, p2⟩
  obtain ⟨s2, e1, e2, e3, e4⟩ := deleteAll_ok hs d2 fun d hd => by obtain ⟨p, p0, p1, _⟩ := hp d hd; exact ⟨p, p0, p1⟩
  have hD : Removable s D := by
    intro d hd
    have h1 := ((d3 d).mp hd).1
    obtain ⟨p, p0, p1, _⟩ := hp d hd
    exact ⟨h1.2.1, ⟨p, p0, p1⟩, ha.leaf d h1⟩
  have ha2 := dropped_atts hs ha e4 hD
  have htD : ∀ d ∈ D, s.heap.tag d = "Binary".toList := fun d hd => (hD d hd).1
  obtain ⟨G, g1, g2, g3⟩ := gtRefs_run env e2 ha2 n
  have hG : ∀ b ∈ G, ∃ k, RefNo s2.heap b (k + 1) := by
    intro b hb
    obtain ⟨_, k, h1, h2⟩ := (g3 b).mp hb
    exact ⟨k - 1, by rw [Nat.sub_add_cancel (by omega)]; exact h1⟩
  obtain ⟨s', f1, f2, f3, f4⟩ := decrementAll_ok e2 g2 hG
  have hatt : ∀ b, IsAtt s'.heap b ↔ IsAtt s.heap b ∧ b ∉ D := fun b => by rw [lowered_att f4, dropped_att hs e4 hD]
  have href : ∀ b, IsAtt s.heap b → b ∉ D → ∀ k, RefNo s.heap b k → RefNo s'.heap b (if n < k then k - 1 else k) := by
    intro b hb hbD k hk
    have hk2 := (dropped_refNo e4 htD (att_ne_zero hs hb) k).mpr hk
    have hb2 : IsAtt s2.heap b := (dropped_att hs e4 hD b).mpr ⟨hb, hbD⟩
    by_cases hn : n < k
    · rw [if_pos hn]
      refine f4.ref b ((g3 b).mpr ⟨hb2, k, hk2, hn⟩) (k - 1) ?_
      rw [Nat.sub_add_cancel (by omega)]
      exact hk2
    · rw [if_neg hn]
      refine lowered_refNo e2 f4 ?_ hk2
      intro hbG
      obtain ⟨_, m, m1, m2⟩ := (g3 b).mp hbG
      rw [refNo_inj m1 hk2] at m2
      exact hn m2
  refine ⟨s', D, ?_, f2, by rw [f3, e3], d3, ⟨?_, ?_, ?_, ?_, ?_, hatt, ?_, href, ?_, ?_, ?_⟩, ⟨?_, ?_, ?_⟩, ?_⟩
  · rw [bind_of d1, bind_of e1, bind_of g1]
    exact f1
  · intro j; rw [(lowered_rec f4 j).1, dropped_tag e4]
  · intro j; rw [(lowered_rec f4 j).2.1, dropped_text e4]
  · intro j hj; rw [(lowered_rec f4 j).2.2, dropped_kids e4 hj]
  · intro j k hk
    rw [f4.attr, dropped_attr e4]
    rintro ⟨e, b, hb, hj⟩
    have h1 := ((dropped_att hs e4 hD b).mp ((g3 b).mp hb).1).1
    refine hk e b h1 ?_
    rw [← dropped_all_other e4 (att_ne_zero hs h1) fun d hd => by rw [htD d hd]; decide]
    exact hj
  · intro j
    rw [lowered_inDoc f4, dropped_inDoc hs e4 fun d hd => (hD d hd).2.1]
  · intro b hb
    have hb2 := (lowered_att f4 b).mp hb
    rw [lowered_hist f4]
    exact dropped_hist hs e4 ((dropped_inDoc hs e4 (fun d hd => (hD d hd).2.1) b).mp hb2.1).2
  · intro x hx
    rw [lowered_metaEls f4, dropped_metaEls hs e4 x htD hx]
  · intro j hj hk hv
    rw [f4.other j fun b hb => ?_, e4 j]
    · cases hr : s.heap j with
      | none => rfl
      | some r =>
        simp only [Option.map_some, if_neg hj]
        congr 1
        have : r.kids.filter (fun k => !D.contains k) = r.kids := filter_all_true fun k hkr => by
          rw [Bool.not_eq_true', List.contains_eq_mem, decide_eq_false_iff_not]
          exact hk k (by unfold Heap.kids; rw [hr]; exact hkr)
        rw [this]
    · have h1 := ((dropped_att hs e4 hD b).mp ((g3 b).mp hb).1).1
      rw [dropped_all_other e4 (att_ne_zero hs h1) fun d hd => by rw [htD d hd]; decide]
      exact hv b h1
  · rw [show docEl s'.heap = docEl s2.heap by unfold docEl; rw [(lowered_rec f4 0).2.2], dropped_doc hs e4]
  · intro b hb
    obtain ⟨p, p1, p2⟩ := ha2.parent b ((lowered_att f4 b).mp hb)
    exact ⟨p, by rw [(lowered_rec f4 p).2.2]; exact p1, by rw [(lowered_rec f4 p).1]; exact p2⟩
  · intro b hb
    obtain ⟨h1, h2⟩ := (hatt b).mp hb
    obtain ⟨k, hk⟩ := ha.ref b h1
    exact ⟨_, href b h1 h2 k hk⟩
  · intro b hb k hk
    rw [(lowered_rec f4 b).2.2] at hk
    rw [(lowered_rec f4 k).2.2]
    exact ha2.leaf b ((lowered_att f4 b).mp hb) k hk
  · rw [lowered_binaries env e2 f2 ⟨by rw [f3], by rw [f3]⟩ f4]
    exact dropped_binaries env hs e2 ⟨by rw [e3], by rw [e3]⟩ e4 htD fun d hd => by obtain ⟨p, _, p1, p2⟩ := hp d hd; exact ⟨p, p1, p2⟩

theorem map_eraseIdx {α β} (f : α → β) (l : List α) (n : Nat) : (l.eraseIdx n).map f = (l.map f).eraseIdx n := by
  induction l generalizing n with
  | nil => rfl
  | cons a l ih =>
    cases n with
    | zero => rfl
    | succ n => rw [List.eraseIdx_cons_succ, List.map_cons, List.map_cons, List.eraseIdx_cons_succ, ih]

theorem erase_filter {l : List Nat} (hl : l.Nodup) {n c : Nat} (hc : l[n]? = some c) :
    (l.filter fun k => ![c].contains k) = l.eraseIdx n := by
  induction l generalizing n with
  | nil => rfl
  | cons a l ih =>
    rw [List.nodup_cons] at hl
    cases n with
    | zero =>
      injection hc with hc
      subst hc
      rw [List.filter_cons, if_neg (by simp)]
      apply filter_all_true
      intro k hk
      have : k ≠ a := by rintro rfl; exact hl.1 hk
      simp [this]
    | succ n =>
      have hc : l[n]? = some c := hc
      have : a ≠ c := by rintro rfl; exact hl.1 (List.mem_of_getElem? hc)
      rw [List.filter_cons, if_pos (by simp [this]), ih hl.2 hc]
      rfl

theorem binaryAt_nat (bs : List Bytes) (k : Nat) :
    binaryAt bs (k : Int) = match bs[k]? with | none => .error .binary | some d => .ok d := by
  unfold binaryAt pyIndex
  rw [if_pos (by omega)]
  by_cases h : k < bs.length
  · rw [if_pos (by omega)]
    show (match bs[k]? with | none => _ | some d => _) = _
    rw [List.getElem?_eq_getElem h]
  · rw [if_neg (by omega), List.getElem?_eq_none (by omega)]

theorem binaryAt_erase (bs : List Bytes) {n k : Nat} (hk : k ≠ n) :
    binaryAt (bs.eraseIdx n) ((if n < k then k - 1 else k : Nat) : Int) = binaryAt bs (k : Int) := by
  rw [binaryAt_nat, binaryAt_nat]
  have : (bs.eraseIdx n)[(if n < k then k - 1 else k : Nat)]? = bs[k]? := by
    rw [List.getElem?_eraseIdx]
    by_cases h : n < k
    · rw [if_pos h, if_neg (by omega), Nat.sub_add_cancel (by omega)]
    · rw [if_neg h, if_pos (by omega)]
  rw [this]

theorem attBinary_ref (env : Env) {s : Db} (hs : Inv s) {b k : Nat} {bs : List Bytes} (hk : RefNo s.heap b k) (hb : (binaries env s).1 = .ok bs) :
    (attBinary env b s).1 = binaryAt bs k := by
  have h2 : binaries env s = (.ok bs, s) := by
    cases h4 : versionGe4 s.version with
    | true => rw [binaries_four env h4] at hb ⊢; rw [← hb]
    | false => rw [binaries_three env hs h4] at hb ⊢; rw [← hb]
  unfold attBinary
  rw [bind_of h2, bind_of (attId_ref hk), lift_run]

/-- What `delete_binary` promises about the attachments and the binaries of a database: `bs` is the list of binaries
before, `extra` the element of the binary itself where the binaries are elements. -/
structure BinaryDeleted (env : Env) (s s' : Db) (n : Nat) (bs : List Bytes) (extra : List Nat) : Prop where
  /-- the binary is gone, the others keep their order -/
  bins : (binaries env s').1 = .ok (bs.eraseIdx n)
  /-- exactly the attachments of current entries that referred to it are gone -/
  att : ∀ b, IsAtt s'.heap b ↔ IsAtt s.heap b ∧ ¬ Gone s.heap n b
  /-- references are lowered if they were above -/
  ref : ∀ b, IsAtt s'.heap b → ∀ k, RefNo s.heap b k → RefNo s'.heap b (if n < k then k - 1 else k)
  /-- every attachment that referred to another binary still yields the same data (or the same error) -/
  data : ∀ b, IsAtt s'.heap b → ∀ k, RefNo s.heap b k → k ≠ n → (attBinary env b s').1 = (attBinary env b s).1
  /-- nothing else is changed -/
  tag : ∀ j, s'.heap.tag j = s.heap.tag j
  text : ∀ j, s'.heap.text j = s.heap.text j
  attr : ∀ j k, (k = "Ref".toList → ∀ b, IsAtt s.heap b → j ∉ s.heap.all b "Value".toList) → s'.heap.attr j k = s.heap.attr j k
  kids : ∃ D, (∀ b, b ∈ D ↔ Gone s.heap n b) ∧ ∀ j, j ≠ 0 → s'.heap.kids j = (s.heap.kids j).filter fun k => !(extra ++ D).contains k
  /-- and the database is fit for further calls -/
  atts : Atts s'.heap

/-- KDBX4. -/
theorem C48_four (env : Env) {s : Db} (hs : Inv s) (h4 : versionGe4 s.version = true) (ha : Atts s.heap) {n : Nat}
    (hn : n < s.binaries.length) :
    ∃ s', deleteBinary env n s = (.ok (), s') ∧ Inv s' ∧
      s' = { s with world := s'.world, binaries := s.binaries.eraseIdx n } ∧
      BinaryDeleted env s s' n (s.binaries.map (List.drop 1)) [] := by
  let s1 : Db := { s with binaries := s.binaries.eraseIdx n }
  have hpop : popBinary env n s = (.ok (), s1) := by
    unfold popBinary
    rw [bind_of (reads_run _ s), if_pos h4, bind_of (reads_run _ s)]
    have : pyIndex s.binaries.length n = some n := by
      unfold pyIndex
      rw [if_pos (by omega), if_pos (by omega)]
      rfl
    rw [this]
    rfl
  have hs1 : Inv s1 := ⟨hs.world, hs.bound⟩
  obtain ⟨s', D, h1, h2, h3, h5, h6, h7, h8⟩ := refs_deleted env (s := s1) hs1 ha n
  have hb1 : (binaries env s1).1 = .ok ((s.binaries.map (List.drop 1)).eraseIdx n) := by
    rw [binaries_four env (s := s1) h4]
    show Except.ok ((s.binaries.eraseIdx n).map _) = _
    rw [map_eraseIdx]
  have hatt : ∀ b, IsAtt s'.heap b ↔ IsAtt s.heap b ∧ ¬ Gone s.heap n b := fun b => by rw [h6.att b, h5 b]; rfl
  have href : ∀ b, IsAtt s'.heap b → ∀ k, RefNo s.heap b k → RefNo s'.heap b (if n < k then k - 1 else k) := by
    intro b hb k hk
    obtain ⟨g1, g2⟩ := (h6.att b).mp hb
    exact h6.ref b g1 g2 k hk
  refine ⟨s', ?_, h2, h3, ⟨h8.trans hb1, hatt, href, ?_, h6.tag, h6.text, h6.attr, ⟨D, h5, h6.kids⟩, h7⟩⟩
  · unfold deleteBinary
    rw [bind_of hpop]
    exact h1
  · intro b hb k hk hkn
    rw [attBinary_ref env h2 (href b hb k hk) (h8.trans hb1), attBinary_ref env hs hk (congrArg Prod.fst (binaries_four env h4)),
      binaryAt_erase _ hkn]

theorem dataAll_erase (env : Env) {h : Heap} {els : List Nat} {r : List Bytes} (hr : dataAll env h els = .ok r) (n : Nat) :
    dataAll env h (els.eraseIdx n) = .ok (r.eraseIdx n) := by
  induction els generalizing r n with
  | nil => injection hr with hr; subst hr; rfl
  | cons e es ih =>
    rw [dataAll] at hr
    cases h1 : binaryData env h e with
    | error x => rw [h1] at hr; cases hr
    | ok d =>
      rw [h1] at hr
      cases h2 : dataAll env h es with
      | error x => rw [h2] at hr; cases hr
      | ok t =>
        rw [h2] at hr
        injection hr with hr
        subst hr
        cases n with
        | zero => exact h2
        | succ n =>
          rw [List.eraseIdx_cons_succ, List.eraseIdx_cons_succ, dataAll, h1, ih h2 n]

/-- KDBX3: the binaries are elements; the others keep their `ID`. -/
theorem C48_three (env : Env) {s : Db} (hs : Inv s) (h3 : versionGe4 s.version = false) {el : Nat} (hb : BinsOk s el)
    (hleaf : ∀ c ∈ s.heap.kids el, s.heap.kids c = []) (ha : Atts s.heap) {bs : List Bytes} (hbs : binaries env s = (.ok bs, s))
    {n c : Nat} (hc : (s.heap.kids el)[n]? = some c) :
    ∃ s', deleteBinary env n s = (.ok (), s') ∧ Inv s' ∧ s' = { s with world := s'.world } ∧
      BinaryDeleted env s s' n bs [c] ∧ BinsOk s' el ∧ (∀ c ∈ s'.heap.kids el, s'.heap.kids c = []) ∧
      s'.heap.kids el = (s.heap.kids el).eraseIdx n := by
  have hel : el ∈ metaEls s.heap "Binaries".toList := by rw [hb.one]; simp
  obtain ⟨hm, ht⟩ := metaEls_mem hs hel
  have hel0 : el ≠ 0 := by rintro rfl; rw [hs.zero_tag] at ht; exact absurd ht (by decide)
  have hall : s.heap.all el "Binary".toList = s.heap.kids el := filter_all_true fun k hk => by rw [beq_iff_eq]; exact hb.only k hk
  have hbe : binEls s.heap = s.heap.kids el := by unfold binEls; rw [hb.one, List.flatMap_cons, List.flatMap_nil, List.append_nil, hall]
  have hda : dataAll env s.heap (s.heap.kids el) = .ok bs := by
    have hids := hb.ids
    rw [hall] at hids
    rw [binaries_three env hs h3, hbe, binaries_ordered env _ _ hids] at hbs
    exact congrArg Prod.fst hbs
  have hck : c ∈ s.heap.kids el := List.mem_of_getElem? hc
  have hnl : n < (s.heap.kids el).length := (List.getElem?_eq_some_iff.mp hc).1
  obtain ⟨s1, r1, r2, r3, r4⟩ := removeKid_ok hs hel0 hck
  have r5 : Dropped s.heap s1.heap [c] := dropped_one hs hel0 hck r4
  have hpop : popBinary env n s = (.ok (), s1) := by
    unfold popBinary
    rw [bind_of (reads_run _ s), if_neg (by rw [h3]; decide)]
    have hx := metaEl_run env hs (n := "Binaries".toList) (by decide)
    rw [hb.one] at hx
    replace hx : xpathFirst env none (metaQuery "Binaries".toList) s = (.ok (some el), s) := hx
    rw [bind_of hx, bind_of (orAttr_some el s), bind_of (childrenOf_run el s)]
    have : (pyIndex (s.heap.kids el).length n).bind ((s.heap.kids el)[·]?) = some c := by
      unfold pyIndex
      rw [if_pos (by omega), if_pos (by omega)]
      exact hc
    rw [this]
    exact r1
  have hrem : Removable s [c] := by
    intro d hd
    rw [List.mem_singleton] at hd
    subst hd
    exact ⟨hb.only d hck, ⟨el, hel0, hck⟩, by rw [hleaf d hck]; intro k hk; cases hk⟩
  have htc : ∀ d ∈ [c], s.heap.tag d = "Binary".toList := fun d hd => (hrem d hd).1
  have ha1 := dropped_atts hs ha r5 hrem
  have hnc : ∀ b, IsAtt s.heap b → b ∉ [c] := by
    intro b hb' hbc
    rw [List.mem_singleton] at hbc
    subst hbc
    refine hb'.2.2 ?_
    unfold Heap.all
    rw [hleaf b hck]
    rfl
  have hatt1 : ∀ b, IsAtt s1.heap b ↔ IsAtt s.heap b := fun b => by
    rw [dropped_att hs r5 hrem]
    exact ⟨fun h => h.1, fun h => ⟨h, hnc b h⟩⟩
  have hgone : ∀ b, Gone s1.heap n b ↔ Gone s.heap n b := by
    intro b
    unfold Gone
    rw [hatt1]
    constructor
    · rintro ⟨g1, g2, g3⟩
      have hd := (dropped_inDoc hs r5 (fun d hd => (hrem d hd).2.1) b).mp ((hatt1 b).mpr g1).1
      exact ⟨g1, (dropped_refNo r5 htc (att_ne_zero hs g1) n).mp g2, fun h => g3 ((dropped_hist hs r5 hd.2).mpr h)⟩
    · rintro ⟨g1, g2, g3⟩
      have hd := (dropped_inDoc hs r5 (fun d hd => (hrem d hd).2.1) b).mp ((hatt1 b).mpr g1).1
      exact ⟨g1, (dropped_refNo r5 htc (att_ne_zero hs g1) n).mpr g2, fun h => g3 ((dropped_hist hs r5 hd.2).mp h)⟩
  have hk1 : s1.heap.kids el = (s.heap.kids el).eraseIdx n := by
    rw [dropped_kids r5 hel0]
    exact erase_filter ((kids_ordered s el).nodup hs.world.uniq) hc
  have hsub1 : ∀ k ∈ s1.heap.kids el, k ∈ s.heap.kids el := by
    intro k hk
    rw [hk1] at hk
    exact List.mem_of_mem_eraseIdx hk
  have hall1 : s1.heap.all el "Binary".toList = s1.heap.kids el := filter_all_true fun k hk => by
    rw [beq_iff_eq, dropped_tag r5]; exact hb.only k (hsub1 k hk)
  have hone1 : metaEls s1.heap "Binaries".toList = [el] := by rw [dropped_metaEls hs r5 _ htc (by decide), hb.one]
  have hids1 : IdsOk s1.heap (s1.heap.kids el) := by
    have hids := hb.ids
    rw [hall] at hids
    rw [hk1]
    intro i hi
    rw [List.getElem_eraseIdx]
    have hlen := List.length_eraseIdx_of_lt hnl
    simp only [dropped_attr r5]
    split
    · exact hids i (by omega)
    · obtain ⟨m, m1, m2⟩ := hids (i + 1) (by omega)
      exact ⟨m, m1, by omega⟩
  have hdata : ∀ l, dataAll env s1.heap l = dataAll env s.heap l := by
    intro l
    induction l with
    | nil => rfl
    | cons i l ih =>
      have ed : binaryData env s1.heap i = binaryData env s.heap i := by
        unfold binaryData
        rw [dropped_text r5, dropped_attr r5]
      rw [dataAll, dataAll, ed, ih]
  have hb1 : (binaries env s1).1 = .ok (bs.eraseIdx n) := by
    have hbe1 : binEls s1.heap = s1.heap.kids el := by unfold binEls; rw [hone1, List.flatMap_cons, List.flatMap_nil, List.append_nil, hall1]
    rw [binaries_three env r2 (by rw [r3]; exact h3), hbe1, binaries_ordered env _ _ hids1, hdata, hk1]
    exact dataAll_erase env hda n
  obtain ⟨s', D, h1, h2, h3', h5, h6, h7, h8⟩ := refs_deleted env r2 ha1 n
  have hD : ∀ b, b ∈ D ↔ Gone s.heap n b := fun b => by rw [h5 b, hgone]
  have hatt : ∀ b, IsAtt s'.heap b ↔ IsAtt s.heap b ∧ ¬ Gone s.heap n b := fun b => by rw [h6.att b, hatt1, hD b]
  have href : ∀ b, IsAtt s'.heap b → ∀ k, RefNo s.heap b k → RefNo s'.heap b (if n < k then k - 1 else k) := by
    intro b hb k hk
    obtain ⟨g1, g2⟩ := (h6.att b).mp hb
    exact h6.ref b g1 g2 k ((dropped_refNo r5 htc (att_ne_zero r2 g1) k).mpr hk)
  have hval : ∀ b, IsAtt s.heap b → s1.heap.all b "Value".toList = s.heap.all b "Value".toList := fun b hb' =>
    dropped_all_other r5 (att_ne_zero hs hb') fun d hd => by rw [htc d hd]; decide
  have hk' : s'.heap.kids el = s1.heap.kids el := by
    rw [h6.kids el hel0]
    apply filter_all_true
    intro k hk
    rw [Bool.not_eq_true', List.contains_eq_mem, decide_eq_false_iff_not]
    intro hd
    obtain ⟨p, p1, p2⟩ := ha.parent k ((hD k).mp hd).1
    rw [parent_eq hs p1 (hsub1 k hk), ht] at p2
    exact absurd p2 (by decide)
  have hattr : ∀ j k, (k = "Ref".toList → ∀ b, IsAtt s.heap b → j ∉ s.heap.all b "Value".toList) → s'.heap.attr j k = s.heap.attr j k := by
    intro j k hjk
    rw [h6.attr, dropped_attr r5]
    intro e b hb'
    have hb'' := (hatt1 b).mp hb'
    rw [hval b hb'']
    exact hjk e b hb''
  refine ⟨s', ?_, h2, by rw [h3', r3], ⟨h8.trans hb1, hatt, href, ?_, ?_, ?_, hattr, ⟨D, hD, ?_⟩, h7⟩, ⟨?_, ?_, ?_⟩, ?_, by rw [hk', hk1]⟩
  · unfold deleteBinary
    rw [bind_of hpop]
    exact h1
  · intro b hb' k hk hkn
    rw [attBinary_ref env h2 (href b hb' k hk) (h8.trans hb1), attBinary_ref env hs hk (by rw [hbs]), binaryAt_erase _ hkn]
  · intro j; rw [h6.tag, dropped_tag r5]
  · intro j; rw [h6.text, dropped_text r5]
  · intro j hj
    rw [h6.kids j hj, dropped_kids r5 hj, List.filter_filter]
    apply List.filter_congr
    intro k _
    by_cases c1 : k = c <;> by_cases c2 : k ∈ D <;> simp [c1, c2]
  · rw [h6.settings _ (by decide), hone1]
  · intro k hk
    rw [hk'] at hk
    rw [h6.tag, dropped_tag r5]
    exact hb.only k (hsub1 k hk)
  · have : s'.heap.all el "Binary".toList = s1.heap.kids el := by
      rw [← hk']
      exact filter_all_true fun k hk => by
        rw [hk'] at hk
        rw [beq_iff_eq, h6.tag, dropped_tag r5]; exact hb.only k (hsub1 k hk)
    rw [this]
    intro i hi
    obtain ⟨m, m1, m2⟩ := hids1 i hi
    refine ⟨m, ?_, m2⟩
    rw [h6.attr _ _ (fun e => absurd e (by decide))]
    exact m1
  · intro k hk
    rw [hk'] at hk
    have hk0 : k ≠ 0 := kid_ne_zero r2 hk
    rw [h6.kids k hk0, dropped_kids r5 hk0, hleaf k (hsub1 k hk)]
    rfl

/-- An id that is not there is refused, and nothing is changed. -/
theorem C48_refused (env : Env) {s : Db} (hs : Inv s) {n : Nat} :
    (versionGe4 s.version = true → s.binaries.length ≤ n → deleteBinary env n s = (.error .binary, s)) ∧
    (∀ el, versionGe4 s.version = false → metaEls s.heap "Binaries".toList = [el] → (s.heap.kids el).length ≤ n →
      deleteBinary env n s = (.error .binary, s)) := by
  have hnone : ∀ l : Nat, l ≤ n → pyIndex l n = none := by
    intro l hl
    unfold pyIndex
    rw [if_pos (by omega), if_neg (by omega)]
  constructor
  · intro h4 hn
    refine bind_err ?_
    unfold popBinary
    rw [bind_of (reads_run _ s), if_pos h4, bind_of (reads_run _ s), hnone _ hn]
    rfl
  · intro el h3 h1 hn
    refine bind_err ?_
    unfold popBinary
    rw [bind_of (reads_run _ s), if_neg (by rw [h3]; decide)]
    have hx := metaEl_run env hs (n := "Binaries".toList) (by decide)
    rw [h1] at hx
    replace hx : xpathFirst env none (metaQuery "Binaries".toList) s = (.ok (some el), s) := hx
    rw [bind_of hx, bind_of (orAttr_some el s), bind_of (childrenOf_run el s), hnone _ hn]
    rfl

/-! ## What it does not do -/

/-- Attachments in the history are not looked at when references are removed: here the old version of an entry
referred to binary 1. After deleting binary 1 it is still there with the same number, and yields the data of the
binary that was number 2. -/
theorem C48_history : ∃ s', deleteBinary Sample.env 1 Sample.db = (.ok (), s') ∧ (attBinary Sample.env 73 Sample.db).1 = .ok [11] ∧
    (attBinary Sample.env 73 s').1 = .ok [12] :=
  ⟨(deleteBinary Sample.env 1 Sample.db).2, run_pair (by decide +kernel), by decide +kernel, by decide +kernel⟩

/-- A negative id removes from the end of the list, but all references are lowered, since they are all greater: the
attachment that referred to binary 0 refers to -1 afterwards. -/
theorem C48_negative : ∃ s', deleteBinary Sample.env (-1) Sample.db = (.ok (), s') ∧ (binaries Sample.env s').1 = .ok [[10], [11]] ∧
    (attBinary Sample.env 47 Sample.db).1 = .ok [10] ∧ (attId 47 s').1 = .ok (-1) ∧ (attBinary Sample.env 47 s').1 = .ok [11] :=
  ⟨(deleteBinary Sample.env (-1) Sample.db).2, run_pair (by decide +kernel), by decide +kernel, by decide +kernel, by decide +kernel,
    by decide +kernel⟩

/-- In a KDBX3 file the number of an attachment is the `ID` of a binary. These are not changed: after deleting binary 0
the remaining one still has `ID` 1, while the attachment that referred to it now says 0. This code counts positions and
reads the right data, a program that looks at the `ID` does not. -/
theorem C48_ids : ∃ s', deleteBinary Sample.env 0 Sample.db3 = (.ok (), s') ∧ (binaries Sample.env s').1 = .ok [[2]] ∧
    s'.heap.kids 10 = [12] ∧ s'.heap.attr 12 "ID".toList = some "1".toList ∧
    (attId 73 Sample.db3).1 = .ok 1 ∧ (attId 73 s').1 = .ok 0 :=
  ⟨(deleteBinary Sample.env 0 Sample.db3).2, run_pair (by decide +kernel), by decide +kernel, by decide +kernel, by decide +kernel,
    by decide +kernel, by decide +kernel⟩

/-! ## The hypotheses hold for the sample database -/

/-- A check of the elements of a database. -/
def attsCheck (s : Db) : Bool :=
  s.world.ids.all fun b => s.heap.tag b != "Binary".toList || (s.heap.all b "Value".toList).isEmpty ||
    ((s.world.ids.any fun p => (s.heap.kids p).contains b && s.heap.tag p == "Entry".toList) &&
      ((s.heap.kids b).all fun k => (s.heap.kids k).isEmpty) &&
      (match s.heap.all b "Value".toList with
        | [v] => (List.range 10).any fun k => s.heap.attr v "Ref".toList == some (natStr k)
        | _ => false))

theorem atts_of_check {s : Db} (hs : Inv s) (h : attsCheck s = true) : Atts s.heap := by
  have key : ∀ b, IsAtt s.heap b → (∃ p, b ∈ s.heap.kids p ∧ s.heap.tag p = "Entry".toList) ∧ (∀ k ∈ s.heap.kids b, s.heap.kids k = []) ∧
      ∃ k, RefNo s.heap b k := by
    intro b hb
    have h1 := List.all_eq_true.mp h b (inDoc_mem hs hb.1).1
    have hv : (s.heap.all b "Value".toList).isEmpty = false := by
      cases hl : s.heap.all b "Value".toList with
      | nil => exact absurd hl hb.2.2
      | cons => rfl
    rw [hb.2.1, hv, bne_self_eq_false, Bool.false_or, Bool.false_or, Bool.and_eq_true, Bool.and_eq_true] at h1
    obtain ⟨⟨h2, h3⟩, h4⟩ := h1
    refine ⟨?_, ?_, ?_⟩
    · obtain ⟨p, _, hp⟩ := List.any_eq_true.mp h2
      rw [Bool.and_eq_true, beq_iff_eq] at hp
      exact ⟨p, by simpa using hp.1, hp.2⟩
    · intro k hk
      simpa using List.all_eq_true.mp h3 k hk
    · unfold RefNo
      split at h4
      · next v hv' =>
        obtain ⟨k, _, hk⟩ := List.any_eq_true.mp h4
        rw [beq_iff_eq] at hk
        exact ⟨k, v, hv', hk⟩
      · cases h4
  exact ⟨fun b hb => (key b hb).1, fun b hb => (key b hb).2.2, fun b hb => (key b hb).2.1⟩

example : Atts Sample.db.heap ∧ IsAtt Sample.db.heap 47 ∧ RefNo Sample.db.heap 47 0 ∧ ¬ InHist Sample.db.heap 47 :=
  ⟨atts_of_check Sample.db_inv (by decide +kernel),
    ⟨⟨1, by decide +kernel, .snoc (.snoc (.snoc (.snoc .refl (show 13 ∈ _ by decide +kernel)) (show 14 ∈ _ by decide +kernel))
      (show 23 ∈ _ by decide +kernel)) (by decide +kernel)⟩, by decide +kernel, by decide +kernel⟩,
    ⟨49, by decide +kernel, by decide +kernel⟩, sample_noHist (by decide +kernel)⟩
example : Atts Sample.db3.heap ∧ BinsOk Sample.db3 10 ∧ (∀ c ∈ Sample.db3.heap.kids 10, Sample.db3.heap.kids c = []) ∧
    (Sample.db3.heap.kids 10)[1]? = some 12 :=
  ⟨atts_of_check Sample.db3_inv (by decide +kernel), sample_binsOk, by decide +kernel, by decide +kernel⟩

end Verif.Props
