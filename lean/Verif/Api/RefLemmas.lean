import Verif.Api.AttachLemmas
/-!
# References of attachments to binaries
-/
namespace Verif.Spec
open Verif Api

/-- An attachment of the document: a `Binary` element with a `Value`. -/
def IsAtt (h : Heap) (b : Nat) : Prop := InDoc h b ∧ h.tag b = "Binary".toList ∧ h.all b "Value".toList ≠ []

/-- The attachment refers to binary `k`. -/
def RefNo (h : Heap) (b k : Nat) : Prop := ∃ v, h.all b "Value".toList = [v] ∧ h.attr v "Ref".toList = some (natStr k)

/-- The attachments are as in a database file: they belong to entries, they refer to a number, and nothing is nested
in them. -/
structure Atts (h : Heap) : Prop where
  parent : ∀ b, IsAtt h b → ∃ p, b ∈ h.kids p ∧ h.tag p = "Entry".toList
  ref : ∀ b, IsAtt h b → ∃ k, RefNo h b k
  leaf : ∀ b, IsAtt h b → ∀ k ∈ h.kids b, h.kids k = []

/-- The attachments of current entries that refer to binary `n`. -/
def Gone (h : Heap) (n b : Nat) : Prop := IsAtt h b ∧ RefNo h b n ∧ ¬ InHist h b

/-- The references of the attachments in `G` are lowered by one, and nothing else is changed. -/
structure Lowered (h h' : Heap) (G : List Nat) : Prop where
  same : ∀ j, (h' j).map (fun r => (r.tag, r.text, r.kids)) = (h j).map fun r => (r.tag, r.text, r.kids)
  attr : ∀ j k, ¬ (k = "Ref".toList ∧ ∃ b ∈ G, j ∈ h.all b "Value".toList) → h'.attr j k = h.attr j k
  ref : ∀ b ∈ G, ∀ k, RefNo h b (k + 1) → RefNo h' b k
  other : ∀ j, (∀ b ∈ G, j ∉ h.all b "Value".toList) → h' j = h j

theorem refNo_inj {h : Heap} {b k m : Nat} (h1 : RefNo h b k) (h2 : RefNo h b m) : k = m := by
  obtain ⟨v, a1, a2⟩ := h1
  obtain ⟨w, b1, b2⟩ := h2
  rw [a1] at b1
  injection b1 with b1
  subst b1
  rw [a2] at b2
  injection b2 with b2
  exact natStr_inj b2

end Verif.Spec

namespace Verif.Api
open Verif XPath Spec

/-! ## Finding them -/

theorem hasValue_ref {s : Db} (hs : Inv s) {i : Nat} {n : Node} (hn : s.world.get? i = some n) (v : Str) :
    HasValue exact n .ref v ↔ ∃ k ∈ s.heap.all i "Value".toList, s.heap.attr k "Ref".toList = some v := by
  obtain ⟨hm, hid⟩ := Node.get?_some hn
  subst hid
  rw [node_all hs hm]
  unfold HasValue exact valuesAt
  constructor
  · rintro ⟨t, ht, rfl⟩
    obtain ⟨x, hx, e⟩ := List.mem_map.mp ht
    refine ⟨x.id, List.mem_map.mpr ⟨x, hx, rfl⟩, ?_⟩
    have hxw := Node.nodes_trans hm (Node.kid_mem_nodes (List.mem_filter.mp hx).1)
    rw [node_attr (Node.get?_mem hs.world.uniq hxw), e]
  · rintro ⟨k, hk, ht⟩
    obtain ⟨x, hx, rfl⟩ := List.mem_map.mp hk
    have hxw := Node.nodes_trans hm (Node.kid_mem_nodes (List.mem_filter.mp hx).1)
    rw [node_attr (Node.get?_mem hs.world.uniq hxw)] at ht
    exact ⟨some v, List.mem_map.mpr ⟨x, hx, ht⟩, rfl⟩

theorem plain_natStr (n : Nat) : Plain (natStr n) := by
  refine fun c hc => ⟨fun e => ?_, natStr_xml n c hc⟩
  have := (natStr_spec n).2.1 c hc
  rw [e] at this
  exact absurd this (by decide)

theorem findRefs_run (env : Env) {s : Db} (hs : Inv s) (ha : Atts s.heap) (n : Nat) :
    ∃ D, findAttachmentList env true { kwargs := [.attr "id".toList (some (intStr n))] } s = (.ok D, s) ∧ D.Nodup ∧
      ∀ b, b ∈ D ↔ Gone s.heap n b := by
  have hko : ∀ k ∈ [Kw.attr "id".toList (some (intStr n))], KwOk .attachment k := by
    intro k hk
    rw [List.mem_singleton.mp hk]
    exact ⟨rfl, plain_natStr n⟩
  have key : ∀ x ∈ s.world.nodes, Matches Kind.attachment.tag Kind.attachment.place env.re s.world true
      { kwargs := [.attr "id".toList (some (intStr n))] } x ↔ Gone s.heap n x.id := by
    intro x hx
    have hg := Node.get?_mem hs.world.uniq hx
    constructor
    · intro hM
      have h1 := (inDoc_scope hs hx).mp hM.scope
      have h2 : s.heap.tag x.id = "Binary".toList := by rw [node_tag hg]; exact hM.tag
      obtain ⟨v, hv1, hv2⟩ := (hasValue_ref hs hg _).mp (holds_id.mp (hM.filters _ (List.mem_singleton.mpr rfl)))
      have h3 : IsAtt s.heap x.id := ⟨h1, h2, List.ne_nil_of_mem hv1⟩
      refine ⟨h3, ?_, fun hh => hM.history rfl ((hist_iff hs hx).mpr hh)⟩
      obtain ⟨k, w, g1, g2⟩ := ha.ref _ h3
      rw [g1, List.mem_singleton] at hv1
      subst hv1
      exact ⟨v, g1, hv2⟩
    · rintro ⟨⟨h1, h2, _⟩, ⟨v, h4, h5⟩, h6⟩
      refine ⟨(inDoc_scope hs hx).mpr h1, by rw [← node_tag hg]; exact h2, fun _ hh => h6 ((hist_iff hs hx).mp hh), ?_⟩
      intro k hk
      rw [List.mem_singleton.mp hk]
      exact holds_id.mpr ((hasValue_ref hs hg _).mpr ⟨v, by rw [h4]; simp, h5⟩)
  obtain ⟨r, hr⟩ := find_ok (K := .attachment) (re := env.re) (recursive := true) hs.world
    (a := { kwargs := [.attr "id".toList (some (intStr n))] }) rfl (by simp) (by simp) hko (fun k _ => kw_compiles_exact k) (by
      intro l hl hM
      have hlm : l.node ∈ s.world.nodes := by
        rcases allLocs_node hl with h | h
        · have : l = ⟨docNode s.world, []⟩ := allLocs_inj hs.world hl (docNode_mem _) (by rw [h]; rfl)
          have ht := hM.tag
          rw [this] at ht
          exact absurd ht (by show ([] : Str) ≠ _; decide)
        · exact h
      obtain ⟨p, p1, p2⟩ := ha.parent _ ((key _ hlm).mp hM).1
      exact cast_binary hs hl hM.tag p1 p2)
  obtain ⟨is, rfl, hsub, hmem⟩ := find_partial hs.world rfl (by simp) (by simp) hko hr
  refine ⟨is, ?_, hsub.nodup hs.world.uniq, ?_⟩
  · unfold findAttachmentList
    rw [findAttachments_eq, hr]
    rfl
  · intro b
    rw [hmem b]
    constructor
    · rintro ⟨x, hx, rfl, hM⟩
      exact (key x hx).mp hM
    · intro h
      obtain ⟨x, hx⟩ := get_of_mem (inDoc_mem hs h.1.1).1
      obtain ⟨hm, rfl⟩ := Node.get?_some hx
      exact ⟨x, hm, rfl, (key x hm).mpr h⟩

/-! ## Those that refer to a greater number -/

theorem number_natStr (n : Nat) : number (natStr n) = some ((n : Int), 0) := by
  obtain ⟨h1, h2, h3⟩ := natStr_spec n
  have hsp : ∀ c, isDigit c = true → XPath.isSpace c = false := by
    intro c hc
    cases hs : XPath.isSpace c with
    | false => rfl
    | true =>
      unfold XPath.isSpace at hs
      simp only [Bool.or_eq_true, beq_iff_eq] at hs
      rcases hs with ((rfl | rfl) | rfl) | rfl <;> exact absurd hc (by decide)
  have hdw : ∀ l : Str, (∀ c ∈ l, isDigit c = true) → l.dropWhile XPath.isSpace = l := by
    intro l hl
    cases l with
    | nil => rfl
    | cons c l => rw [List.dropWhile_cons, if_neg]; rw [hsp c (hl c (List.mem_cons_self ..))]; decide
  have e1 : (((natStr n).dropWhile XPath.isSpace).reverse.dropWhile XPath.isSpace).reverse = natStr n := by
    rw [hdw _ h2, hdw _ (by intro c hc; exact h2 c (List.mem_reverse.mp hc)), List.reverse_reverse]
  have htw : ∀ l : Str, (∀ c ∈ l, isDigit c = true) → l.takeWhile isDigit = l := by
    intro l
    induction l with
    | nil => intro _; rfl
    | cons c l ih =>
      intro h
      rw [List.takeWhile_cons, if_pos (h c (List.mem_cons_self ..)), ih fun d hd => h d (List.mem_cons_of_mem _ hd)]
  have e2 : number (natStr n) = numBody false (natStr n) := by
    unfold number trimSpace
    rw [e1]
    split
    · next h =>
      exact absurd (h2 '-' (by rw [h]; exact List.mem_cons_self ..)) (by decide)
    · rfl
  rw [e2]
  unfold numBody
  rw [htw _ h2, List.drop_length]
  show numDigits false (natStr n) [] = _
  unfold numDigits
  rw [List.append_nil, h3, if_pos]
  · rfl
  · have : 0 < (natStr n).length := List.length_pos_iff.mpr h1
    simpa using this

theorem gt_nat (k n : Nat) : numGt (number (natStr k)) (number (natStr n)) = decide (n < k) := by
  rw [number_natStr, number_natStr]
  show decide ((n : Int) * 10 ^ 0 < (k : Int) * 10 ^ 0) = _
  simp

theorem piece_gt {v : Str} (hv : Plain v) :
    Piece (fmt "/Value[@Ref > \"{}\"]/..".toList [v] []) [.child "Value".toList, .filter (.gt (.attr "Ref".toList) (.lit v)), .parent] :=
  piece_value hv (A := "/Value[@Ref > \"".toList) (B := "\"]/..".toList)
    (out := [.slash, .name "Value".toList, .lbr, .at, .name "Ref".toList, .gt])
    (ts := [.slash, .name "Value".toList, .lbr, .at, .name "Ref".toList, .gt, .lit v, .rbr, .slash, .ddot]) rfl
    ⟨_, _, rfl, Or.inl rfl⟩ rfl rfl rfl

theorem reads_binary : Reads "//Binary".toList true [.desc "Binary".toList] :=
  ⟨by decide, _, rfl, Or.inr ⟨"Binary".toList, by decide +kernel⟩, by decide +kernel⟩

theorem gtQuery_eq (v : Str) : fmt "//Binary/Value[@Ref > \"{}\"]/..".toList [v] [] =
    "//Binary".toList ++ fmt "/Value[@Ref > \"{}\"]/..".toList [v] [] := rfl

theorem gtEx_eval (re : Regex) (l : Loc) (v : Str) : Ex.eval re l (.gt (.attr "Ref".toList) (.lit v)) =
    .ok ((l.node.attr "Ref".toList).toList.any fun x => numGt (number x) (number v)) := by
  show Except.ok ((l.node.attr "Ref".toList).toList.any fun x => [v].any fun y => numGt (number x) (number y)) = _
  simp only [List.any_cons, List.any_nil, Bool.or_false]

theorem gtRefs_run (env : Env) {s : Db} (hs : Inv s) (ha : Atts s.heap) (n : Nat) :
    ∃ G, xpathCast env (fmt "//Binary/Value[@Ref > \"{}\"]/..".toList [intStr n] []) s = (.ok G, s) ∧ G.Nodup ∧
      ∀ b, b ∈ G ↔ IsAtt s.heap b ∧ ∃ k, RefNo s.heap b k ∧ n < k := by
  have hr := (reads_binary.append (piece_gt (plain_natStr n))).parse
  have hr : parse (fmt "//Binary/Value[@Ref > \"{}\"]/..".toList [intStr n] []) = _ := hr
  have hsel := (selects_filter (re := env.re) (q := fun l => (l.node.attr "Ref".toList).toList.any fun x => numGt (number x) (number (natStr n)))
    fun l b h => by rw [gtEx_eval] at h; injection h with h; exact h.symm).nest "Value".toList
  obtain ⟨R0, hR0, hm0⟩ := scope_iff (re := env.re) hs.world none (by simp) true "Binary".toList
  obtain ⟨R, hR⟩ := total_of (re := env.re) (is := [.child "Value".toList, .filter (.gt (.attr "Ref".toList) (.lit (natStr n))), .parent])
    (by
      intro e he l
      simp only [List.mem_cons, List.not_mem_nil, or_false] at he
      rcases he with he | he | he
      · cases he
      · cases he; exact ⟨_, gtEx_eval _ _ _⟩
      · cases he) R0
  have hmR := hsel R0 R hR
  obtain ⟨S, hS, hsub, hmS⟩ := query_ok (re := env.re) (ctx := none) hs.world hr (R := R) (by
    show evalInstrs env.re (.desc "Binary".toList :: _) (startLocs s.world none true) = _
    replace hR0 : Instr.eval env.re (.desc "Binary".toList) (startLocs s.world none true) = .ok R0 := hR0
    rw [evalInstrs, hR0]
    exact hR)
  have hnode : ∀ l ∈ S, l ∈ allLocs s.world ∧ l.node ∈ s.world.nodes := by
    intro l hl
    obtain ⟨h1, h2, _⟩ := (hm0 l).mp ((hmR l).mp ((hmS l).mp hl).2).1
    refine ⟨h1, ?_⟩
    rcases allLocs_node h1 with h | h
    · have : l = ⟨docNode s.world, []⟩ := allLocs_inj hs.world h1 (docNode_mem _) (by rw [h]; rfl)
      rw [this] at h2
      exact absurd h2 (by show ([] : Str) ≠ _; decide)
    · exact h
  have key : ∀ l, l ∈ allLocs s.world → l.node ∈ s.world.nodes →
      (l ∈ S ↔ IsAtt s.heap l.node.id ∧ ∃ k, RefNo s.heap l.node.id k ∧ n < k) := by
    intro l hl hlm
    have hg := Node.get?_mem hs.world.uniq hlm
    rw [hmS, hmR, hm0]
    constructor
    · rintro ⟨_, ⟨_, h1, h2⟩, v, hv1, hv2, hv3⟩
      have hv : v.id ∈ s.heap.all l.node.id "Value".toList := by
        rw [node_all hs hlm]
        exact List.mem_map_of_mem (List.mem_filter.mpr ⟨hv1, by rw [beq_iff_eq]; exact hv2⟩)
      have hatt : IsAtt s.heap l.node.id :=
        ⟨(inDoc_scope hs hlm).mp h2, by rw [node_tag hg]; exact h1, List.ne_nil_of_mem hv⟩
      refine ⟨hatt, ?_⟩
      obtain ⟨k, w, w1, w2⟩ := ha.ref _ hatt
      refine ⟨k, ⟨w, w1, w2⟩, ?_⟩
      rw [w1, List.mem_singleton] at hv
      subst hv
      rw [node_attr (Node.get?_mem hs.world.uniq (Node.nodes_trans hlm (Node.kid_mem_nodes hv1)))] at w2
      replace hv3 : ((v.attr "Ref".toList).toList.any fun x => numGt (number x) (number (natStr n))) = true := hv3
      rw [w2] at hv3
      simpa [gt_nat] using hv3
    · rintro ⟨⟨h1, h2, _⟩, k, ⟨w, w1, w2⟩, hk⟩
      refine ⟨loc_pos hs.world hl (by rw [← node_tag hg, h2]; decide), ⟨hl, by rw [← node_tag hg]; exact h2, (inDoc_scope hs hlm).mpr h1⟩, ?_⟩
      have hw : w ∈ s.heap.all l.node.id "Value".toList := by rw [w1]; simp
      rw [node_all hs hlm] at hw
      obtain ⟨v, hv, rfl⟩ := List.mem_map.mp hw
      obtain ⟨v1, v2⟩ := List.mem_filter.mp hv
      rw [beq_iff_eq] at v2
      refine ⟨v, v1, v2, ?_⟩
      rw [node_attr (Node.get?_mem hs.world.uniq (Node.nodes_trans hlm (Node.kid_mem_nodes v1)))] at w2
      show ((v.attr "Ref".toList).toList.any fun x => numGt (number x) (number (natStr n))) = true
      rw [w2]
      simpa [gt_nat] using hk
  have hcast : castAll S = .ok () := castAll_ok fun l hl => by
    obtain ⟨h1, h2⟩ := hnode l hl
    have hatt := ((key l h1 h2).mp hl).1
    obtain ⟨p, p1, p2⟩ := ha.parent _ hatt
    exact cast_binary hs h1 (by rw [← node_tag (Node.get?_mem hs.world.uniq h2)]; exact hatt.2.1) p1 p2
  have hids : (S.map fun l => l.node.id).Sublist s.world.ids := by rw [← allLocs_ids hs.world.id]; exact hsub.map _
  refine ⟨S.map fun l => l.node.id, ?_, hids.nodup hs.world.uniq, ?_⟩
  · unfold xpathCast
    rw [hS]
    show (((castAll S).bind _ : Except PyErr _), s) = _
    rw [hcast]
    rfl
  · intro b
    rw [List.mem_map]
    constructor
    · rintro ⟨l, hl, rfl⟩
      obtain ⟨h1, h2⟩ := hnode l hl
      exact (key l h1 h2).mp hl
    · intro h
      obtain ⟨hbm, hb0⟩ := inDoc_mem hs h.1.1
      obtain ⟨x, hx⟩ := get_of_mem hbm
      obtain ⟨hm, rfl⟩ := Node.get?_some hx
      have : x ∈ s.world.kids.flatMap Node.nodes := by
        rw [Node.nodes_eq] at hm
        rcases List.mem_cons.mp hm with e | e
        · rw [e, hs.world.id] at hb0; exact absurd rfl hb0
        · exact e
      obtain ⟨l, hl, rfl⟩ := node_allLocs this
      exact ⟨l, (key l hl hm).mpr h, rfl⟩

/-! ## Lowering them -/

section
variable {s s' : Db} {G : List Nat}

theorem lowered_rec (h : Lowered s.heap s'.heap G) (j : Nat) : s'.heap.tag j = s.heap.tag j ∧ s'.heap.text j = s.heap.text j ∧
    s'.heap.kids j = s.heap.kids j := by
  have := h.same j
  unfold Heap.tag Heap.text Heap.kids
  cases h1 : s'.heap j with
  | none =>
    rw [h1] at this
    cases h2 : s.heap j with
    | none => exact ⟨rfl, rfl, rfl⟩
    | some r => rw [h2] at this; cases this
  | some r' =>
    rw [h1] at this
    cases h2 : s.heap j with
    | none => rw [h2] at this; cases this
    | some r =>
      rw [h2] at this
      injection this with this
      injection this with a b
      injection b with b c
      exact ⟨a, b, c⟩

theorem lowered_all (h : Lowered s.heap s'.heap G) (j : Nat) (t : Str) : s'.heap.all j t = s.heap.all j t := by
  unfold Heap.all
  rw [(lowered_rec h j).2.2]
  apply List.filter_congr
  intro k _
  rw [(lowered_rec h k).1]

theorem lowered_reach (h : Lowered s.heap s'.heap G) (a j : Nat) : Reach s'.heap a j ↔ Reach s.heap a j := by
  constructor
  · intro hr
    induction hr with
    | refl => exact .refl
    | snoc _ hk ih => exact .snoc ih (by rw [(lowered_rec h _).2.2] at hk; exact hk)
  · intro hr
    induction hr with
    | refl => exact .refl
    | snoc _ hk ih => exact .snoc ih (by rw [(lowered_rec h _).2.2]; exact hk)

theorem lowered_inDoc (h : Lowered s.heap s'.heap G) (j : Nat) : InDoc s'.heap j ↔ InDoc s.heap j := by
  unfold InDoc docEl
  rw [(lowered_rec h 0).2.2]
  simp only [lowered_reach h]

theorem lowered_hist (h : Lowered s.heap s'.heap G) (j : Nat) : InHist s'.heap j ↔ InHist s.heap j := by
  unfold InHist
  simp only [lowered_reach h, (lowered_rec h _).1]

theorem lowered_att (h : Lowered s.heap s'.heap G) (b : Nat) : IsAtt s'.heap b ↔ IsAtt s.heap b := by
  unfold IsAtt
  rw [lowered_inDoc h, (lowered_rec h b).1, lowered_all h]

/-- An attachment that is not in the list keeps its reference. -/
theorem lowered_refNo (hs : Inv s) (h : Lowered s.heap s'.heap G) {b k : Nat} (hb : b ∉ G) (hr : RefNo s.heap b k) : RefNo s'.heap b k := by
  obtain ⟨v, h1, h2⟩ := hr
  refine ⟨v, by rw [lowered_all h]; exact h1, ?_⟩
  rw [h.attr]
  · exact h2
  · rintro ⟨_, c, hc, hv⟩
    have : v ∈ s.heap.all b "Value".toList := by rw [h1]; simp
    exact hb (parent_eq hs (all_sub this).1 (all_sub hv).1 ▸ hc)

theorem lowered_metaEls (h : Lowered s.heap s'.heap G) (t : Str) : metaEls s'.heap t = metaEls s.heap t := by
  unfold metaEls
  rw [(lowered_rec h 0).2.2]
  apply flatMap_same
  intro k _
  rw [(lowered_rec h k).1, lowered_all h]
  split
  · apply flatMap_same
    intro m _
    exact lowered_all h m t
  · rfl

theorem lowered_binaries (env : Env) (hs : Inv s) (hs' : Inv s') (hv : s'.version = s.version ∧ s'.binaries = s.binaries)
    (h : Lowered s.heap s'.heap G) : (binaries env s').1 = (binaries env s).1 := by
  cases h4 : versionGe4 s.version with
  | true => rw [binaries_four env h4, binaries_four env (by rw [hv.1]; exact h4), hv.2]
  | false =>
    rw [binaries_three env hs h4, binaries_three env hs' (by rw [hv.1]; exact h4)]
    have e1 : binEls s'.heap = binEls s.heap := by
      unfold binEls
      rw [lowered_metaEls h]
      apply flatMap_same
      intro el _
      exact lowered_all h el _
    rw [e1]
    have : ∀ (l : List Nat) (acc : List Bytes), binariesLoop env s'.heap l acc = binariesLoop env s.heap l acc := by
      intro l
      induction l with
      | nil => intro acc; rfl
      | cons i l ih =>
        intro acc
        have ed : binaryData env s'.heap i = binaryData env s.heap i := by
          unfold binaryData
          rw [(lowered_rec h i).2.1, h.attr _ _ (by rintro ⟨e, _⟩; exact absurd e (by decide))]
        have ei : binaryId s'.heap i = binaryId s.heap i := by
          unfold binaryId
          rw [h.attr _ _ (by rintro ⟨e, _⟩; exact absurd e (by decide))]
        rw [binariesLoop, binariesLoop, ed, ei]
        congr 1
        funext d
        congr 1
        funext n
        exact ih _
    exact this _ _
end

theorem refNo_find {h : Heap} {b v : Nat} {t : Str} (h1 : h.all b t = [v]) : h.find b t = some v := by
  unfold Heap.find
  rw [h1]
  rfl

theorem attId_ref {s : Db} {b k : Nat} (h : RefNo s.heap b k) : attId b s = (.ok (k : Int), s) := by
  obtain ⟨v, h1, h2⟩ := h
  unfold attId
  rw [bind_of (findKid_run b _ s), refNo_find h1, bind_of (orAttr_some v s), bind_of (attrOf_run v _ s), h2]
  show lift (pyInt (natStr k)) s = _
  rw [pyInt_natStr]
  rfl

theorem setAttId_ok {s : Db} (hs : Inv s) {b k : Nat} (h : RefNo s.heap b (k + 1)) :
    ∃ s', setAttId b (((k + 1 : Nat) : Int) - 1) s = (.ok (), s') ∧ Inv s' ∧ s' = { s with world := s'.world } ∧ Lowered s.heap s'.heap [b] := by
  obtain ⟨v, h1, h2⟩ := h
  have hi : (((k + 1 : Nat) : Int) - 1) = (k : Int) := by omega
  obtain ⟨s', g1, g2, g3, g4⟩ := setAttr_ok hs v "Ref".toList (natStr k) (natStr_xml k)
  have hall : s.heap.all b "Value".toList = s'.heap.all b "Value".toList := by
    have hk : ∀ j, s'.heap.kids j = s.heap.kids j ∧ s'.heap.tag j = s.heap.tag j := by
      intro j
      unfold Heap.kids Heap.tag
      rw [g4 j]
      cases s.heap j with
      | none => exact ⟨rfl, rfl⟩
      | some r => constructor <;> (simp only [Option.map_some]; split <;> rfl)
    unfold Heap.all
    rw [(hk b).1]
    apply List.filter_congr
    intro c _
    rw [(hk c).2]
  have hattr : ∀ j x, s'.heap.attr j x = if j = v ∧ x = "Ref".toList then some (natStr k) else s.heap.attr j x := by
    intro j x
    unfold Heap.attr
    rw [g4 j]
    by_cases e : j = v
    · subst e
      have hsome : ∃ r, s.heap j = some r := by
        have : j ∈ s.heap.all b "Value".toList := by rw [h1]; simp
        exact heap_some.mpr (kid_mem hs (all_sub this).1).1
      obtain ⟨r, hr⟩ := hsome
      rw [hr]
      show (if j = j then _ else _ : Node.Rec).attrs.lookup x = _
      rw [if_pos rfl, Node.putAttr_lookup]
      by_cases e2 : x = "Ref".toList
      · rw [if_pos e2, if_pos ⟨rfl, e2⟩]
      · rw [if_neg e2, if_neg fun h => e2 h.2]
        rfl
    · rw [if_neg fun h => e h.1]
      cases s.heap j with
      | none => rfl
      | some r => simp only [Option.map_some, if_neg e]
  refine ⟨s', ?_, g2, g3, ?_, ?_, ?_, ?_⟩
  · unfold setAttId
    rw [bind_of (findKid_run b _ s), refNo_find h1, bind_of (orAttr_some v s), hi]
    exact g1
  · intro j
    rw [g4 j]
    cases s.heap j with
    | none => rfl
    | some r => simp only [Option.map_some]; split <;> rfl
  · intro j x hx
    rw [hattr, if_neg]
    rintro ⟨rfl, rfl⟩
    exact hx ⟨rfl, b, by simp, by rw [h1]; simp⟩
  · intro c hc m hm
    rw [List.mem_singleton] at hc
    subst hc
    have : m = k := by have := refNo_inj hm ⟨v, h1, h2⟩; omega
    subst this
    refine ⟨v, by rw [← hall]; exact h1, ?_⟩
    rw [hattr, if_pos ⟨rfl, rfl⟩]
  · intro j hj
    have hne : j ≠ v := by
      rintro rfl
      exact hj b (by simp) (by rw [h1]; simp)
    rw [g4 j]
    cases s.heap j with
    | none => rfl
    | some r => simp only [Option.map_some, if_neg hne]

theorem decrementAll_ok {G : List Nat} : ∀ {s : Db}, Inv s → G.Nodup → (∀ b ∈ G, ∃ k, RefNo s.heap b (k + 1)) →
    ∃ s', decrementAll G s = (.ok (), s') ∧ Inv s' ∧ s' = { s with world := s'.world } ∧ Lowered s.heap s'.heap G := by
  induction G with
  | nil =>
    intro s hs _ _
    exact ⟨s, rfl, hs, rfl, ⟨fun _ => rfl, fun _ _ _ => rfl, nofun, fun _ _ => rfl⟩⟩
  | cons b G ih =>
    intro s hs hn hr
    obtain ⟨k, hk⟩ := hr b (List.mem_cons_self ..)
    obtain ⟨s1, h1, h2, h3, h4⟩ := setAttId_ok hs hk
    rw [List.nodup_cons] at hn
    have hkeep : ∀ c ∈ G, ∀ m, RefNo s.heap c m → RefNo s1.heap c m := by
      intro c hc m hm
      refine lowered_refNo hs h4 ?_ hm
      rw [List.mem_singleton]
      rintro rfl
      exact hn.1 hc
    obtain ⟨s2, g1, g2, g3, g4⟩ := ih h2 hn.2 (by
      intro c hc
      obtain ⟨m, hm⟩ := hr c (List.mem_cons_of_mem _ hc)
      exact ⟨m, hkeep c hc _ hm⟩)
    refine ⟨s2, ?_, g2, by rw [g3, h3], ?_, ?_, ?_, ?_⟩
    · rw [decrementAll, bind_of (attId_ref hk), bind_of h1]
      exact g1
    · intro j; rw [g4.same, h4.same]
    · intro j x hx
      rw [g4.attr, h4.attr]
      · rintro ⟨e, c, hc, hj⟩
        rw [List.mem_singleton] at hc
        subst hc
        exact hx ⟨e, c, List.mem_cons_self .., hj⟩
      · rintro ⟨e, c, hc, hj⟩
        rw [lowered_all h4] at hj
        exact hx ⟨e, c, List.mem_cons_of_mem _ hc, hj⟩
    · intro c hc m hm
      rcases List.mem_cons.mp hc with rfl | hc
      · exact lowered_refNo h2 g4 hn.1 (h4.ref c (by simp) m hm)
      · exact g4.ref c hc m (hkeep c hc _ hm)
    · intro j hj
      rw [g4.other j fun c hc => by rw [lowered_all h4]; exact hj c (List.mem_cons_of_mem _ hc)]
      exact h4.other j fun c hc => by rw [List.mem_singleton.mp hc]; exact hj b (List.mem_cons_self ..)

end Verif.Api
