import Verif.Api.DeskLemmas
import Verif.Props.C71_Vault
/-!
# Operations on the desk
-/
namespace Verif.Api
open Verif XPath Spec

/-- Only an element below `Meta` changes, and new elements are no cards. -/
structure Aside (s s' : Db) (m q : Nat) : Prop where
  inv : Inv s'
  below : Reach s.heap m q
  tag : s'.heap.tag q = s.heap.tag q
  other : ∀ j ∈ s.world.ids, j ≠ 0 → j ≠ q → s'.heap j = s.heap j
  fresh : ∀ j, j ∉ s.world.ids → NoCard (s'.heap.tag j)
  doc : docEl s'.heap = docEl s.heap
  version : s'.version = s.version

section
variable {s s' : Db} {d m r q : Nat}

theorem Aside.tags (hs : Inv s) (a : Aside s s' m q) {j : Nat} (hj : j ∈ s.world.ids) : s'.heap.tag j = s.heap.tag j := by
  by_cases h0 : j = 0
  · subst h0; rw [hs.zero_tag, a.inv.zero_tag]
  · by_cases hq : j = q
    · rw [hq, a.tag]
    · exact tag_congr (a.other j hj h0 hq)

theorem Aside.same (hs : Sound s) (hk : Skeleton s.heap d m r) (a : Aside s s' m q) {y : Nat} (hy : ¬ NoCard (s.heap.tag y)) (t : Str) :
    SameAt s.heap s'.heap y t := by
  refine same_at hs.inv (fun j hj => ?_) (fun j hj => a.tags hs.inv hj) t
  obtain ⟨j1, j2⟩ := part_pos hs.inv hy hj
  refine a.other j j2 j1 ?_
  rintro rfl
  exact meta_part hs hk hy hj a.below

theorem Aside.vault (hs : Sound s) (hk : Skeleton s.heap d m r) (a : Aside s s' m q) :
    vaultOf s' = { vaultOf s with ticks := s'.ticks, uuids := s'.uuids } := by
  have hr : r ∈ s.heap.kids d ∧ s.heap.tag r = "Root".toList := all_sub (by rw [hk.root]; exact List.mem_singleton.mpr rfl)
  have hd : d ∈ s.heap.kids 0 := List.mem_of_mem_head? hk.doc
  refine Vault.ext ?_ ?_ a.version rfl rfl
  · funext y
    show (if NoCard (s'.heap.tag y) then none else some (cardOf s'.heap y)) = if NoCard (s.heap.tag y) then none else some (cardOf s.heap y)
    by_cases hm : y ∈ s.world.ids
    · rw [a.tags hs.inv hm]
      by_cases hb : NoCard (s.heap.tag y)
      · rw [if_pos hb, if_pos hb]
      · rw [if_neg hb, if_neg hb, card_same (a.tags hs.inv hm) fun t => a.same hs hk hb t]
    · rw [if_pos (a.fresh y hm), not_mem_tag hm, if_pos bodyNil]
  · refine roots_same hs.inv hk a.doc (a.other d (kid_mem hs.inv hd).1 (kid_ne_zero hs.inv hd) ?_)
      (a.other r (kid_mem hs.inv hr.1).1 (kid_ne_zero hs.inv hr.1) ?_) fun j hj => a.tags hs.inv hj
    · rintro rfl; exact meta_apart hs hk (by rw [hk.tag]; decide) a.below
    · rintro rfl; exact meta_apart hs hk (by rw [hr.2]; decide) a.below

theorem Aside.neat (hs : Sound s) (hk : Skeleton s.heap d m r) (a : Aside s s' m q) : ∀ y, ¬ NoCard (s'.heap.tag y) → Neat s'.heap y := by
  intro y hy
  by_cases hm : y ∈ s.world.ids
  · rw [a.tags hs.inv hm] at hy
    exact neat_same (fun t => a.same hs hk hy t) (hs.neat y hy)
  · exact absurd (a.fresh y hm) hy

/-- The office after a call. -/
structure Desked (s' : Db) (o : Office) : Prop where
  office : officeOf s' = o
  neat : ∀ y, ¬ NoCard (s'.heap.tag y) → Neat s'.heap y

theorem desked_self (hs : Sound s) : Desked s (officeOf s) := ⟨rfl, hs.neat⟩

/-! ## Texts -/

theorem text_aside {q : Nat} {v : Option Str} (hq : Reach s.heap m q) (h : TextChanged s s' q v) : Aside s s' m q := by
  refine ⟨h.inv, hq, h.tag q, fun j _ _ hne => h.other hne, fun j hj => ?_, ?_, by rw [h.state]⟩
  · rw [h.tag, not_mem_tag hj]; exact bodyNil
  · unfold docEl; rw [h.kids]

theorem put_text (hs : Sound s) {n : Str} {v : Str} {el : Nat} {l : List Nat} (hl : metaEls s.heap n = el :: l) (h : TextChanged s s' el (some v)) :
    Desked s' ⟨vaultOf s, { deskOf s with texts := fun k => if k = n then some v :: l.map s.heap.text else (deskOf s).texts k }⟩ := by
  obtain ⟨d, m, r, hk⟩ := hs.skeleton
  rw [metaEls_skel hk] at hl
  have hel : el ∈ s.heap.all m n := by rw [hl]; exact List.mem_cons_self ..
  obtain ⟨e1, e2⟩ := all_sub hel
  have a := text_aside (.kid e1) h
  have hm' : ∀ t, metaEls s'.heap t = s.heap.all m t := fun t => by rw [h.metaEls, metaEls_skel hk]
  refine ⟨Office.ext ((a.vault hs hk).trans ?_) (Desk.ext ?_ ?_ ?_ ?_ ?_), a.neat hs hk⟩
  · rw [h.state]; rfl
  · funext t
    show (metaEls s'.heap t).map s'.heap.text = if t = n then _ else (metaEls s.heap t).map s.heap.text
    rw [hm', metaEls_skel hk]
    by_cases e : t = n
    · subst e
      rw [if_pos rfl, hl, List.map_cons, h.here (kid_mem hs.inv e1).1]
      refine congrArg _ (List.map_congr_left fun k hk' => h.text ?_)
      rintro rfl
      have := all_nodup hs.inv m t
      rw [hl] at this
      exact (List.nodup_cons.mp this).1 hk'
    · rw [if_neg e]
      refine List.map_congr_left fun k hk' => h.text ?_
      rintro rfl
      exact e ((all_sub hk').2.symm.trans e2)
  · show (metaEls s'.heap _).map _ = (metaEls s.heap _).map _
    rw [hm', metaEls_skel hk]
    refine List.map_congr_left fun k hk' => ?_
    rw [h.all]
    refine List.map_congr_left fun b hb => ?_
    have hne : b ≠ el := by
      rintro rfl
      have := parent_eq hs.inv (all_sub hb).1 e1
      subst this
      exact no_cycle hs.inv (all_sub hk').1 .refl
    unfold storedOf
    rw [h.attr, h.attr, h.text hne]
  · rw [h.state]; rfl
  · rw [h.state]; rfl
  · rw [h.state]; rfl

/-- The text of an element, or an exception if there is no element or the text cannot be in a document. -/
theorem put_core (hs : Sound s) (n : Str) (v : Str) :
    ∃ s', (orAttr (metaEls s.heap n).head? >>= fun el => setText el (some v)) s = (((deskOf s).put n v).1.map fun _ => (), s') ∧
      Desked s' ⟨vaultOf s, ((deskOf s).put n v).2⟩ := by
  cases hl : metaEls s.heap n with
  | nil =>
    have : (deskOf s).put n v = (.error .attribute, deskOf s) := by
      unfold Desk.put
      rw [show (deskOf s).texts n = [] by show (metaEls s.heap n).map _ = _; rw [hl]; rfl]
    rw [this]
    exact ⟨s, rfl, desked_self hs⟩
  | cons el l =>
    have hp : (deskOf s).put n v = if XmlText v then (.ok none, { deskOf s with texts := fun k => if k = n then some v :: l.map s.heap.text else (deskOf s).texts k }) else (.error .value, deskOf s) := by
      unfold Desk.put
      rw [show (deskOf s).texts n = s.heap.text el :: l.map s.heap.text by show (metaEls s.heap n).map _ = _; rw [hl]; rfl]
    rw [hp]
    show ∃ s', (orAttr (some el) >>= fun el => setText el (some v)) s = _ ∧ _
    rw [bind_of (orAttr_some el s)]
    by_cases hv : XmlText v
    · rw [if_pos hv]
      obtain ⟨s', h1, h2⟩ := text_changed hs.inv el (v := some v) (by rintro t ⟨⟩; exact hv)
      exact ⟨s', h1, put_text hs hl h2⟩
    · rw [if_neg hv]
      refine ⟨s, ?_, desked_self hs⟩
      show (if XmlText v then _ else _) = _
      rw [if_neg hv]
      rfl

theorem setMeta_did (env : Env) (hs : Sound s) {n : Str} (ht : TagName n) (v : Str) :
    ∃ s', setMeta env n v s = (((deskOf s).put n v).1.map fun _ => (), s') ∧ Desked s' ⟨vaultOf s, ((deskOf s).put n v).2⟩ := by
  unfold setMeta
  rw [bind_of (metaEl_run env hs.inv ht)]
  exact put_core hs n v

theorem setCredDate_did (env : Env) (hs : Sound s) (x : DateTime) :
    ∃ s', setCredDate env x s = (((deskOf s).putDate s.version x).1.map fun _ => (), s') ∧
      Desked s' ⟨vaultOf s, ((deskOf s).putDate s.version x).2⟩ := by
  unfold setCredDate
  rw [bind_of (metaEl_run env hs.inv (by decide +kernel)), bind_of (reads_run _ s), bind_run, lift_run]
  unfold Desk.putDate
  cases encodeTime s.version x with
  | error e => exact ⟨s, rfl, desked_self hs⟩
  | ok w => exact put_core hs _ w

theorem sound_creds (hs : Sound s) (a : Nat) (p k : Option Str) (b : List Bytes) :
    Sound { s with ticks := a, password := p, keyfile := k, binaries := b } :=
  ⟨⟨hs.inv.world, hs.inv.bound⟩, hs.skeleton, hs.shaped, hs.neat⟩

/-! ## Data -/

theorem loop_stored (env : Env) (h : Heap) (l : List Nat) (acc : List Bytes) :
    binariesLoop env h l acc = readStored env (l.map (storedOf h)) acc := by
  induction l generalizing acc with
  | nil => rfl
  | cons i l ih =>
    have h1 : binaryData env h i = (storedOf h i).data env := by
      unfold binaryData Stored.data storedOf
      cases h.text i with
      | none => rfl
      | some t =>
        show (if _ then (match b64decode t with | .error e => _ | .ok b => _) else _) = if _ then _ else _
        cases b64decode t <;> rfl
    have h2 : binaryId h i = (storedOf h i).number := by
      unfold binaryId Stored.number storedOf
      rfl
    show (binaryData env h i >>= fun d => binaryId h i >>= fun n => binariesLoop env h l (listInsert acc n d)) =
      match (storedOf h i).data env with
      | .error e => .error e
      | .ok d => match (storedOf h i).number with
        | .error e => .error e
        | .ok n => readStored env (l.map (storedOf h)) (listInsert acc n d)
    rw [h1, h2]
    cases (storedOf h i).data env with
    | error e => rfl
    | ok x =>
      cases (storedOf h i).number with
      | error e => rfl
      | ok n => exact ih _

theorem binaries_data (env : Env) (hs : Inv s) : binaries env s = ((officeOf s).data env, s) := by
  unfold Office.data
  show _ = (if versionGe4 s.version = true then _ else _, s)
  by_cases h4 : versionGe4 s.version = true
  · rw [if_pos h4, binaries_four env h4]; rfl
  · rw [if_neg h4, binaries_three env hs (by simpa using h4), loop_stored]
    congr 2
    show List.map _ (binEls s.heap) = ((metaEls s.heap _).map _).flatten
    unfold binEls
    rw [List.map_flatMap, List.flatMap_def]

theorem addData_did (env : Env) (hs : Sound s) (data : Bytes) (c p : Bool) :
    ∃ s', addBinary env data c p s = (((DeskOp.addData data c p).step env (officeOf s)).1.bind fun n => match n with | some n => .ok n | none => .error .unmodelled, s') ∧
      Desked s' ((DeskOp.addData data c p).step env (officeOf s)).2 := by
  have last : ∀ {t : Db}, Inv t → (binaries env >>= fun bs => pure ((bs.length : Int) - 1)) t =
      (((officeOf t).last env).bind fun n => match n with | some n => .ok n | none => .error .unmodelled, t) := by
    intro t ht
    rw [bind_run, binaries_data env ht]
    unfold Office.last
    cases (officeOf t).data env <;> rfl
  unfold addBinary
  rw [bind_of (reads_run _ s)]
  unfold DeskOp.step
  simp only []
  by_cases h4 : versionGe4 s.version = true
  · rw [if_pos h4, if_pos (show versionGe4 (officeOf s).vault.version = true from h4), bind_of (change_run _ s)]
    have hs' := sound_creds hs s.ticks s.password s.keyfile (s.binaries ++ [(if p then 1 else 0) :: data])
    exact ⟨_, last hs'.inv, desked_self hs'⟩
  · rw [if_neg h4, if_neg (show ¬ versionGe4 (officeOf s).vault.version = true from h4)]
    have hx : xpathFirst env none (metaQuery "Binaries".toList) s = (.ok (metaEls s.heap "Binaries".toList).head?, s) :=
      metaEl_run env hs.inv (n := "Binaries".toList) (by decide +kernel)
    rw [bind_of hx]
    show ∃ s', (binaries env >>= _) s = _ ∧ _
    rw [bind_run, binaries_data env hs.inv]
    cases hd : (officeOf s).data env with
    | error e => exact ⟨s, rfl, desked_self hs⟩
    | ok bs =>
      simp only []
      cases hl : metaEls s.heap "Binaries".toList with
      | nil =>
        have : ∀ b, (officeOf s).desk.add b = none := by
          intro b
          unfold Desk.add
          rw [show (officeOf s).desk.shelves = [] by show (metaEls s.heap _).map _ = _; rw [hl]; rfl]
        rw [this]
        exact ⟨s, rfl, desked_self hs⟩
      | cons el l =>
        obtain ⟨d, m, r, hk⟩ := hs.skeleton
        have hl2 : s.heap.all m "Binaries".toList = el :: l := by rw [← metaEls_skel hk, hl]
        have hel : el ∈ s.heap.all m "Binaries".toList := by rw [hl2]; exact List.mem_cons_self ..
        obtain ⟨e1, e2⟩ := all_sub hel
        have hem := (kid_mem hs.inv e1).1
        have hel0 := kid_ne_zero hs.inv e1
        have hlt := hs.inv.bound el hem
        let X := Xml.mk "Binary".toList [("ID".toList, natStr bs.length), ("Compressed".toList, pyBool c)] (some (b64encode (if c then env.gzip data else data))) []
        obtain ⟨s', h1, h2, h3, h4', h5⟩ := add_ok hs.inv hem X
        have htn : s'.heap.tag s.next = "Binary".toList := content_tag h5
        have hq : ∀ j ∈ s.world.ids, j ≠ 0 → j ≠ el → s'.heap j = s.heap j := fun j hj _ hne => h4'.other j hne (hs.inv.bound j hj)
        have htag : ∀ j ∈ s.world.ids, s'.heap.tag j = s.heap.tag j := fun j hj => added_tag hs.inv h4' (hs.inv.bound j hj)
        have a : Aside s s' m el := by
          refine ⟨h2, .kid e1, htag el hem, hq, fun j hj => ?_, added_doc hs.inv h2 h4' hel0, by rw [h3]⟩
          refine fresh_of (P := fun _ => True) hs.inv h2 (fun j h0 hj hlt => h4'.other j (fun e => hj (e ▸ hem)) hlt) (fun j j1 j2 _ => ?_) hj trivial
          by_cases e : j = s.next
          · rw [e, htn]; decide
          · exact content_below (P := fun t => NoCard t) (x := X) h2 h5 nofun ((h4'.below j).mpr ⟨j1, j2⟩) e
        have hmeta : ∀ t, metaEls s'.heap t = metaEls s.heap t :=
          added_metaEls hs.inv h4' hel0 (by rw [e2]; decide) (by rw [e2]; decide)
        have htext : ∀ j ∈ s.world.ids, j ≠ 0 → s'.heap.text j = s.heap.text j := by
          intro j hj h0
          by_cases e : j = el
          · subst e
            obtain ⟨x, x1, x2⟩ := h4'.here
            unfold Heap.text; rw [x1, x2]; rfl
          · exact text_same (hq j hj h0 e)
        have hadd : (officeOf s).desk.add ⟨some (natStr bs.length), some (pyBool c), some (b64encode (if c then env.gzip data else data))⟩ = some (deskOf s') := by
          unfold Desk.add
          rw [show (officeOf s).desk.shelves = (el :: l).map fun i => (s.heap.all i "Binary".toList).map (storedOf s.heap) by
            show (metaEls s.heap _).map _ = _; rw [hl]]
          refine congrArg some (Desk.ext ?_ ?_ ?_ ?_ ?_)
          · funext t
            show (metaEls s.heap t).map _ = (metaEls s'.heap t).map _
            rw [hmeta, metaEls_skel hk]
            exact List.map_congr_left fun k hk' => (htext k (kid_mem hs.inv (all_sub hk').1).1 (kid_ne_zero hs.inv (all_sub hk').1)).symm
          · show _ = (metaEls s'.heap _).map _
            rw [hmeta, hl, List.map_cons]
            have hold : ∀ k ∈ s.heap.all m "Binaries".toList, (s.heap.all k "Binary".toList).map (storedOf s'.heap) = (s.heap.all k "Binary".toList).map (storedOf s.heap) := by
              intro k hk'
              refine List.map_congr_left fun b hb => ?_
              obtain ⟨b1, b2⟩ := all_sub hb
              have : s'.heap b = s.heap b := by
                refine hq b (kid_mem hs.inv b1).1 (kid_ne_zero hs.inv b1) ?_
                rintro rfl
                rw [b2] at e2
                exact absurd e2 (by decide)
              unfold storedOf
              rw [attr_same this, attr_same this, text_same this]
            have hnew : storedOf s'.heap s.next = ⟨some (natStr bs.length), some (pyBool c), some (b64encode (if c then env.gzip data else data))⟩ := by
              unfold storedOf
              rw [content_attr h5, content_attr h5, content_text h5]
              rfl
            refine congr (congrArg List.cons ?_) ?_
            · have hall : s'.heap.all el "Binary".toList = s.heap.all el "Binary".toList ++ [s.next] := by
                rw [added_all hs.inv h4' hlt, if_pos ⟨rfl, htn⟩]
              rw [hall, List.map_append, List.map_singleton, hnew, hold el hel]
            · refine List.map_congr_left fun k hk' => ?_
              have hkm : k ∈ s.heap.all m "Binaries".toList := by rw [hl2]; exact List.mem_cons_of_mem _ hk'
              have hne : k ≠ el := by
                rintro rfl
                have := all_nodup hs.inv m "Binaries".toList
                rw [hl2] at this
                exact (List.nodup_cons.mp this).1 hk'
              rw [added_all_other hs.inv h4' (kid_mem hs.inv (all_sub hkm).1).1 fun e => absurd e hne, hold k hkm]
          · show s.binaries = s'.binaries; rw [h3]
          · show s.password = s'.password; rw [h3]
          · show s.keyfile = s'.keyfile; rw [h3]
        have hv : vaultOf s' = vaultOf s := (a.vault hs hk).trans (by rw [h3]; rfl)
        have ho : ({ officeOf s with desk := deskOf s' } : Office) = officeOf s' := Office.ext hv.symm rfl
        rw [hadd]
        simp only []
        rw [ho]
        refine ⟨s', ?_, rfl, a.neat hs hk⟩
        show (orAttr (some el) >>= _) s = _
        rw [bind_of (orAttr_some el s), bind_of h1]
        exact last h2

end

end Verif.Api
