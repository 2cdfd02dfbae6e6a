import Verif.Api.BinaryLemmas
import Verif.Api.Sample
/-!
# C47: `add_binary` gives a stable, dense id
-/
namespace Verif.Props
open Verif XPath Spec Api

/-- KDBX4: the id is the number of binaries before, the list grows at its end by the data, and nothing else in the
database changes. The stored bytes carry the protection flag in front. -/
theorem C47_four (env : Env) {s : Db} (h4 : versionGe4 s.version = true) (data : Bytes) (compressed prot : Bool) :
    ∃ s' bs, binaries env s = (.ok bs, s) ∧ addBinary env data compressed prot s = (.ok bs.length, s') ∧
      s' = { s with binaries := s.binaries ++ [(if prot then 1 else 0) :: data] } ∧
      binaries env s' = (.ok (bs ++ [data]), s') := by
  have hb : binaries env { s with binaries := s.binaries ++ [(if prot then 1 else 0) :: data] } =
      (.ok (s.binaries.map (List.drop 1) ++ [data]), { s with binaries := s.binaries ++ [(if prot then 1 else 0) :: data] }) := by
    rw [binaries_four env (s := { s with binaries := s.binaries ++ [(if prot then 1 else 0) :: data] }) h4]
    simp
  refine ⟨_, _, binaries_four env h4, ?_, rfl, hb⟩
  unfold addBinary
  rw [bind_of (reads_run _ s), if_pos h4, bind_of (change_run _ s), bind_of hb]
  show (Except.ok _, _) = _
  simp

/-- The binaries of a KDBX3 database: one list of them, with ids in order. -/
structure BinsOk (s : Db) (el : Nat) : Prop where
  one : metaEls s.heap "Binaries".toList = [el]
  only : ∀ k ∈ s.heap.kids el, s.heap.tag k = "Binary".toList
  ids : IdsOk s.heap (s.heap.all el "Binary".toList)

/-- KDBX3: the same, and the element added is the only change of the tree. -/
theorem C47_three (env : Env) {s : Db} (hs : Inv s) (h3 : versionGe4 s.version = false) {el : Nat} (hb : BinsOk s el)
    {bs : List Bytes} (hbs : binaries env s = (.ok bs, s)) (data : Bytes) (compressed prot : Bool)
    (hz : compressed = true → env.gunzip (env.gzip data) = .ok data) :
    ∃ s', addBinary env data compressed prot s = (.ok bs.length, s') ∧ Inv s' ∧ s' = { s with world := s'.world, next := s'.next } ∧
      Added s.heap s'.heap el s.next s'.next ∧ binaries env s' = (.ok (bs ++ [data]), s') ∧ BinsOk s' el := by
  have hel : el ∈ metaEls s.heap "Binaries".toList := by rw [hb.one]; simp
  obtain ⟨hm, ht⟩ := metaEls_mem hs hel
  have hbe : binEls s.heap = s.heap.all el "Binary".toList := by unfold binEls; rw [hb.one]; simp
  have hda : dataAll env s.heap (s.heap.all el "Binary".toList) = .ok bs := by
    rw [binaries_three env hs h3, hbe, binaries_ordered env _ _ hb.ids] at hbs
    exact congrArg Prod.fst hbs
  have hlen := dataAll_length env hda
  obtain ⟨s', h1, h2, h3', h4, h5⟩ := add_ok hs hm (Xml.mk "Binary".toList [("ID".toList, natStr bs.length), ("Compressed".toList, pyBool compressed)]
      (some (b64encode (if compressed then env.gzip data else data))) [])
  have hv : s'.version = s.version := by rw [h3']
  have hz0 : el ≠ 0 := by
    rintro rfl
    rw [hs.zero_tag] at ht
    exact absurd ht (by decide)
  have hmeta : metaEls s'.heap "Binaries".toList = [el] := by
    rw [added_metaEls hs h4 hz0 (by rw [ht]; decide) (by rw [ht]; decide), hb.one]
  have htag : s'.heap.tag s.next = "Binary".toList := content_tag h5
  have hall : s'.heap.all el "Binary".toList = s.heap.all el "Binary".toList ++ [s.next] := by
    rw [added_all hs h4 (hs.bound el hm), if_pos ⟨rfl, htag⟩]
  have hold : ∀ i ∈ s.heap.all el "Binary".toList, i < s.next ∧ s'.heap i = s.heap i := by
    intro i hi
    obtain ⟨k1, k2⟩ := all_sub hi
    have hlt := hs.bound i (kid_mem hs k1).1
    refine ⟨hlt, h4.other i ?_ hlt⟩
    rintro rfl
    rw [ht] at k2
    exact absurd k2 (by decide)
  have hid : s'.heap.attr s.next "ID".toList = some (natStr bs.length) := by
    rw [content_attr h5]; rfl
  have hdat : binaryData env s'.heap s.next = .ok data := by
    unfold binaryData
    rw [content_text h5, content_attr h5]
    cases compressed with
    | true =>
      show (if some (pyBool true) = some "True".toList then _ else _) = _
      rw [if_pos (by decide)]
      show (match b64decode (b64encode (env.gzip data)) with | .error e => Except.error e | .ok b => env.gunzip b) = _
      rw [b64decode_b64encode]
      exact hz rfl
    | false =>
      show (if some (pyBool false) = some "True".toList then _ else b64decode (b64encode data)) = _
      rw [if_neg (by decide), b64decode_b64encode]
  have hids : IdsOk s'.heap (s'.heap.all el "Binary".toList) := by
    rw [hall]
    intro i hi
    rw [List.length_append, List.length_singleton] at hi
    by_cases hlt : i < (s.heap.all el "Binary".toList).length
    · rw [List.getElem_append_left hlt]
      have := hold _ (List.getElem_mem hlt)
      obtain ⟨m, g1, g2⟩ := hb.ids i hlt
      exact ⟨m, by rw [attr_congr this.2, g1], g2⟩
    · have he : i = (s.heap.all el "Binary".toList).length := by omega
      subst he
      rw [List.getElem_append_right (Nat.le_refl _)]
      simp only [Nat.sub_self, List.getElem_cons_zero]
      exact ⟨bs.length, hid, by omega⟩
  have hbs' : binaries env s' = (.ok (bs ++ [data]), s') := by
    rw [binaries_three env h2 (by rw [hv]; exact h3)]
    have : binEls s'.heap = s'.heap.all el "Binary".toList := by unfold binEls; rw [hmeta]; simp
    rw [this, binaries_ordered env _ _ hids, hall]
    rw [dataAll_append env _ _ _ ((dataAll_congr env fun i hi => (hold i hi).2).trans hda) hdat]
  refine ⟨s', ?_, h2, h3', h4, hbs', hmeta, ?_, hids⟩
  rotate_left
  · intro k hk
    rcases added_old_kid hs h4 (hs.bound el hm) hk with hk | ⟨rfl, _⟩
    · rw [added_tag hs h4 (hs.bound k (kid_mem hs hk).1), hb.only k hk]
    · exact htag
  unfold addBinary
  rw [bind_of (reads_run _ s), if_neg (by rw [h3]; decide)]
  have hx : xpathFirst env none (metaQuery "Binaries".toList) s = (.ok (some el), s) := by
    have := metaEl_run env hs (n := "Binaries".toList) (by decide +kernel)
    rw [hb.one] at this
    exact this
  rw [bind_of hx, bind_of hbs, bind_of (orAttr_some el s), bind_of h1, bind_of hbs']
  show (Except.ok _, _) = _
  simp

/-- Adding several binaries. -/
def addBinaries (env : Env) : List (Bytes × Bool × Bool) → M (List Int)
  | [] => pure []
  | (d, c, p) :: l => do
    let i ← addBinary env d c p
    let r ← addBinaries env l
    pure (i :: r)

/-- KDBX4, any number of calls: the ids are consecutive and every binary stays at its id. -/
theorem C47_sequence_four (env : Env) (l : List (Bytes × Bool × Bool)) {s : Db} (h4 : versionGe4 s.version = true)
    {bs : List Bytes} (hbs : binaries env s = (.ok bs, s)) :
    ∃ s', addBinaries env l s = (.ok ((List.range' bs.length l.length).map Int.ofNat), s') ∧ s'.world = s.world ∧
      binaries env s' = (.ok (bs ++ l.map Prod.fst), s') := by
  induction l generalizing s bs with
  | nil => exact ⟨s, rfl, rfl, by rw [hbs]; simp⟩
  | cons a l ih =>
    obtain ⟨d, c, p⟩ := a
    obtain ⟨s1, bs1, h1, h2, h3, h5⟩ := C47_four env h4 d c p
    rw [hbs] at h1
    injection (congrArg Prod.fst h1) with h1
    subst h1
    obtain ⟨s2, g1, g2, g3⟩ := ih (s := s1) (by rw [h3]; exact h4) h5
    refine ⟨s2, ?_, by rw [g2, h3], by rw [g3]; simp⟩
    rw [addBinaries, bind_of h2, bind_of g1]
    show (Except.ok _, _) = _
    simp [List.range'_succ]

/-- KDBX3, any number of calls. -/
theorem C47_sequence_three (env : Env) (l : List (Bytes × Bool × Bool)) {s : Db} (hs : Inv s) (h3 : versionGe4 s.version = false) {el : Nat}
    (hb : BinsOk s el) {bs : List Bytes} (hbs : binaries env s = (.ok bs, s))
    (hz : ∀ a ∈ l, a.2.1 = true → env.gunzip (env.gzip a.1) = .ok a.1) :
    ∃ s', addBinaries env l s = (.ok ((List.range' bs.length l.length).map Int.ofNat), s') ∧ Inv s' ∧ BinsOk s' el ∧
      binaries env s' = (.ok (bs ++ l.map Prod.fst), s') := by
  induction l generalizing s bs with
  | nil => exact ⟨s, rfl, hs, hb, by rw [hbs]; simp⟩
  | cons a l ih =>
    obtain ⟨d, c, p⟩ := a
    obtain ⟨s1, h1, h2, h4, _, h5, h6⟩ := C47_three env hs h3 hb hbs d c p (hz _ (List.mem_cons_self ..))
    obtain ⟨s2, g1, g2, g3, g4⟩ := ih (s := s1) h2 (by rw [h4]; exact h3) h6 h5 fun x hx => hz x (List.mem_cons_of_mem _ hx)
    refine ⟨s2, ?_, g2, g3, by rw [g4]; simp⟩
    rw [addBinaries, bind_of h1, bind_of g1]
    show (Except.ok _, _) = _
    simp [List.range'_succ]

/-! ## Ids in another order -/

/-- Three binaries of a KDBX3 file, listed with the ids 2, 1, 0. -/
def disorderedHeap : Heap := fun i =>
  if i = 1 then some ⟨"Binary".toList, [("ID".toList, "2".toList)], some "Ag==".toList, []⟩
  else if i = 2 then some ⟨"Binary".toList, [("ID".toList, "1".toList)], some "AQ==".toList, []⟩
  else if i = 3 then some ⟨"Binary".toList, [("ID".toList, "0".toList)], some "AA==".toList, []⟩
  else none

/-- The binaries read from a file that lists them in another order are not at their ids: inserting at position 2 of
an empty list puts the element first, so binary 1 is found at position 2 and binary 2 at position 1. -/
theorem C47_disordered : binariesLoop Sample.env disorderedHeap [1, 2, 3] [] = .ok [[0], [2], [1]] := by
  decide +kernel

/-- A gap shifts the binaries behind it: with ids 0 and 2, the binary of id 2 is found at position 1. -/
theorem C47_gap : binariesLoop Sample.env (fun i =>
    if i = 1 then some ⟨"Binary".toList, [("ID".toList, "0".toList)], some "AA==".toList, []⟩
    else if i = 2 then some ⟨"Binary".toList, [("ID".toList, "2".toList)], some "Ag==".toList, []⟩ else none) [1, 2] [] =
    .ok [[0], [2]] := by
  decide +kernel

/-! ## The hypotheses hold for the sample databases -/

example : versionGe4 Sample.db.version = true ∧ (binaries Sample.env Sample.db).1 = .ok [[10], [11], [12]] := by decide +kernel

theorem sample_binsOk : BinsOk Sample.db3 10 := by
  refine ⟨by decide +kernel, by decide +kernel, ?_⟩
  have h : Sample.db3.heap.all 10 "Binary".toList = [11, 12] := by decide +kernel
  rw [h]
  intro i hi
  match i, hi with
  | 0, _ => exact ⟨0, by show Sample.db3.heap.attr 11 _ = _; decide +kernel, by decide⟩
  | 1, _ => exact ⟨1, by show Sample.db3.heap.attr 12 _ = _; decide +kernel, by decide⟩

example : versionGe4 Sample.db3.version = false ∧ (binaries Sample.env Sample.db3).1 = .ok [[1], [2]] ∧
    (binaries Sample.env (addBinary Sample.env [7, 7] false true Sample.db3).2).1 = .ok [[1], [2], [7, 7]] ∧
    Sample.env.gunzip (Sample.env.gzip [7, 7]) = .ok [7, 7] := by decide +kernel

end Verif.Props
