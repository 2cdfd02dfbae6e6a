import Verif.Api.Show
import Verif.Props.C49_Attachments
import Verif.Props.C50_Paths
/-!
# C66: what is printed for entries, groups and attachments
-/
namespace Verif.Props
open Verif XPath Spec Api

variable {s : Db}

/-- The texts separated by slashes. -/
def slashed (ts : List Str) : Str := ((ts.map fun t => '/' :: t).flatten).drop 1

theorem joinSlash_eq : ∀ ts : List Str, joinSlash ts = slashed ts
  | [] => rfl
  | [t] => by simp [joinSlash, slashed]
  | t :: u :: us => by
    rw [joinSlash]
    · rw [joinSlash_eq (u :: us)]
      simp [slashed]
    · simp

theorem pathStr_names (ns : List Str) (x : Option Str) : pathStr (ns.map some ++ [x]) = slashed (ns ++ [x.getD []]) := by
  unfold pathStr
  rw [joinSlash_eq]
  congr 1
  simp [Function.comp_def]

/-- A group prints as its path: the names of the groups from below the root group down to it. -/
theorem C66_group (hs : Inv s) {r p g : Nat} {ns : List Str} (hr : IsRoot s.heap r) (hp : Named s.heap r ns p)
    (hg : g ∈ s.heap.all p "Group".toList) :
    groupStr g s = (.ok ("Group: \"".toList ++ slashed (ns ++ [(sub s.heap g "Name".toList).getD []]) ++ "\"".toList), s) := by
  unfold groupStr
  rw [bind_of (C50_group_path hs hr hp hg), pathStr_names]
  rfl

/-- The root group prints as the empty path. -/
theorem C66_root (hs : Inv s) {r : Nat} (hr : IsRoot s.heap r) : groupStr r s = (.ok "Group: \"\"".toList, s) := by
  unfold groupStr
  rw [bind_of (C50_root_path hs hr)]
  rfl

theorem entryStr_of {env : Env} (hs : Inv s) {e : Nat} (h0 : e ≠ 0) (hm : e ∈ s.world.ids) {p : List (Option Str)}
    (h : entryPath env e s = (.ok (some p), s)) :
    entryStr env e s = (.ok ("Entry: \"".toList ++ pathStr p ++ " (".toList ++ (field s.heap e "UserName".toList).getD "None".toList ++
      ")\"".toList), s) := by
  have hu : getStd env e .username s = (.ok (field s.heap e "UserName".toList), s) := getField_run env hs h0 hm (by decide)
  unfold entryStr
  rw [bind_of h]
  show (getStd env e .username >>= _) s = _
  rw [bind_of hu]
  cases field s.heap e "UserName".toList <;> rfl

/-- An entry prints as its path and, in brackets, its username; `None` if it has none. -/
theorem C66_entry (env : Env) (hs : Inv s) {r p e : Nat} {ns : List Str} (hr : IsRoot s.heap r) (hp : Named s.heap r ns p)
    (he : e ∈ s.heap.all p "Entry".toList) :
    entryStr env e s = (.ok ("Entry: \"".toList ++ slashed (ns ++ [(field s.heap e "Title".toList).getD []]) ++ " (".toList ++
      (field s.heap e "UserName".toList).getD "None".toList ++ ")\"".toList), s) := by
  rw [entryStr_of hs (tag_ne_zero hs (by rw [(all_kid he).2]; decide)) (kid_mem hs (all_kid he).1).1 (C50_entry_path env hs hr hp he),
    pathStr_names]

/-- An entry in the history prints with the groups of the entry it belongs to and its own title and username. -/
theorem C66_history (env : Env) (hs : Inv s) {r p e k x : Nat} {ns : List Str} (hr : IsRoot s.heap r) (hp : Named s.heap r ns p)
    (he : e ∈ s.heap.all p "Entry".toList) (hk : k ∈ s.heap.all e "History".toList) (hx : x ∈ s.heap.all k "Entry".toList) :
    historyStr env x s = (.ok ("HistoryEntry: Entry: \"".toList ++ slashed (ns ++ [(field s.heap x "Title".toList).getD []]) ++
      " (".toList ++ (field s.heap x "UserName".toList).getD "None".toList ++ ")\"".toList), s) := by
  obtain ⟨m, h1, rfl, h3⟩ := named_loop hs hr hp
  have hpt := named_tag hr hp
  have hp0 : m.node.id ≠ 0 := tag_ne_zero hs (by rw [hpt]; decide)
  rw [node_tag (place_get hs h1 hp0)] at hpt
  obtain ⟨le, _, pe, rfl⟩ := place_run hs (kid_mem hs (all_kid he).1).1
  obtain ⟨lk, _, pk, rfl⟩ := place_run hs (kid_mem hs (all_kid hk).1).1
  have hmem := (kid_mem hs (all_kid hx).1).1
  have hx0 : x ≠ 0 := tag_ne_zero hs (by rw [(all_kid hx).2]; decide)
  have hg : getStd env x .title s = (.ok (field s.heap x "Title".toList), s) := getField_run env hs hx0 hmem (by decide)
  obtain ⟨l, h4, h5, rfl⟩ := place_run hs hmem
  have het := (all_kid he).2
  have hkt := (all_kid hk).2
  have he0 : le.node.id ≠ 0 := tag_ne_zero hs (by rw [het]; decide)
  have hk0 : lk.node.id ≠ 0 := tag_ne_zero hs (by rw [hkt]; decide)
  rw [node_tag (place_get hs pe he0)] at het
  rw [node_tag (place_get hs pk hk0)] at hkt
  obtain ⟨a1, _⟩ := place_kid hs h1 hp0 pe (all_kid he).1
  obtain ⟨a2, _⟩ := place_kid hs pe he0 pk (all_kid hk).1
  obtain ⟨a3, _⟩ := place_kid hs pk hk0 h5 (all_kid hx).1
  have hpath : entryPath env l.node.id s = (.ok (some (ns.map some ++ [field s.heap l.node.id "Title".toList])), s) := by
    unfold entryPath
    rw [bind_of h4, a3, a2, a1, List.find?_cons_of_neg (by rw [hkt]; decide), List.find?_cons_of_neg (by rw [het]; decide),
      List.find?_cons_of_pos (by rw [hpt]; decide)]
    show (getStd env l.node.id .title >>= _) s = _
    rw [bind_of hg]
    have hl : pathLoop (lk.node :: le.node :: m.node :: m.anc) [field s.heap l.node.id "Title".toList] =
        .ok (ns.map some ++ [field s.heap l.node.id "Title".toList]) := by
      rw [pathLoop, if_neg (by rw [hkt]; decide), pathLoop, if_neg (by rw [het]; decide)]
      exact h3 _
    rw [hl]
    rfl
  unfold historyStr
  rw [bind_of (entryStr_of hs hx0 hmem hpath), pathStr_names]
  rfl

/-- An attachment prints as its file name and the id of its binary. -/
theorem C66_attachment {a k v : Nat} {i : Int} (hk : s.heap.find a "Key".toList = some k) (hv : s.heap.find a "Value".toList = some v)
    (hi : s.heap.attr v "Ref".toList = some (intStr i)) :
    attStr a s = (.ok ("Attachment: '".toList ++ (s.heap.text k).getD "None".toList ++ "' -> ".toList ++ intStr i), s) := by
  unfold attStr
  rw [bind_of (attName_run hk), bind_of (attId_run hv hi)]
  cases s.heap.text k <;> rfl

/-- `attachment.entry` is the entry that has the attachment, also for an entry in the history. -/
theorem C66_attachment_entry (hs : Inv s) {e a : Nat} (he : s.heap.tag e = "Entry".toList) (ha : a ∈ s.heap.all e "Binary".toList) :
    attEntry a s = (.ok e, s) := by
  unfold attEntry
  rw [bind_of (parentOf_some hs (tag_ne_zero hs (by rw [he]; decide)) (all_kid ha).1)]
  rfl

/-- Finding: of an attachment that has been deleted the entry cannot be asked for: `TypeError`. -/
theorem C66_attachment_deleted (hs : Inv s) {a : Nat} (ha : a ∈ s.heap.kids 0) : attEntry a s = (.error .type, s) := by
  unfold attEntry
  rw [bind_of (parentOf_top hs ha)]
  rfl

/-! ## Names can be read off, deleted elements cannot be printed -/

theorem splitSlash_plain (t : Str) (h : ∀ c ∈ t, c ≠ '/') : Api.splitOn '/' t = [t] := by
  induction t with
  | nil => rfl
  | cons c t ih =>
    unfold Api.splitOn
    rw [if_neg (h c (List.mem_cons_self ..)), ih fun d hd => h d (List.mem_cons_of_mem _ hd)]

theorem splitSlash_sep (t r : Str) (h : ∀ c ∈ t, c ≠ '/') : Api.splitOn '/' (t ++ '/' :: r) = t :: Api.splitOn '/' r := by
  induction t with
  | nil => show Api.splitOn '/' ('/' :: r) = _; rw [Api.splitOn, if_pos rfl]
  | cons c t ih =>
    show Api.splitOn '/' (c :: (t ++ '/' :: r)) = _
    rw [Api.splitOn, if_neg (h c (List.mem_cons_self ..)), ih fun d hd => h d (List.mem_cons_of_mem _ hd)]

theorem splitSlash_join : ∀ ts : List Str, ts ≠ [] → (∀ t ∈ ts, ∀ c ∈ t, c ≠ '/') → Api.splitOn '/' (joinSlash ts) = ts
  | [], h, _ => absurd rfl h
  | [t], _, h => splitSlash_plain t (h t (by simp))
  | t :: u :: us, _, h => by
    rw [joinSlash]
    · rw [splitSlash_sep _ _ (h t (by simp)), splitSlash_join (u :: us) (by simp) fun x hx => h x (List.mem_cons_of_mem _ hx)]
    · simp

/-- Two groups below the root group that print the same have the same path, if no name has a slash. -/
theorem C66_group_path (hs : Inv s) {r p g p' g' : Nat} {ns ns' : List Str} {n n' t : Str} (hr : IsRoot s.heap r)
    (hp : Named s.heap r ns p) (hg : g ∈ s.heap.all p "Group".toList) (hn : sub s.heap g "Name".toList = some n)
    (hp' : Named s.heap r ns' p') (hg' : g' ∈ s.heap.all p' "Group".toList) (hn' : sub s.heap g' "Name".toList = some n')
    (hf : ∀ x ∈ ns ++ [n], ∀ c ∈ x, c ≠ '/') (hf' : ∀ x ∈ ns' ++ [n'], ∀ c ∈ x, c ≠ '/')
    (h : groupStr g s = (.ok t, s)) (h' : groupStr g' s = (.ok t, s)) : ns = ns' ∧ n = n' := by
  rw [C66_group hs hr hp hg, hn] at h
  rw [C66_group hs hr hp' hg', hn'] at h'
  injection h with h _
  injection h with h
  injection h' with h' _
  injection h' with h'
  have e := h.trans h'.symm
  replace e : slashed (ns ++ [n]) = slashed (ns' ++ [n']) := by
    have := List.append_cancel_right e
    exact List.append_cancel_left this
  rw [← joinSlash_eq, ← joinSlash_eq] at e
  have := congrArg (Api.splitOn '/') e
  rw [splitSlash_join _ (by simp) hf, splitSlash_join _ (by simp) hf'] at this
  have hl := List.append_inj' this rfl
  exact ⟨hl.1, by simpa using hl.2⟩

/-- Finding: an entry that has been deleted, or was never added, cannot be printed: `TypeError`. -/
theorem C66_detached (env : Env) (hs : Inv s) {e : Nat} (he : e ∈ s.heap.kids 0) : entryStr env e s = (.error .type, s) := by
  obtain ⟨l, h1, h2, rfl⟩ := place_run hs (kid_mem hs he).1
  have hno : (l.anc.find? fun p => p.tag == "Group".toList) = none := by
    rw [List.find?_eq_none]
    intro q hq hc
    have ht : q.tag = "Group".toList := by simpa using hc
    obtain ⟨a1, _, a3, a4⟩ := place_anc hs h2 rfl q hq (by rw [ht]; decide)
    rcases reach_kid_up hs a3 he with h | h
    · exact a4 h
    · exact a1 (reach_zero hs h)
  have hp : entryPath env l.node.id s = (.ok none, s) := by
    unfold entryPath
    rw [bind_of h1, hno]
    rfl
  unfold entryStr
  rw [bind_of hp]
  rfl

/-- Finding: neither can an entry of a group that has been deleted, nor that group: `AttributeError`. -/
theorem C66_in_deleted (env : Env) (hs : Inv s) {g e : Nat} (hg : g ∈ s.heap.kids 0) (ht : s.heap.tag g = "Group".toList)
    (he : e ∈ s.heap.all g "Entry".toList) :
    entryStr env e s = (.error .attribute, s) ∧ groupStr g s = (.error .attribute, s) := by
  obtain ⟨m, m1, m2, rfl⟩ := place_run hs (kid_mem hs hg).1
  have hg0 : m.node.id ≠ 0 := tag_ne_zero hs (by rw [ht]; decide)
  have hroot : isRootIn m.anc = .error .attribute := by
    have : parentIn m.anc = none := by
      cases ha : m.anc with
      | nil => rfl
      | cons q r =>
        obtain ⟨b1, b2⟩ := allLocs_parent m2 ha
        show (if q.id = 0 then none else some q) = none
        by_cases hq : q.id = 0
        · rw [if_pos hq]
        · have hk : m.node.id ∈ s.heap.kids q.id := by
            rw [node_kids (place_get hs b1 hq)]; exact List.mem_map_of_mem b2
          exact absurd (parent_eq hs hk hg) hq
    unfold isRootIn
    rw [this]
  have ht' := ht
  rw [node_tag (place_get hs m2 hg0)] at ht'
  constructor
  · have hmem := (kid_mem hs (all_kid he).1).1
    have he0 : e ≠ 0 := tag_ne_zero hs (by rw [(all_kid he).2]; decide)
    have hgt : getStd env e .title s = (.ok (field s.heap e "Title".toList), s) := getField_run env hs he0 hmem (by decide)
    obtain ⟨l, h4, h5, rfl⟩ := place_run hs hmem
    obtain ⟨a, _⟩ := place_kid hs m2 hg0 h5 (all_kid he).1
    unfold entryStr
    refine bind_err ?_
    unfold entryPath
    rw [bind_of h4, a, List.find?_cons_of_pos (by rw [ht']; decide)]
    show (getStd env l.node.id .title >>= _) s = _
    rw [bind_of hgt]
    refine bind_err ?_
    rw [pathLoop, if_pos ht', hroot]
    rfl
  · unfold groupStr
    refine bind_err ?_
    unfold groupPath
    rw [bind_of m1]
    refine bind_err ?_
    rw [hroot]
    rfl

/-! ## The sample -/

example : (entryStr Sample.env 23 Sample.db).1.isOk = true ∧ (groupStr 122 Sample.db).1 = .ok "Group: \"Work/Deep\"".toList ∧
    (entryStr Sample.env 102 Sample.db).1 = .ok "Entry: \"Work/bank (ann)\"".toList ∧
    (entryStr Sample.env 131 Sample.db).1 = .error .type ∧ 131 ∈ Sample.db.heap.kids 0 := by decide +kernel

/-- An attachment of the sample, and the state after it was deleted. -/
example : (∃ a, a ∈ Sample.db.heap.all 23 "Binary".toList ∧ (attEntry a Sample.db).1 = .ok 23 ∧
    a ∈ (delete a Sample.db).2.heap.kids 0 ∧ (attEntry a (delete a Sample.db).2).1 = .error .type) := by
  decide +kernel

end Verif.Props
