import Verif.Api.TextLemmas
import Verif.Api.KeePass
/-!
# The binaries of a database
-/
namespace Verif.Spec
open Verif Api

/-- The `Binary` elements of a KDBX3 database. -/
def binEls (h : Heap) : List Nat := (metaEls h "Binaries".toList).flatMap fun b => h.all b "Binary".toList

/-- No id is less than the position of its element. This holds for the ids 0, 1, 2, ... that files have, and it stays
true when binaries are removed without renumbering the others, as `delete_binary` does. -/
def IdsOk (h : Heap) (els : List Nat) : Prop :=
  ∀ (i : Nat) (hi : i < els.length), ∃ m, h.attr els[i] "ID".toList = some (natStr m) ∧ i ≤ m

end Verif.Spec

namespace Verif.Api
open Verif XPath Spec

theorem parse_binaries : parse "/KeePassFile/Meta/Binaries/Binary".toList =
    .ok ⟨true, ["KeePassFile".toList, "Meta".toList, "Binaries".toList, "Binary".toList].map Instr.child⟩ := by decide +kernel

theorem xpath_binaries (env : Env) {s : Db} (hs : Inv s) :
    xpath env none "/KeePassFile/Meta/Binaries/Binary".toList s = (.ok (binEls s.heap), s) := by
  rw [xpath_abs env hs parse_binaries]
  unfold binEls metaEls
  rw [List.flatMap_assoc]
  congr 2
  congr 1
  funext d
  split
  · next h =>
    rw [List.flatMap_assoc]
    simp only [findDeep.go]
    congr 1
    funext m
    congr 1
    funext b
    simp
  · rfl

theorem binaries_four (env : Env) {s : Db} (h4 : versionGe4 s.version = true) :
    binaries env s = (.ok (s.binaries.map (List.drop 1)), s) := by
  unfold binaries
  rw [bind_of (reads_run _ s), if_pos h4]
  rfl

theorem binaries_three (env : Env) {s : Db} (hs : Inv s) (h3 : versionGe4 s.version = false) :
    binaries env s = (binariesLoop env s.heap (binEls s.heap) [], s) := by
  unfold binaries
  rw [bind_of (reads_run _ s), if_neg (by rw [h3]; decide), bind_of (xpath_binaries env hs), bind_of (reads_run _ s), lift_run]

theorem listInsert_end {α} (l : List α) (x : α) {m : Nat} (h : l.length ≤ m) : listInsert l (m : Int) x = l ++ [x] := by
  unfold listInsert
  simp [List.take_of_length_le h, List.drop_of_length_le h]

theorem pyInt_natStr (n : Nat) : pyInt (natStr n) = .ok (n : Int) := pyInt_intStr (.ofNat n)

/-- The data of the elements in order. -/
def dataAll (env : Env) (h : Heap) : List Nat → Except PyErr (List Bytes)
  | [] => .ok []
  | i :: is =>
    match binaryData env h i with
    | .error e => .error e
    | .ok d => match dataAll env h is with
      | .error e => .error e
      | .ok r => .ok (d :: r)

theorem loop_cons (env : Env) (h : Heap) (i : Nat) (is : List Nat) (acc : List Bytes) {d : Bytes} {n : Nat} (hd : binaryData env h i = .ok d)
    (hn : h.attr i "ID".toList = some (natStr n)) : binariesLoop env h (i :: is) acc = binariesLoop env h is (listInsert acc n d) := by
  have hi : binaryId h i = .ok (n : Int) := by unfold binaryId; rw [hn]; exact pyInt_natStr n
  rw [binariesLoop, hd]
  show (binaryId h i >>= _) = _
  rw [hi]
  rfl

theorem loop_fail (env : Env) (h : Heap) (i : Nat) (is : List Nat) (acc : List Bytes) {e : PyErr} (hd : binaryData env h i = .error e) :
    binariesLoop env h (i :: is) acc = .error e := by
  rw [binariesLoop, hd]
  rfl

/-- With such ids, the list of binaries is the data in order. -/
theorem loop_ordered (env : Env) (h : Heap) (els : List Nat) (acc : List Bytes)
    (hi : ∀ (k : Nat) (hk : k < els.length), ∃ m, h.attr els[k] "ID".toList = some (natStr m) ∧ acc.length + k ≤ m) :
    binariesLoop env h els acc = (dataAll env h els).map (acc ++ ·) := by
  induction els generalizing acc with
  | nil => rw [binariesLoop, dataAll]; simp [Except.map]
  | cons i is ih =>
    obtain ⟨m, h0, hm⟩ := hi 0 (by simp)
    rw [List.getElem_cons_zero] at h0
    rw [dataAll]
    cases hd : binaryData env h i with
    | error e => rw [loop_fail env h i is acc hd]; rfl
    | ok d =>
      rw [loop_cons env h i is acc hd h0, listInsert_end _ _ hm, ih]
      · cases dataAll env h is with
        | error e => rfl
        | ok r => simp [Except.map]
      · intro k hk
        obtain ⟨m', g1, g2⟩ := hi (k + 1) (by simpa using hk)
        rw [List.getElem_cons_succ] at g1
        refine ⟨m', g1, ?_⟩
        rw [List.length_append]
        simp only [List.length_cons, List.length_nil]
        omega

theorem binaries_ordered (env : Env) (h : Heap) (els : List Nat) (hi : IdsOk h els) : binariesLoop env h els [] = dataAll env h els := by
  rw [loop_ordered env h els [] (by intro k hk; obtain ⟨m, h1, h2⟩ := hi k hk; exact ⟨m, h1, by simpa using h2⟩)]
  cases dataAll env h els <;> rfl

theorem dataAll_append (env : Env) (h : Heap) (els : List Nat) (i : Nat) {r : List Bytes} {d : Bytes} (hr : dataAll env h els = .ok r)
    (hd : binaryData env h i = .ok d) : dataAll env h (els ++ [i]) = .ok (r ++ [d]) := by
  induction els generalizing r with
  | nil => injection hr with hr; subst hr; rw [List.nil_append, dataAll, hd]; rfl
  | cons e es ih =>
    rw [dataAll] at hr
    cases h1 : binaryData env h e with
    | error x => rw [h1] at hr; cases hr
    | ok b =>
      rw [h1] at hr
      cases h2 : dataAll env h es with
      | error x => rw [h2] at hr; cases hr
      | ok c =>
        rw [h2] at hr
        injection hr with hr
        subst hr
        rw [List.cons_append, dataAll, h1, ih h2]
        rfl

theorem dataAll_congr (env : Env) {h h' : Heap} {els : List Nat} (hc : ∀ i ∈ els, h' i = h i) : dataAll env h' els = dataAll env h els := by
  induction els with
  | nil => rfl
  | cons e es ih =>
    have h1 : binaryData env h' e = binaryData env h e := by
      unfold binaryData
      rw [text_congr (hc e (List.mem_cons_self ..)), attr_congr (hc e (List.mem_cons_self ..))]
    rw [dataAll, dataAll, h1, ih fun i hi => hc i (List.mem_cons_of_mem _ hi)]

theorem dataAll_length (env : Env) {h : Heap} {els : List Nat} {r : List Bytes} (hr : dataAll env h els = .ok r) : r.length = els.length := by
  induction els generalizing r with
  | nil => injection hr with hr; subst hr; rfl
  | cons e es ih =>
    rw [dataAll] at hr
    cases h1 : binaryData env h e with
    | error x => rw [h1] at hr; cases hr
    | ok b =>
      rw [h1] at hr
      cases h2 : dataAll env h es with
      | error x => rw [h2] at hr; cases hr
      | ok c =>
        rw [h2] at hr
        injection hr with hr
        subst hr
        simp [ih h2]

/-! ## After an element was added -/

theorem flatMap_same {α β} {l : List α} {f g : α → List β} (h : ∀ a ∈ l, f a = g a) : l.flatMap f = l.flatMap g := by
  induction l with
  | nil => rfl
  | cons a l ih =>
    rw [List.flatMap_cons, List.flatMap_cons, h a (List.mem_cons_self ..), ih fun x hx => h x (List.mem_cons_of_mem _ hx)]

theorem added_all {s s' : Db} {p n m : Nat} (hs : Inv s) (h : Added s.heap s'.heap p n m) {b : Nat} (hb : b < n) (t : Str) :
    s'.heap.all b t = s.heap.all b t ++ (if b = p ∧ s'.heap.tag n = t then [n] else []) := by
  have hold : (s.heap.kids b).filter (fun k => s'.heap.tag k == t) = (s.heap.kids b).filter (fun k => s.heap.tag k == t) := by
    apply List.filter_congr
    intro k hk
    obtain ⟨r, hr⟩ := heap_some.mpr (kid_mem hs hk).1
    rw [added_tag hs h (added_lt hs h hr)]
  unfold Heap.all
  rw [added_kids hs h hb]
  by_cases e : b = p
  · rw [if_pos e, List.filter_append, hold]
    by_cases ht : s'.heap.tag n = t
    · rw [if_pos ⟨e, ht⟩]; simp [ht]
    · rw [if_neg fun c => ht c.2]; simp [ht]
  · rw [if_neg e, if_neg fun c => e c.1, hold, List.append_nil]

/-- Adding below an element that is neither the document element nor `Meta` leaves the elements of `Meta` the same. -/
theorem added_metaEls {s s' : Db} {p n m : Nat} (hs : Inv s) (h : Added s.heap s'.heap p n m) (hp : p ≠ 0)
    (h1 : s.heap.tag p ≠ "KeePassFile".toList) (h2 : s.heap.tag p ≠ "Meta".toList) (t : Str) :
    metaEls s'.heap t = metaEls s.heap t := by
  unfold metaEls
  obtain ⟨r, hr, _⟩ := hs.root
  rw [added_kids hs h (added_lt hs h hr), if_neg (Ne.symm hp)]
  have hm : ∀ d ∈ (s.heap.kids 0).take 1, d < n := by
    intro d hd
    obtain ⟨r, hr⟩ := heap_some.mpr (kid_mem hs (List.mem_of_mem_take hd)).1
    exact added_lt hs h hr
  apply flatMap_same
  intro d hd
  have hdn := hm d hd
  rw [added_tag hs h hdn]
  split
  · next ht =>
    have e1 : s'.heap.all d "Meta".toList = s.heap.all d "Meta".toList := by
      rw [added_all hs h hdn, if_neg, List.append_nil]
      rintro ⟨rfl, _⟩
      exact h1 ht
    rw [e1]
    apply flatMap_same
    intro k hk
    obtain ⟨k1, k2⟩ := all_sub hk
    obtain ⟨r, hr⟩ := heap_some.mpr (kid_mem hs k1).1
    rw [added_all hs h (added_lt hs h hr), if_neg, List.append_nil]
    rintro ⟨rfl, _⟩
    exact h2 k2
  · rfl

end Verif.Api
