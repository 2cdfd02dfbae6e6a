import Verif.Api.RootLemmas
import Verif.Api.SearchApi
import Verif.Api.NewLemmas
import Verif.Api.BinaryLemmas
import Verif.Api.HistoryLemmas
import Verif.Spec.Bin
/-!
# Finding and making the recycle bin
-/
namespace Verif.Api
open Verif XPath Spec

variable {s : Db}

theorem uuid_text_ok {b : Bytes} (h : b.length = 16) : uuidOfText (some (b64encode b)) = .ok b := by
  unfold uuidOfText
  simp only [b64decode_b64encode, h, if_true]

theorem metaEls_skel {h : Heap} {d m r : Nat} (hk : Skeleton h d m r) (t : Str) : metaEls h t = h.all m t := by
  unfold metaEls
  have hd := hk.doc
  unfold docEl at hd
  cases e : h.kids 0 with
  | nil => rw [e] at hd; cases hd
  | cons a l =>
    rw [e] at hd
    injection hd with hd
    subst hd
    simp only [List.take_succ_cons, List.take_zero, List.flatMap_cons, List.flatMap_nil, List.append_nil]
    rw [if_pos hk.tag, hk.info]
    simp only [List.flatMap_cons, List.flatMap_nil, List.append_nil]

theorem rootEls_skel {h : Heap} {d m r g : Nat} (hk : Skeleton h d m r) (hg : h.all r "Group".toList = [g]) : rootEls h = [g] := by
  unfold rootEls
  have hd := hk.doc
  unfold docEl at hd
  cases e : h.kids 0 with
  | nil => rw [e] at hd; cases hd
  | cons a l =>
    rw [e] at hd
    injection hd with hd
    subst hd
    simp only [List.take_succ_cons, List.take_zero, List.flatMap_cons, List.flatMap_nil, List.append_nil]
    rw [if_pos hk.tag, hk.root]
    simp only [List.flatMap_cons, List.flatMap_nil, List.append_nil]
    exact hg

theorem metaEl_skel (env : Env) (hs : Inv s) {d m r : Nat} (hk : Skeleton s.heap d m r) {t : Str} (ht : TagName t) :
    metaEl env t s = (.ok (s.heap.find m t), s) := by
  rw [metaEl_run env hs ht, metaEls_skel hk]
  rfl

theorem hasUuid_node (hs : Inv s) {n : Node} (hn : n ∈ s.world.nodes) (u : Bytes) :
    KwHolds groupPlace exact n (.uuid u) ↔ HasUuid s.heap n.id (b64encode u) :=
  hasValue_sub hs (Node.get?_mem hs.world.uniq hn) "UUID".toList (b64encode u)

/-- `recyclebin_group` is the group that the setting names. -/
theorem recycleBin_run (env : Env) (hs : Inv s) {d m r g el : Nat} {u : Bytes} (hk : Settled s.heap d m r g el u) :
    ∃ o, recycleBin env s = (.ok o, s) ∧ ∀ b, o = some b ↔ IsBin s.heap u b := by
  have hkw : ∀ k ∈ [Kw.uuid u], KwOk .group k := by
    intro k hk
    rw [List.mem_singleton.mp hk]
    show Kind.group ≠ Kind.attachment
    decide
  let a : FindArgs := { first := true, kwargs := [.uuid u] }
  obtain ⟨q, hq⟩ := find_ok (K := .group) (re := env.re) (recursive := true) hs.world (a := a) rfl (by simp [a]) (by simp [a]) hkw
    (fun k _ => kw_compiles_exact k) cast_group
  obtain ⟨is, rfl, hsub, hm⟩ := find_partial hs.world rfl (by simp [a]) (by simp [a]) hkw hq
  have hmem : ∀ i, i ∈ is ↔ IsBin s.heap u i := by
    intro i
    rw [hm i]
    constructor
    · rintro ⟨x, hx, rfl, h⟩
      have hg := Node.get?_mem hs.world.uniq hx
      exact ⟨by show _ = _; rw [node_tag hg]; exact h.tag, (inDoc_scope hs hx).mp h.scope,
        fun hh => h.history rfl ((hist_iff hs hx).mpr hh), (hasUuid_node hs hx u).mp (h.filters _ (List.mem_singleton.mpr rfl))⟩
    · rintro ⟨h1, h2, h3, h4⟩
      obtain ⟨x, hg⟩ := get_of_mem (inDoc_mem hs h2).1
      obtain ⟨hx, hid⟩ := Node.get?_some hg
      subst hid
      refine ⟨x, hx, rfl, ⟨(inDoc_scope hs hx).mpr h2, by rw [← node_tag hg]; exact h1, fun _ hh => h3 ((hist_iff hs hx).mp hh), ?_⟩⟩
      intro k hk
      rw [List.mem_singleton.mp hk]
      exact (hasUuid_node hs hx u).mpr h4
  refine ⟨is.head?, ?_, fun b => ?_⟩
  · unfold recycleBin
    rw [bind_of (metaEl_skel env hs hk.skel (by decide)), hk.setting, bind_of (orAttr_some el s), bind_of (textOf_run el s), hk.text]
    show (lift (uuidOfText (some (b64encode u))) >>= _) s = _
    rw [uuid_text_ok hk.len]
    show findGroup env true a s = _
    unfold findGroup
    rw [findGroups_eq, hq]
    rfl
  · constructor
    · intro h
      exact (hmem b).mp (List.mem_of_mem_head? h)
    · intro h
      cases hi : is with
      | nil => have := (hmem b).mpr h; rw [hi] at this; cases this
      | cons c l =>
        have hc : IsBin s.heap u c := (hmem c).mp (by rw [hi]; exact List.mem_cons_self ..)
        rw [hk.one b c h.tag hc.tag h.uuid hc.uuid]
        rfl

/-! ## The query for the uuid of the bin -/

def uuidQuery (u : Str) : Str := fmt "./UUID[text()=\"{}\"]/..".toList [u] []

theorem parse_uuid {u : Str} (h : Plain u) :
    parse (uuidQuery u) = .ok ⟨false, [.child "UUID".toList, .filter (.eq .text (.lit u)), .parent]⟩ := by
  have e : uuidQuery u = "./UUID[text()=\"".toList ++ (u ++ "\"]/..".toList) := rfl
  rw [e]
  refine Reads.parse ⟨(by decide : XmlText "./UUID[text()=\"".toList).append (h.xml.append (by decide)),
    ⟨.normal, [.dot, .slash, .name "UUID".toList, .lbr, .name "text".toList, .lpar, .rpar, .eq,
    .lit u, .rbr, .slash, .ddot]⟩, ?_, Or.inl rfl, rfl⟩
  rw [lexRun_value (out := [.dot, .slash, .name "UUID".toList, .lbr, .name "text".toList, .lpar, .rpar, .eq])
    (by decide +kernel) h]
  rfl

theorem eval_uuid (re : Regex) (u : Str) (l : Loc) :
    ∃ R, evalInstrs re [.child "UUID".toList, .filter (.eq .text (.lit u)), .parent] [l] = .ok R ∧
    ∀ m, m ∈ R ↔ m = l ∧ ∃ c ∈ l.node.kids, c.tag = "UUID".toList ∧ c.text = some u := by
  have hev : ∀ m : Loc, Ex.eval re m (.eq .text (.lit u)) = .ok (m.node.text == some u) := by
    intro m
    show Except.ok ((m.node.text.toList).any fun x => [u].any fun y => x == y) = _
    cases m.node.text with
    | none => rfl
    | some t => simp
  have hsel : Selects re (.child "UUID".toList :: [.filter (.eq .text (.lit u))] ++ [.parent]) _ :=
    (selects_filter (re := re) (e := .eq .text (.lit u)) (q := fun m => m.node.text == some u)
      fun m b h => by rw [hev m] at h; injection h with h; exact h.symm).nest "UUID".toList
  have htot : Total re (.child "UUID".toList :: [.filter (.eq .text (.lit u))] ++ [.parent]) := by
    apply total_of
    intro e he m
    simp only [List.cons_append, List.nil_append, List.mem_cons, List.not_mem_nil, or_false, false_or, reduceCtorEq,
      Instr.filter.injEq] at he
    subst he
    exact ⟨_, hev m⟩
  obtain ⟨R, hR⟩ := htot [l]
  refine ⟨R, hR, fun m => ?_⟩
  rw [hsel _ R hR m, List.mem_singleton]
  constructor
  · rintro ⟨rfl, c, h1, h2, h3⟩
    exact ⟨rfl, c, h1, h2, beq_iff_eq.mp h3⟩
  · rintro ⟨rfl, c, h1, h2, h3⟩
    exact ⟨rfl, c, h1, h2, beq_iff_eq.mpr h3⟩

/-- Is this uuid that of the element? -/
theorem first_uuid (env : Env) (hs : Inv s) {b : Nat} (h0 : b ≠ 0) (hm : b ∈ s.world.ids) {u : Str} (hu : Plain u) :
    ∃ o, xpathFirst env (some b) (uuidQuery u) s = (.ok o, s) ∧ (o.isNone = true ↔ ¬ HasUuid s.heap b u) := by
  obtain ⟨n, hn⟩ := Node.get?_exists hm
  obtain ⟨hn1, hn2⟩ := Node.get?_some hn
  obtain ⟨l, hl, hln, _⟩ := start_rel hs.world h0 hn
  obtain ⟨R, hR, hRm⟩ := eval_uuid env.re u l
  obtain ⟨S, hS, _, hmem⟩ := query_ok hs.world (parse_uuid hu) (ctx := some b) (by rw [hl]; exact hR)
  refine ⟨(S.map fun m => m.node.id).head?, ?_, ?_⟩
  · have e : xpath env (some b) (uuidQuery u) s = (.ok (S.map fun m => m.node.id), s) := by
      show ((query env.re s.world (some b) (uuidQuery u)).map _, s) = _
      rw [hS]
      rfl
    unfold xpathFirst
    rw [bind_of e]
    rfl
  · have key : HasUuid s.heap b u ↔ ∃ c ∈ l.node.kids, c.tag = "UUID".toList ∧ c.text = some u := by
      unfold HasUuid
      rw [← hn2, node_all hs hn1, hln]
      constructor
      · rintro ⟨k, h1, h2⟩
        obtain ⟨c, h3, rfl⟩ := List.mem_map.mp h1
        obtain ⟨h4, h5⟩ := List.mem_filter.mp h3
        rw [node_text (kid_get hs.world.uniq hn1 h4)] at h2
        exact ⟨c, h4, beq_iff_eq.mp h5, h2⟩
      · rintro ⟨c, h1, h2, h3⟩
        refine ⟨c.id, List.mem_map_of_mem (List.mem_filter.mpr ⟨h1, beq_iff_eq.mpr h2⟩), ?_⟩
        rw [node_text (kid_get hs.world.uniq hn1 h1)]
        exact h3
    rw [key]
    constructor
    · intro h hc
      have : l ∈ S := (hmem l).mpr ⟨by rw [hln, hn2]; exact h0, (hRm l).mpr ⟨rfl, hc⟩⟩
      cases S with
      | nil => cases this
      | cons => cases h
    · intro h
      cases S with
      | nil => rfl
      | cons a S =>
        exact absurd ((hRm a).mp ((hmem a).mp (List.mem_cons_self ..)).2).2 h

/-! ## A new bin -/

theorem newGroup_inv {env : Env} {nm : Str} {s' : Db} {x : Xml} (h : newGroup env (some nm) none none s = (.ok x, s')) :
    ∃ now, encodeTime s.version (env.now s.ticks) = .ok now ∧ XmlText nm ∧
      s' = { s with ticks := s.ticks + 1, uuids := s.uuids + 1 } ∧
      x = Xml.mk "Group".toList [] none ([Xml.mk "UUID".toList [] (some (b64encode (env.uuid1 s.uuids))) [],
        Xml.mk "Times".toList [] none [
          .mk "CreationTime".toList [] (some now) [], .mk "LastModificationTime".toList [] (some now) [],
          .mk "LastAccessTime".toList [] (some now) [], .mk "ExpiryTime".toList [] (some now) [],
          .mk "Expires".toList [] (some "False".toList) [], .mk "UsageCount".toList [] (some "0".toList) [],
          .mk "LocationChanged".toList [] (some now) []],
        .mk "Name".toList [] (some nm) []]) := by
  unfold newGroup at h
  obtain ⟨base, s1, h1, h⟩ := bind_inv h
  obtain ⟨n, s2, h2, h⟩ := bind_inv h
  obtain ⟨h2', rfl⟩ := lift_inv h2
  obtain ⟨w, e1, hw, rfl⟩ := textEl_inv h2'
  injection e1 with e1
  subst e1
  obtain ⟨nt, s3, h3, h⟩ := bind_inv h
  obtain ⟨q3, rfl⟩ := lift_inv h3
  injection q3 with e3
  subst e3
  obtain ⟨rfl, rfl⟩ := pure_inv h
  unfold baseKids at h1
  obtain ⟨u, s4, h4, h1⟩ := bind_inv h1
  have hu : u = env.uuid1 s.uuids ∧ s4 = { s with uuids := s.uuids + 1 } := by
    injection h4 with a b
    injection a with a
    exact ⟨a.symm, b.symm⟩
  obtain ⟨rfl, rfl⟩ := hu
  obtain ⟨ic, s5, h5, h1⟩ := bind_inv h1
  obtain ⟨q5, rfl⟩ := lift_inv h5
  injection q5 with e5
  subst e5
  obtain ⟨now, s6, h6, h1⟩ := bind_inv h1
  have hn : now = env.now s.ticks ∧ s6 = { s with uuids := s.uuids + 1, ticks := s.ticks + 1 } := by
    injection h6 with a b
    injection a with a
    exact ⟨a.symm, b.symm⟩
  obtain ⟨rfl, rfl⟩ := hn
  obtain ⟨v, s7, h7, h1⟩ := bind_inv h1
  have hv : v = s.version ∧ s7 = { s with uuids := s.uuids + 1, ticks := s.ticks + 1 } := by
    injection h7 with a b
    injection a with a
    exact ⟨a.symm, b.symm⟩
  obtain ⟨rfl, rfl⟩ := hv
  obtain ⟨ns, s8, h8, h1⟩ := bind_inv h1
  obtain ⟨q8, rfl⟩ := lift_inv h8
  obtain ⟨ex, s9, h9, h1⟩ := bind_inv h1
  obtain ⟨q9, rfl⟩ := lift_inv h9
  injection q9 with e9
  subst e9
  obtain ⟨rfl, rfl⟩ := pure_inv h1
  exact ⟨ns, q8, hw, rfl, rfl⟩

end Verif.Api
