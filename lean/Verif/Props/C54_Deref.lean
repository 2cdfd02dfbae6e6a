import Verif.Api.DerefLemmas
import Verif.Api.Sample
/-!
# C54: following references
-/
namespace Verif.Props
open Verif XPath Spec Api

/-- A text in which no reference occurs is returned unchanged. -/
theorem C54_plain (env : Env) (ord : Nat → List Token → List Token) (n : Nat) (s : Db) {v : Str}
    (h : ∀ r : Reference, r.WellFormed → ¬ r.text <:+: v) : deref env ord (n + 1) (some v) s = (.ok (some v), s) := by
  have hf : findRefs 0 v = [] := by
    induction v with
    | nil => rfl
    | cons c v ih =>
      rw [findRefs]
      cases hm : matchRef (c :: v) with
      | some t =>
        obtain ⟨r, _, hw, hp⟩ := match_some hm
        exact absurd hp.isInfix (h r hw)
      | none => exact ih fun r hw hi => h r hw (hi.trans (List.suffix_cons c v).isInfix)
  rw [deref, if_pos hf]
  rfl

/-- `None` is returned unchanged. -/
theorem C54_none (env : Env) (ord : Nat → List Token → List Token) (n : Nat) (s : Db) : deref env ord (n + 1) none s = (.ok none, s) := rfl

theorem deref_one (env : Env) {s : Db} {ord : Nat → List Token → List Token} (ho : Visits ord) {r : Reference} (hr : r.WellFormed) (n : Nat) :
    deref env ord (n + 1) (some r.text) s = (substAll env [tok r] r.text >>= fun o =>
      match o with
      | none => pure none
      | some v' => deref env (fun i => ord (i + 1)) n (some v')) s := by
  have hf : findRefs 0 r.text = [tok r] := by
    have := findRefs_text hr []
    rwa [List.append_nil] at this
  rw [deref, hf, if_neg (by simp)]
  have hd : ord 0 (distinct [tok r]) = [tok r] := List.perm_singleton.mp (ho 0 [tok r])
  rw [hd]
  rfl

/-- A text that is one reference: what is found takes its place. -/
theorem deref_answer (env : Env) {s : Db} (hs : Inv s) {ord : Nat → List Token → List Token} (ho : Visits ord) {r : Reference}
    (hr : r.WellFormed) {t : Str} (ha : Answered s r t) (n : Nat) :
    deref env ord (n + 1) (some r.text) s = deref env (fun i => ord (i + 1)) n (some t) s := by
  obtain ⟨e, h1, h2⟩ := target_text env hs ha
  have hp : pyReplace (tok r).text t 0 r.text = t := by
    have := pyReplace_same (tok r) t []
    rw [List.append_nil] at this
    exact this.trans (List.append_nil _)
  have hx : substAll env [tok r] r.text s = (.ok (some t), s) := by
    rw [substAll_cons h1 h2, hp]
    rfl
  rw [deref_one env ho hr n, bind_of hx]

theorem hexU (u : Bytes) : (hexEncodeU u).map hexVal = u.flatMap fun x => [some (x.toNat / 16), some (x.toNat % 16)] := by
  induction u with
  | nil => rfl
  | cons x u ih =>
    have h1 : x.toNat / 16 < 16 := by have := x.toNat_lt; omega
    have h2 : x.toNat % 16 < 16 := Nat.mod_lt _ (by decide)
    show hexVal (hexCharU _) :: hexVal (hexCharU _) :: (hexEncodeU u).map hexVal = _
    rw [hexVal_hexCharU _ h1, hexVal_hexCharU _ h2, ih]
    rfl

/-- The entry is current and the only one with its uuid. -/
structure OwnUuid (s : Db) (e : Nat) (u : Bytes) : Prop where
  current : Current s.heap e
  len : u.length = 16
  uuid : sub s.heap e "UUID".toList = some (b64encode u)
  only : ∀ i, Current s.heap i → (∃ k ∈ s.heap.all i "UUID".toList, s.heap.text k = some (b64encode u)) → i = e

/-- The reference `ref` makes. -/
def refTo (c : Char) (u : Bytes) : Reference := ⟨c, 'I', hexEncodeU u⟩

theorem refTo_wf {c : Char} (hc : isLetter c = true) {u : Bytes} (hu : u.length = 16) : (refTo c u).WellFormed := by
  have hh := hexU u
  obtain ⟨g1, g2, _⟩ := hex_digits hh
  refine ⟨(isLetter_iff _).mp hc, .inl rfl, ?_, ?_⟩
  · intro he
    have : (hexEncodeU u).length = 0 := by rw [show hexEncodeU u = [] from he]; rfl
    omega
  · intro hm
    have := g2 _ hm
    exact absurd this (by decide)

theorem uuid_el {h : Heap} {e : Nat} {t : Str} (hu : sub h e "UUID".toList = some t) : ∃ k ∈ h.all e "UUID".toList, h.text k = some t := by
  unfold sub Heap.find at hu
  cases hl : (h.all e "UUID".toList).head? with
  | none => rw [hl] at hu; cases hu
  | some k => rw [hl] at hu; exact ⟨k, List.mem_of_head? hl, hu⟩

theorem own_getUuid {s : Db} {e : Nat} {u : Bytes} (h : OwnUuid s e u) : getUuid e s = (.ok u, s) := by
  have hu : uuidOfText (some (b64encode u)) = .ok u := by simp [uuidOfText, b64decode_b64encode, h.len]
  unfold getUuid
  rw [bind_of (getSub_run e _ s), h.uuid, hu]
  rfl

theorem ref_run {s : Db} {e : Nat} {u : Bytes} (h : OwnUuid s e u) {name : Str} {c : Char} (hc : refLetter name = some c) :
    ref e name s = (.ok (refTo c u).text, s) := by
  have hg := own_getUuid h
  unfold ref
  rw [hc]
  show (getUuid e >>= _) s = _
  rw [bind_of hg]
  show (Except.ok _, s) = _
  simp [refTo, Reference.text]

theorem own_means {s : Db} (hs : Inv s) {e : Nat} {u : Bytes} (h : OwnUuid s e u) (c : Char) : Means s (refTo c u) [e] := by
  have hb : HexOf (hexEncodeU u) u := ⟨h.len, hexU u⟩
  refine ⟨List.singleton_sublist.mpr (inDoc_mem hs h.current.doc).1, fun i => ?_⟩
  rw [List.mem_singleton]
  unfold Bears
  rw [if_pos (show (refTo c u).search = 'I' from rfl)]
  constructor
  · rintro rfl
    exact ⟨h.current, u, hb, uuid_el h.uuid⟩
  · rintro ⟨hc, b, hb', hk⟩
    rw [hexOf_inj hb' hb] at hk
    exact h.only i hc hk

theorem own_searchable {s : Db} {e : Nat} {u : Bytes} (h : OwnUuid s e u) (c : Char) : (refTo c u).Searchable := by
  unfold Reference.Searchable
  rw [if_pos (show (refTo c u).search = 'I' from rfl)]
  exact ⟨u, h.len, hexU u⟩

theorem refLetter_field {f : Field} (hf : f ≠ .otp) :
    ∃ c, refLetter f.kw = some c ∧ isLetter c = true ∧ refKey c = some f.key := by
  cases f with
  | title => exact ⟨'T', by decide, by decide, by decide⟩
  | username => exact ⟨'U', by decide, by decide, by decide⟩
  | password => exact ⟨'P', by decide, by decide, by decide⟩
  | url => exact ⟨'A', by decide, by decide, by decide⟩
  | notes => exact ⟨'N', by decide, by decide, by decide⟩
  | otp => exact absurd rfl hf

/-- `deref(e.ref(field))` is `deref(e.field)`: one more nested call, in every order of the sets, with the same result or
the same exception. -/
theorem C54_ref (env : Env) {s : Db} (hs : Inv s) {e : Nat} {u : Bytes} (h : OwnUuid s e u) {f : Field} (hf : f ≠ .otp) {v : Str}
    (hv : field s.heap e f.key = some v) {ord : Nat → List Token → List Token} (ho : Visits ord) (n : Nat) :
    ∃ t, ref e f.kw s = (.ok t, s) ∧ getStd env e f s = (.ok (some v), s) ∧
      deref env ord (n + 1) (some t) s = deref env (fun i => ord (i + 1)) n (some v) s := by
  obtain ⟨c, h1, h2, h3⟩ := refLetter_field hf
  obtain ⟨hm, h0⟩ := inDoc_mem hs h.current.doc
  refine ⟨_, ref_run h h1, ?_, deref_answer env hs ho (refTo_wf h2 h.len) ⟨own_searchable h c, [e], e, f.key, own_means hs h c, rfl, h3, hv⟩ n⟩
  unfold getStd
  rw [getField_run env hs h0 hm (plain_std f), hv]

/-- If the field has no text, following the reference raises `TypeError`, whereas `deref(e.field)` is `None`. -/
theorem C54_ref_empty (env : Env) {s : Db} (hs : Inv s) {e : Nat} {u : Bytes} (h : OwnUuid s e u) {f : Field} (hf : f ≠ .otp)
    (hv : field s.heap e f.key = none) {ord : Nat → List Token → List Token} (ho : Visits ord) (n : Nat) :
    ∃ t, ref e f.kw s = (.ok t, s) ∧ deref env ord (n + 1) (some t) s = (.error .type, s) ∧
      entryDeref env ord (n + 1) e f s = (.ok none, s) := by
  obtain ⟨c, h1, h2, h3⟩ := refLetter_field hf
  obtain ⟨hm, h0⟩ := inDoc_mem hs h.current.doc
  have hg : getStd env e f s = (.ok none, s) := by
    unfold getStd
    rw [getField_run env hs h0 hm (plain_std f), hv]
  refine ⟨_, ref_run h h1, ?_, ?_⟩
  · rw [deref_one env ho (refTo_wf h2 h.len) n]
    have ht := target_means env hs (own_searchable h c) (own_means hs h c)
    have hl : letterField c = some f := by
      cases f <;> first | exact absurd rfl hf | (injection h1 with h1; subst h1; decide)
    have hw : wantedText env e c s = (.error .type, s) := by
      unfold wantedText
      rw [hl]
      show (getStd env e f >>= _) s = _
      rw [bind_of hg]
      rfl
    have hx : substAll env [tok (refTo c u)] (refTo c u).text s = (.error .type, s) := by
      rw [substAll, bind_of ht]
      show (wantedText env e c >>= _) s = _
      exact bind_err hw
    exact bind_err hx
  · unfold entryDeref
    rw [bind_of hg]
    rfl

/-- Following a reference to a uuid always raises `TypeError`. -/
theorem C54_ref_uuid (env : Env) {s : Db} (hs : Inv s) {e : Nat} {u : Bytes} (h : OwnUuid s e u)
    {ord : Nat → List Token → List Token} (ho : Visits ord) (n : Nat) :
    ∃ t, ref e "uuid".toList s = (.ok t, s) ∧ deref env ord (n + 1) (some t) s = (.error .type, s) := by
  refine ⟨_, ref_run h (c := 'I') (by decide), ?_⟩
  rw [deref_one env ho (refTo_wf (by decide) h.len) n]
  have ht := target_means env hs (own_searchable h 'I') (own_means hs h 'I')
  have hg := own_getUuid h
  have hw : wantedText env e 'I' s = (.error .type, s) := by
    unfold wantedText
    rw [letterField_I]
    show (getUuid e >>= _) s = _
    rw [bind_of hg]
    rfl
  have hx : substAll env [tok (refTo 'I' u)] (refTo 'I' u).text s = (.error .type, s) := by
    rw [substAll, bind_of ht]
    show (wantedText env e 'I' >>= _) s = _
    exact bind_err hw
  exact bind_err hx

theorem written_refs {ps : List Piece} (h : Written ps) : findRefs 0 (render ps) = (refsOf ps).map tok := by
  induction ps with
  | nil => rfl
  | cons p ps ih =>
    have ht : ∀ t, .text t ∈ ps → Safe t := fun t hm => h.text t (List.mem_cons_of_mem _ hm)
    cases p with
    | text t => rw [render_text, findRefs_safe (h.text t List.mem_cons_self), ih ⟨ht, h.ref⟩]; rfl
    | ref r =>
      rw [render_ref, findRefs_text (h.ref r List.mem_cons_self).1, ih ⟨ht, fun x hx => h.ref x (List.mem_cons_of_mem _ hx)⟩]
      rfl

/-- A reference that nothing answers, among references with answers: the result is `None`, in every order. -/
theorem C54_unresolved (env : Env) {s : Db} (hs : Inv s) {ord : Nat → List Token → List Token} (ho : Visits ord) (n : Nat)
    {ps : List Piece} (hp : Written ps) (hw : ∀ r ∈ refsOf ps, Unanswered s r ∨ ∃ t, Answered s r t)
    (hu : ∃ r ∈ refsOf ps, Unanswered s r) : deref env ord (n + 1) (some (render ps)) s = (.ok none, s) := by
  obtain ⟨r, hr, hn⟩ := hu
  have hrs := written_refs hp
  generalize render ps = v at hrs
  generalize refsOf ps = rs at hrs hr hw
  rw [deref, hrs, if_neg (by intro h; rw [List.map_eq_nil_iff.mp h] at hr; cases hr)]
  obtain ⟨l, hl, hl2⟩ := tok_list (l := ord 0 (distinct (rs.map tok))) (rs := rs) fun t ht => mem_distinct.mp ((ho 0 _).mem_iff.mp ht)
  have hrl : r ∈ l := by
    have : tok r ∈ ord 0 (distinct (rs.map tok)) := (ho 0 _).mem_iff.mpr (mem_distinct.mpr (List.mem_map_of_mem hr))
    rw [hl] at this
    obtain ⟨x, hx, e⟩ := List.mem_map.mp this
    exact tok_inj e ▸ hx
  have key : ∀ (l : List Reference) (v : Str), (∀ r ∈ l, Unanswered s r ∨ ∃ t, Answered s r t) → r ∈ l →
      substAll env (l.map tok) v s = (.ok none, s) := by
    intro l
    induction l with
    | nil => intro v _ h; cases h
    | cons a l ih =>
      intro v ha hm
      rcases ha a List.mem_cons_self with h1 | ⟨t, h1⟩
      · exact substAll_cons_none (target_none env hs h1)
      · obtain ⟨e, g1, g2⟩ := target_text env hs h1
        rw [List.map_cons, substAll_cons g1 g2]
        rcases List.mem_cons.mp hm with rfl | hm
        · exact (answer_not h1 hn).elim
        · exact ih _ (fun x hx => ha x (List.mem_cons_of_mem _ hx)) hm
  rw [hl, bind_of (key l v (fun x hx => hw x (hl2 x hx)) hrl)]
  rfl

/-- If following the references comes to an end, `deref` returns what the text stands for, in every order in which the
sets may be processed, and changes nothing. The number of nested calls is at most one more than the number of
references followed. -/
theorem C54_follow (env : Env) {s : Db} (hs : Inv s) {n : Nat} {ps : List Piece} {o : Option Str} (h : Stands s n ps o)
    {ord : Nat → List Token → List Token} (ho : Visits ord) {limit : Nat} (hl : n < limit) :
    deref env ord limit (some (render ps)) s = (.ok o, s) :=
  deref_stands env hs h ho hl

/-- The references among `R` are answered by texts with references among `R` of lower rank, or not at all. -/
structure Acyclic (s : Db) (R : Reference → Prop) (rank : Reference → Nat) : Prop where
  answer : ∀ r, R r → Unanswered s r ∨ ∃ qs, Answered s r (render qs) ∧ Written qs ∧ ∀ q ∈ refsOf qs, R q ∧ rank q < rank r

/-- Without cycles following the references comes to an end. -/
theorem C54_ends {s : Db} {R : Reference → Prop} {rank : Reference → Nat} (h : Acyclic s R rank) {ps : List Piece}
    (hp : Written ps) (hr : ∀ r ∈ refsOf ps, R r) : ∃ n o, Stands s n ps o := by
  have key : ∀ m (ps : List Piece), Written ps → (∀ r ∈ refsOf ps, R r ∧ rank r < m) → ∃ n o, Stands s n ps o := by
    intro m
    induction m with
    | zero =>
      intro ps
      induction ps with
      | nil => intro _ _; exact ⟨0, _, .nil⟩
      | cons p ps ih =>
        intro ht hr
        cases p with
        | text t =>
          obtain ⟨n, o, hn⟩ := ih ⟨fun t h => ht.text t (List.mem_cons_of_mem _ h), ht.ref⟩ hr
          exact ⟨n, _, .text (ht.text t List.mem_cons_self) hn⟩
        | ref r => exact absurd (hr r List.mem_cons_self).2 (Nat.not_lt_zero _)
    | succ m ihm =>
      intro ps
      induction ps with
      | nil => intro _ _; exact ⟨0, _, .nil⟩
      | cons p ps ih =>
        intro ht hr
        cases p with
        | text t =>
          obtain ⟨n, o, hn⟩ := ih ⟨fun t h => ht.text t (List.mem_cons_of_mem _ h), ht.ref⟩ hr
          exact ⟨n, _, .text (ht.text t List.mem_cons_self) hn⟩
        | ref r =>
          obtain ⟨n, o, hn⟩ := ih ⟨fun t h => ht.text t (List.mem_cons_of_mem _ h), fun x hx => ht.ref x (List.mem_cons_of_mem _ hx)⟩
            fun x hx => hr x (List.mem_cons_of_mem _ hx)
          obtain ⟨hR, hlt⟩ := hr r List.mem_cons_self
          obtain ⟨f1, f2⟩ := ht.ref r List.mem_cons_self
          rcases h.answer r hR with hu | ⟨qs, ha, hq, hl⟩
          · exact ⟨n, _, .missing f1 f2 hu hn⟩
          · obtain ⟨a, o', hm⟩ := ihm qs hq fun x hx => ⟨(hl x hx).1, by have := (hl x hx).2; omega⟩
            exact ⟨_, _, .found f1 f2 ha hm hn⟩
  have hb : ∃ m, ∀ r ∈ refsOf ps, rank r < m := by
    generalize refsOf ps = l
    induction l with
    | nil => exact ⟨0, fun r hr => by cases hr⟩
    | cons a l ih =>
      obtain ⟨m, hm⟩ := ih
      refine ⟨m + rank a + 1, fun r hr => ?_⟩
      rcases List.mem_cons.mp hr with rfl | hr
      · omega
      · have := hm r hr; omega
  obtain ⟨m, hm⟩ := hb
  exact key m ps hp fun r hx => ⟨hr r hx, hm r hx⟩

/-- On acyclic references `deref` terminates and the result does not depend on the order in which the sets are
processed. -/
theorem C54_acyclic (env : Env) {s : Db} (hs : Inv s) {R : Reference → Prop} {rank : Reference → Nat} (h : Acyclic s R rank)
    {ps : List Piece} (hp : Written ps) (hr : ∀ r ∈ refsOf ps, R r) :
    ∃ n o, ∀ ord, Visits ord → ∀ limit, n < limit → deref env ord limit (some (render ps)) s = (.ok o, s) := by
  obtain ⟨n, o, hn⟩ := C54_ends h hp hr
  exact ⟨n, o, fun ord ho limit hl => C54_follow env hs hn ho hl⟩

/-- A field that refers to itself: `deref` does not come to an end; with every limit it raises `RecursionError`. -/
theorem C54_cycle (env : Env) {s : Db} (hs : Inv s) {r : Reference} (hr : r.WellFormed) (ha : Answered s r r.text)
    {ord : Nat → List Token → List Token} (ho : Visits ord) (limit : Nat) :
    deref env ord limit (some r.text) s = (.error .recursion, s) := by
  induction limit generalizing ord with
  | zero => rfl
  | succ n ih =>
    rw [deref_answer env hs ho hr ha n]
    exact ih fun i l => ho (i + 1) l

/-! ## Examples -/

theorem answered_of_run (env : Env) {s : Db} (hs : Inv s) {r : Reference} (hr : r.Searchable) {e : Nat} {key t : Str}
    (h : (refTarget env (tok r) s).1 = .ok (some e)) (hk : refKey r.wanted = some key) (hf : field s.heap e key = some t) : Answered s r t := by
  obtain ⟨is, h1, h2⟩ := target_run env hs hr
  rw [h2] at h
  injection h with h
  exact ⟨hr, is, e, key, h1, h, hk, hf⟩

theorem unanswered_of_run (env : Env) {s : Db} (hs : Inv s) {r : Reference} (hr : r.Searchable)
    (h : (refTarget env (tok r) s).1 = .ok none) : Unanswered s r := by
  obtain ⟨is, h1, h2⟩ := target_run env hs hr
  rw [h2] at h
  injection h with h
  refine ⟨hr, fun i hi => ?_⟩
  have := (h1.mem i).mpr hi
  rw [List.head?_eq_none_iff.mp h] at this
  cases this

theorem safe_of_no_brace {t : Str} (h : '{' ∉ t) : Safe t := by
  induction t with
  | nil => exact safe_nil
  | cons c t ih => exact safe_no_brace (fun e => h (e ▸ List.mem_cons_self)) (ih fun hm => h (List.mem_cons_of_mem _ hm))

/-- The sample database with the title of the entry `shop` replaced. -/
def retitled (t : String) : Db := (setStd Api.Sample.env 76 .title (some t.toList) Api.Sample.db).2

/-- A title that refers to the user name of another entry. -/
def chained : Db := retitled "x{REF:U@T:mail}"

theorem chained_inv : Inv chained :=
  ⟨⟨by decide +kernel, by decide +kernel, by unfold Node.Uniq; decide +kernel, by decide +kernel⟩, by
    have : (chained.world.ids.all fun i => decide (i < chained.next)) = true := by decide +kernel
    intro i hi
    simpa using List.all_eq_true.mp this i hi⟩

def toShop : Reference := ⟨'T', 'U', "bob".toList⟩
def toMail : Reference := ⟨'U', 'T', "mail".toList⟩
def toNone : Reference := ⟨'U', 'T', "nobody".toList⟩

theorem wf_of {r : Reference} (h1 : isLetter r.wanted = true) (h2 : isLetter r.search = true) (h3 : r.value ≠ []) (h4 : '}' ∉ r.value) :
    r.WellFormed := ⟨(isLetter_iff _).mp h1, (isLetter_iff _).mp h2, h3, h4⟩

theorem no_ref_inside {v : Str} (h : '{' ∉ v) : ¬ "{REF:".toList <:+: v := fun hi => h (hi.subset (by decide))

theorem toShop_answer : Answered chained toShop (render [.text "x".toList, .ref toMail]) :=
  answered_of_run Api.Sample.env chained_inv (r := toShop) (by unfold Reference.Searchable; rw [if_neg (by decide)]; exact ⟨by decide, by decide⟩)
    (e := 76) (by decide +kernel) rfl (by decide +kernel)

theorem toMail_answer : Answered chained toMail (render [.text "ann".toList]) :=
  answered_of_run Api.Sample.env chained_inv (r := toMail) (by unfold Reference.Searchable; rw [if_neg (by decide)]; exact ⟨by decide, by decide⟩)
    (e := 23) (by decide +kernel) rfl (by decide +kernel)

theorem toNone_answer : Unanswered chained toNone :=
  unanswered_of_run Api.Sample.env chained_inv (r := toNone) (by unfold Reference.Searchable; rw [if_neg (by decide)]; exact ⟨by decide, by decide⟩)
    (by decide +kernel)

theorem toMail_wf : toMail.WellFormed := wf_of (by decide) (by decide) (by decide) (by decide)
theorem toShop_wf : toShop.WellFormed := wf_of (by decide) (by decide) (by decide) (by decide)
theorem toNone_wf : toNone.WellFormed := wf_of (by decide) (by decide) (by decide) (by decide)

/-- The references of the example have no cycle. -/
theorem chained_acyclic : Acyclic chained (fun r => r = toShop ∨ r = toMail ∨ r = toNone) (fun r => if r = toShop then 1 else 0) := by
  refine ⟨?_⟩
  rintro r (rfl | rfl | rfl)
  · refine .inr ⟨_, toShop_answer, ⟨?_, ?_⟩, ?_⟩
    · intro t ht
      rcases List.mem_cons.mp ht with h | h
      · injection h with h
        subst h
        exact safe_of_no_brace (by decide)
      · cases List.mem_singleton.mp h
    · intro q hq
      rw [List.mem_singleton.mp hq]
      exact ⟨toMail_wf, no_ref_inside (by decide)⟩
    · intro q hq
      rw [List.mem_singleton.mp hq]
      exact ⟨.inr (.inl rfl), by decide⟩
  · refine .inr ⟨_, toMail_answer, ⟨?_, fun q hq => by cases hq⟩, fun q hq => by cases hq⟩
    intro t ht
    have := List.mem_singleton.mp ht
    injection this with h
    subst h
    exact safe_of_no_brace (by decide)
  · exact .inl toNone_answer

/-- A text with two references, one of which leads to a third. -/
def chainText : List Piece := [.ref toShop, .text "/".toList, .ref toMail, .text "!".toList]

theorem chainText_written : Written chainText := by
  refine ⟨?_, ?_⟩
  · intro t ht
    simp only [chainText, List.mem_cons, List.not_mem_nil, or_false, reduceCtorEq, false_or, Piece.text.injEq] at ht
    rcases ht with rfl | rfl <;> exact safe_of_no_brace (by decide)
  · intro r hr
    simp only [chainText, refsOf, List.mem_cons, List.not_mem_nil, or_false] at hr
    rcases hr with rfl | rfl
    · exact ⟨toShop_wf, no_ref_inside (by decide)⟩
    · exact ⟨toMail_wf, no_ref_inside (by decide)⟩

/-- The hypotheses of `C54_acyclic` hold for it, and `deref` follows both steps. -/
example : Inv chained ∧ Written chainText ∧ (∀ r ∈ refsOf chainText, r = toShop ∨ r = toMail ∨ r = toNone) ∧
    render chainText = "{REF:T@U:bob}/{REF:U@T:mail}!".toList ∧
    (deref Api.Sample.env (fun _ l => l) 3 (some (render chainText)) chained).1 = .ok (some "xann/ann!".toList) ∧
    (deref Api.Sample.env (fun _ l => l.reverse) 3 (some (render chainText)) chained).1 = .ok (some "xann/ann!".toList) :=
  ⟨chained_inv, chainText_written, by decide, by decide, by decide +kernel, by decide +kernel⟩

/-- Those of `C54_unresolved`. -/
example : Written [.ref toMail, .ref toNone] ∧ (∀ r ∈ refsOf [.ref toMail, .ref toNone], Unanswered chained r ∨ ∃ t, Answered chained r t) ∧
    (deref Api.Sample.env (fun _ l => l) 3 (some "{REF:U@T:mail}{REF:U@T:nobody}".toList) chained).1 = .ok none := by
  refine ⟨⟨?_, ?_⟩, ?_, by decide +kernel⟩
  · intro t ht
    simp at ht
  · intro r hr
    simp only [refsOf, List.mem_cons, List.not_mem_nil, or_false] at hr
    rcases hr with rfl | rfl
    · exact ⟨toMail_wf, no_ref_inside (by decide)⟩
    · exact ⟨toNone_wf, no_ref_inside (by decide)⟩
  · intro r hr
    simp only [refsOf, List.mem_cons, List.not_mem_nil, or_false] at hr
    rcases hr with rfl | rfl
    · exact .inr ⟨_, toMail_answer⟩
    · exact .inl toNone_answer

/-- Those of `C54_plain`: other placeholders and broken references are left alone. -/
example : (deref Api.Sample.env (fun _ l => l) 1 (some "{USERNAME} {REF:X@T:mail} {REF:T@I:} {REF:T@I:00".toList) chained).1 =
    .ok (some "{USERNAME} {REF:X@T:mail} {REF:T@I:} {REF:T@I:00".toList) := by decide +kernel

theorem mail_own : OwnUuid Api.Sample.db 23 (List.replicate 15 0 ++ [1]) := by
  have hl := findEntryList_run Api.Sample.env Api.Sample.db_inv (ks := [.uuid (List.replicate 15 0 ++ [1])]) (by
      intro k hk
      rw [List.mem_singleton.mp hk]
      show Kind.entry ≠ Kind.attachment
      decide)
  obtain ⟨l, l1, _, l3⟩ := hl
  have hx : (findEntryList Api.Sample.env true { kwargs := [.uuid (List.replicate 15 0 ++ [1])] } Api.Sample.db).1 = .ok [23] := by
    decide +kernel
  rw [l1] at hx
  injection hx with hx
  subst hx
  obtain ⟨n, hn, d1, d2, d3, _⟩ := (l3 23).mp List.mem_cons_self
  refine ⟨⟨d1, d2, d3⟩, by decide, by decide +kernel, fun i hc hk => ?_⟩
  obtain ⟨m, hm⟩ := get_of_mem (inDoc_mem Api.Sample.db_inv hc.doc).1
  have := (l3 i).mpr ⟨m, hm, hc.doc, hc.tag, hc.hist, fun k hk' => by
    rw [List.mem_singleton.mp hk']
    exact (hasValue_sub Api.Sample.db_inv hm _ _).mpr hk⟩
  exact List.mem_singleton.mp this

/-- Those of `C54_ref`, `C54_ref_empty` (the notes are missing) and `C54_ref_uuid`. -/
example : OwnUuid Api.Sample.db 23 (List.replicate 15 0 ++ [1]) ∧ field Api.Sample.db.heap 23 "Password".toList = some "s3".toList ∧
    field Api.Sample.db.heap 23 "Notes".toList = none ∧
    (ref 23 "password".toList Api.Sample.db).1 = .ok "{REF:P@I:00000000000000000000000000000001}".toList ∧
    (deref Api.Sample.env (fun _ l => l) 2 (some "{REF:P@I:00000000000000000000000000000001}".toList) Api.Sample.db).1 = .ok (some "s3".toList) :=
  ⟨mail_own, by decide +kernel, by decide +kernel, by decide +kernel, by decide +kernel⟩

/-! ## Cases in which the result is not what one would expect -/

/-- A title that refers to itself. -/
def looping : Db := retitled "{REF:T@U:bob}"

theorem looping_inv : Inv looping :=
  ⟨⟨by decide +kernel, by decide +kernel, by unfold Node.Uniq; decide +kernel, by decide +kernel⟩, by
    have : (looping.world.ids.all fun i => decide (i < looping.next)) = true := by decide +kernel
    intro i hi
    simpa using List.all_eq_true.mp this i hi⟩

/-- It meets the hypotheses of `C54_cycle`: `entry.deref('title')` raises `RecursionError` with every limit. -/
theorem C54_cycle_case (ord : Nat → List Token → List Token) (ho : Visits ord) (limit : Nat) :
    entryDeref Api.Sample.env ord limit 76 .title looping = (.error .recursion, looping) := by
  have hf : field looping.heap 76 "Title".toList = some toShop.text := by decide +kernel
  have hg : getStd Api.Sample.env 76 .title looping = (.ok (some toShop.text), looping) := by
    have hm : 76 ∈ looping.world.ids := by
      have : looping.world.ids.contains 76 = true := by decide +kernel
      exact List.contains_iff_mem.mp this
    exact (getField_run Api.Sample.env looping_inv (by decide) hm (plain_std .title)).trans (by rw [show (Field.title).key = "Title".toList from rfl, hf])
  unfold entryDeref
  rw [bind_of hg]
  exact C54_cycle Api.Sample.env looping_inv toShop_wf
    (answered_of_run Api.Sample.env looping_inv (r := toShop) (by unfold Reference.Searchable; rw [if_neg (by decide)]; exact ⟨by decide, by decide⟩)
      (e := 76) (by decide +kernel) rfl hf) ho limit

/-- A title that begins like a reference. -/
def nested : Db := retitled "{REF:P@T:mail"

/-- If one reference is written inside another, the result depends on the order in which the set is processed: the order
of a Python set of texts differs from run to run. -/
theorem C54_order_matters :
    (deref Api.Sample.env (fun _ l => l) 3 (some "{REF:U@T:{REF:P@T:mail}{REF:P@T:mail}".toList) nested).1 = .ok (some "bobs3".toList) ∧
    (deref Api.Sample.env (fun _ l => l.reverse) 3 (some "{REF:U@T:{REF:P@T:mail}{REF:P@T:mail}".toList) nested).1 =
      .ok (some "{REF:U@T:s3s3".toList) :=
  ⟨by decide +kernel, by decide +kernel⟩

/-- If one reference has no answer and another an empty field, the order decides between `None` and `TypeError`. -/
theorem C54_order_matters_error :
    (deref Api.Sample.env (fun _ l => l) 3 (some "{REF:U@T:nobody}{REF:N@T:mail}".toList) Api.Sample.db).1 = .ok none ∧
    (deref Api.Sample.env (fun _ l => l.reverse) 3 (some "{REF:U@T:nobody}{REF:N@T:mail}".toList) Api.Sample.db).1 = .error .type :=
  ⟨by decide +kernel, by decide +kernel⟩

end Verif.Props
