import Verif.Kdbx.Payload
/-!
# Inner header of KDBX4 files: `kdbx4.py:244-270`, `DynamicDict` with `lump`, `common.py:46-82`
-/
namespace Verif

/-- The values of the `type` mapping, kdbx4.py:245-252. -/
inductive IType where
  | end | streamId | streamKey | binary
  deriving DecidableEq, Repr

/-- Item data, kdbx4.py:253-260. -/
inductive IVal where
  | raw (b : Bytes)
  | stream (s : StreamId)
  deriving DecidableEq, Repr

/-- An inner header as held in memory: the `Container` built by `DynamicDict._decode` with
`lump=['binary']`: the list of binaries (their raw data, flag byte included), and the other items
as a dictionary in insertion order. -/
structure InnerHeader where
  binaries : List Bytes
  fields : List (IType × IVal)
  deriving DecidableEq, Repr

/-- Insertion into an ordered dictionary: an existing key keeps its place and gets the new value. -/
def dictSet {κ ν} [BEq κ] (k : κ) (v : ν) : List (κ × ν) → List (κ × ν)
  | [] => [(k, v)]
  | (k', v') :: r => if k' == k then (k', v) :: r else (k', v') :: dictSet k v r

namespace Parser

/-- kdbx4.py:245-252 -/
def iType (n : Nat) : Option IType :=
  match n with
  | 0 => some .end | 1 => some .streamId | 2 => some .streamKey | 3 => some .binary
  | _ => none

/-- kdbx4.py:255-259 -/
def iVal (t : IType) : Parser IVal :=
  match t with
  | .streamId => do return .stream (← pStreamId)
  | _ => do return .raw (← greedy)

/-- `InnerHeaderItem`, kdbx4.py:244-261. -/
def iItem : Parser (IType × IVal) := do
  let n ← uint 1
  match iType n with
  | none => fail .mapping
  | some t => do
    let v ← prefixed (uint 4) (iVal t)
    return (t, v)

end Parser

/-- One step of the loop common.py:65-69. -/
def InnerHeader.insert (h : InnerHeader) (x : IType × IVal) : InnerHeader :=
  match x with
  | (.binary, .raw b) => { h with binaries := h.binaries ++ [b] }
  | (.binary, .stream _) => h -- not produced by `iItem`: a binary always has raw data
  | (t, v) => { h with fields := dictSet t v h.fields }

/-- `DynamicDict._decode`, common.py:61-71. -/
def innerDecode (items : List (IType × IVal)) : InnerHeader :=
  items.foldl InnerHeader.insert { binaries := [], fields := [] }

/-- `DynamicDict._encode`, common.py:74-82: the lumped binaries come first because their key was
inserted first. -/
def innerEncode (h : InnerHeader) : List (IType × IVal) :=
  h.binaries.map (fun b => (IType.binary, IVal.raw b)) ++ h.fields

namespace Parser
/-- `InnerHeader`, kdbx4.py:264-270. -/
def innerHeader : Parser InnerHeader := do
  let items ← repeatUntil (fun _ => iItem) (fun x => x.1 == .end)
  return innerDecode items
end Parser

/-- Type byte. -/
def iTypeNat : IType → Nat
  | .end => 0 | .streamId => 1 | .streamKey => 2 | .binary => 3

/-- Building `InnerHeaderItem`, kdbx4.py:244-261. The two last branches (a stream id where bytes are
expected, or bytes where a stream id is expected) cannot arise from parsing. -/
def buildIItem (_i : Nat) (x : IType × IVal) : Except PyErr Bytes :=
  match x with
  | (.streamId, .stream s) => do
    return leBytes 1 (iTypeNat .streamId) ++ (← buildPrefixed 4 (leBytes 4 (Parser.streamIdNat s)))
  | (.streamId, .raw _) => .error .mapping
  | (_, .stream _) => .error .type
  | (t, .raw b) => do return leBytes 1 (iTypeNat t) ++ (← buildPrefixed 4 b)

/-- Building `InnerHeader`. -/
def buildInner (h : InnerHeader) : Except PyErr Bytes :=
  buildUntil buildIItem (fun x => x.1 == .end) 0 (innerEncode h)

/-- `this.inner_header.protected_stream_id.data` (`KeyError` when absent). -/
def InnerHeader.streamId (h : InnerHeader) : Except PyErr StreamId :=
  match h.fields.lookup .streamId with
  | some (.stream s) => .ok s
  | some _ => .error .type
  | none => .error .key

/-- `this.inner_header.protected_stream_key.data`. -/
def InnerHeader.streamKey (h : InnerHeader) : Except PyErr Bytes :=
  match h.fields.lookup .streamKey with
  | some (.raw b) => .ok b
  | some _ => .error .type
  | none => .error .key

/-- An item as the parser produces it. -/
def IOk (x : IType × IVal) : Prop :=
  match x with
  | (.streamId, .stream _) => True
  | (.streamId, .raw _) => False
  | (_, .raw _) => True
  | (_, .stream _) => False

instance (x : IType × IVal) : Decidable (IOk x) := by
  unfold IOk; split <;> infer_instance

/-- A header as `DynamicDict` holds it after parsing: well-typed fields with distinct keys, `end`
last, no `binary` among them. -/
structure InnerHeader.Ok (h : InnerHeader) : Prop where
  typed : ∀ x ∈ h.fields, IOk x ∧ x.1 ≠ .binary
  nodup : (h.fields.map Prod.fst).Nodup
  last : ∃ fs v, h.fields = fs ++ [(.end, v)]

/-! ## Lemmas -/

theorem dictSet_keys {κ ν} [BEq κ] [LawfulBEq κ] (k : κ) (v : ν) (l : List (κ × ν)) :
    (dictSet k v l).map Prod.fst = if k ∈ l.map Prod.fst then l.map Prod.fst
      else l.map Prod.fst ++ [k] := by
  induction l with
  | nil => rfl
  | cons x r ih =>
    obtain ⟨k', v'⟩ := x
    rw [dictSet]
    by_cases h : k' = k
    · subst h; simp
    · rw [if_neg (by simpa using h)]
      simp only [List.map_cons, ih, List.mem_cons, Ne.symm h, false_or]
      split <;> simp

theorem dictSet_mem {κ ν} [BEq κ] [LawfulBEq κ] (k : κ) (v : ν) (l : List (κ × ν))
    (x : κ × ν) (h : x ∈ dictSet k v l) : x = (k, v) ∨ x ∈ l := by
  induction l with
  | nil => left; simpa [dictSet] using h
  | cons y r ih =>
    obtain ⟨k', v'⟩ := y
    rw [dictSet] at h
    split at h
    · next hk =>
      have : k' = k := by simpa using hk
      subst this
      rcases List.mem_cons.mp h with h | h
      · left; exact h
      · right; exact List.mem_cons_of_mem _ h
    · rcases List.mem_cons.mp h with h | h
      · right; rw [h]; exact List.mem_cons_self ..
      · rcases ih h with h | h
        · left; exact h
        · right; exact List.mem_cons_of_mem _ h

theorem dictSet_new {κ ν} [BEq κ] [LawfulBEq κ] (k : κ) (v : ν) (l : List (κ × ν))
    (h : k ∉ l.map Prod.fst) : dictSet k v l = l ++ [(k, v)] := by
  induction l with
  | nil => rfl
  | cons x r ih =>
    obtain ⟨k', v'⟩ := x
    simp only [List.map_cons, List.mem_cons, not_or] at h
    rw [dictSet, if_neg (by simpa using Ne.symm h.1), ih h.2]
    rfl

/-- What every sequence of insertions keeps. -/
theorem insert_inv (h : InnerHeader) (x : IType × IVal) (hx : IOk x) (hend : x.1 ≠ .end)
    (h1 : ∀ y ∈ h.fields, IOk y ∧ y.1 ≠ .binary ∧ y.1 ≠ .end)
    (h2 : (h.fields.map Prod.fst).Nodup) :
    (∀ y ∈ (h.insert x).fields, IOk y ∧ y.1 ≠ .binary ∧ y.1 ≠ .end) ∧
      ((h.insert x).fields.map Prod.fst).Nodup := by
  obtain ⟨t, v⟩ := x
  have key : ∀ t v, IOk (t, v) → t ≠ .end → t ≠ .binary →
      (∀ y ∈ dictSet t v h.fields, IOk y ∧ y.1 ≠ .binary ∧ y.1 ≠ .end) ∧
      ((dictSet t v h.fields).map Prod.fst).Nodup := by
    intro t v hx he hb
    refine ⟨?_, ?_⟩
    · intro y hy
      rcases dictSet_mem t v _ y hy with rfl | hy
      · exact ⟨hx, hb, he⟩
      · exact h1 y hy
    · rw [dictSet_keys]
      split
      · exact h2
      · next hn =>
        rw [List.nodup_append]
        refine ⟨h2, by simp, ?_⟩
        intro a ha b hb
        rw [List.mem_singleton] at hb
        subst hb
        intro e; subst e; exact hn ha
  cases t with
  | «end» => exact absurd rfl hend
  | binary => cases v <;> exact ⟨h1, h2⟩
  | streamId => exact key _ v hx (by simp) (by simp)
  | streamKey => exact key _ v hx (by simp) (by simp)

theorem insert_binary_fields (h : InnerHeader) (l : List Bytes) :
    (l.map (fun b => (IType.binary, IVal.raw b))).foldl InnerHeader.insert h
      = { h with binaries := h.binaries ++ l } := by
  induction l generalizing h with
  | nil => simp
  | cons b l ih => simp [InnerHeader.insert, ih]

theorem insert_fields (l : List (IType × IVal)) : ∀ h : InnerHeader,
    (∀ x ∈ l, x.1 ≠ .binary) → (l.map Prod.fst).Nodup →
    (∀ x ∈ l, x.1 ∉ h.fields.map Prod.fst) →
    l.foldl InnerHeader.insert h = { h with fields := h.fields ++ l } := by
  induction l with
  | nil => intro h _ _ _; simp
  | cons x l ih =>
    intro h hb hn hd
    obtain ⟨t, v⟩ := x
    have hins : h.insert (t, v) = { h with fields := h.fields ++ [(t, v)] } := by
      have := dictSet_new t v h.fields (hd (t, v) (by simp))
      have hb := hb (t, v) (by simp)
      unfold InnerHeader.insert
      split
      · next heq => cases heq; exact absurd rfl hb
      · next heq => cases heq; exact absurd rfl hb
      · next heq => cases heq; rw [this]
    rw [List.foldl_cons, hins, ih]
    · simp
    · exact fun x hx => hb x (by simp [hx])
    · exact (List.nodup_cons.mp hn).2
    · intro x hx
      simp only [List.map_append, List.map_cons, List.map_nil, List.mem_append, List.mem_singleton,
        not_or]
      refine ⟨hd x (by simp [hx]), ?_⟩
      intro e
      apply (List.nodup_cons.mp hn).1
      have : x.1 ∈ l.map Prod.fst := List.mem_map_of_mem hx
      rwa [e] at this

/-- Decoding what was encoded gives the same header. -/
theorem innerDecode_innerEncode (h : InnerHeader) (hok : h.Ok) : innerDecode (innerEncode h) = h := by
  unfold innerDecode innerEncode
  rw [List.foldl_append, insert_binary_fields, insert_fields _ _ (fun x hx => (hok.typed x hx).2)
    hok.nodup (by simp)]
  simp

/-- The items of a stored header: everything before the `end` item is not `end`. -/
theorem innerEncode_split (h : InnerHeader) (hok : h.Ok) :
    ∃ as v, innerEncode h = as ++ [(.end, v)] ∧ (∀ a ∈ as, (a.1 == IType.end) = false) ∧
      ∀ x ∈ innerEncode h, IOk x := by
  obtain ⟨fs, v, hfs⟩ := hok.last
  refine ⟨h.binaries.map (fun b => (IType.binary, IVal.raw b)) ++ fs, v, ?_, ?_, ?_⟩
  · unfold innerEncode; rw [hfs, List.append_assoc]
  · intro a ha
    rcases List.mem_append.mp ha with ha | ha
    · obtain ⟨b, _, rfl⟩ := List.mem_map.mp ha; rfl
    · have hn := hok.nodup
      rw [hfs, List.map_append, List.nodup_append] at hn
      have := hn.2.2 a.1 (List.mem_map_of_mem ha) .end (by simp)
      simpa using this
  · intro x hx
    unfold innerEncode at hx
    rcases List.mem_append.mp hx with hx | hx
    · obtain ⟨b, _, rfl⟩ := List.mem_map.mp hx; trivial
    · exact (hok.typed x hx).1

namespace Parser

theorem pStreamId_ok (s : StreamId) : pStreamId (leBytes 4 (streamIdNat s)) = .ok (s, []) := by
  have h : streamIdNat s < 256 ^ 4 := by cases s <;> decide
  unfold pStreamId
  have := uint_leBytes 4 (streamIdNat s) [] h
  rw [List.append_nil] at this
  rw [bind_run this]
  cases s <;> rfl

theorem iItem_build (i : Nat) (x : IType × IVal) (y r : Bytes) (h : buildIItem i x = .ok y) :
    iItem (y ++ r) = .ok (x, r) := by
  have raw : ∀ t b, t ≠ IType.streamId → buildPrefixed 4 b >>= (fun z =>
      (pure (leBytes 1 (iTypeNat t) ++ z) : Except PyErr Bytes)) = .ok y →
      iItem (y ++ r) = .ok ((t, .raw b), r) := by
    intro t b ht h
    cases hb : buildPrefixed 4 b with
    | error e => rw [hb] at h; cases h
    | ok z =>
      obtain ⟨h1, rfl⟩ := buildPrefixed_ok hb
      rw [hb] at h
      simp only [bind, Except.bind, pure, Except.pure, Except.ok.injEq] at h
      subst h
      have hlt : iTypeNat t < 256 ^ 1 := by cases t <;> decide
      have hty : iType (iTypeNat t) = some t := by cases t <;> rfl
      unfold iItem
      rw [List.append_assoc, bind_run (uint_leBytes 1 _ _ hlt), hty]
      simp only
      have : iVal t = (do return .raw (← greedy)) := by cases t <;> first | rfl | exact absurd rfl ht
      rw [this]
      have hp : prefixed (uint 4) (do return IVal.raw (← greedy))
          (leBytes 4 b.length ++ b ++ r) = .ok (.raw b, r) := by
        rw [prefixed_ok]
        exact ⟨b.length, b ++ r, b, [], by rw [List.append_assoc]; exact uint_leBytes 4 _ _ h1, rfl,
          rfl, rfl⟩
      rw [bind_run hp]
      rfl
  obtain ⟨t, v⟩ := x
  cases v with
  | raw b =>
    cases t with
    | streamId => cases h
    | «end» => exact raw _ b (by simp) h
    | streamKey => exact raw _ b (by simp) h
    | binary => exact raw _ b (by simp) h
  | stream s =>
    cases t with
    | streamId =>
      have h1 : (leBytes 4 (streamIdNat s)).length < 256 ^ 4 := by simp
      simp only [buildIItem, buildPrefixed_eq h1, bind, Except.bind, pure, Except.pure,
        Except.ok.injEq] at h
      subst h
      unfold iItem
      rw [List.append_assoc, bind_run (uint_leBytes 1 _ _ (by decide))]
      show (prefixed (uint 4) (do return IVal.stream (← pStreamId)) >>= fun v =>
        pure (IType.streamId, v)) _ = _
      have hp : prefixed (uint 4) (do return IVal.stream (← pStreamId))
          (leBytes 4 (leBytes 4 (streamIdNat s)).length ++ leBytes 4 (streamIdNat s) ++ r)
            = .ok (.stream s, r) := by
        rw [prefixed_ok]
        refine ⟨_, leBytes 4 (streamIdNat s) ++ r, _, [], by
          rw [List.append_assoc]; exact uint_leBytes 4 _ _ h1, rfl, rfl, ?_⟩
        rw [bind_run (pStreamId_ok s)]; rfl
      rw [bind_run hp]
      rfl
    | «end» => cases h
    | streamKey => cases h
    | binary => cases h

theorem buildIItem_pos (i : Nat) (x : IType × IVal) (y : Bytes) (h : buildIItem i x = .ok y) :
    0 < y.length := by
  have h2 := iItem_build i x y [] h
  rw [List.append_nil] at h2
  cases y with
  | nil => cases h2
  | cons => simp

/-- Items produced by the parser are well-typed. -/
theorem iItem_ok {s r : Bytes} {x : IType × IVal} (h : iItem s = .ok (x, r)) : IOk x := by
  unfold iItem at h
  rw [bind_ok] at h
  obtain ⟨n, m, _, h2⟩ := h
  cases ht : iType n with
  | none => rw [ht] at h2; exact absurd h2 fail_ok
  | some t =>
    rw [ht] at h2
    simp only at h2
    rw [bind_ok] at h2
    obtain ⟨v, m', hv, h4⟩ := h2
    obtain ⟨rfl, rfl⟩ := pure_ok.mp h4
    obtain ⟨_, _, d, t', _, _, _, hd⟩ := prefixed_ok.mp hv
    cases t with
    | streamId =>
      obtain ⟨a, m, _, h6⟩ := bind_ok.mp hd
      obtain ⟨rfl, _⟩ := pure_ok.mp h6
      trivial
    | «end» =>
      obtain ⟨a, m, _, h6⟩ := bind_ok.mp hd
      obtain ⟨rfl, _⟩ := pure_ok.mp h6
      trivial
    | streamKey =>
      obtain ⟨a, m, _, h6⟩ := bind_ok.mp hd
      obtain ⟨rfl, _⟩ := pure_ok.mp h6
      trivial
    | binary =>
      obtain ⟨a, m, _, h6⟩ := bind_ok.mp hd
      obtain ⟨rfl, _⟩ := pure_ok.mp h6
      trivial

/-- Shape of the list returned by `RepeatUntil`: only the last item satisfies the predicate. -/
theorem repeatLoop_shape {α} (p : Nat → Parser α) (stop : α → Bool) (Q : α → Prop)
    (hQ : ∀ i s a r, p i s = .ok (a, r) → Q a) :
    ∀ fuel i s l r, repeatLoop p stop fuel i s = .ok (l, r) →
      ∃ as last, l = as ++ [last] ∧ (∀ a ∈ as, stop a = false ∧ Q a) ∧ stop last = true ∧ Q last := by
  intro fuel
  induction fuel with
  | zero => intro i s l r h; exact absurd h fail_ok
  | succ fuel ih =>
    intro i s l r h
    rw [repeatLoop, bind_ok] at h
    obtain ⟨a, m, h1, h2⟩ := h
    have hq := hQ i s a m h1
    split at h2
    · next hs =>
      obtain ⟨rfl, rfl⟩ := pure_ok.mp h2
      exact ⟨[], a, rfl, by simp, hs, hq⟩
    · next hs =>
      obtain ⟨as, m', h3, h4⟩ := bind_ok.mp h2
      obtain ⟨rfl, rfl⟩ := pure_ok.mp h4
      obtain ⟨bs, last, rfl, hb, hl⟩ := ih _ _ _ _ h3
      refine ⟨a :: bs, last, rfl, ?_, hl⟩
      intro x hx
      rcases List.mem_cons.mp hx with rfl | hx
      · exact ⟨by simpa using hs, hq⟩
      · exact hb x hx

theorem insert_all_inv (l : List (IType × IVal)) : ∀ h : InnerHeader,
    (∀ x ∈ l, IOk x ∧ x.1 ≠ .end) →
    (∀ y ∈ h.fields, IOk y ∧ y.1 ≠ .binary ∧ y.1 ≠ .end) → (h.fields.map Prod.fst).Nodup →
    (∀ y ∈ (l.foldl InnerHeader.insert h).fields, IOk y ∧ y.1 ≠ .binary ∧ y.1 ≠ .end) ∧
      ((l.foldl InnerHeader.insert h).fields.map Prod.fst).Nodup := by
  induction l with
  | nil => intro h _ h1 h2; exact ⟨h1, h2⟩
  | cons x l ih =>
    intro h hx h1 h2
    have := insert_inv h x (hx x (by simp)).1 (hx x (by simp)).2 h1 h2
    exact ih _ (fun y hy => hx y (by simp [hy])) this.1 this.2

/-- Every parsed inner header is well-formed. -/
theorem innerHeader_ok {s r : Bytes} {h : InnerHeader} (hp : innerHeader s = .ok (h, r)) :
    h.Ok := by
  unfold innerHeader at hp
  obtain ⟨items, m, h1, h2⟩ := bind_ok.mp hp
  obtain ⟨rfl, rfl⟩ := pure_ok.mp h2
  obtain ⟨as, last, rfl, ha, hl, hq⟩ := repeatLoop_shape _ _ IOk (fun _ _ _ _ h => iItem_ok h)
    _ _ _ _ _ h1
  have inv := insert_all_inv as { binaries := [], fields := [] }
    (fun x hx => ⟨(ha x hx).2, by simpa using (ha x hx).1⟩) (by simp) (by simp)
  obtain ⟨t, v⟩ := last
  have ht : t = .end := by simpa using hl
  subst ht
  unfold innerDecode
  rw [List.foldl_append, List.foldl_cons, List.foldl_nil]
  generalize as.foldl InnerHeader.insert { binaries := [], fields := [] } = g at inv
  have hn : IType.end ∉ g.fields.map Prod.fst := by
    intro hm
    obtain ⟨y, hy, he⟩ := List.mem_map.mp hm
    exact (inv.1 y hy).2.2 he
  have hg : (g.insert (.end, v)).fields = g.fields ++ [(.end, v)] := by
    show dictSet .end v g.fields = _
    exact dictSet_new _ _ _ hn
  refine ⟨?_, ?_, g.fields, v, hg⟩
  · rw [hg]
    intro x hx
    rcases List.mem_append.mp hx with hx | hx
    · exact ⟨(inv.1 x hx).1, (inv.1 x hx).2.1⟩
    · rw [List.mem_singleton] at hx; subst hx; exact ⟨hq, by simp⟩
  · rw [hg, List.map_append, List.nodup_append]
    refine ⟨inv.2, by simp, ?_⟩
    intro a ha b hb e
    simp only [List.map_cons, List.map_nil, List.mem_singleton] at hb
    subst hb e
    exact hn ha

/-- Reading back a written inner header gives the same header. -/
theorem innerHeader_build (h : InnerHeader) (hok : h.Ok) (y r : Bytes) (hb : buildInner h = .ok y) :
    innerHeader (y ++ r) = .ok (h, r) := by
  obtain ⟨as, v, he, hs, _⟩ := innerEncode_split h hok
  unfold buildInner at hb
  rw [he] at hb
  have hl := buildUntil_length _ _ buildIItem_pos (IType.end, v) as 0 y hs hb
  have := repeatLoop_build (fun _ => iItem) buildIItem (fun x => x.1 == .end)
    (fun i a x r h => iItem_build i a x r h) as (.end, v) 0 y hs rfl hb
    ((y ++ r).length + 1) r (by rw [List.length_append]; omega)
  unfold innerHeader
  have hr : repeatUntil (fun _ => iItem) (fun x => x.1 == IType.end) (y ++ r)
      = .ok (as ++ [(.end, v)], r) := this
  rw [bind_run hr, ← he, innerDecode_innerEncode h hok]
  rfl

end Parser

theorem buildInner_total (h : InnerHeader) (hok : h.Ok)
    (hsz : ∀ x ∈ innerEncode h, ∀ b, x.2 = .raw b → b.length < 2 ^ 32) :
    ∃ y, buildInner h = .ok y := by
  obtain ⟨as, v, he, hs, hty⟩ := innerEncode_split h hok
  have item : ∀ i x, x ∈ innerEncode h → ∃ y, buildIItem i x = .ok y := by
    intro i x hx
    obtain ⟨t, v⟩ := x
    have h1 := hty _ hx
    cases v with
    | raw b =>
      have h2 := hsz _ hx b rfl
      have h3 := buildPrefixed_eq (k := 4) (d := b) (by omega)
      cases t with
      | streamId => exact absurd h1 (by simp [IOk])
      | «end» => exact ⟨_, by simp only [buildIItem, h3]; rfl⟩
      | streamKey => exact ⟨_, by simp only [buildIItem, h3]; rfl⟩
      | binary => exact ⟨_, by simp only [buildIItem, h3]; rfl⟩
    | stream s =>
      cases t with
      | streamId =>
        have h3 := buildPrefixed_eq (k := 4) (d := leBytes 4 (Parser.streamIdNat s)) (by simp)
        exact ⟨_, by simp only [buildIItem, h3]; rfl⟩
      | «end» => exact absurd h1 (by simp [IOk])
      | streamKey => exact absurd h1 (by simp [IOk])
      | binary => exact absurd h1 (by simp [IOk])
  unfold buildInner
  rw [he] at item ⊢
  refine buildUntil_total _ _ _ rfl as 0 ?_ (item _ _ (by simp))
  intro j a hj ha
  exact item _ _ (List.mem_append_left _ (List.mem_of_getElem? ha))

namespace Parser
/-- Items that were read fit their length field. -/
theorem iItem_size {s r : Bytes} {x : IType × IVal} (h : iItem s = .ok (x, r)) :
    ∀ d, x.2 = .raw d → d.length < 2 ^ 32 := by
  unfold iItem at h
  rw [bind_ok] at h
  obtain ⟨n, m, _, h2⟩ := h
  cases ht : iType n with
  | none => rw [ht] at h2; exact absurd h2 fail_ok
  | some t =>
    rw [ht] at h2
    simp only at h2
    rw [bind_ok] at h2
    obtain ⟨v, m', hv, h4⟩ := h2
    obtain ⟨rfl, rfl⟩ := pure_ok.mp h4
    obtain ⟨n', _, d, t', hn, _, hl, hd⟩ := prefixed_ok.mp hv
    obtain ⟨b, hb, hbn, _⟩ := uint_ok.mp hn
    have hlt := leNat_lt b
    rw [hb, hbn, ← hl] at hlt
    intro d' e
    simp only at e
    subst e
    cases t with
    | streamId =>
      obtain ⟨_, _, _, h6⟩ := bind_ok.mp hd
      obtain ⟨h7, _⟩ := pure_ok.mp h6
      cases h7
    | «end» | streamKey | binary =>
      obtain ⟨g, g2, h5, h6⟩ := bind_ok.mp hd
      obtain ⟨h7, _⟩ := pure_ok.mp h6
      cases h7
      cases h5
      exact hlt

/-- The fields of an inner header that was read fit their length fields. -/
theorem innerHeader_size {s r : Bytes} {h : InnerHeader} (hp : innerHeader s = .ok (h, r)) :
    ∀ x ∈ h.fields, ∀ d, x.2 = .raw d → d.length < 2 ^ 32 := by
  unfold innerHeader at hp
  obtain ⟨items, m, h1, h2⟩ := bind_ok.mp hp
  obtain ⟨rfl, rfl⟩ := pure_ok.mp h2
  obtain ⟨as, last, rfl, ha, _, hq⟩ := repeatLoop_shape _ _
    (fun x : IType × IVal => ∀ d, x.2 = .raw d → d.length < 2 ^ 32) (fun _ _ _ _ h => iItem_size h)
    _ _ _ _ _ h1
  have hall : ∀ x ∈ as ++ [last], ∀ d, x.2 = .raw d → d.length < 2 ^ 32 := by
    intro x hx
    rcases List.mem_append.mp hx with hx | hx
    · exact (ha x hx).2
    · rw [List.mem_singleton] at hx; rw [hx]; exact hq
  have key : ∀ (l : List (IType × IVal)) (h : InnerHeader),
      (∀ x ∈ l, ∀ d, x.2 = .raw d → d.length < 2 ^ 32) →
      (∀ x ∈ h.fields, ∀ d, x.2 = .raw d → d.length < 2 ^ 32) →
      ∀ x ∈ (l.foldl InnerHeader.insert h).fields, ∀ d, x.2 = .raw d → d.length < 2 ^ 32 := by
    intro l
    induction l with
    | nil => intro h _ h2; exact h2
    | cons y ys ih =>
      intro h hl hh
      refine ih _ (fun x hx => hl x (List.mem_cons_of_mem _ hx)) ?_
      have hy := hl y List.mem_cons_self
      have hset : ∀ x ∈ dictSet y.1 y.2 h.fields, ∀ d, x.2 = .raw d → d.length < 2 ^ 32 := by
        intro x hx
        rcases dictSet_mem _ _ _ _ hx with hx | hx
        · rw [hx]; exact hy
        · exact hh x hx
      unfold InnerHeader.insert
      split
      · exact hh
      · exact hh
      · exact hset
  exact key _ _ hall (by intro x hx; cases hx)
end Parser

end Verif
