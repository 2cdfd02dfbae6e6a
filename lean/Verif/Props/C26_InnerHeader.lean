import Verif.Kdbx.Toy
/-!
# C26: the inner header keeps binaries in order
-/
namespace Verif.Props
open Verif Parser Spec

/-- A field of an inner header as the format documentation has it. -/
inductive InnerField where
  | streamId (s : StreamId) | streamKey (b : Bytes) | binary (b : Bytes)
  deriving DecidableEq

namespace InnerField
def typeByte : InnerField → Nat
  | streamId _ => 1 | streamKey _ => 2 | binary _ => 3
def data : InnerField → Bytes
  | streamId .none => [0, 0, 0, 0] | streamId .arcfourvariant => [1, 0, 0, 0]
  | streamId .salsa20 => [2, 0, 0, 0] | streamId .chacha20 => [3, 0, 0, 0]
  | streamKey b => b | binary b => b
/-- Type, length, data. -/
def layout (f : InnerField) : Bytes := leBytes 1 f.typeByte ++ lp 4 f.data
def binary? : InnerField → Option Bytes
  | binary b => some b | _ => none
def streamId? : InnerField → Option StreamId
  | streamId s => some s | _ => none
def streamKey? : InnerField → Option Bytes
  | streamKey b => some b | _ => none
/-- The item the reader makes of it. -/
def item : InnerField → IType × IVal
  | streamId s => (.streamId, .stream s) | streamKey b => (.streamKey, .raw b)
  | binary b => (.binary, .raw b)
end InnerField

/-- A whole inner header: fields in any order, then the end field. -/
def innerLayout (fs : List InnerField) (fin : Bytes) : Bytes :=
  fs.flatMap InnerField.layout ++ (leBytes 1 0 ++ lp 4 fin)

theorem iItem_run (f : InnerField) (h : f.data.length < 2 ^ 32) (r : Bytes) :
    iItem (f.layout ++ r) = .ok (f.item, r) := by
  have key : ∀ (i : IType) (v : IVal), iType f.typeByte = some i → iVal i f.data = .ok (v, []) →
      iItem (f.layout ++ r) = .ok ((i, v), r) := by
    intro i v h1 h2
    unfold iItem InnerField.layout
    rw [List.append_assoc, bind_run (uint_leBytes 1 _ _ (by cases f <;> simp [InnerField.typeByte])), h1]
    simp only
    rw [bind_run (prefixed_run 4 _ _ _ _ _ h h2)]
    rfl
  cases f with
  | streamId s => cases s <;> exact key _ _ rfl (by decide +kernel)
  | streamKey b => exact key _ _ rfl rfl
  | binary b => exact key _ _ rfl rfl

theorem iEnd_run (fin : Bytes) (h : fin.length < 2 ^ 32) (r : Bytes) :
    iItem (leBytes 1 0 ++ lp 4 fin ++ r) = .ok ((.end, .raw fin), r) := by
  unfold iItem
  rw [List.append_assoc, bind_run (uint_leBytes 1 0 _ (by decide))]
  simp only [iType]
  rw [bind_run (prefixed_run 4 _ _ _ (.raw fin) [] h rfl)]
  rfl

theorem innerItems_run (fs : List InnerField) (fin r : Bytes) (h : ∀ f ∈ fs, f.data.length < 2 ^ 32)
    (hf : fin.length < 2 ^ 32) :
    repeatUntil (fun _ => iItem) (fun x => x.1 == .end) (innerLayout fs fin ++ r) =
      .ok (fs.map InnerField.item ++ [(.end, .raw fin)], r) := by
  have loop : ∀ n i, fs.length < n → repeatLoop (fun _ => iItem) (fun x => x.1 == .end) n i
      (innerLayout fs fin ++ r) = .ok (fs.map InnerField.item ++ [(.end, .raw fin)], r) := by
    induction fs with
    | nil =>
      intro n i hn
      cases n with
      | zero => omega
      | succ n => exact repeatLoop_last _ _ _ _ _ _ _ (iEnd_run fin hf r) rfl
    | cons f fs ih =>
      intro n i hn
      cases n with
      | zero => omega
      | succ n =>
        have e : innerLayout (f :: fs) fin ++ r = f.layout ++ (innerLayout fs fin ++ r) := by
          unfold innerLayout; simp [List.append_assoc]
        rw [e]
        refine repeatLoop_step _ _ _ _ _ _ _ _ _ (iItem_run f (h f List.mem_cons_self) _)
          (by cases f <;> rfl) ?_
        exact ih (fun g hg => h g (List.mem_cons_of_mem _ hg)) n (i + 1) (by simp at hn; omega)
  refine loop _ 0 ?_
  have := flatMap_length_le InnerField.layout (fun f => by
    unfold InnerField.layout; simp only [List.length_append, leBytes_length]; omega) fs
  unfold innerLayout
  simp only [List.length_append]; omega

theorem lookup_dictSet {κ ν} [BEq κ] [LawfulBEq κ] (k k' : κ) (v : ν) (l : List (κ × ν)) :
    (dictSet k v l).lookup k' = if k' == k then some v else l.lookup k' := by
  induction l with
  | nil => simp only [dictSet, List.lookup]; cases h : k' == k <;> rfl
  | cons x l ih =>
    obtain ⟨k0, v0⟩ := x
    rw [dictSet]
    by_cases h : k0 = k
    · subst h
      rw [if_pos (by simp)]
      simp only [List.lookup]
      cases h : k' == k0 <;> rfl
    · rw [if_neg (by simpa using h)]
      simp only [List.lookup]
      cases h2 : k' == k0 with
      | true =>
        have : k' = k0 := by simpa using h2
        subst this
        simp [h]
      | false => simp only [ih]

/-- Reading: the binaries are those of the file in file order wherever they stand between other
fields; stream id and key are the last ones given. -/
theorem C26_read (fs : List InnerField) (fin r : Bytes) (hl : ∀ f ∈ fs, f.data.length < 2 ^ 32)
    (hf : fin.length < 2 ^ 32) :
    ∃ h, innerHeader (innerLayout fs fin ++ r) = .ok (h, r) ∧
      h.binaries = fs.filterMap InnerField.binary? ∧
      (∀ s, (fs.filterMap InnerField.streamId?).getLast? = some s → h.streamId = .ok s) ∧
      (∀ b, (fs.filterMap InnerField.streamKey?).getLast? = some b → h.streamKey = .ok b) := by
  refine ⟨innerDecode (fs.map InnerField.item ++ [(.end, .raw fin)]), ?_, ?_⟩
  · unfold innerHeader
    rw [bind_run (innerItems_run fs fin r hl hf)]
    rfl
  · unfold innerDecode
    rw [List.foldl_append]
    generalize hh0 : (List.map InnerField.item fs).foldl InnerHeader.insert
      { binaries := [], fields := [] } = h1
    have step : ∀ (fs : List InnerField) (h0 : InnerHeader),
        ((fs.map InnerField.item).foldl InnerHeader.insert h0).binaries =
          h0.binaries ++ fs.filterMap InnerField.binary? ∧
        ((fs.map InnerField.item).foldl InnerHeader.insert h0).fields.lookup .streamId =
          ((fs.filterMap InnerField.streamId?).getLast?.map IVal.stream).or (h0.fields.lookup .streamId) ∧
        ((fs.map InnerField.item).foldl InnerHeader.insert h0).fields.lookup .streamKey =
          ((fs.filterMap InnerField.streamKey?).getLast?.map IVal.raw).or (h0.fields.lookup .streamKey) := by
      intro fs
      induction fs with
      | nil => intro h0; simp
      | cons f fs ih =>
        intro h0
        rw [List.map_cons, List.foldl_cons]
        obtain ⟨i1, i2, i3⟩ := ih (h0.insert f.item)
        rw [i1, i2, i3]
        cases f with
        | binary b =>
          refine ⟨?_, ?_, ?_⟩
          · simp [InnerField.item, InnerHeader.insert, InnerField.binary?]
          · simp [InnerField.item, InnerHeader.insert, InnerField.streamId?]
          · simp [InnerField.item, InnerHeader.insert, InnerField.streamKey?]
        | streamId s =>
          refine ⟨?_, ?_, ?_⟩
          · rfl
          · simp only [InnerField.item, InnerHeader.insert, InnerField.streamId?, lookup_dictSet,
              List.filterMap_cons, beq_self_eq_true, if_true, List.getLast?_cons]
            cases (List.filterMap InnerField.streamId? fs).getLast? <;> rfl
          · simp only [InnerField.item, InnerHeader.insert, InnerField.streamKey?, lookup_dictSet,
              List.filterMap_cons]
            rfl
        | streamKey s =>
          refine ⟨?_, ?_, ?_⟩
          · rfl
          · simp only [InnerField.item, InnerHeader.insert, InnerField.streamId?, lookup_dictSet,
              List.filterMap_cons]
            rfl
          · simp only [InnerField.item, InnerHeader.insert, InnerField.streamKey?, lookup_dictSet,
              List.filterMap_cons, beq_self_eq_true, if_true, List.getLast?_cons]
            cases (List.filterMap InnerField.streamKey? fs).getLast? <;> rfl
    obtain ⟨s1, s2, s3⟩ := step fs { binaries := [], fields := [] }
    rw [hh0] at s1 s2 s3
    simp only [List.foldl_cons, List.foldl_nil, InnerHeader.insert]
    refine ⟨by rw [s1]; rfl, ?_, ?_⟩
    · intro s hs
      unfold InnerHeader.streamId
      simp only [lookup_dictSet]
      rw [if_neg (by decide), s2, hs]
      rfl
    · intro b hb
      unfold InnerHeader.streamKey
      simp only [lookup_dictSet]
      rw [if_neg (by decide), s3, hb]
      rfl

/-- Reading, then writing, then reading gives the same header, whatever follows. Writing succeeds. -/
theorem C26_roundtrip (s r : Bytes) (h : InnerHeader) (hp : innerHeader s = .ok (h, r))
    (hb : ∀ b ∈ h.binaries, b.length < 2 ^ 32) :
    ∃ y, buildInner h = .ok y ∧ ∀ r', innerHeader (y ++ r') = .ok (h, r') := by
  have hok := innerHeader_ok hp
  obtain ⟨y, hy⟩ := buildInner_total h hok (by
    intro x hx d hd
    rcases List.mem_append.mp hx with hx | hx
    · obtain ⟨b, hb', rfl⟩ := List.mem_map.mp hx
      injection hd with hd
      subst hd
      exact hb _ hb'
    · exact innerHeader_size hp x hx d hd)
  exact ⟨y, hy, fun r' => innerHeader_build h hok y r' hy⟩

/-- Changing the list of binaries: it is read back in the new order, the stream settings as before. -/
theorem C26_edited (s r : Bytes) (h : InnerHeader) (hp : innerHeader s = .ok (h, r)) (bs : List Bytes)
    (hb : ∀ b ∈ bs, b.length < 2 ^ 32) :
    ∃ y, buildInner { h with binaries := bs } = .ok y ∧
      ∀ r', innerHeader (y ++ r') = .ok ({ h with binaries := bs }, r') := by
  have hok := innerOk_binaries (innerHeader_ok hp) bs
  obtain ⟨y, hy⟩ := buildInner_total { h with binaries := bs } hok (by
    intro x hx d hd
    rcases List.mem_append.mp hx with hx | hx
    · obtain ⟨b, hb', rfl⟩ := List.mem_map.mp hx
      injection hd with hd
      subst hd
      exact hb _ hb'
    · exact innerHeader_size hp x hx d hd)
  exact ⟨y, hy, fun r' => innerHeader_build _ hok y r' hy⟩

/-- Concrete: binaries interleaved with the other fields. -/
example : ∃ h, innerHeader (innerLayout [.binary [0, 1], .streamId .chacha20, .binary [0, 2], .streamKey [9],
    .binary [1, 3]] []) = .ok (h, []) ∧ h.binaries = [[0, 1], [0, 2], [1, 3]] ∧ h.streamId = .ok .chacha20 ∧
    h.streamKey = .ok [9] := by
  have := C26_read [.binary [0, 1], .streamId .chacha20, .binary [0, 2], .streamKey [9], .binary [1, 3]] [] []
    (by decide) (by decide)
  rw [List.append_nil] at this
  obtain ⟨h, h1, h2, h3, h4⟩ := this
  exact ⟨h, h1, h2, h3 _ rfl, h4 _ rfl⟩

end Verif.Props
