import Verif.Kdbx.Toy
/-!
# C27: header records parse to the fields that were encoded
-/
namespace Verif.Props
open Verif Parser Spec

/-- A header laid out as the format prescribes, fields in any order, followed by anything, parses to
its version and exactly its fields; the parser consumes exactly the header and keeps its bytes. -/
theorem C27_header (path : String) (v minor : Nat) (fs : List Field) (fin : Bytes)
    (h : HeaderOk v minor fs fin) (r : Bytes) :
    ∃ hd d, header path (headerLayout v minor fs fin ++ r) = .ok (hd, r) ∧
      hd.data = headerLayout v minor fs fin ∧ hd.value.major = v ∧ hd.value.minor = minor ∧
      hd.value.dyn = some d ∧ d = fs.map Field.value ++ [(.end, .raw fin)] :=
  ⟨_, _, header_run path v minor fs fin h r, rfl, rfl, rfl, rfl, rfl⟩

theorem nodup_reverse' {α} (l : List α) (h : l.Nodup) : l.reverse.Nodup := by
  unfold List.Nodup at h ⊢
  rw [List.pairwise_reverse]
  exact h.imp fun h => Ne.symm h

theorem lookup_mem_nodup {κ ν} [BEq κ] [LawfulBEq κ] (l : List (κ × ν)) (hn : (l.map Prod.fst).Nodup)
    (x : κ × ν) (hx : x ∈ l) : l.lookup x.1 = some x.2 := by
  induction l with
  | nil => cases hx
  | cons y l ih =>
    obtain ⟨k, v⟩ := y
    rw [List.map_cons, List.nodup_cons] at hn
    rcases List.mem_cons.mp hx with rfl | hx
    · simp [List.lookup]
    · have : x.1 ≠ k := fun e => hn.1 (List.mem_map.mpr ⟨x, hx, e⟩)
      rw [List.lookup, show (x.1 == k) = false by simpa using this]
      exact ih hn.2 hx

/-- Looking a field up by name gives its value, wherever it stands. -/
theorem C27_lookup (fs : List Field) (fin : Bytes) (hn : (fs.map fun f => f.value.1).Nodup)
    (f : Field) (hf : f ∈ fs) :
    DynHeader.get (fs.map Field.value ++ [(.end, .raw fin)]) f.value.1 = some f.value.2 := by
  unfold DynHeader.get dictGet
  refine lookup_mem_nodup _ ?_ f.value ?_
  · rw [List.map_reverse]
    refine nodup_reverse' _ ?_
    rw [List.map_append, List.nodup_append]
    refine ⟨?_, by simp, ?_⟩
    · rw [List.map_map]; exact hn
    · intro a ha b hb
      simp only [List.map_cons, List.map_nil, List.mem_singleton] at hb
      subst hb
      rw [List.map_map] at ha
      obtain ⟨g, _, rfl⟩ := List.mem_map.mp ha
      have := value_ne_end g
      simpa using this
  · rw [List.mem_reverse, List.mem_append]
    exact .inl (List.mem_map_of_mem hf)

/-- A later field with the same id replaces an earlier one. -/
theorem C27_last_wins (fs gs : List Field) (fin : Bytes) (f : Field)
    (h : ∀ g ∈ gs, g.value.1 ≠ f.value.1) :
    DynHeader.get ((fs ++ f :: gs).map Field.value ++ [(.end, .raw fin)]) f.value.1 = some f.value.2 := by
  unfold DynHeader.get dictGet
  rw [List.reverse_append, List.map_append, List.map_cons, List.reverse_append]
  simp only [List.reverse_cons, List.reverse_nil, List.nil_append, List.singleton_append, List.lookup]
  have hne := value_ne_end f
  rw [show (f.value.1 == HId.end) = false from hne]
  simp only
  have key : ∀ l : List (HId × HVal), (∀ x ∈ l, x.1 ≠ f.value.1) →
      (l ++ [f.value] ++ (fs.map Field.value).reverse).lookup f.value.1 = some f.value.2 := by
    intro l
    induction l with
    | nil =>
      intro _
      obtain ⟨a, b⟩ := f.value
      simp
    | cons y l ih =>
      intro hl
      obtain ⟨k, v⟩ := y
      have : k ≠ f.value.1 := hl _ List.mem_cons_self
      rw [List.cons_append, List.cons_append, List.lookup,
        show (f.value.1 == k) = false by simpa using Ne.symm this]
      exact ih (fun x hx => hl x (List.mem_cons_of_mem _ hx))
  refine key _ ?_
  intro x hx
  rw [List.mem_reverse] at hx
  obtain ⟨g, hg, rfl⟩ := List.mem_map.mp hx
  exact h g hg

/-- A value of the KDF parameter dictionary is found under its key. -/
theorem C27_kdf (fs : List Field) (fin version : Bytes) (es : List (Str × Param))
    (hn : (fs.map fun f => f.value.1).Nodup) (hf : Field.kdf version es ∈ fs)
    (hk : (es.map Prod.fst).Nodup) (e : Str × Param) (he : e ∈ es) :
    ∃ d, DynHeader.kdf (fs.map Field.value ++ [(.end, .raw fin)]) = .ok d ∧
      d.get (String.ofList e.1) = .ok e.2.value := by
  have h := C27_lookup fs fin hn _ hf
  refine ⟨{ version, items := es.map fun e => (e.1, e.2.value) }, ?_, ?_⟩
  · unfold DynHeader.kdf
    rw [show DynHeader.get (fs.map Field.value ++ [(.end, .raw fin)]) .kdfParameters = _ from h]
    rfl
  · unfold VDict.get dictGet
    have := lookup_mem_nodup (es.map fun e => (e.1, e.2.value)).reverse (by
      rw [List.map_reverse]
      refine nodup_reverse' _ ?_
      rw [List.map_map]; exact hk) (e.1, e.2.value) (by
      rw [List.mem_reverse]; exact List.mem_map.mpr ⟨e, he, rfl⟩)
    simp only [String.toList_ofList]
    rw [this]

/-- The example headers meet the hypotheses. -/
example (c : CipherId) (z : Bool) : HeaderOk 4 0 (Toy.fields4 c z) [13, 10] ∧
    ((Toy.fields4 c z).map fun f => f.value.1).Nodup ∧ HeaderOk 3 1 (Toy.fields3 c z) [] ∧
    ((Toy.fields3 c z).map fun f => f.value.1).Nodup :=
  ⟨Toy.headerOk4 c z, by cases c <;> cases z <;> decide, Toy.headerOk3 c z, by cases c <;> cases z <;> decide⟩

end Verif.Props
