import Verif.Spec.Format
import Verif.Kdbx.Payload
/-!
# The parser on laid-out headers
-/
namespace Verif
open Parser Spec

namespace Parser

theorem sint_run (k : Nat) (n : Int) (r : Bytes) (h1 : -((256 ^ k / 2 : Nat) : Int) ≤ n)
    (h2 : n < (256 ^ k / 2 : Nat)) (hk : 0 < k) : sint k (leInt k n ++ r) = .ok (n, r) := by
  have hpos : 0 < 256 ^ k := Nat.pow_pos (by decide)
  have heven : 256 ^ k = 2 * (256 ^ k / 2) := by
    cases k with
    | zero => omega
    | succ k => rw [Nat.pow_succ]; omega
  generalize hN : 256 ^ k = N at *
  unfold sint
  rw [bind_run (bytes_append' (leInt k n) r (by simp [leInt]))]
  have hv : leNat (leInt k n) = (n % (N : Nat)).toNat := by
    unfold leInt
    rw [hN]
    refine leNat_leBytes k _ ?_
    rw [hN]
    have := Int.emod_lt_of_pos n (show (0 : Int) < N by omega)
    have := Int.emod_nonneg n (show (N : Int) ≠ 0 by omega)
    omega
  simp only [hv, hN]
  refine pure_ok.mpr ⟨?_, rfl⟩
  by_cases hn : 0 ≤ n
  · have hm : n % (N : Int) = n := Int.emod_eq_of_lt hn (by omega)
    rw [hm]
    split <;> omega
  · have hm : n % (N : Int) = n + N := by
      rw [← Int.add_emod_right]
      exact Int.emod_eq_of_lt (by omega) (by omega)
    rw [hm]
    split <;> omega

theorem prefixed_run {α} (k : Nat) (sub : Parser α) (d r : Bytes) (a : α) (t : Bytes)
    (h : d.length < 256 ^ k) (hs : sub d = .ok (a, t)) :
    prefixed (uint k) sub (lp k d ++ r) = .ok (a, r) := by
  rw [prefixed_ok]
  refine ⟨d.length, d ++ r, d, t, ?_, rfl, rfl, hs⟩
  unfold lp
  rw [List.append_assoc]
  exact uint_leBytes k d.length (d ++ r) h

theorem pVVal_run (p : Param) (h : p.Fits) :
    ∃ t, pVVal p.typeByte p.layout = .ok (p.value, t) := by
  have e : ∀ b : Bytes, b = b ++ [] := fun b => (List.append_nil b).symm
  cases p with
  | u32 n =>
    refine ⟨[], ?_⟩
    show (do return VVal.int (Int.ofNat (← uint 4)) : Parser VVal) (leBytes 4 n) = _
    rw [e (leBytes 4 n), bind_run (uint_leBytes 4 n [] h)]
    rfl
  | u64 n =>
    refine ⟨[], ?_⟩
    show (do return VVal.int (Int.ofNat (← uint 8)) : Parser VVal) (leBytes 8 n) = _
    rw [e (leBytes 8 n), bind_run (uint_leBytes 8 n [] h)]
    rfl
  | bool b => exact ⟨[], by cases b <;> rfl⟩
  | i32 n =>
    refine ⟨[], ?_⟩
    show (do return VVal.int (← sint 4) : Parser VVal) (leInt 4 n) = _
    rw [e (leInt 4 n), bind_run (sint_run 4 n [] h.1 h.2 (by decide))]
    rfl
  | i64 n =>
    refine ⟨[], ?_⟩
    show (do return VVal.int (← sint 8) : Parser VVal) (leInt 8 n) = _
    rw [e (leInt 8 n), bind_run (sint_run 8 n [] h.1 h.2 (by decide))]
    rfl
  | bytes b => exact ⟨[], rfl⟩
  | str s =>
    refine ⟨[], ?_⟩
    show (do
      match utf8Dec (← greedy) with
      | some s => return VVal.str s
      | Option.none => fail .stringErr : Parser VVal) (utf8Enc s) = _
    rw [bind_run (show greedy (utf8Enc s) = .ok (utf8Enc s, []) from rfl), utf8Dec_utf8Enc]
    rfl

theorem param_layout_length (p : Param) (h : p.Fits) : p.layout.length < 256 ^ 4 := by
  cases p with
  | u32 | u64 => simp [Param.layout]
  | i32 | i64 => simp [Param.layout, leInt]
  | bool => simp [Param.layout]
  | str | bytes => exact h

theorem pVItem_run (e : Str × Param) (h : (utf8Enc e.1).length < 2 ^ 32) (h2 : e.2.Fits) (r : Bytes) :
    pVItem (entryLayout e ++ r) = .ok (((e.1, e.2.value), r.head?), r) := by
  obtain ⟨t, ht⟩ := pVVal_run e.2 h2
  unfold pVItem entryLayout
  have h1 : e.2.typeByte < 256 ^ 1 := by cases e.2 <;> simp [Param.typeByte]
  simp only [List.append_assoc]
  have hk : greedyStr (utf8Enc e.1) = .ok (e.1, []) := by
    unfold greedyStr
    rw [bind_run (show greedy (utf8Enc e.1) = .ok (utf8Enc e.1, []) from rfl), utf8Dec_utf8Enc]
    rfl
  rw [bind_run (uint_leBytes 1 _ _ h1), bind_run (prefixed_run 4 greedyStr _ _ _ _ h hk),
    bind_run (prefixed_run 4 _ _ _ _ t (param_layout_length _ h2) ht),
    bind_run (show peekByte r = .ok (r.head?, r) from rfl)]
  rfl

theorem entry_head (e : Str × Param) (r : Bytes) : ∃ b y, entryLayout e ++ r = b :: y ∧ b ≠ 0 := by
  obtain ⟨k, p⟩ := e
  unfold entryLayout
  refine ⟨_, _, rfl, ?_⟩
  cases p <;> simp [Param.typeByte]

theorem pVLoop_run (es : List (Str × Param)) (hne : es ≠ [])
    (h : ∀ e ∈ es, (utf8Enc e.1).length < 2 ^ 32 ∧ e.2.Fits) (r : Bytes) :
    ∀ f i, es.length ≤ f → ∃ items,
      repeatLoop (fun _ => pVItem) (fun x => x.2 == some 0) f i (es.flatMap entryLayout ++ 0 :: r) =
        .ok (items, 0 :: r) ∧ items.map Prod.fst = es.map fun e => (e.1, e.2.value) := by
  induction es with
  | nil => exact absurd rfl hne
  | cons e es ih =>
    intro f i hf
    cases f with
    | zero => simp at hf
    | succ f =>
      have he := h e List.mem_cons_self
      rw [List.flatMap_cons, List.append_assoc]
      cases es with
      | nil =>
        refine ⟨_, repeatLoop_last _ _ _ _ _ _ _ (pVItem_run e he.1 he.2 _) rfl, rfl⟩
      | cons e2 es2 =>
        obtain ⟨items, h1, h2⟩ := ih (by simp) (fun x hx => h x (List.mem_cons_of_mem _ hx)) f (i + 1)
          (by simp at hf ⊢; omega)
        refine ⟨_, repeatLoop_step _ _ _ _ _ _ _ _ _ (pVItem_run e he.1 he.2 _) ?_ h1, ?_⟩
        · obtain ⟨b, y, hb, hb0⟩ := entry_head e2 (es2.flatMap entryLayout ++ 0 :: r)
          rw [List.flatMap_cons, List.append_assoc, hb]
          simp only [List.head?_cons]
          simpa using hb0
        · rw [List.map_cons, h2]; rfl

theorem entryLayout_pos (e : Str × Param) : 0 < (entryLayout e).length := by
  unfold entryLayout
  simp only [List.length_append, leBytes_length]; omega

theorem flatMap_length_le {α} (f : α → Bytes) (h : ∀ a, 0 < (f a).length) (l : List α) :
    l.length ≤ (l.flatMap f).length := by
  induction l with
  | nil => simp
  | cons a l ih =>
    have := h a
    rw [List.flatMap_cons, List.length_append, List.length_cons]; omega

theorem pVDict_run (version : Bytes) (es : List (Str × Param)) (hv : version.length = 2)
    (hne : es ≠ []) (h : ∀ e ∈ es, (utf8Enc e.1).length < 2 ^ 32 ∧ e.2.Fits) :
    pVDict (dictLayout version es) =
      .ok ({ version, items := es.map fun e => (e.1, e.2.value) }, []) := by
  unfold pVDict dictLayout
  rw [bind_run (bytes_append' version _ hv)]
  obtain ⟨items, h1, h2⟩ := pVLoop_run es hne h [] ((es.flatMap entryLayout ++ [0]).length + 1) 0 (by
    have := flatMap_length_le entryLayout entryLayout_pos es
    rw [List.length_append]; omega)
  rw [bind_run (p := repeatUntil _ _) (a := items) (m := [0]) h1, bind_run (show bytes 1 [0] = .ok ([0], []) from rfl), ← h2]
  rfl

theorem pCipherId_run (c : CipherId) : pCipherId (Field.cipher c).layout = .ok (c, []) := by
  cases c <;> decide

theorem pStreamId_run (s : StreamId) : pStreamId (Field.streamId s).layout = .ok (s, []) := by
  cases s <;> decide

theorem pCompression_run (n : Nat) (h : n < 2 ^ 32) :
    pCompressionFlags (Field.compression n).layout = .ok (n % 2 == 1, []) := by
  show pCompressionFlags (leBytes 4 n) = _
  have hb := bytes_append' (n := 4) (leBytes 4 n) [] (leBytes_length 4 n)
  rw [List.append_nil] at hb
  unfold pCompressionFlags
  rw [bind_run hb, leNat_leBytes 4 n h]
  rfl

theorem hItem3_run (f : Field) (hin : f.In 3) (hfit : f.Fits) (hl : f.layout.length < 256 ^ 2)
    (r : Bytes) : hItem3 (fieldLayout 3 f ++ r) = .ok (f.value, r) := by
  have key : ∀ (i : HId) (v : HVal), hId3 f.idByte = some i → hVal3 i f.layout = .ok (v, []) →
      hItem3 (fieldLayout 3 f ++ r) = .ok ((i, v), r) := by
    intro i v h1 h2
    unfold hItem3 fieldLayout
    rw [List.append_assoc, bind_run (uint_leBytes 1 _ _ (by cases f <;> simp [Field.idByte])), h1]
    simp only
    rw [show lenWidth 3 = 2 from rfl, bind_run (prefixed_run 2 _ _ _ _ _ hl h2)]
    rfl
  cases f with
  | compression b =>
    exact key _ _ rfl (by unfold hVal3; simp only; rw [bind_run (pCompression_run b hfit)]; rfl)
  | cipher c => exact key _ _ rfl (by unfold hVal3; simp only; rw [bind_run (pCipherId_run c)]; rfl)
  | streamId s => exact key _ _ rfl (by unfold hVal3; simp only; rw [bind_run (pStreamId_run s)]; rfl)
  | transformRounds n =>
    refine key _ _ rfl ?_
    unfold hVal3
    simp only
    have := uint_leBytes 8 n [] hfit
    rw [List.append_nil] at this
    show (uint 8 >>= _) (leBytes 8 n) = _
    rw [bind_run this]
    rfl
  | kdf => exact absurd hin (by simp [Field.In])
  | publicCustomData => exact absurd hin (by simp [Field.In])
  | comment | masterSeed | encryptionIv | transformSeed | streamKey | streamStart =>
    exact key _ _ rfl rfl

theorem hItem4_run (f : Field) (hin : f.In 4) (hfit : f.Fits) (hl : f.layout.length < 256 ^ 4)
    (r : Bytes) : hItem4 (fieldLayout 4 f ++ r) = .ok (f.value, r) := by
  have key : ∀ (i : HId) (v : HVal), hId4 f.idByte = some i → hVal4 i f.layout = .ok (v, []) →
      hItem4 (fieldLayout 4 f ++ r) = .ok ((i, v), r) := by
    intro i v h1 h2
    unfold hItem4 fieldLayout
    rw [List.append_assoc, bind_run (uint_leBytes 1 _ _ (by cases f <;> simp [Field.idByte])), h1]
    simp only
    rw [show lenWidth 4 = 4 from rfl, bind_run (prefixed_run 4 _ _ _ _ _ hl h2)]
    rfl
  cases f with
  | compression b =>
    exact key _ _ rfl (by unfold hVal4; simp only; rw [bind_run (pCompression_run b hfit)]; rfl)
  | cipher c => exact key _ _ rfl (by unfold hVal4; simp only; rw [bind_run (pCipherId_run c)]; rfl)
  | kdf v es =>
    refine key _ _ rfl ?_
    unfold hVal4
    simp only
    show (pVDict >>= _) (dictLayout v es) = _
    rw [bind_run (pVDict_run v es hfit.1 hfit.2.1 hfit.2.2)]
    rfl
  | streamId | transformRounds | transformSeed | streamKey | streamStart =>
    exact absurd hin (by simp [Field.In])
  | comment | masterSeed | encryptionIv | publicCustomData => exact key _ _ rfl rfl

theorem value_ne_end (f : Field) : (f.value.1 == HId.end) = false := by cases f <;> rfl

theorem fieldLayout_pos (v : Nat) (f : Field) : 0 < (fieldLayout v f).length := by
  unfold fieldLayout
  simp only [List.length_append, leBytes_length]; omega

/-- Reading a list of laid-out fields followed by the end field. -/
theorem fields_run (v : Nat) (item : Parser (HId × HVal)) (fs : List Field) (fin : Bytes)
    (hi : ∀ f ∈ fs, ∀ r, item (fieldLayout v f ++ r) = .ok (f.value, r))
    (he : ∀ r, item (leBytes 1 0 ++ lp (lenWidth v) fin ++ r) = .ok ((.end, .raw fin), r)) (r : Bytes) :
    repeatUntil (fun _ => item) (fun x => x.1 == .end)
      (fs.flatMap (fieldLayout v) ++ (leBytes 1 0 ++ lp (lenWidth v) fin) ++ r) =
      .ok (fs.map Field.value ++ [(.end, .raw fin)], r) := by
  have loop : ∀ n i, fs.length < n → repeatLoop (fun _ => item) (fun x => x.1 == .end) n i
      (fs.flatMap (fieldLayout v) ++ (leBytes 1 0 ++ lp (lenWidth v) fin) ++ r) =
      .ok (fs.map Field.value ++ [(.end, .raw fin)], r) := by
    induction fs with
    | nil =>
      intro n i hn
      cases n with
      | zero => omega
      | succ n => exact repeatLoop_last _ _ _ _ _ _ _ (he r) rfl
    | cons f fs ih =>
      intro n i hn
      cases n with
      | zero => omega
      | succ n =>
        rw [List.flatMap_cons]
        simp only [List.append_assoc]
        refine repeatLoop_step _ _ _ _ _ _ _ _ _ (hi f List.mem_cons_self _) (value_ne_end f) ?_
        have := ih (fun g hg => hi g (List.mem_cons_of_mem _ hg)) n (i + 1) (by simp at hn; omega)
        simp only [List.append_assoc] at this
        exact this
  refine loop _ 0 ?_
  have := flatMap_length_le (fieldLayout v) (fieldLayout_pos v) fs
  simp only [List.length_append]; omega

theorem end3_run (fin : Bytes) (h : fin.length < 256 ^ 2) (r : Bytes) :
    hItem3 (leBytes 1 0 ++ lp 2 fin ++ r) = .ok ((.end, .raw fin), r) := by
  unfold hItem3
  rw [List.append_assoc, bind_run (uint_leBytes 1 0 _ (by decide))]
  simp only [hId3]
  rw [bind_run (prefixed_run 2 _ _ _ (.raw fin) [] h rfl)]
  rfl

theorem end4_run (fin : Bytes) (h : fin.length < 256 ^ 4) (r : Bytes) :
    hItem4 (leBytes 1 0 ++ lp 4 fin ++ r) = .ok ((.end, .raw fin), r) := by
  unfold hItem4
  rw [List.append_assoc, bind_run (uint_leBytes 1 0 _ (by decide))]
  simp only [hId4]
  rw [bind_run (prefixed_run 4 _ _ _ (.raw fin) [] h rfl)]
  rfl

theorem headerVal_run (path : String) (v minor : Nat) (fs : List Field) (fin : Bytes)
    (h : HeaderOk v minor fs fin) (r : Bytes) :
    headerVal path (headerLayout v minor fs fin ++ r) =
      .ok ({ minor, major := v, dyn := some (fs.map Field.value ++ [(.end, .raw fin)]) }, r) := by
  have e : headerLayout v minor fs fin ++ r = sig1 ++ (sig2 ++ (leBytes 2 minor ++ (leBytes 2 v ++
    (fs.flatMap (fieldLayout v) ++ (leBytes 1 0 ++ lp (lenWidth v) fin) ++ r)))) := by
    unfold headerLayout
    simp only [List.append_assoc]
    rfl
  rw [e]
  unfold headerVal
  rw [bind_run (bytes_append' (n := 4) sig1 _ rfl), bind_run (bytes_append' (n := 4) sig2 _ rfl),
    if_neg (not_not_intro ⟨rfl, rfl⟩), bind_run (uint_leBytes 2 minor _ h.minor)]
  rcases h.version with rfl | rfl
  · rw [bind_run (uint_leBytes 2 3 _ (by decide)), if_pos rfl]
    unfold dynHeader3
    rw [bind_run (fields_run 3 hItem3 fs fin (fun f hf r => by
      obtain ⟨h1, h2, h3⟩ := h.field f hf
      exact hItem3_run f h1 h2 h3 r) (end3_run fin h.fin) r)]
    rfl
  · rw [bind_run (uint_leBytes 2 4 _ (by decide)), if_neg (by decide), if_pos rfl]
    unfold dynHeader4
    rw [bind_run (fields_run 4 hItem4 fs fin (fun f hf r => by
      obtain ⟨h1, h2, h3⟩ := h.field f hf
      exact hItem4_run f h1 h2 h3 r) (end4_run fin h.fin) r)]
    rfl

theorem header_run (path : String) (v minor : Nat) (fs : List Field) (fin : Bytes)
    (h : HeaderOk v minor fs fin) (r : Bytes) :
    header path (headerLayout v minor fs fin ++ r) =
      .ok ({ data := headerLayout v minor fs fin,
             value := { minor, major := v,
                        dyn := some (fs.map Field.value ++ [(.end, .raw fin)]) } }, r) := by
  unfold header
  rw [headerVal_run _ v minor fs fin h r]
  simp

end Parser
end Verif
