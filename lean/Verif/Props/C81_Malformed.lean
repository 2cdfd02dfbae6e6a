import Verif.Kdbx.FormatLemmas
import Verif.Kdbx.FileLemmas
import Verif.Props.C06_Signature
/-!
# C81: which exception a malformed header raises
-/
namespace Verif.Props
open Verif Parser Spec

/-- A field with any id and any bytes. -/
def rawField (v id : Nat) (data : Bytes) : Bytes := leBytes 1 id ++ lp (lenWidth v) data

/-- A header that goes on after some fields. -/
def unfinished (v minor : Nat) (fs : List Field) (r : Bytes) : Bytes :=
  [0x03, 0xd9, 0xa2, 0x9a, 0x67, 0xfb, 0x4b, 0xb5] ++ (leBytes 2 minor ++ (leBytes 2 v ++ (fs.flatMap (fieldLayout v) ++ r)))

/-- The fields a header of version `v` may have besides the end field. -/
def knownIds (v : Nat) : List Nat := if v = 3 then [1, 2, 3, 4, 5, 6, 7, 8, 9, 10] else [1, 2, 3, 4, 7, 11, 12]

/-- Entries of a parameter dictionary that can be read. -/
def Readable (es : List (Str × Param)) : Prop := ∀ e ∈ es, (utf8Enc e.1).length < 2 ^ 32 ∧ e.2.Fits

/-- The malformed fields of a header of version `v` and what they raise. -/
inductive Wrong (v : Nat) : Nat → Bytes → PyErr → Prop
  | unknown {id data} (h0 : id ≠ 0) (h1 : id ∉ knownIds v) (h2 : id < 256) : Wrong v id data .mapping
  | cipher {data} (h : ∀ c, data ≠ (Field.cipher c).layout) : Wrong v 2 data .mapping
  | flags {data} (h : data.length < 4) : Wrong v 3 data .stream
  | rounds {data} (hv : v = 3) (h : data.length < 8) : Wrong v 6 data .stream
  | streamShort {data} (hv : v = 3) (h : data.length < 4) : Wrong v 10 data .stream
  | stream {n t} (hv : v = 3) (h : 3 < n) (h' : n < 2 ^ 32) : Wrong v 10 (leBytes 4 n ++ t) .mapping
  | endless {version es} (hv : v = 4) (h2 : version.length = 2) (he : Readable es) :
      Wrong v 11 (version ++ es.flatMap entryLayout) .stream
  | key {version es type k t} (hv : v = 4) (h2 : version.length = 2) (he : Readable es) (h0 : type ≠ 0) (ht : type < 256)
      (hk : k.length < 2 ^ 32) (hu : utf8Dec k = none) :
      Wrong v 11 (version ++ (es.flatMap entryLayout ++ (leBytes 1 type ++ (lp 4 k ++ t)))) .stringErr
  | text {version es key s t} (hv : v = 4) (h2 : version.length = 2) (he : Readable es)
      (hk : (utf8Enc key).length < 2 ^ 32) (hs : s.length < 2 ^ 32) (hu : utf8Dec s = none) :
      Wrong v 11 (version ++ (es.flatMap entryLayout ++ (leBytes 1 0x18 ++ (lp 4 (utf8Enc key) ++ (lp 4 s ++ t))))) .stringErr

theorem prefixed_err {α} (k : Nat) (sub : Parser α) (d r : Bytes) {e : PyErr} (h : d.length < 256 ^ k)
    (hs : sub d = .error e) : prefixed (uint k) sub (lp k d ++ r) = .error e := by
  unfold prefixed lp
  rw [List.append_assoc, bind_run (uint_leBytes k d.length (d ++ r) h), bind_run (bytes_append d r), hs]
  rfl

theorem bytes_short {n : Nat} {s : Bytes} (h : s.length < n) : bytes n s = .error .stream := by unfold bytes; rw [if_pos h]

theorem uint_short {n : Nat} {s : Bytes} (h : s.length < n) : uint n s = .error .stream := bind_err (bytes_short h)

theorem cipher_wrong {data : Bytes} (h : ∀ c, data ≠ (Field.cipher c).layout) : pCipherId data = .error .mapping := by
  unfold pCipherId
  rw [bind_run (show greedy data = .ok (data, []) from rfl), if_neg (show data ≠ cipherIdBytes .aes256 from h .aes256),
    if_neg (show data ≠ cipherIdBytes .twofish from h .twofish), if_neg (show data ≠ cipherIdBytes .chacha20 from h .chacha20)]
  rfl

theorem dict_err {es : List (Str × Param)} (he : Readable es) {bad : Bytes} {e : PyErr} (hb : pVItem bad = .error e)
    (h0 : bad.head? ≠ some 0) :
    ∀ n i, es.length < n → repeatLoop (fun _ => pVItem) (fun x => x.2 == some 0) n i (es.flatMap entryLayout ++ bad) = .error e := by
  induction es with
  | nil =>
    intro n i hn
    cases n with
    | zero => omega
    | succ n => rw [repeatLoop]; exact bind_err hb
  | cons x es ih =>
    intro n i hn
    cases n with
    | zero => omega
    | succ n =>
      have hx := he x List.mem_cons_self
      rw [repeatLoop, List.flatMap_cons, List.append_assoc, bind_run (pVItem_run x hx.1 hx.2 _)]
      have hne : ¬ ((((x.1, x.2.value), (es.flatMap entryLayout ++ bad).head?) : (Str × VVal) × Option UInt8).2 == some 0) = true := by
        cases es with
        | nil => simpa using h0
        | cons y es =>
          obtain ⟨b, w, hb, hb0⟩ := entry_head y (es.flatMap entryLayout ++ bad)
          rw [List.flatMap_cons, List.append_assoc, hb]
          simpa using hb0
      rw [if_neg hne]
      exact bind_err (ih (fun e h => he e (List.mem_cons_of_mem _ h)) n (i + 1) (by simp at hn; omega))

theorem vdict_err {version : Bytes} (h2 : version.length = 2) {es : List (Str × Param)} (he : Readable es) {bad : Bytes} {e : PyErr}
    (hb : pVItem bad = .error e) (h0 : bad.head? ≠ some 0) :
    pVDict (version ++ (es.flatMap entryLayout ++ bad)) = .error e := by
  unfold pVDict
  rw [bind_run (bytes_append' version _ h2)]
  refine bind_err (dict_err he hb h0 _ 0 ?_)
  have := flatMap_length_le entryLayout entryLayout_pos es
  rw [List.length_append]; omega

theorem item_nil : pVItem [] = .error .stream := rfl

theorem item_key {type : Nat} {k t : Bytes} (ht : type < 256) (hk : k.length < 2 ^ 32) (hu : utf8Dec k = none) :
    pVItem (leBytes 1 type ++ (lp 4 k ++ t)) = .error .stringErr := by
  unfold pVItem
  rw [bind_run (uint_leBytes 1 type _ ht)]
  refine bind_err (prefixed_err 4 _ k t hk ?_)
  unfold greedyStr
  rw [bind_run (show greedy k = .ok (k, []) from rfl), hu]
  rfl

theorem item_text {key : Str} {s t : Bytes} (hk : (utf8Enc key).length < 2 ^ 32) (hs : s.length < 2 ^ 32) (hu : utf8Dec s = none) :
    pVItem (leBytes 1 0x18 ++ (lp 4 (utf8Enc key) ++ (lp 4 s ++ t))) = .error .stringErr := by
  unfold pVItem
  have hg : greedyStr (utf8Enc key) = .ok (key, []) := by
    unfold greedyStr
    rw [bind_run (show greedy (utf8Enc key) = .ok (utf8Enc key, []) from rfl), utf8Dec_utf8Enc]
    rfl
  rw [bind_run (uint_leBytes 1 0x18 _ (by decide)), bind_run (prefixed_run 4 _ _ _ key [] hk hg)]
  refine bind_err (prefixed_err 4 _ s t hs ?_)
  unfold pVVal
  simp only [Nat.reduceEqDiff, if_false, if_true]
  rw [bind_run (show greedy s = .ok (s, []) from rfl), hu]
  rfl

theorem lead {type : Nat} (h0 : type ≠ 0) (ht : type < 256) (r : Bytes) : (leBytes 1 type ++ r).head? ≠ some 0 := by
  have e : leBytes 1 type ++ r = UInt8.ofNat type :: r := by simp [leBytes]
  rw [e]
  intro h
  injection h with h
  have := congrArg UInt8.toNat h
  simp at this
  omega

theorem vstream {n : Nat} {t : Bytes} (h : 3 < n) (h' : n < 2 ^ 32) : pStreamId (leBytes 4 n ++ t) = .error .mapping := by
  unfold pStreamId
  rw [bind_run (uint_leBytes 4 n t h'), if_neg (by omega), if_neg (by omega), if_neg (by omega), if_neg (by omega)]
  rfl

theorem item3_err {id : Nat} {data r : Bytes} {e : PyErr} (hid : id < 256) (hl : data.length < 256 ^ 2)
    (h : hId3 id = none ∧ e = .mapping ∨ ∃ i, hId3 id = some i ∧ hVal3 i data = .error e) :
    hItem3 (rawField 3 id data ++ r) = .error e := by
  unfold hItem3 rawField
  rw [List.append_assoc, bind_run (uint_leBytes 1 id _ hid)]
  rcases h with ⟨h, rfl⟩ | ⟨i, h, h2⟩
  · rw [h]; rfl
  · rw [h]
    exact bind_err (prefixed_err 2 _ data r hl h2)

theorem item4_err {id : Nat} {data r : Bytes} {e : PyErr} (hid : id < 256) (hl : data.length < 256 ^ 4)
    (h : hId4 id = none ∧ e = .mapping ∨ ∃ i, hId4 id = some i ∧ hVal4 i data = .error e) :
    hItem4 (rawField 4 id data ++ r) = .error e := by
  unfold hItem4 rawField
  rw [List.append_assoc, bind_run (uint_leBytes 1 id _ hid)]
  rcases h with ⟨h, rfl⟩ | ⟨i, h, h2⟩
  · rw [h]; rfl
  · rw [h]
    exact bind_err (prefixed_err 4 _ data r hl h2)

theorem wrong3 {id : Nat} {data : Bytes} {e : PyErr} (h : Wrong 3 id data e) (hl : data.length < 256 ^ 2) (r : Bytes) :
    hItem3 (rawField 3 id data ++ r) = .error e := by
  cases h with
  | unknown h0 h1 h2 =>
    refine item3_err h2 hl (.inl ⟨?_, rfl⟩)
    unfold hId3
    split <;> first | rfl | (exfalso; revert h0 h1; decide)
  | cipher h => exact item3_err (by decide) hl (.inr ⟨_, rfl, bind_err (cipher_wrong h)⟩)
  | flags h => exact item3_err (by decide) hl (.inr ⟨_, rfl, bind_err (bind_err (bytes_short h))⟩)
  | rounds _ h => exact item3_err (by decide) hl (.inr ⟨_, rfl, bind_err (uint_short h)⟩)
  | streamShort _ h => exact item3_err (by decide) hl (.inr ⟨_, rfl, bind_err (bind_err (uint_short h))⟩)
  | stream _ h h' => exact item3_err (by decide) hl (.inr ⟨_, rfl, bind_err (vstream h h')⟩)
  | endless hv => cases hv
  | key hv => cases hv
  | text hv => cases hv

theorem wrong4 {id : Nat} {data : Bytes} {e : PyErr} (h : Wrong 4 id data e) (hl : data.length < 256 ^ 4) (r : Bytes) :
    hItem4 (rawField 4 id data ++ r) = .error e := by
  cases h with
  | unknown h0 h1 h2 =>
    refine item4_err h2 hl (.inl ⟨?_, rfl⟩)
    unfold hId4
    split <;> first | rfl | (exfalso; revert h0 h1; decide)
  | cipher h => exact item4_err (by decide) hl (.inr ⟨_, rfl, bind_err (cipher_wrong h)⟩)
  | flags h => exact item4_err (by decide) hl (.inr ⟨_, rfl, bind_err (bind_err (bytes_short h))⟩)
  | rounds hv => cases hv
  | streamShort hv => cases hv
  | stream hv => cases hv
  | endless _ h2 he =>
    refine item4_err (by decide) hl (.inr ⟨_, rfl, bind_err ?_⟩)
    have := vdict_err h2 he item_nil (by simp)
    rwa [List.append_nil] at this
  | key _ h2 he h0 ht hk hu => exact item4_err (by decide) hl (.inr ⟨_, rfl, bind_err (vdict_err h2 he (item_key ht hk hu) (lead h0 ht _))⟩)
  | text _ h2 he hk hs hu => exact item4_err (by decide) hl (.inr ⟨_, rfl, bind_err (vdict_err h2 he (item_text hk hs hu) (lead (by decide) (by decide) _))⟩)

/-- Reading laid-out fields and then something that fails. -/
theorem fields_err (v : Nat) (item : Parser (HId × HVal)) (fs : List Field) (bad : Bytes) (e : PyErr)
    (hi : ∀ f ∈ fs, ∀ r, item (fieldLayout v f ++ r) = .ok (f.value, r)) (he : item bad = .error e) :
    repeatUntil (fun _ => item) (fun x => x.1 == .end) (fs.flatMap (fieldLayout v) ++ bad) = .error e := by
  have loop : ∀ n i, fs.length < n → repeatLoop (fun _ => item) (fun x => x.1 == .end) n i
      (fs.flatMap (fieldLayout v) ++ bad) = .error e := by
    induction fs with
    | nil =>
      intro n i hn
      cases n with
      | zero => omega
      | succ n => rw [repeatLoop]; exact bind_err he
    | cons f fs ih =>
      intro n i hn
      cases n with
      | zero => omega
      | succ n =>
        rw [repeatLoop, List.flatMap_cons, List.append_assoc, bind_run (hi f List.mem_cons_self _),
          if_neg (by rw [value_ne_end]; decide)]
        exact bind_err (ih (fun g hg => hi g (List.mem_cons_of_mem _ hg)) n (i + 1) (by simp at hn; omega))
  refine loop _ 0 ?_
  have := flatMap_length_le (fieldLayout v) (fieldLayout_pos v) fs
  simp only [List.length_append]; omega

/-- A malformed field behind well-formed ones makes opening fail with the listed exception,
whatever follows and whatever the credentials. -/
theorem C81_wrong (P : Prims) (c : Creds) (dec : Bool) (v minor : Nat) (fs : List Field) (id : Nat) (data r : Bytes) (e : PyErr)
    (hv : v = 3 ∨ v = 4) (hm : minor < 2 ^ 16) (hf : ∀ f ∈ fs, f.In v ∧ f.Fits ∧ f.layout.length < 256 ^ lenWidth v)
    (hw : Wrong v id data e) (hl : data.length < 256 ^ lenWidth v) :
    openBytes P c dec (unfinished v minor fs (rawField v id data ++ r)) = .error e := by
  have hh : headerVal "(parsing) -> header" (unfinished v minor fs (rawField v id data ++ r)) = .error e := by
    rw [show unfinished v minor fs (rawField v id data ++ r) =
      sig1 ++ (sig2 ++ (leBytes 2 minor ++ (leBytes 2 v ++ (fs.flatMap (fieldLayout v) ++ (rawField v id data ++ r))))) from rfl]
    unfold headerVal
    rw [bind_run (bytes_append' (n := 4) sig1 _ rfl), bind_run (bytes_append' (n := 4) sig2 _ rfl),
      if_neg (not_not_intro ⟨rfl, rfl⟩), bind_run (uint_leBytes 2 minor _ hm)]
    rcases hv with rfl | rfl
    · rw [bind_run (uint_leBytes 2 3 _ (by decide)), if_pos rfl]
      exact bind_err (fields_err 3 hItem3 fs _ e (fun f h r => hItem3_run f (hf f h).1 (hf f h).2.1 (hf f h).2.2 r) (wrong3 hw hl r))
    · rw [bind_run (uint_leBytes 2 4 _ (by decide)), if_neg (by decide), if_pos rfl]
      exact bind_err (fields_err 4 hItem4 fs _ e (fun f h r => hItem4_run f (hf f h).1 (hf f h).2.1 (hf f h).2.2 r) (wrong4 hw hl r))
  have he : readErr e = e := by cases hw <;> rfl
  unfold openBytes parseKdbx header
  rw [show "(parsing)" ++ " -> header" = "(parsing) -> header" from rfl, hh]
  simp only [he]

/-- Malformed fields of each kind. -/
example : Wrong 3 11 [1, 2] .mapping ∧ Wrong 4 5 [] .mapping ∧ Wrong 4 2 [1, 2, 3] .mapping ∧
    Wrong 3 10 (leBytes 4 4 ++ []) .mapping :=
  ⟨.unknown (by decide) (by decide) (by decide), .unknown (by decide) (by decide) (by decide),
    .cipher (by intro c; cases c <;> decide), .stream rfl (by decide) (by decide)⟩
example : Wrong 4 11 ([0, 1] ++ (List.flatMap entryLayout [("R".toList, .u64 3)] ++ (leBytes 1 0x42 ++ (lp 4 [0xff] ++ [])))) .stringErr :=
  .key rfl rfl (by intro e he; rw [List.mem_singleton.mp he]; exact ⟨by decide +kernel, by show 3 < 2 ^ 64; decide⟩)
    (by decide) (by decide) (by decide) (by decide +kernel)
example : ∀ f ∈ [Field.cipher .aes256, Field.masterSeed [1, 2]], f.In 4 ∧ f.Fits ∧ f.layout.length < 256 ^ lenWidth 4 := by
  intro f hf
  rcases List.mem_cons.mp hf with rfl | hf
  · exact ⟨trivial, trivial, by decide⟩
  · rw [List.mem_singleton.mp hf]; exact ⟨trivial, trivial, by decide⟩

end Verif.Props
