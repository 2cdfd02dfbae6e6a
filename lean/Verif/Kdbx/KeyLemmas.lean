import Verif.Kdbx.Key
/-!
# Lemmas about key files
-/
namespace Verif

theorem fromHex_err (s : Str) (e : PyErr) (h : fromHex s = .error e) : e = .value := by
  fun_induction fromHex s with
  | case1 => cases h
  | case2 c cs hc ih => exact ih h
  | case3 c hc => cases h; rfl
  | case4 c hc d ds x y h1 h2 ih =>
    cases hf : fromHex ds with
    | ok k => rw [hf] at h; cases h
    | error e' => rw [hf] at h; cases h; exact ih hf
  | case5 => cases h; rfl

theorem fromHex_space (c : Char) (s : Str) (h : asciiSpace c = true) : fromHex (c :: s) = fromHex s := by
  rw [fromHex.eq_def]
  simp only [h, if_true]

theorem fromHex_spaces (w s : Str) (hw : w.all asciiSpace = true) : fromHex (w ++ s) = fromHex s := by
  induction w with
  | nil => rfl
  | cons c w ih =>
    simp only [List.all_cons, Bool.and_eq_true] at hw
    rw [List.cons_append, fromHex_space _ _ hw.1, ih hw.2]

theorem asciiSpace_hexVal (c : Char) (h : asciiSpace c = true) : hexVal c = none := by
  unfold asciiSpace at h
  simp only [Bool.or_eq_true, beq_iff_eq, Bool.and_eq_true, decide_eq_true_eq] at h
  rcases h with rfl | h
  · decide
  · unfold hexVal
    simp only
    rw [if_neg (by omega), if_neg (by omega), if_neg (by omega)]

theorem fromHex_trailing (w s : Str) (hw : w.all asciiSpace = true) : fromHex (s ++ w) = fromHex s := by
  have hw0 : fromHex w = .ok [] := by
    have := fromHex_spaces w [] hw
    rw [List.append_nil] at this
    rw [this]; rfl
  fun_induction fromHex s with
  | case1 => exact hw0
  | case2 c cs hc ih =>
    rw [List.cons_append, fromHex_space _ _ hc]; exact ih
  | case3 c hc =>
    cases w with
    | nil => rw [List.append_nil, fromHex, if_neg hc]
    | cons d w =>
      simp only [List.all_cons, Bool.and_eq_true] at hw
      rw [List.cons_append, List.nil_append, fromHex, if_neg hc]
      simp only [asciiSpace_hexVal d hw.1]
      cases hexVal c <;> rfl
  | case4 c hc d ds x y h1 h2 ih =>
    rw [List.cons_append, List.cons_append, fromHex, if_neg hc]
    simp only [h1, h2, ih]
  | case5 c hc d ds hn =>
    rw [List.cons_append, List.cons_append, fromHex, if_neg hc]
    cases h1 : hexVal c with
    | none => rfl
    | some x =>
      cases h2 : hexVal d with
      | none => rfl
      | some y => exact absurd h2 (hn x y h1)

theorem fromHex_pair (x : UInt8) (up : Bool) (s : Str) :
    fromHex ((if up then [hexCharU (x.toNat / 16), hexCharU (x.toNat % 16)]
      else [hexChar (x.toNat / 16), hexChar (x.toNat % 16)]) ++ s) = (fromHex s).map (x :: ·) := by
  have hx := x.toNat_lt
  have h1 : x.toNat / 16 < 16 := by omega
  have h2 : x.toNat % 16 < 16 := by omega
  cases up
  · simp only [Bool.false_eq_true, if_false, List.cons_append, List.nil_append]
    rw [fromHex, hexChar_not_space _ h1]
    simp only [Bool.false_eq_true, if_false, hexVal_hexChar _ h1, hexVal_hexChar _ h2, hexPair]
  · simp only [if_true, List.cons_append, List.nil_append]
    rw [fromHex, hexCharU_not_space _ h1]
    simp only [Bool.false_eq_true, if_false, hexVal_hexCharU _ h1, hexVal_hexCharU _ h2, hexPair]

/-- Dropping leading spaces that are ASCII spaces. -/
theorem fromHex_dropWhile (s : Str) (h : ∀ c ∈ s, pySpace c = true → asciiSpace c = true) :
    fromHex (s.dropWhile pySpace) = fromHex s := by
  induction s with
  | nil => rfl
  | cons c s ih =>
    rw [List.dropWhile_cons]
    split
    · next hc =>
      rw [ih (fun d hd => h d (List.mem_cons_of_mem _ hd))]
      rw [fromHex_space _ _ (h c List.mem_cons_self hc)]
    · rfl

/-- `bytes.fromhex(s.strip())` is `bytes.fromhex(s)` when all blanks are ASCII. -/
theorem fromHex_pyStrip (s : Str) (h : ∀ c ∈ s, pySpace c = true → asciiSpace c = true) :
    fromHex (pyStrip s) = fromHex s := by
  unfold pyStrip
  rw [← fromHex_dropWhile s h]
  generalize ht : s.dropWhile pySpace = t
  have hsub : ∀ c ∈ t, pySpace c = true → asciiSpace c = true := by
    intro c hc
    rw [← ht] at hc
    exact h c ((List.dropWhile_sublist _).mem hc)
  have hsplit : t = (t.reverse.dropWhile pySpace).reverse ++ (t.reverse.takeWhile pySpace).reverse := by
    rw [← List.reverse_append, List.takeWhile_append_dropWhile, List.reverse_reverse]
  conv => rhs; rw [hsplit]
  rw [fromHex_trailing]
  rw [List.all_eq_true]
  intro c hc
  have hc' : c ∈ t.reverse.takeWhile pySpace := List.mem_reverse.mp hc
  have h1 : pySpace c = true := by
    have : ∀ (l : Str), c ∈ l.takeWhile pySpace → pySpace c = true := by
      intro l
      induction l with
      | nil => intro h; cases h
      | cons d l ih =>
        rw [List.takeWhile_cons]
        split
        · next hd =>
          intro h
          rcases List.mem_cons.mp h with rfl | h
          · exact hd
          · exact ih h
        · intro h; cases h
    exact this _ hc'
  exact hsub c (List.mem_reverse.mp ((List.takeWhile_sublist _).mem hc')) h1

/-- Evaluation of the XML branch once the version element is known. -/
theorem xmlKeyfile_version {P : Prims} {b : Bytes} {t e : Xml} {v : Str} (hx : P.xmlFromString b = .ok t)
    (h1 : t.findPath ["Meta".toList, "Version".toList] = some e) (h2 : e.text = some v) :
    xmlKeyfile P b =
      if "1.0".toList.isPrefixOf v then
        match t.findPath ["Key".toList, "Data".toList] with
        | none => .error .attribute
        | some d => match d.text with
          | none => .error .type
          | some x => b64decode x
      else if "2.0".toList.isPrefixOf v then
        match t.findPath ["Key".toList, "Data".toList] with
        | none => .error .attribute
        | some d => match d.text with
          | none => .error .attribute
          | some x =>
            match fromHex (pyStrip x) with
            | .error e => .error e
            | .ok key =>
              match d.attr "Hash".toList with
              | none => .error .key
              | some h =>
                match fromHex h with
                | .error e => .error e
                | .ok hash => if hash = (P.sha256 key).take 4 then .ok key else .error .assertion
      else .error .attribute := by
  unfold xmlKeyfile
  simp only [hx, h1, h2, bind, Except.bind, pure, Except.pure, throw, throwThe, MonadExceptOf.throw]
  cases t.findPath ["Key".toList, "Data".toList] with
  | none => rfl
  | some d =>
    simp only
    cases d.text with
    | none => rfl
    | some x =>
      simp only
      cases fromHex (pyStrip x) with
      | error e => rfl
      | ok key =>
        simp only
        cases d.attr "Hash".toList with
        | none => rfl
        | some h =>
          simp only
          cases fromHex h <;> rfl

/-! ## Hexadecimal key files -/

theorem hexDigitsOk_all (b : Bytes) (h : b.all isHexByte = true) :
    hexDigitsOk false true b = true := by
  induction b with
  | nil => rfl
  | cons x b ih =>
    simp only [List.all_cons, Bool.and_eq_true] at h
    rw [hexDigitsOk, if_pos h.1, ih h.2]

theorem hexByte_not_space (x : UInt8) : isHexByte x = true → isSpaceByte x = false := by
  revert x
  have : ∀ n, n < 256 → isHexByte (UInt8.ofNat n) = true → isSpaceByte (UInt8.ofNat n) = false := by
    decide +kernel
  intro x hx
  have := this x.toNat x.toNat_lt
  simp only [UInt8.ofNat_toNat] at this
  exact this hx

/-- A text of hexadecimal digits only is accepted by `int(_, 16)`. -/
theorem intHexOk_all (b : Bytes) (hne : b ≠ []) (h : b.all isHexByte = true) : intHexOk b = true := by
  have hd : b.dropWhile isSpaceByte = b := by
    cases b with
    | nil => rfl
    | cons x b =>
      simp only [List.all_cons, Bool.and_eq_true] at h
      rw [List.dropWhile_cons, hexByte_not_space x h.1]
      rfl
  cases b with
  | nil => exact absurd rfl hne
  | cons x b =>
    unfold intHexOk
    simp only [hd]
    have hx := h
    simp only [List.all_cons, Bool.and_eq_true] at hx
    have h43 : x ≠ 43 := by intro e; subst e; exact absurd hx.1 (by decide)
    have h45 : x ≠ 45 := by intro e; subst e; exact absurd hx.1 (by decide)
    have h0 : dropSign (x :: b) = x :: b := by
      unfold dropSign
      split
      · next heq => injection heq with e _; exact absurd e h43
      · next heq => injection heq with e _; exact absurd e h45
      · rfl
    rw [h0]
    have hxb : hexDigitsOk false false (x :: b) = true := by
      rw [hexDigitsOk, if_pos hx.1]; exact hexDigitsOk_all b hx.2
    split
    · next heq =>
      injection heq with _ e; subst e
      simp only [List.all_cons, Bool.and_eq_true] at hx
      exact absurd hx.2.1 (by decide)
    · next heq =>
      injection heq with _ e; subst e
      simp only [List.all_cons, Bool.and_eq_true] at hx
      exact absurd hx.2.1 (by decide)
    · next heq =>
      injection heq with _ e; subst e
      simp only [List.all_cons, Bool.and_eq_true] at hx
      exact absurd hx.2.1 (by decide)
    · next heq =>
      injection heq with _ e; subst e
      simp only [List.all_cons, Bool.and_eq_true] at hx
      exact absurd hx.2.1 (by decide)
    · exact hxb

theorem hexDigitsOk_mem (x : UInt8) (b1 : isHexByte x = false) (b2 : isSpaceByte x = false) (b3 : x ≠ 95)
    (l : Bytes) : ∀ u s, hexDigitsOk u s l = true → x ∉ l := by
  induction l with
  | nil => intro u s _ hm; cases hm
  | cons y l ih =>
    intro u s hok hm
    rw [hexDigitsOk] at hok
    split at hok
    · next hy =>
      rcases List.mem_cons.mp hm with rfl | hm
      · rw [b1] at hy; cases hy
      · exact ih _ _ hok hm
    · split at hok
      · next hy =>
        simp only [beq_iff_eq] at hy
        simp only [Bool.and_eq_true] at hok
        rcases List.mem_cons.mp hm with rfl | hm
        · exact b3 hy
        · exact ih _ _ hok.2 hm
      · simp only [Bool.and_eq_true] at hok
        rcases List.mem_cons.mp hm with rfl | hm
        · rw [b2] at hok; exact absurd hok.1.2 (by simp)
        · have := List.all_eq_true.mp hok.2 x hm
          rw [b2] at this; cases this

theorem mem_dropSpace (x : UInt8) (b2 : isSpaceByte x = false) (b : Bytes) (hx : x ∈ b) :
    x ∈ b.dropWhile isSpaceByte := by
  induction b with
  | nil => cases hx
  | cons y l ih =>
    rw [List.dropWhile_cons]
    split
    · next hy =>
      rcases List.mem_cons.mp hx with rfl | hx
      · rw [b2] at hy; cases hy
      · exact ih hx
    · exact hx

theorem mem_dropSign (x : UInt8) (b4 : x ≠ 43) (b5 : x ≠ 45) (b : Bytes) (hx : x ∈ b) : x ∈ dropSign b := by
  unfold dropSign
  split
  · rcases List.mem_cons.mp hx with h | h
    · exact absurd h b4
    · exact h
  · rcases List.mem_cons.mp hx with h | h
    · exact absurd h b5
    · exact h
  · exact hx

/-- A byte that is neither a digit nor a blank nor one of `_ + - x X` is not part of any number. -/
theorem intHexOk_bad (x : UInt8) (b : Bytes) (hx : x ∈ b) (b1 : isHexByte x = false)
    (b2 : isSpaceByte x = false) (b3 : x ∉ [95, 43, 45, 120, 88]) : intHexOk b = false := by
  simp only [List.mem_cons, List.not_mem_nil, or_false, not_or] at b3
  obtain ⟨b3, b4, b5, b6, b7⟩ := b3
  have h := mem_dropSign x b4 b5 _ (mem_dropSpace x b2 b hx)
  have key : ∀ l, x ∈ l → hexDigitsOk false false l = false := by
    intro l hl
    cases e : hexDigitsOk false false l with
    | false => rfl
    | true => exact absurd hl (hexDigitsOk_mem x b1 b2 b3 l _ _ e)
  have h0 : x ≠ 48 := by intro e; subst e; exact absurd b1 (by decide)
  unfold intHexOk
  split
  · next e => rw [e] at h; simp only [List.mem_cons, h0, b6, b3, false_or] at h; exact key _ h
  · next e => rw [e] at h; simp only [List.mem_cons, h0, b6, false_or] at h; exact key _ h
  · next e => rw [e] at h; simp only [List.mem_cons, h0, b7, b3, false_or] at h; exact key _ h
  · next e => rw [e] at h; simp only [List.mem_cons, h0, b7, false_or] at h; exact key _ h
  · exact key _ h

/-- Each byte as two hexadecimal digits, in upper or lower case as `up` says digit by digit. -/
def hexDigits (up : Nat → Bool) : Nat → Bytes → Str
  | _, [] => []
  | i, x :: xs =>
    (if up i then hexCharU (x.toNat / 16) else hexChar (x.toNat / 16)) ::
    (if up (i + 1) then hexCharU (x.toNat % 16) else hexChar (x.toNat % 16)) ::
    hexDigits up (i + 2) xs

theorem hexDigit_byte (up : Bool) : ∀ v, v < 16 →
    hexVal (Char.ofNat (UInt8.ofNat (if up then hexCharU v else hexChar v).toNat).toNat) = some v := by
  cases up <;> decide

theorem unhexlify_hexDigits (up : Nat → Bool) (i : Nat) (k : Bytes) :
    unhexlify (asciiBytes (hexDigits up i k)) = .ok k ∧
    (asciiBytes (hexDigits up i k)).length = 2 * k.length ∧
    (asciiBytes (hexDigits up i k)).all isHexByte = true := by
  induction k generalizing i with
  | nil => exact ⟨rfl, rfl, rfl⟩
  | cons x xs ih =>
    have hx := x.toNat_lt
    have h1 := hexDigit_byte (up i) (x.toNat / 16) (by omega)
    have h2 := hexDigit_byte (up (i + 1)) (x.toNat % 16) (by omega)
    obtain ⟨i1, i2, i3⟩ := ih (i + 2)
    refine ⟨?_, ?_, ?_⟩
    · simp only [hexDigits, asciiBytes, List.map_cons, unhexlify]
      rw [h1, h2]
      simp only [hexPair]
      rw [show (List.map (fun c => UInt8.ofNat c.toNat) (hexDigits up (i + 2) xs)) =
        asciiBytes (hexDigits up (i + 2) xs) from rfl, i1]
      rfl
    · simp only [hexDigits, asciiBytes, List.map_cons, List.length_cons] at i2 ⊢
      omega
    · simp only [hexDigits, asciiBytes, List.map_cons, List.all_cons, Bool.and_eq_true]
      exact ⟨by unfold isHexByte; rw [h1]; rfl, by unfold isHexByte; rw [h2]; rfl, i3⟩

end Verif
