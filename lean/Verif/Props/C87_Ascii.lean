import Verif.Props.C87_Export
/-!
# C87: the text of an entry or group is ASCII
-/
namespace Verif.Props
open Verif

/-- Only ASCII characters. -/
def Ascii (s : Str) : Prop := ∀ c ∈ s, c.toNat < 128

theorem Ascii.append {a b : Str} (ha : Ascii a) (hb : Ascii b) : Ascii (a ++ b) :=
  fun c hc => (List.mem_append.mp hc).elim (ha c) (hb c)

theorem Ascii.cons {c : Char} {b : Str} (hc : c.toNat < 128) (hb : Ascii b) : Ascii (c :: b) :=
  fun d hd => (List.mem_cons.mp hd).elim (fun e => e ▸ hc) (hb d)

theorem Ascii.nil : Ascii [] := fun _ h => nomatch h

theorem ascii_digits (n : Nat) : Ascii (natStr n) := by
  intro c hc
  have := (natStr_spec n).2.1 c hc
  simp only [isDigit, Bool.and_eq_true, decide_eq_true_eq] at this
  omega

theorem ascii_ref (c : Char) : Ascii (Xml.charRef c) :=
  .cons (by decide) (.cons (by decide) (.append (ascii_digits _) (.cons (by decide) .nil)))

theorem ascii_escText (c : Char) : Ascii (Xml.escTextChar c) := by
  unfold Xml.escTextChar
  split
  · unfold Ascii; decide
  · split
    · unfold Ascii; decide
    · split
      · unfold Ascii; decide
      · split
        · exact ascii_ref c
        · next h => exact .cons (by omega) .nil

theorem ascii_escAttr (c : Char) : Ascii (Xml.escAttrChar c) := by
  unfold Xml.escAttrChar
  split
  · unfold Ascii; decide
  · split
    · exact ascii_ref c
    · exact ascii_escText c

theorem ascii_flatMap {f : Char → Str} (h : ∀ c, Ascii (f c)) (s : Str) : Ascii (s.flatMap f) := by
  intro c hc
  obtain ⟨d, _, hd⟩ := List.mem_flatMap.mp hc
  exact h d c hd

theorem ascii_outText (s : Str) : Ascii (Xml.outText false s) :=
  ascii_flatMap (fun c => by unfold Xml.outChar; rw [if_neg (by simp)]; exact ascii_escText c) s

theorem ascii_outAttr (s : Str) : Ascii (Xml.outAttr false s) :=
  ascii_flatMap (fun c => by unfold Xml.outAttrChar; rw [if_neg (by simp)]; exact ascii_escAttr c) s

theorem ascii_alnum {c : Char} (h : c.isAlphanum = true) : c.toNat < 128 := by
  simp only [Char.isAlphanum, Char.isAlpha, Char.isUpper, Char.isLower, Char.isDigit, Bool.or_eq_true, Bool.and_eq_true, decide_eq_true_eq,
    UInt32.le_iff_toNat_le] at h
  show c.val.toNat < 128
  rcases h with (⟨_, h⟩ | ⟨_, h⟩) | ⟨_, h⟩ <;> exact Nat.lt_of_le_of_lt h (by decide)

theorem ascii_name {s : Str} (h : Xml.isName s = true) : Ascii s := by
  cases s with
  | nil => exact .nil
  | cons c cs =>
    simp only [Xml.isName, Bool.and_eq_true, List.all_eq_true] at h
    refine .cons ?_ ?_
    · have := h.1
      simp only [Xml.nameStart, Bool.or_eq_true, beq_iff_eq] at this
      rcases this with h | rfl
      · exact ascii_alnum (by simp [Char.isAlphanum, h])
      · decide
    · intro d hd
      have := h.2 d hd
      simp only [Xml.nameChar, Bool.or_eq_true, beq_iff_eq] at this
      rcases this with ((h | rfl) | rfl) | rfl
      · exact ascii_alnum h
      · decide
      · decide
      · decide

theorem ascii_attrs {a : List (Str × Str)} (h : ∀ p ∈ a, Xml.isName p.1 = true) : Ascii (Xml.outAttrs false a) := by
  induction a with
  | nil => exact .nil
  | cons p a ih =>
    obtain ⟨n, v⟩ := p
    rw [Xml.outAttrs]
    exact .cons (by decide) (.append (ascii_name (h _ List.mem_cons_self)) (.cons (by decide) (.cons (by decide)
      (.append (ascii_outAttr v) (.cons (by decide) (ih fun p hp => h p (List.mem_cons_of_mem _ hp)))))))

theorem ascii_newLine (fmt : Bool) (n : Nat) : Ascii (Xml.newLine fmt n) := by
  unfold Xml.newLine
  split
  · refine .cons (by decide) ?_
    intro c hc
    rw [List.eq_of_mem_replicate hc]; decide
  · exact .nil

theorem ascii_pretty (x : Xml) : x.Valid → ∀ fmt n, Ascii (Xml.pretty false fmt n x) := by
  refine Xml.ind (P := fun x => x.Valid → ∀ fmt n, Ascii (Xml.pretty false fmt n x)) ?_ x
  intro t a v ks ih hx fmt n
  obtain ⟨h, hk⟩ := Xml.all_root hx
  have hn := ascii_name h.1
  have hl : ∀ fmt n, Ascii (Xml.prettyList false fmt n ks) := by
    intro fmt n
    clear hx h
    induction ks with
    | nil => rw [Xml.prettyList]; exact .nil
    | cons k ks ih' =>
      rw [Xml.prettyList]
      exact .append (ascii_newLine _ _) (.append (ih k List.mem_cons_self (hk k List.mem_cons_self) _ _)
        (ih' (fun k h => ih k (List.mem_cons_of_mem _ h)) (fun k h => hk k (List.mem_cons_of_mem _ h))))
  rw [Xml.pretty]
  refine .cons (by decide) (.append hn (.append (ascii_attrs fun p hp => (h.2.1 p hp).1) ?_))
  split
  · unfold Ascii; decide
  · exact .cons (by decide) (.append (ascii_outText _) (.append (hl _ _) (.append (ascii_newLine _ _)
      (.cons (by decide) (.cons (by decide) (.append hn (.cons (by decide) .nil)))))))

/-- `dump_xml` of an entry or group is ASCII: everything else is written as a character reference. -/
theorem C87_ascii (x : Xml) (hx : x.Valid) (fmt : Bool) : ∀ b ∈ Xml.exportElement fmt x, b.toNat < 128 := by
  intro b hb
  obtain ⟨c, hc, hb⟩ := List.mem_flatMap.mp hb
  have hs : Ascii (Xml.pretty false fmt 0 x ++ if fmt then ['\n'] else []) := by
    refine .append (ascii_pretty x hx _ _) ?_
    split
    · exact .cons (by decide) .nil
    · exact .nil
  have h := hs c hc
  have e : String.utf8EncodeChar c = [UInt8.ofNat c.val.toNat] := by
    unfold String.utf8EncodeChar
    rw [if_pos (by show c.val.toNat ≤ 127; exact Nat.le_of_lt_succ h)]
  rw [e, List.mem_singleton] at hb
  subst hb
  rw [UInt8.toNat_ofNat']
  have : c.val.toNat < 128 := h
  omega

/-- Not so the text of a database, which is UTF-8. -/
example : Xml.exportElement false (.mk "Value".toList [] (some ['ü']) []) = "<Value>&#252;</Value>".toUTF8.toList ∧
    Contains [0xc3, 0xbc] (Xml.exportDoc (.mk "Value".toList [] (some ['ü']) [])) :=
  ⟨by decide +kernel, (Xml.exportDoc (.mk "Value".toList [] (some ['ü']) [])).take 63,
    (Xml.exportDoc (.mk "Value".toList [] (some ['ü']) [])).drop 65, by decide +kernel⟩

end Verif.Props
