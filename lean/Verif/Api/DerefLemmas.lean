import Verif.Api.Deref
import Verif.Spec.Deref
import Verif.Api.SearchApi
import Verif.Api.SetLemmas
import Verif.Kdbx.KeyLemmas
/-!
# Lemmas about `deref`
-/
namespace Verif.Api
open Verif XPath Spec

/-- The match for a reference of the specification. -/
def tok (r : Reference) : Token := ⟨r.wanted, r.search, r.value⟩

theorem tok_text (r : Reference) : (tok r).text = r.text := rfl

theorem tok_inj {a b : Reference} (h : tok a = tok b) : a = b := by
  cases a; cases b
  unfold tok at h
  injection h with h1 h2 h3
  subst h1 h2 h3
  rfl

/-! ## The pattern -/

theorem isLetter_iff (c : Char) : isLetter c = true ↔ c = 'I' ∨ (refKey c).isSome := by
  unfold isLetter refKey
  simp only [List.mem_cons, List.not_mem_nil, or_false, decide_eq_true_eq]
  by_cases h1 : c = 'T'
  · simp [h1]
  by_cases h2 : c = 'U'
  · simp [h2]
  by_cases h3 : c = 'P'
  · simp [h3]
  by_cases h4 : c = 'A'
  · simp [h4]
  by_cases h5 : c = 'N'
  · simp [h5]
  simp [h1, h2, h3, h4, h5]

theorem takeWhile_stop {v rest : Str} {c : Char} (h : c ∉ v) : (v ++ c :: rest).takeWhile (· != c) = v := by
  induction v with
  | nil => simp
  | cons a v ih =>
    have h1 : a ≠ c := fun e => h (e ▸ List.mem_cons_self)
    have h2 : c ∉ v := fun e => h (List.mem_cons_of_mem _ e)
    rw [List.cons_append, List.takeWhile_cons, if_pos (by simp [h1]), ih h2]

theorem text_cons (r : Token) (rest : Str) :
    r.text ++ rest = '{' :: 'R' :: 'E' :: 'F' :: ':' :: r.wanted :: '@' :: r.search :: ':' :: (r.value ++ '}' :: rest) := by
  unfold Token.text
  simp

theorem match_text {r : Reference} (h : r.WellFormed) (rest : Str) : matchRef (r.text ++ rest) = some (tok r) := by
  rw [← tok_text, text_cons]
  unfold matchRef
  rw [if_pos (by simp)]
  have hw := (isLetter_iff _).mpr h.wanted
  have hs := (isLetter_iff _).mpr h.search
  have ht : ((tok r).value ++ '}' :: rest).takeWhile (· != '}') = r.value := takeWhile_stop h.brace
  show (if _ then _ else _) = _
  rw [ht, if_pos]
  · rfl
  · have hv := h.value
    show (isLetter r.wanted && _ && isLetter r.search && _ && _ && _) = true
    rw [hw, hs]
    simp [hv]

theorem match_none {s : Str} (h : ¬ "{REF:".toList <+: s) : matchRef s = none := by
  unfold matchRef
  rw [if_neg (by rw [List.isPrefixOf_iff_prefix]; exact h)]

theorem not_in_takeWhile (c : Char) (v : Str) : c ∉ v.takeWhile (· != c) := by
  induction v with
  | nil => simp
  | cons a v ih =>
    rw [List.takeWhile_cons]
    split
    · rename_i h
      simp only [List.mem_cons, not_or]
      exact ⟨fun e => by simp [e] at h, ih⟩
    · simp

theorem drop_stop {v : Str} {c : Char} (h : c ∈ v) : ∃ rest, v = v.takeWhile (· != c) ++ c :: rest := by
  induction v with
  | nil => cases h
  | cons a v ih =>
    by_cases e : a = c
    · subst e
      exact ⟨v, by simp⟩
    · rcases List.mem_cons.mp h with h | h
      · exact absurd h.symm e
      · obtain ⟨rest, hr⟩ := ih h
        refine ⟨rest, ?_⟩
        rw [List.takeWhile_cons, if_pos (by simp [e]), List.cons_append, ← hr]

/-- A match is a well-formed reference standing at the beginning. -/
theorem match_some {s : Str} {t : Token} (h : matchRef s = some t) :
    ∃ r : Reference, t = tok r ∧ r.WellFormed ∧ r.text <+: s := by
  unfold matchRef at h
  split at h
  · rename_i hp
    rw [List.isPrefixOf_iff_prefix] at hp
    obtain ⟨q, rfl⟩ := hp
    have hd : ("{REF:".toList ++ q).drop 5 = q := rfl
    rw [hd] at h
    split at h
    · rename_i w a i b rest
      split at h
      · rename_i hc
        simp only [Bool.and_eq_true, beq_iff_eq, Bool.not_eq_true', List.isEmpty_eq_false_iff] at hc
        obtain ⟨⟨⟨⟨⟨h1, h2⟩, h3⟩, h4⟩, h5⟩, h6⟩ := hc
        injection h with h
        subst h h2 h4
        refine ⟨⟨w, i, rest.takeWhile (· != '}')⟩, rfl, ⟨(isLetter_iff _).mp h1, (isLetter_iff _).mp h3, h6, ?_⟩, ?_⟩
        · exact not_in_takeWhile '}' rest
        · obtain ⟨r', hr⟩ := drop_stop (List.contains_iff_mem.mp h5)
          refine ⟨r', ?_⟩
          have e2 : "{REF:".toList ++ w :: '@' :: i :: ':' :: rest =
              "{REF:".toList ++ w :: '@' :: i :: ':' :: (rest.takeWhile (· != '}') ++ '}' :: r') := by rw [← hr]
          rw [e2]
          simp [Reference.text]
      · cases h
    · cases h
  · cases h

/-! ## Scanning -/

theorem findRefs_skip (a b : Str) : findRefs a.length (a ++ b) = findRefs 0 b := by
  induction a with
  | nil => rfl
  | cons c a ih => exact ih

theorem pyReplace_skip (old new a b : Str) : pyReplace old new a.length (a ++ b) = pyReplace old new 0 b := by
  induction a with
  | nil => rfl
  | cons c a ih => exact ih

theorem text_ne (r : Token) : ∃ c t, r.text = c :: t := ⟨_, _, (List.append_nil _).symm.trans (text_cons r [])⟩

theorem findRefs_text {r : Reference} (h : r.WellFormed) (rest : Str) :
    findRefs 0 (r.text ++ rest) = tok r :: findRefs 0 rest := by
  obtain ⟨c, t, e⟩ := text_ne (tok r)
  have hm := match_text h rest
  rw [← tok_text, e] at hm ⊢
  rw [List.cons_append] at hm ⊢
  rw [findRefs, hm]
  show _ :: findRefs _ _ = _
  rw [e, List.length_cons, Nat.add_sub_cancel, findRefs_skip]

theorem safe_nil : Safe [] := by
  intro p q h hq
  exact absurd (List.append_eq_nil_iff.mp h.symm).2 hq

theorem safe_tail {c : Char} {t : Str} (h : Safe (c :: t)) : Safe t := by
  intro p q e hq
  exact h (c :: p) q (by rw [e, List.cons_append]) hq

theorem safe_head {c : Char} {t : Str} (h : Safe (c :: t)) (rest : Str) : ¬ "{REF:".toList <+: c :: (t ++ rest) :=
  h [] (c :: t) rfl (by simp) rest

theorem safe_cons {c : Char} {t : Str} (h1 : ∀ rest, ¬ "{REF:".toList <+: c :: (t ++ rest)) (h2 : Safe t) : Safe (c :: t) := by
  intro p q e hq rest
  cases p with
  | nil => rw [← (show c :: t = q from e)]; exact h1 rest
  | cons d p =>
    injection e with _ e
    exact h2 p q e hq rest

theorem findRefs_safe {a : Str} (h : Safe a) (rest : Str) : findRefs 0 (a ++ rest) = findRefs 0 rest := by
  induction a with
  | nil => rfl
  | cons c a ih =>
    rw [List.cons_append, findRefs, match_none (safe_head h rest)]
    exact ih (safe_tail h)

theorem prefix_ref {r : Token} {s : Str} (h : r.text <+: s) : "{REF:".toList <+: s := by
  refine List.IsPrefix.trans ⟨[r.wanted, '@', r.search, ':'] ++ r.value ++ ['}'], ?_⟩ h
  simp [Token.text]

theorem pyReplace_safe (r : Token) (new : Str) {a : Str} (h : Safe a) (rest : Str) :
    pyReplace r.text new 0 (a ++ rest) = a ++ pyReplace r.text new 0 rest := by
  induction a with
  | nil => rfl
  | cons c a ih =>
    rw [List.cons_append, pyReplace, if_neg, ih (safe_tail h), List.cons_append]
    rw [List.isPrefixOf_iff_prefix]
    exact fun hp => safe_head h rest (prefix_ref hp)

theorem pyReplace_same (r : Token) (new rest : Str) : pyReplace r.text new 0 (r.text ++ rest) = new ++ pyReplace r.text new 0 rest := by
  obtain ⟨c, t, e⟩ := text_ne r
  have hp : r.text.isPrefixOf (c :: (t ++ rest)) = true := by
    rw [List.isPrefixOf_iff_prefix, e]
    exact ⟨rest, rfl⟩
  have hl : r.text.length - 1 = t.length := by rw [e]; rfl
  have hx : r.text ++ rest = c :: (t ++ rest) := by rw [e]; rfl
  rw [hx, pyReplace, if_pos hp, hl, pyReplace_skip]

theorem safe_no_brace {c : Char} {t : Str} (hc : c ≠ '{') (h : Safe t) : Safe (c :: t) := by
  refine safe_cons (fun rest hp => ?_) h
  obtain ⟨q, hq⟩ := hp
  injection hq with h1 _
  exact hc h1.symm

theorem ref_value_safe {v : Str} (hb : '}' ∉ v) (h : ¬ "{REF:".toList <:+: v) : Safe (v ++ ['}']) := by
  induction v with
  | nil => exact safe_no_brace (by decide) safe_nil
  | cons c v ih =>
    refine safe_cons (fun rest hp => ?_) (ih (fun hm => hb (List.mem_cons_of_mem _ hm)) fun hi => h ?_)
    · replace hp : "{REF:".toList <+: c :: ((v ++ ['}']) ++ rest) := hp
      have e : c :: ((v ++ ['}']) ++ rest) = (c :: v) ++ ('}' :: rest) := by simp
      rw [e] at hp
      rcases Nat.lt_or_ge (c :: v).length 5 with hl | hl
      · have hm : '}' ∈ "{REF:".toList := by
          have ht := List.prefix_iff_eq_take.mp hp
          rw [ht, List.take_append]
          refine List.mem_append_right _ ?_
          show '}' ∈ List.take (5 - (c :: v).length) ('}' :: rest)
          obtain ⟨k, hk⟩ := Nat.exists_eq_add_of_lt hl
          rw [show 5 - (c :: v).length = k + 1 by omega]
          exact List.mem_cons_self
        exact absurd hm (by decide)
      · have := List.prefix_of_prefix_length_le hp (List.prefix_append (c :: v) ('}' :: rest)) hl
        exact h this.isInfix
    · exact hi.trans (List.suffix_cons c v).isInfix

theorem letter_ne {c : Char} (h : c = 'I' ∨ (refKey c).isSome) : c ≠ '{' := by
  rintro rfl
  rcases h with h | h
  · exact absurd h (by decide)
  · exact absurd h (by decide)

/-- Behind its first character a well-formed reference is safe. -/
theorem ref_tail {r : Reference} (h : r.WellFormed) (hv : ¬ "{REF:".toList <:+: r.value) :
    ∃ t, r.text = '{' :: t ∧ Safe t := by
  refine ⟨_, (List.append_nil _).symm.trans (text_cons (tok r) []), ?_⟩
  refine safe_no_brace (by decide) <| safe_no_brace (by decide) <| safe_no_brace (by decide) <| safe_no_brace (by decide) <|
    safe_no_brace (letter_ne h.wanted) <| safe_no_brace (by decide) <| safe_no_brace (letter_ne h.search) <|
    safe_no_brace (by decide) ?_
  exact ref_value_safe h.brace hv

theorem pyReplace_other {r r' : Reference} (hr : r.WellFormed) (h : r'.WellFormed) (hv : ¬ "{REF:".toList <:+: r'.value) (hne : r ≠ r')
    (new rest : Str) : pyReplace r.text new 0 (r'.text ++ rest) = r'.text ++ pyReplace r.text new 0 rest := by
  obtain ⟨t, e, ht⟩ := ref_tail h hv
  have hp : ¬ r.text.isPrefixOf ('{' :: (t ++ rest)) = true := by
    rw [List.isPrefixOf_iff_prefix]
    rintro ⟨q, hq⟩
    have h1 := match_text hr q
    rw [hq, ← List.cons_append, ← e, match_text h rest] at h1
    exact hne (tok_inj (Option.some.inj h1)).symm
  rw [e, List.cons_append, pyReplace, if_neg hp, List.cons_append, ← tok_text r, pyReplace_safe (tok r) new ht]

/-! ## Finding the entry -/

theorem letterField_key (c : Char) : refKey c = (letterField c).map Field.key := by
  unfold refKey letterField
  by_cases h1 : c = 'T'
  · subst h1; decide
  by_cases h2 : c = 'U'
  · subst h2; decide
  by_cases h3 : c = 'P'
  · subst h3; decide
  by_cases h4 : c = 'A'
  · subst h4; decide
  by_cases h5 : c = 'N'
  · subst h5; decide
  rw [if_neg h1, if_neg h2, if_neg h3, if_neg h4, if_neg h5]
  have b1 := beq_eq_false_iff_ne.mpr h1
  have b2 := beq_eq_false_iff_ne.mpr h2
  have b3 := beq_eq_false_iff_ne.mpr h3
  have b4 := beq_eq_false_iff_ne.mpr h4
  have b5 := beq_eq_false_iff_ne.mpr h5
  simp only [List.lookup, b1, b2, b3, b4, b5]
  rfl

theorem letterField_I : letterField 'I' = none := by decide

theorem pyReplace_absent {c : Char} {old new : Str} {v : Str} (h : c ∉ v) : pyReplace (c :: old) new 0 v = v := by
  induction v with
  | nil => rfl
  | cons a v ih =>
    rw [pyReplace, if_neg, ih fun hm => h (List.mem_cons_of_mem _ hm)]
    rw [List.isPrefixOf_iff_prefix]
    rintro ⟨q, hq⟩
    injection hq with hq _
    exact h (hq ▸ List.mem_cons_self)

theorem dropWhile_keep {p : Char → Bool} {v : Str} (h : ∀ c ∈ v, p c = false) : v.dropWhile p = v := by
  cases v with
  | nil => rfl
  | cons a v => rw [List.dropWhile_cons, h a List.mem_cons_self]; rfl

theorem stripBraces_absent {v : Str} (h1 : '{' ∉ v) (h2 : '}' ∉ v) : stripBraces v = v := by
  unfold stripBraces
  have hp : ∀ c ∈ v, (c == '{' || c == '}') = false := by
    intro c hc
    rw [Bool.or_eq_false_iff, beq_eq_false_iff_ne, beq_eq_false_iff_ne]
    exact ⟨fun e => h1 (e ▸ hc), fun e => h2 (e ▸ hc)⟩
  rw [dropWhile_keep hp, dropWhile_keep fun c hc => hp c (List.mem_reverse.mp hc), List.reverse_reverse]

theorem hex_digits {v : Str} {b : Bytes} (h : v.map hexVal = b.flatMap fun x => [some (x.toNat / 16), some (x.toNat % 16)]) :
    v.length = 2 * b.length ∧ (∀ c ∈ v, (hexVal c).isSome) ∧ fromHex v = .ok b := by
  induction b generalizing v with
  | nil =>
    have : v = [] := List.map_eq_nil_iff.mp h
    subst this
    exact ⟨rfl, (fun c hc => by cases hc), rfl⟩
  | cons x b ih =>
    rw [List.flatMap_cons] at h
    match v, h with
    | c :: d :: v, h =>
      simp only [List.map_cons, List.cons_append, List.nil_append, List.cons.injEq] at h
      obtain ⟨hc, hd, h⟩ := h
      obtain ⟨g1, g2, g3⟩ := ih h
      refine ⟨by simp only [List.length_cons, g1]; omega, ?_, ?_⟩
      · intro y hy
        rcases List.mem_cons.mp hy with rfl | hy
        · rw [hc]; rfl
        rcases List.mem_cons.mp hy with rfl | hy
        · rw [hd]; rfl
        exact g2 y hy
      · have hsp : asciiSpace c = false := by
          cases e : asciiSpace c with
          | false => rfl
          | true => rw [asciiSpace_hexVal c e] at hc; cases hc
        rw [fromHex, hsp]
        simp only [Bool.false_eq_true, if_false, hc, hd, g3, hexPair]
        rfl
    | [c], h => simp at h
    | [], h => simp at h

theorem uuidOfHex_ok {v : Str} {b : Bytes} (h : HexOf v b) : uuidOfHex v = .ok b := by
  obtain ⟨hl, hd⟩ := h
  obtain ⟨g1, g2, g3⟩ := hex_digits hd
  have hn : ∀ c : Char, hexVal c = none → c ∉ v := by
    intro c hc hm
    have := g2 c hm
    rw [hc] at this
    cases this
  unfold uuidOfHex
  have e1 : pyReplace "urn:".toList [] 0 v = v := pyReplace_absent (c := 'u') (hn _ (by decide))
  have e2 : pyReplace "uuid:".toList [] 0 v = v := pyReplace_absent (c := 'u') (hn _ (by decide))
  have e3 : stripBraces v = v := stripBraces_absent (hn _ (by decide)) (hn _ (by decide))
  have e4 : pyReplace ['-'] [] 0 v = v := pyReplace_absent (c := '-') (hn _ (by decide))
  simp only [e1, e2, e3, e4]
  rw [if_neg (by rw [g1, hl]; simp), if_pos (by rw [List.all_eq_true]; exact g2), g3]

theorem hexOf_inj {v : Str} {b b' : Bytes} (h : HexOf v b) (h' : HexOf v b') : b = b' := by
  have := uuidOfHex_ok h
  rw [uuidOfHex_ok h'] at this
  injection this with this
  exact this.symm

/-- `find_entries(first=True, …)` gives the first of the entries that satisfy the filters. -/
theorem findEntry_first (env : Env) {s : Db} (hs : Inv s) {ks : List Kw} (hk : ∀ k ∈ ks, KwOk .entry k) :
    ∃ is : List Nat, findEntry env true { first := true, kwargs := ks } s = (.ok is.head?, s) ∧ is.Sublist s.world.ids ∧
      ∀ i, i ∈ is ↔ ∃ n, s.world.get? i = some n ∧ Current s.heap i ∧ ∀ k ∈ ks, KwHolds entryPlace exact n k := by
  obtain ⟨r, hr⟩ := find_ok (K := .entry) (re := env.re) (recursive := true) hs.world (a := { first := true, kwargs := ks }) rfl
    (by simp) (by simp) hk (fun k _ => kw_compiles_exact k) cast_entry
  obtain ⟨is, rfl, hsub, hm⟩ := find_partial hs.world rfl (by simp) (by simp) hk hr
  refine ⟨is, ?_, hsub, ?_⟩
  · unfold findEntry
    rw [findEntries_eq, hr]
    rfl
  · intro i
    rw [hm i]
    constructor
    · rintro ⟨x, hx, rfl, h⟩
      have hg := Node.get?_mem hs.world.uniq hx
      exact ⟨x, hg, ⟨(inDoc_scope hs hx).mp h.scope, by rw [node_tag hg]; exact h.tag,
        fun hh => h.history rfl ((hist_iff hs hx).mpr hh)⟩, h.filters⟩
    · rintro ⟨x, hg, ⟨h1, h2, h3⟩, h4⟩
      obtain ⟨hx, hid⟩ := Node.get?_some hg
      subst hid
      refine ⟨x, hx, rfl, ⟨(inDoc_scope hs hx).mpr h1, by rw [← node_tag hg]; exact h2, fun _ hh => h3 ((hist_iff hs hx).mp hh), h4⟩⟩

theorem kw_place {f : Field} : entryPlace f.kw = some (.field f.key) := by cases f <;> decide

theorem target_run (env : Env) {s : Db} (hs : Inv s) {r : Reference} (hr : r.Searchable) :
    ∃ is, Means s r is ∧ refTarget env (tok r) s = (.ok is.head?, s) := by
  unfold Reference.Searchable at hr
  unfold refTarget
  split at hr
  · rename_i hI
    obtain ⟨b, hb⟩ := hr
    have hkw : refKw (tok r) = .ok (.uuid b) := by
      unfold refKw
      rw [show (tok r).search = 'I' from hI, letterField_I, show (tok r).value = r.value from rfl, uuidOfHex_ok hb]
    obtain ⟨is, h1, h2, h3⟩ := findEntry_first env hs (ks := [.uuid b]) (by
      intro k hk
      rw [List.mem_singleton.mp hk]
      show Kind.entry ≠ Kind.attachment
      decide)
    refine ⟨is, ⟨h2, fun i => (h3 i).trans ?_⟩, ?_⟩
    · unfold Bears
      rw [if_pos hI]
      constructor
      · rintro ⟨n, hn, hc, hf⟩
        exact ⟨hc, b, hb, (hasValue_sub hs hn _ _).mp (hf _ (List.mem_singleton.mpr rfl))⟩
      · rintro ⟨hc, b', hb', hf⟩
        obtain ⟨n, hn⟩ := get_of_mem (inDoc_mem hs hc.doc).1
        refine ⟨n, hn, hc, fun k hk => ?_⟩
        rw [List.mem_singleton.mp hk, hexOf_inj hb hb']
        exact (hasValue_sub hs hn _ _).mpr hf
    · rw [hkw, bind_of (lift_run (.ok (Kw.uuid b)) s)]
      exact h1
  · rename_i hI
    obtain ⟨hk, hp⟩ := hr
    rw [letterField_key] at hk
    cases hf : letterField r.search with
    | none => rw [hf] at hk; cases hk
    | some f =>
      have hkw : refKw (tok r) = .ok (.attr f.kw (some r.value)) := by
        unfold refKw
        rw [show (tok r).search = r.search from rfl, hf]
        rfl
      have hkey : refKey r.search = some f.key := by rw [letterField_key, hf]; rfl
      obtain ⟨is, h1, h2, h3⟩ := findEntry_first env hs (ks := [.attr f.kw (some r.value)]) (by
        intro k hk
        rw [List.mem_singleton.mp hk]
        exact ⟨by show (entryPlace f.kw).isSome = true; rw [kw_place]; rfl, hp⟩)
      refine ⟨is, ⟨h2, fun i => (h3 i).trans ?_⟩, ?_⟩
      · unfold Bears
        rw [if_neg hI]
        constructor
        · rintro ⟨n, hn, hc, hx⟩
          obtain ⟨p, hp1, hp2⟩ := hx _ (List.mem_singleton.mpr rfl)
          rw [kw_place] at hp1
          injection hp1 with hp1
          subst hp1
          exact ⟨hc, f.key, hkey, (hasValue_field hs hn _ _).mp hp2⟩
        · rintro ⟨hc, key, hk1, hx⟩
          rw [hkey] at hk1
          injection hk1 with hk1
          subst hk1
          obtain ⟨n, hn⟩ := get_of_mem (inDoc_mem hs hc.doc).1
          refine ⟨n, hn, hc, fun k hk => ?_⟩
          rw [List.mem_singleton.mp hk]
          exact ⟨_, kw_place, (hasValue_field hs hn _ _).mpr hx⟩
      · rw [hkw, bind_of (lift_run (.ok (Kw.attr f.kw (some r.value))) s)]
        exact h1

theorem means_unique {s : Db} (hs : Inv s) {r : Reference} {is js : List Nat} (h : Means s r is) (h1 : Means s r js) : is = js := by
  have hnd := hs.world.uniq
  rw [sublist_filter_self hnd h.order, sublist_filter_self hnd h1.order]
  apply List.filter_congr
  intro i _
  rw [Bool.eq_iff_iff, List.contains_iff_mem, List.contains_iff_mem]
  exact (h.mem i).trans (h1.mem i).symm

theorem target_means (env : Env) {s : Db} (hs : Inv s) {r : Reference} (hr : r.Searchable) {is : List Nat} (h : Means s r is) :
    refTarget env (tok r) s = (.ok is.head?, s) := by
  obtain ⟨js, h1, h2⟩ := target_run env hs hr
  rw [means_unique hs h h1, h2]

theorem target_none (env : Env) {s : Db} (hs : Inv s) {r : Reference} (h : Unanswered s r) : refTarget env (tok r) s = (.ok none, s) := by
  have hm : Means s r [] := ⟨List.nil_sublist _, fun i => ⟨(fun hi => by cases hi), fun hi => absurd hi (h.2 i)⟩⟩
  exact target_means env hs h.1 hm

/-- What one reference is replaced by. -/
theorem target_text (env : Env) {s : Db} (hs : Inv s) {r : Reference} {t : Str} (h : Answered s r t) :
    ∃ e, refTarget env (tok r) s = (.ok (some e), s) ∧ wantedText env e (tok r).wanted s = (.ok t, s) := by
  obtain ⟨hr, is, e, key, hm, he, hk, hf⟩ := h
  refine ⟨e, by rw [target_means env hs hr hm, he], ?_⟩
  have hc := ((hm.mem e).mp (List.mem_of_head? he)).1
  obtain ⟨hmem, h0⟩ := inDoc_mem hs hc.doc
  unfold wantedText
  rw [show (tok r).wanted = r.wanted from rfl]
  rw [letterField_key] at hk
  cases hl : letterField r.wanted with
  | none => rw [hl] at hk; cases hk
  | some f =>
    rw [hl] at hk
    injection hk with hk
    subst hk
    have hg : getStd env e f s = (.ok (field s.heap e f.key), s) := getField_run env hs h0 hmem (plain_std f)
    show (getStd env e f >>= _) s = _
    rw [bind_of hg, hf]
    rfl

theorem answer_unique {s : Db} (hs : Inv s) {r : Reference} {t t' : Str} (h : Answered s r t) (h' : Answered s r t') : t = t' := by
  obtain ⟨_, is, e, key, hm, he, hk, hf⟩ := h
  obtain ⟨_, is', e', key', hm', he', hk', hf'⟩ := h'
  rw [means_unique hs hm' hm, he] at he'
  injection he' with he'
  subst he'
  rw [hk] at hk'
  injection hk' with hk'
  subst hk'
  rw [hf] at hf'
  injection hf'

theorem answer_not {s : Db} {r : Reference} {t : Str} (h : Answered s r t) (h' : Unanswered s r) : False := by
  obtain ⟨_, is, e, key, hm, he, _, _⟩ := h
  exact h'.2 e ((hm.mem e).mp (List.mem_of_head? he))

/-! ## One round -/

theorem render_nil : render [] = [] := rfl
theorem render_text (t : Str) (ps : List Piece) : render (.text t :: ps) = t ++ render ps := rfl
theorem render_ref (r : Reference) (ps : List Piece) : render (.ref r :: ps) = r.text ++ render ps := rfl
theorem render_append (ps qs : List Piece) : render (ps ++ qs) = render ps ++ render qs := List.flatMap_append

theorem stands_refs {s : Db} {n : Nat} {ps : List Piece} {o : Option Str} (h : Stands s n ps o) :
    findRefs 0 (render ps) = (refsOf ps).map tok := by
  induction h with
  | nil => rfl
  | text ht _ ih => rw [render_text, findRefs_safe ht, ih]; rfl
  | missing hr _ _ _ ih => rw [render_ref, findRefs_text hr, ih]; rfl
  | found hr _ _ _ _ _ ih => rw [render_ref, findRefs_text hr, ih]; rfl

/-- Every reference has an answer, or the text stands for nothing. -/
theorem stands_each {s : Db} {n : Nat} {ps : List Piece} {o : Option Str} (h : Stands s n ps o) :
    ∀ r ∈ refsOf ps, r.WellFormed ∧ ((Unanswered s r ∧ o = none) ∨ ∃ t, Answered s r t) := by
  induction h with
  | nil => intro r hr; cases hr
  | text ht _ ih =>
    intro r hr
    obtain ⟨h1, h2⟩ := ih r hr
    refine ⟨h1, h2.imp ?_ id⟩
    rintro ⟨a, rfl⟩
    exact ⟨a, rfl⟩
  | missing hw _ hu _ ih =>
    intro r hr
    rcases List.mem_cons.mp hr with rfl | hr
    · exact ⟨hw, .inl ⟨hu, rfl⟩⟩
    · obtain ⟨h1, h2⟩ := ih r hr
      exact ⟨h1, h2.imp (fun x => ⟨x.1, rfl⟩) id⟩
  | @found m n ps qs o o' r' hw _ ha _ _ _ ih =>
    intro r hr
    rcases List.mem_cons.mp hr with rfl | hr
    · exact ⟨hw, .inr ⟨_, ha⟩⟩
    · obtain ⟨h1, h2⟩ := ih r hr
      refine ⟨h1, h2.imp ?_ id⟩
      rintro ⟨a, rfl⟩
      exact ⟨a, by cases o <;> rfl⟩

theorem stands_append {s : Db} {m n : Nat} {ps qs : List Piece} {o o' : Option Str} (h : Stands s m ps o) (h' : Stands s n qs o') :
    Stands s (m + n) (ps ++ qs) (o.bind fun a => o'.map (a ++ ·)) := by
  induction h with
  | nil =>
    have : ((some ([] : Str)).bind fun a => o'.map (a ++ ·)) = o' := by cases o' <;> rfl
    rw [this, Nat.zero_add]
    exact h'
  | @text n' ps o t ht _ ih =>
    have e : ((o.map (t ++ ·)).bind fun a => o'.map (a ++ ·)) = (o.bind fun a => o'.map (a ++ ·)).map (t ++ ·) := by
      cases o <;> cases o' <;> simp
    rw [e]
    exact .text ht ih
  | missing hw hv hu _ ih => exact .missing hw hv hu ih
  | @found a b ps qs' o₁ o₂ r hw hv ha h1 _ _ ih =>
    have e : ((o₁.bind fun a => o₂.map (a ++ ·)).bind fun a => o'.map (a ++ ·)) =
        o₁.bind fun a => (o₂.bind fun a => o'.map (a ++ ·)).map (a ++ ·) := by
      cases o₁ <;> cases o₂ <;> cases o' <;> simp
    rw [e, show a + b + 1 + n = a + (b + n) + 1 by omega]
    exact .found hw hv ha h1 ih

/-- Replacing a reference by its answer does not change what the text stands for. -/
theorem stands_replace {s : Db} (hs : Inv s) {n : Nat} {ps : List Piece} {o : Option Str} (h : Stands s n ps o) {r : Reference} {t : Str}
    (hr : r.WellFormed) (ha : Answered s r t) :
    ∃ n' ps', Stands s n' ps' o ∧ render ps' = pyReplace r.text t 0 (render ps) ∧ n' ≤ n ∧ (r ∈ refsOf ps → n' < n) := by
  induction h with
  | nil => exact ⟨0, [], .nil, rfl, Nat.le_refl _, fun h => by cases h⟩
  | @text n ps o x hx _ ih =>
    obtain ⟨n', ps', h1, h2, h3, h4⟩ := ih
    refine ⟨n', .text x :: ps', .text hx h1, ?_, h3, h4⟩
    rw [render_text, render_text, ← tok_text, pyReplace_safe (tok r) t hx, h2, tok_text]
  | @missing n ps o x hw hv hu _ ih =>
    obtain ⟨n', ps', h1, h2, h3, h4⟩ := ih
    have hne : r ≠ x := fun e => answer_not ha (e ▸ hu)
    refine ⟨n', .ref x :: ps', .missing hw hv hu h1, ?_, h3, fun hm => ?_⟩
    · rw [render_ref, render_ref, pyReplace_other hr hw hv hne, h2]
    · rcases List.mem_cons.mp hm with hm | hm
      · exact absurd hm hne
      · exact h4 hm
  | @found a b ps qs o o' x hw hv hx hq hp ihq ih =>
    obtain ⟨n', ps', h1, h2, h3, h4⟩ := ih
    by_cases e : r = x
    · subst e
      refine ⟨a + n', qs ++ ps', stands_append hq h1, ?_, by omega, fun _ => by omega⟩
      rw [render_append, render_ref, ← tok_text, pyReplace_same, tok_text, h2, answer_unique hs ha hx]
    · refine ⟨a + n' + 1, .ref x :: ps', .found hw hv hx hq h1, ?_, by omega, fun hm => ?_⟩
      · rw [render_ref, render_ref, pyReplace_other hr hw hv e, h2]
      · rcases List.mem_cons.mp hm with hm | hm
        · exact absurd hm e
        · have := h4 hm; omega

theorem substAll_cons_none {env : Env} {r : Token} {rs : List Token} {v : Str} {s : Db} (h : refTarget env r s = (.ok none, s)) :
    substAll env (r :: rs) v s = (.ok none, s) := by
  rw [substAll, bind_of h]
  rfl

theorem substAll_cons {env : Env} {r : Token} {rs : List Token} {v t : Str} {s : Db} {e : Nat} (h : refTarget env r s = (.ok (some e), s))
    (h' : wantedText env e r.wanted s = (.ok t, s)) :
    substAll env (r :: rs) v s = substAll env rs (pyReplace r.text t 0 v) s := by
  rw [substAll, bind_of h]
  show (wantedText env e r.wanted >>= _) s = _
  rw [bind_of h']

/-- The loop over the references in any order. -/
theorem substAll_stands (env : Env) {s : Db} (hs : Inv s) {o : Option Str} (rs : List Reference)
    (hrs : ∀ r ∈ rs, r.WellFormed ∧ ((Unanswered s r ∧ o = none) ∨ ∃ t, Answered s r t)) {n : Nat} {ps : List Piece} (h : Stands s n ps o) :
    (o = none ∧ substAll env (rs.map tok) (render ps) s = (.ok none, s)) ∨
    ∃ n' ps', Stands s n' ps' o ∧ substAll env (rs.map tok) (render ps) s = (.ok (some (render ps')), s) ∧ n' ≤ n ∧
      ∀ r, rs.head? = some r → r ∈ refsOf ps → n' < n := by
  induction rs generalizing n ps with
  | nil => exact .inr ⟨n, ps, h, rfl, Nat.le_refl _, fun r hr => by cases hr⟩
  | cons r rs ih =>
    obtain ⟨hw, hr⟩ := hrs r List.mem_cons_self
    rcases hr with ⟨hu, ho⟩ | ⟨t, ha⟩
    · exact .inl ⟨ho, substAll_cons_none (target_none env hs hu)⟩
    · obtain ⟨e, h1, h2⟩ := target_text env hs ha
      obtain ⟨n', ps', g1, g2, g3, g4⟩ := stands_replace hs h hw ha
      have e1 : substAll env ((r :: rs).map tok) (render ps) s = substAll env (rs.map tok) (render ps') s := by
        rw [List.map_cons, substAll_cons h1 h2, tok_text, ← g2]
      rw [e1]
      rcases ih (fun x hx => hrs x (List.mem_cons_of_mem _ hx)) g1 with hi | ⟨n2, ps2, k1, k2, k3, _⟩
      · exact .inl hi
      · refine .inr ⟨n2, ps2, k1, k2, by omega, fun x hx hm => ?_⟩
        injection hx with hx
        subst hx
        have := g4 hm
        omega

theorem mem_distinct {r : Token} {l : List Token} : r ∈ distinct l ↔ r ∈ l := by
  induction l with
  | nil => rfl
  | cons a l ih =>
    unfold distinct
    split
    · rename_i h
      rw [ih, List.mem_cons]
      exact ⟨.inr, fun hx => hx.elim (fun e => e ▸ h) id⟩
    · rw [List.mem_cons, List.mem_cons, ih]

/-- The iteration order of a set: every element is visited. -/
def Visits (ord : Nat → List Token → List Token) : Prop := ∀ n l, (ord n l).Perm l

theorem tok_list {l : List Token} {rs : List Reference} (h : ∀ t ∈ l, t ∈ rs.map tok) :
    ∃ l' : List Reference, l = l'.map tok ∧ ∀ r ∈ l', r ∈ rs := by
  induction l with
  | nil => exact ⟨[], rfl, fun r hr => by cases hr⟩
  | cons t l ih =>
    obtain ⟨l', h1, h2⟩ := ih fun t ht => h t (List.mem_cons_of_mem _ ht)
    obtain ⟨r, hr, rfl⟩ := List.mem_map.mp (h t List.mem_cons_self)
    refine ⟨r :: l', by rw [List.map_cons, h1], fun x hx => ?_⟩
    rcases List.mem_cons.mp hx with rfl | hx
    · exact hr
    · exact h2 x hx

theorem stands_plain {s : Db} {n : Nat} {ps : List Piece} {o : Option Str} (h : Stands s n ps o) (hp : refsOf ps = []) :
    o = some (render ps) := by
  induction h with
  | nil => rfl
  | text _ _ ih => rw [ih hp]; rfl
  | missing => cases hp
  | found => cases hp

/-- Following the references gives what the text stands for. -/
theorem deref_stands (env : Env) {s : Db} (hs : Inv s) {n : Nat} {ps : List Piece} {o : Option Str} (h : Stands s n ps o)
    {ord : Nat → List Token → List Token} (ho : Visits ord) {fuel : Nat} (hf : n < fuel) :
    deref env ord fuel (some (render ps)) s = (.ok o, s) := by
  induction fuel generalizing n ps ord with
  | zero => omega
  | succ fuel ih =>
    rw [deref, stands_refs h]
    cases hr : refsOf ps with
    | nil => rw [List.map_nil, if_pos rfl, stands_plain h hr]; rfl
    | cons r0 rs0 =>
      rw [if_neg (by simp), ← hr]
      obtain ⟨l, hl, hl2⟩ := tok_list (l := ord 0 (distinct ((refsOf ps).map tok))) (rs := refsOf ps)
        fun t ht => mem_distinct.mp ((ho 0 _).mem_iff.mp ht)
      rw [hl]
      have hne : ∃ r, l.head? = some r := by
        cases l with
        | cons r l => exact ⟨r, rfl⟩
        | nil =>
          have : tok r0 ∈ ord 0 (distinct ((refsOf ps).map tok)) :=
            (ho 0 _).mem_iff.mpr (mem_distinct.mpr (by rw [hr]; exact List.mem_cons_self))
          rw [hl] at this
          cases this
      obtain ⟨r, hh⟩ := hne
      rcases substAll_stands env hs l (fun r hr => stands_each h r (hl2 r hr)) h with ⟨h1, h2⟩ | ⟨n', ps', h1, h2, h3, h4⟩
      · rw [bind_of h2, h1]
        rfl
      · rw [bind_of h2]
        have := h4 r hh (hl2 r (List.mem_of_head? hh))
        exact ih h1 (fun i l => ho (i + 1) l) (by omega)

end Verif.Api
