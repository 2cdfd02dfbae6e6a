import Verif.Api.AttrEffects
import Verif.Api.Sample
import Verif.Spec.Calls
import Verif.Props.C20_Kdbx4Times
import Verif.Props.C21_Kdbx3Times
import Verif.Props.C38_Tags
/-!
# C67: every attribute is kept where the format keeps it, reads back, and is independent of the others
-/
namespace Verif.Props
open Verif XPath Spec Api

variable {s : Db}

/-- The values that are read back unchanged: 16 bytes, tags without separators, UTC times (in version 4 without fractions of seconds), and an
auto-type text that is not empty. -/
def Exact (ver : Nat × Nat) : Attr → AttrVal → Prop
  | _, .uuid b => b.length = 16
  | _, .tags l => (∀ t ∈ l, TagText t) ∧ l ≠ [[]]
  | _, .time (some d) => d.Ok ∧ d.tz = some 0 ∧ (4 ≤ ver.1 → d.micro = 0)
  | .autoText _, .text v => v ≠ some []
  | _, _ => True

/-- Reading an attribute gives the meaning of what the document has at the attribute's place. -/
theorem C67_read (env : Env) (hs : Inv s) {e : Nat} (he : e ≠ 0) (hm : e ∈ s.world.ids) {a : Attr} (hk : ∀ k, a = .custom k → Plain k)
    (ho : Once s.heap e (spot a)) : getAttr env e a s = (meaning s.version a (written s.heap e (spot a)), s) := by
  rw [getAttr_run env hs he hm (by cases a <;> first | exact hk _ rfl | trivial), seen_written ho]

/-- Assigning a value succeeds and writes it at that place. -/
theorem C67_write (env : Env) (hs : Inv s) {e : Nat} (he : e ≠ 0) (hm : e ∈ s.world.ids) {a : Attr} (ho : Once s.heap e (spot a)) {v : AttrVal}
    (hf : Fits a v) {w : Option Str} (hw : spelled s.version v = .ok w) (hst : Storable s.heap e a w) :
    ∃ s', assign env e a v s = (.ok (), s') ∧ Inv s' ∧ written s'.heap e (spot a) = some w ∧
      getAttr env e a s' = (meaning s.version a (some w), s') := by
  obtain ⟨s', h1, h2, h3, h4⟩ := assign_ok env hs he hm ho hf hw hst
  have hk : ∀ k, a = .custom k → Plain k := fun k hk => (hst.key k hk).2.1
  have hfl : keyOf a ≠ none → Fields s.heap e := by
    intro hk
    cases ha : keyOf a with
    | none => exact absurd ha hk
    | some k => rw [(key_spot ha).1] at ho; exact ho
  have heff := assign_effect env hs he hm (a := a) (by cases a <;> first | exact hk _ rfl | trivial) hfl v h1
  refine ⟨s', h1, h2, h4, ?_⟩
  rw [C67_read env h2 he (heff.mem hm he) hk h3, h4, heff.version]

/-- What was written for a value means that value. -/
theorem meaning_spelled {ver : Nat × Nat} {a : Attr} {v : AttrVal} (hf : Fits a v) {w : Option Str} (hw : spelled ver v = .ok w) (hx : Exact ver a v)
    (hk : ∀ k, a = .custom k → k ∉ reservedKeys) : meaning ver a (some w) = .ok v := by
  have flag : ∀ b : Option Bool, spelled ver (.flag b) = .ok w → (.ok (.flag (w.map (· == "True".toList))) : Except PyErr AttrVal) = .ok (.flag b) := by
    intro b hw
    match b, hw with
    | none, hw => injection hw with hw; subst hw; rfl
    | some true, hw => injection hw with hw; subst hw; decide
    | some false, hw => injection hw with hw; subst hw; decide
  match a, v, hf with
  | .uuid, .uuid b, _ =>
    injection hw with hw; subst hw
    show (match b64decode (b64encode b) with
      | .error e => .error e
      | .ok b => if b.length = 16 then .ok (.uuid b) else .error .value : Except PyErr AttrVal) = _
    rw [b64decode_b64encode]
    dsimp only
    rw [if_pos (show b.length = 16 from hx)]
  | .icon, .text v, _ => injection hw with hw; subst hw; rfl
  | .name, .text v, _ => injection hw with hw; subst hw; rfl
  | .groupNotes, .text v, _ => injection hw with hw; subst hw; rfl
  | .field f, .text v, _ => injection hw with hw; subst hw; rfl
  | .custom k, .text v, _ =>
    injection hw with hw; subst hw
    show (if k ∈ reservedKeys then _ else _) = _
    rw [if_neg (hk k rfl)]
    rfl
  | .autoText x, .text v, _ =>
    injection hw with hw; subst hw
    show (.ok (.text (if v = some [] then none else v)) : Except PyErr AttrVal) = _
    rw [if_neg (show v ≠ some [] from hx)]
  | .expires, .flag (some b), _ => exact flag _ hw
  | .autoEnabled, .flag b, _ => exact flag _ hw
  | .tags, .tags l, _ =>
    injection hw with hw; subst hw
    show (.ok (.tags (tagsIn (joinTags l))) : Except PyErr AttrVal) = _
    rw [tagsIn_join l hx.1 hx.2]
  | .time t, .time (some d), _ =>
    have hx : d.Ok ∧ d.tz = some 0 ∧ (4 ≤ ver.1 → d.micro = 0) := hx
    have hw : (encodeTime ver d).map some = .ok w := hw
    obtain ⟨x, e1, e2⟩ : ∃ x, encodeTime ver d = .ok x ∧ decodeTime ver (some x) = .ok d := by
      by_cases hv : 4 ≤ ver.1
      · exact C20_whole_seconds_utc ver hv d hx.1 hx.2.1 (hx.2.2 hv)
      · exact C21_utc ver (by omega) d hx.1 hx.2.1
    rw [e1] at hw
    injection hw with hw; subst hw
    show (decodeTime ver (some x)).map _ = _
    rw [e2]
    rfl

/-- Such values are read back as they were assigned. -/
theorem C67_roundtrip (env : Env) (hs : Inv s) {e : Nat} (he : e ≠ 0) (hm : e ∈ s.world.ids) {a : Attr} (ho : Once s.heap e (spot a)) {v : AttrVal}
    (hf : Fits a v) {w : Option Str} (hw : spelled s.version v = .ok w) (hst : Storable s.heap e a w) (hx : Exact s.version a v) :
    ∃ s', assign env e a v s = (.ok (), s') ∧ Inv s' ∧ getAttr env e a s' = (.ok v, s') := by
  obtain ⟨s', h1, h2, _, h3⟩ := C67_write env hs he hm ho hf hw hst
  exact ⟨s', h1, h2, by rw [h3, meaning_spelled hf hw hx fun k hk => (hst.key k hk).1]⟩

/-- Assigning an attribute, whether or not it raises and whatever the value, leaves every other attribute of that element, and all attributes of
every other entry and group, as they were. -/
theorem C67_independent (env : Env) (hs : Inv s) {e : Nat} (he : IsElem s.heap e) {a : Attr} (hk : ∀ k, a = .custom k → Plain k)
    (hf : ∀ k, spot a = .string k → Fields s.heap e) (v : AttrVal) {r : Except PyErr Unit} {s' : Db} (h : assign env e a v s = (r, s'))
    {i : Nat} (hi : IsElem s.heap i) {b : Attr} (hkb : ∀ k, b = .custom k → Plain k) (hne : i ≠ e ∨ spot b ≠ spot a) :
    Inv s' ∧ IsElem s'.heap i ∧ getAttr env i b s' = ((getAttr env i b s).1, s') := by
  have live : ∀ {x}, IsElem s.heap x → x ≠ 0 ∧ x ∈ s.world.ids := by
    intro x hx
    constructor
    · rintro rfl
      obtain ⟨r0, h1, h2, _⟩ := hs.root
      have ht : s.heap.tag 0 = [] := by unfold Heap.tag; rw [h1]; exact h2
      rcases hx with hx | hx <;> (replace hx : s.heap.tag 0 = _ := hx; rw [ht] at hx; revert hx; decide)
    · cases hh : s.heap x with
      | none =>
        have ht : s.heap.tag x = [] := by unfold Heap.tag; rw [hh]; rfl
        rcases hx with hx | hx <;> (replace hx : s.heap.tag x = _ := hx; rw [ht] at hx; exact absurd hx (by decide))
      | some r => exact heap_some.mp ⟨r, hh⟩
  obtain ⟨e0, em⟩ := live he
  obtain ⟨i0, im⟩ := live hi
  have heff := assign_effect env hs e0 em (a := a) (by cases a <;> first | exact hk _ rfl | trivial) (fun hk => by
    cases ha : keyOf a with
    | none => exact absurd ha hk
    | some k => exact hf k (key_spot ha).1) v h
  have hkb' : KeyOk b := by cases b <;> first | exact hkb _ rfl | trivial
  have im' := heff.mem im i0
  refine ⟨heff.inv hs, ?_, ?_⟩
  · have : s'.heap.tag i = s.heap.tag i := by
      cases heff with
      | none h => rw [h]
      | kids _ h => exact h.tag im i0
      | text q v r h => exact h.tag i
    unfold IsElem IsEntry IsGroup
    rw [this]
    exact hi
  · rw [getAttr_run env (heff.inv hs) i0 im' hkb', getAttr_run env hs i0 im hkb', heff.version, heff.seen hs he im i0 hi hne]

/-- Assigning `None` to the icon of an entry or group, or to the name or notes of a group, raises, and the old value is gone. -/
theorem C67_none_loses (env : Env) (hs : Inv s) {e : Nat} (he : e ≠ 0) (hm : e ∈ s.world.ids) {a : Attr} (ha : a = .icon ∨ a = .name ∨ a = .groupNotes)
    (ho : Once s.heap e (spot a)) :
    ∃ s', assign env e a (.text none) s = (.error .type, s') ∧ Inv s' ∧ written s'.heap e (spot a) = none := by
  have gen : ∀ tag, Single s.heap [tag] e → ∃ s', setSub e tag none s = (.error .type, s') ∧ Inv s' ∧ written s'.heap e (.path [tag]) = none := by
    intro tag ho
    obtain ⟨s1, a1, a2, a3, a4, a5⟩ := removeOld_swap hs he hm (T := tag) (old := s.heap.find e tag) fun f hf => List.mem_of_mem_head? hf
    refine ⟨s1, ?_, a2, ?_⟩
    · unfold setSub
      rw [bind_of (findKid_run e tag s), bind_of a1]
      rfl
    · unfold written
      dsimp only
      rw [els_one]
      have h1 := head_one ho.1
      have : s1.heap.all e tag = [] := by
        cases hf : s.heap.find e tag with
        | none =>
          rw [a4 hf]
          unfold Heap.find at hf
          rw [hf] at h1
          exact h1
        | some c =>
          have hd := a5 c hf
          unfold Heap.all
          rw [hd.kids_eq, List.filter_filter, List.filter_eq_nil_iff]
          intro k hk hc
          rw [Bool.and_eq_true, beq_iff_eq, tag_congr (hd.other k (kid_facts hs hk).1 (kid_facts hs hk).2.1), bne_iff_ne] at hc
          have hkm : k ∈ s.heap.all e tag := List.mem_filter.mpr ⟨hk, by simpa using hc.1⟩
          unfold Heap.find at hf
          rw [h1, hf] at hkm
          exact hc.2 (by simpa using hkm)
      rw [this]
      rfl
  rcases ha with rfl | rfl | rfl <;> exact gen _ ho

/-! ## A database -/

instance decSingle (h : Heap) : ∀ p e, Decidable (Single h p e)
  | [], _ => isTrue trivial
  | t :: p, e =>
    have : ∀ k, Decidable (Single h p k) := decSingle h p
    inferInstanceAs (Decidable ((h.all e t).length ≤ 1 ∧ ∀ k ∈ h.all e t, Single h p k))

theorem sample_once {a : Attr} {p : List Str} (hp : spot a = .path p) (h : Single Sample.db.heap p 23) : Once Sample.db.heap 23 (spot a) := by rw [hp]; exact h

example : getAttr Sample.env 23 (.autoText true) Sample.db = (.ok (.text (some "w".toList)), Sample.db) := by
  rw [C67_read Sample.env Sample.db_inv (by decide) (by decide +kernel) (by intro k h; cases h) (sample_once rfl (by decide +kernel))]
  exact Prod.ext (by decide +kernel) rfl

/-- A new expiry time is stored and leaves the access time alone. -/
def sampleTime : DateTime := ⟨⟨2030, 2, 28⟩, 12, 0, 1, 0, some 0⟩

example : ∃ s', assign Sample.env 23 (.time .expiry) (.time (some sampleTime)) Sample.db = (.ok (), s') ∧
    getAttr Sample.env 23 (.time .expiry) s' = (.ok (.time (some sampleTime)), s') ∧
    getAttr Sample.env 23 (.time .atime) s' = ((getAttr Sample.env 23 (.time .atime) Sample.db).1, s') ∧
    getAttr Sample.env 76 (.time .expiry) s' = ((getAttr Sample.env 76 (.time .expiry) Sample.db).1, s') := by
  have hw : ∃ x, encodeTime (4, 0) sampleTime = .ok x ∧ XmlText x := by
    cases h : encodeTime (4, 0) sampleTime with
    | error x => have : (encodeTime (4, 0) sampleTime).isOk = true := by decide +kernel
                 rw [h] at this; cases this
    | ok x => exact ⟨x, rfl, encode_xml h⟩
  obtain ⟨x, hx, hxml⟩ := hw
  obtain ⟨s', h1, h2, h3⟩ := C67_roundtrip Sample.env Sample.db_inv (e := 23) (by decide) (by decide +kernel) (a := .time .expiry)
    (sample_once rfl (by decide +kernel)) (v := .time (some sampleTime)) trivial (w := some x) (by unfold spelled; dsimp only; rw [show Sample.db.version = (4, 0) from rfl, hx]; rfl)
    ⟨fun _ => by decide +kernel, fun h => absurd trivial h, by rintro t ⟨⟩; exact hxml, by intro k h; cases h⟩
    (show _ ∧ _ ∧ _ from ⟨⟨by decide, by decide, by decide, by decide, by decide, by decide, by intro o ho; injection ho with ho; subst ho; decide⟩, rfl, fun _ => rfl⟩)
  have e23 : IsElem Sample.db.heap 23 := .inl (show _ = _ by decide +kernel)
  have e76 : IsElem Sample.db.heap 76 := .inl (show _ = _ by decide +kernel)
  refine ⟨s', h1, h3, ?_, ?_⟩
  · exact (C67_independent Sample.env Sample.db_inv e23 (by intro k h; cases h) (by intro k h; cases h) _ h1 e23 (by intro k h; cases h) (.inr (by decide))).2.2
  · exact (C67_independent Sample.env Sample.db_inv e23 (by intro k h; cases h) (by intro k h; cases h) _ h1 e76 (by intro k h; cases h) (.inl (by decide))).2.2

/-- Setting the title leaves the notes and a custom property alone, and the title of another entry. -/
example : ∃ s', assign Sample.env 23 (.field .title) (.text (some "new".toList)) Sample.db = (.ok (), s') ∧
    written s'.heap 23 (.string "Title".toList) = some (some "new".toList) ∧
    getAttr Sample.env 23 (.custom "pin".toList) s' = (.ok (.text (some "12".toList)), s') ∧
    getAttr Sample.env 76 (.field .title) s' = (.ok (.text (some "shop".toList)), s') := by
  have hf : Fields Sample.db.heap 23 := fields_of_ok (by decide +kernel)
  obtain ⟨s', h1, _, h2, _⟩ := C67_write Sample.env Sample.db_inv (e := 23) (by decide) (by decide +kernel) (a := .field .title) hf
    (v := .text (some "new".toList)) trivial rfl ⟨fun h => (nomatch h), fun _ => by simp, by rintro t ⟨⟩; decide, by intro k h; cases h⟩
  have e23 : IsElem Sample.db.heap 23 := .inl (show _ = _ by decide +kernel)
  have e76 : IsElem Sample.db.heap 76 := .inl (show _ = _ by decide +kernel)
  refine ⟨s', h1, h2, ?_, ?_⟩
  · rw [(C67_independent Sample.env Sample.db_inv e23 (by intro k h; cases h) (fun _ _ => hf) _ h1 e23 (b := .custom "pin".toList) (by rintro k ⟨⟩; decide) (.inr (by decide))).2.2]
    exact Prod.ext (show (getAttr Sample.env 23 (.custom "pin".toList) Sample.db).1 = .ok (.text (some "12".toList)) by decide +kernel) rfl
  · rw [(C67_independent Sample.env Sample.db_inv e23 (by intro k h; cases h) (fun _ _ => hf) _ h1 e76 (b := .field .title) (by intro k h; cases h) (.inl (by decide))).2.2]
    exact Prod.ext (show (getAttr Sample.env 76 (.field .title) Sample.db).1 = .ok (.text (some "shop".toList)) by decide +kernel) rfl

/-- The name of the group `Work` is lost. -/
example : ∃ s', assign Sample.env 93 .name (.text none) Sample.db = (.error .type, s') ∧ written s'.heap 93 (spot .name) = none ∧
    written Sample.db.heap 93 (spot .name) = some (some "Work".toList) := by
  obtain ⟨s', h1, _, h2⟩ := C67_none_loses Sample.env Sample.db_inv (e := 93) (by decide) (by decide +kernel) (.inr (.inl rfl))
    (show Single Sample.db.heap ["Name".toList] 93 by decide +kernel)
  exact ⟨s', h1, h2, by decide +kernel⟩

end Verif.Props
