import Verif.Api.SubLemmas
import Verif.Api.TextLemmas
import Verif.Props.C39_AddEntry
import Verif.Props.C47_AddBinary
/-!
# C19: base64 text decodes to the bytes that were encoded
-/
namespace Verif.Props
open Verif XPath Spec Api

/-- The alphabet of RFC 4648. -/
def alphabet : Str := "ABCDEFGHIJKLMNOPQRSTUVWXYZabcdefghijklmnopqrstuvwxyz0123456789+/".toList

/-- The character for six bits. -/
def sextet (n : Nat) : Option Char := alphabet[n % 64]?

/-- Decoding the encoded text gives the bytes back, and different bytes have different texts. -/
theorem C19_bytes (b : Bytes) : b64decode (b64encode b) = .ok b ∧ ∀ c, b64encode c = b64encode b → c = b :=
  ⟨b64decode_b64encode b, fun _ h => b64encode_inj h⟩

theorem sextet_char {n : Nat} (h : n < 64) : sextet n = some (b64Char n) := by
  have : ∀ n, n < 64 → sextet n = some (b64Char n) := by decide +kernel
  exact this n h

/-- The text is the one RFC 4648 prescribes: three bytes are four characters of six bits each, one or two bytes left
over are padded with zero bits and `=`. -/
theorem C19_format (a b c : UInt8) (r : Bytes) :
    b64encode [] = [] ∧
    (let n := a.toNat * 2 ^ 4; (b64encode [a]).map some = [sextet (n / 2 ^ 6), sextet n, some '=', some '=']) ∧
    (let n := (a.toNat * 2 ^ 8 + b.toNat) * 2 ^ 2
     (b64encode [a, b]).map some = [sextet (n / 2 ^ 12), sextet (n / 2 ^ 6), sextet n, some '=']) ∧
    (let n := a.toNat * 2 ^ 16 + b.toNat * 2 ^ 8 + c.toNat
     (b64encode (a :: b :: c :: r)).map some =
       [sextet (n / 2 ^ 18), sextet (n / 2 ^ 12), sextet (n / 2 ^ 6), sextet n] ++ (b64encode r).map some) := by
  have ha := a.toNat_lt
  have hb := b.toNat_lt
  have hc := c.toNat_lt
  have key : ∀ {m n : Nat}, n < 64 → m % 64 = n → sextet m = some (b64Char n) := by
    intro m n h e
    rw [← sextet_char h]
    unfold sextet
    rw [e, Nat.mod_eq_of_lt h]
  refine ⟨rfl, ?_, ?_, ?_⟩
  · simp only [b64encode, List.map_cons, List.map_nil]
    rw [key (m := a.toNat * 2 ^ 4 / 2 ^ 6) (n := a.toNat / 4) (by omega) (by omega),
      key (m := a.toNat * 2 ^ 4) (n := a.toNat % 4 * 16) (by omega) (by omega)]
  · simp only [b64encode, List.map_cons, List.map_nil]
    rw [key (m := (a.toNat * 2 ^ 8 + b.toNat) * 2 ^ 2 / 2 ^ 12) (n := a.toNat / 4) (by omega) (by omega),
      key (m := (a.toNat * 2 ^ 8 + b.toNat) * 2 ^ 2 / 2 ^ 6) (n := a.toNat % 4 * 16 + b.toNat / 16) (by omega) (by omega),
      key (m := (a.toNat * 2 ^ 8 + b.toNat) * 2 ^ 2) (n := b.toNat % 16 * 4) (by omega) (by omega)]
  · simp only [b64encode, List.map_cons]
    rw [key (m := (a.toNat * 2 ^ 16 + b.toNat * 2 ^ 8 + c.toNat) / 2 ^ 18) (n := a.toNat / 4) (by omega) (by omega),
      key (m := (a.toNat * 2 ^ 16 + b.toNat * 2 ^ 8 + c.toNat) / 2 ^ 12) (n := a.toNat % 4 * 16 + b.toNat / 16) (by omega) (by omega),
      key (m := (a.toNat * 2 ^ 16 + b.toNat * 2 ^ 8 + c.toNat) / 2 ^ 6) (n := b.toNat % 16 * 4 + c.toNat / 64) (by omega) (by omega),
      key (m := a.toNat * 2 ^ 16 + b.toNat * 2 ^ 8 + c.toNat) (n := c.toNat % 64) (by omega) (by omega)]
    rfl

theorem sub_elsewhere {s s' : Db} {e : Nat} {tag v : Str} (hs : Inv s) (h : SubSet s s' e tag v) (h1 : (s.heap.tag e) ≠ "UUID".toList)
    {j : Nat} (hj : j ∈ s.world.ids) (hj0 : j ≠ 0) (hje : j ≠ e) : sub s'.heap j "UUID".toList = sub s.heap j "UUID".toList := by
  have hk : s'.heap j = s.heap j := h.other j hj0 hje (hs.bound j hj)
  have hall : s'.heap.all j "UUID".toList = s.heap.all j "UUID".toList := by
    unfold Heap.all
    rw [kids_congr hk]
    apply List.filter_congr
    intro c hc
    have hm := kid_mem hs hc
    have h0 : c ≠ 0 := kid_ne_zero hs hc
    by_cases e1 : c = e
    · subst e1
      obtain ⟨r, g1, g2⟩ := h.here
      unfold Heap.tag
      rw [g1, g2]
      rfl
    · rw [tag_congr (h.other c h0 e1 (hs.bound c hm.1))]
  unfold sub Heap.find
  rw [hall]
  cases hh : (s.heap.all j "UUID".toList).head? with
  | none => rfl
  | some c =>
    obtain ⟨c1, c2⟩ := all_sub (List.mem_of_mem_head? hh)
    refine text_congr (h.other c (kid_ne_zero hs c1) ?_ (hs.bound c (kid_mem hs c1).1))
    rintro rfl
    exact h1 c2

/-- A UUID set on an element reads back identical, the other properties of the element are as before, and so is
the UUID of every other element. -/
theorem C19_uuid {s : Db} (hs : Inv s) {e : Nat} (he : e ≠ 0) (hm : e ∈ s.world.ids) (ht : s.heap.tag e ≠ "UUID".toList)
    (hu : (s.heap.all e "UUID".toList).length ≤ 1) {b : Bytes} (hb : b.length = 16) :
    ∃ s', setUuid e b s = (.ok (), s') ∧ SubSet s s' e "UUID".toList (b64encode b) ∧ getUuid e s' = (.ok b, s') ∧
      (∀ t, t ≠ "UUID".toList → sub s'.heap e t = sub s.heap e t) ∧ (∀ key, field s'.heap e key = field s.heap e key) ∧
      (∀ j ∈ s.world.ids, j ≠ 0 → j ≠ e → (getUuid j s').1 = (getUuid j s).1) := by
  obtain ⟨s', h1, h2⟩ := setSub_ok hs he hm "UUID".toList (b64_xml b)
  refine ⟨s', h1, h2, ?_, fun t ht => h2.sub_other hs ht, fun k => h2.field_eq hs (by decide) k, ?_⟩
  · unfold getUuid
    rw [bind_of (getSub_run _ _ _), h2.sub_new hs hu, lift_run, uuidOfText_ok hb]
  · intro j hj hj0 hje
    unfold getUuid
    rw [bind_of (getSub_run _ _ _), bind_of (getSub_run _ _ _), sub_elsewhere hs h2 ht hj hj0 hje]
    rfl

/-- A binary added to a database reads back identical, whatever the version; compression is assumed to be
reversible for the data at hand. -/
theorem C19_binary (env : Env) {s : Db} (hs : Inv s) {bs : List Bytes} (hbs : binaries env s = (.ok bs, s))
    (hb : versionGe4 s.version = false → ∃ el, BinsOk s el) (data : Bytes) (compressed prot : Bool)
    (hz : compressed = true → env.gunzip (env.gzip data) = .ok data) :
    ∃ s' l, addBinary env data compressed prot s = (.ok bs.length, s') ∧ binaries env s' = (.ok l, s') ∧ l[bs.length]? = some data := by
  cases h : versionGe4 s.version with
  | true =>
    obtain ⟨s', bs', h1, h2, _, h4⟩ := C47_four env h data compressed prot
    rw [hbs] at h1
    injection (congrArg Prod.fst h1) with h1
    subst h1
    exact ⟨s', _, h2, h4, by simp⟩
  | false =>
    obtain ⟨el, hel⟩ := hb h
    obtain ⟨s', h1, _, _, _, h5, _⟩ := C47_three env hs h hel hbs data compressed prot hz
    exact ⟨s', _, h1, h5, by simp⟩

/-! ## Examples -/

example : b64encode [102, 111, 111, 98] = "Zm9vYg==".toList := by decide +kernel

example : (23 : Nat) ∈ Sample.db.world.ids ∧ Sample.db.heap.tag 23 = "Entry".toList ∧ (Sample.db.heap.all 23 "UUID".toList).length = 1 := by
  decide +kernel

end Verif.Props
