import Verif.Kdbx.FileLemmas
/-!
# Input that ends too early

Every parser applied to the outer file consumes a definite number of bytes and raises construct's
`StreamError` on each shorter piece of them.
-/
namespace Verif
namespace Parser

/-- A part of `u` from the start that is not all of it. -/
def Short (v u : Bytes) : Prop := v <+: u ∧ v ≠ u

/-- A successful parse consumes a prefix, does not depend on what follows, and fails with
`StreamError` on every shorter prefix. -/
def Cut {α} (p : Parser α) : Prop :=
  ∀ s a r, p s = .ok (a, r) → ∃ u, s = u ++ r ∧ (∀ r', p (u ++ r') = .ok (a, r')) ∧ ∀ v, Short v u → p v = .error .stream

theorem Cut.local {α} {p : Parser α} (h : Cut p) : Local p := fun s a r hs =>
  have ⟨u, h1, h2, _⟩ := h s a r hs
  ⟨u, h1, h2⟩

theorem short_nil {v : Bytes} : ¬ Short v [] := fun h => h.2 (List.prefix_nil.mp h.1)

theorem short_append {v a b : Bytes} (h : Short v (a ++ b)) : Short v a ∨ ∃ w, v = a ++ w ∧ Short w b := by
  obtain ⟨⟨t, ht⟩, hn⟩ := h
  rcases List.append_eq_append_iff.mp ht with ⟨c, h1, h2⟩ | ⟨c, h1, h2⟩
  · by_cases e : v = a
    · right
      refine ⟨[], by rw [e, List.append_nil], List.nil_prefix, ?_⟩
      rintro rfl
      exact hn (by rw [e, List.append_nil])
    · exact .inl ⟨⟨c, h1.symm⟩, e⟩
  · refine .inr ⟨c, h1, ⟨t, h2.symm⟩, ?_⟩
    rintro rfl
    exact hn h1

theorem cut_pure {α} (a : α) : Cut (pure a : Parser α) := by
  intro s b r h
  obtain ⟨rfl, rfl⟩ := pure_ok.mp h
  exact ⟨[], rfl, fun r' => rfl, fun v hv => absurd hv short_nil⟩

theorem cut_fail {α} (e : PyErr) : Cut (fail e : Parser α) := fun _ _ _ h => absurd h fail_ok

theorem cut_lift {α} (e : Except PyErr α) : Cut (lift e) := by
  intro s a r h
  obtain ⟨h1, rfl⟩ := lift_ok.mp h
  exact ⟨[], rfl, fun r' => lift_run h1 r', fun v hv => absurd hv short_nil⟩

theorem cut_bind {α β} {p : Parser α} {f : α → Parser β} (hp : Cut p) (hf : ∀ a, Cut (f a)) : Cut (p >>= f) := by
  intro s b r h
  obtain ⟨a, m, h1, h2⟩ := bind_ok.mp h
  obtain ⟨u, rfl, hu, hu'⟩ := hp s a m h1
  obtain ⟨v, rfl, hv, hv'⟩ := hf a m b r h2
  refine ⟨u ++ v, by rw [List.append_assoc], fun r' => by rw [List.append_assoc, bind_run (hu _), hv], fun w hw => ?_⟩
  rcases short_append hw with h | ⟨x, rfl, h⟩
  · exact bind_err (hu' w h)
  · rw [bind_run (hu x), hv' x h]

theorem cut_bytes (n : Nat) : Cut (bytes n) := by
  intro s a r h
  obtain ⟨rfl, rfl⟩ := bytes_ok.mp h
  refine ⟨a, rfl, fun r' => bytes_append a r', fun v hv => ?_⟩
  have hl : v.length < a.length := by
    rcases Nat.lt_or_ge v.length a.length with h | h
    · exact h
    · exact absurd (hv.1.eq_of_length_le h) hv.2
  unfold bytes
  rw [if_pos hl]

theorem cut_uint (n : Nat) : Cut (uint n) := cut_bind (cut_bytes n) fun _ => cut_pure _

theorem cut_prefixed {α} {len : Parser Nat} (sub : Parser α) (hl : Cut len) : Cut (prefixed len sub) := by
  refine cut_bind hl fun n => cut_bind (cut_bytes n) fun d => ?_
  split
  · exact cut_fail _
  · exact cut_pure _

theorem short_loop {α} (p : Nat → Parser α) (stop : α → Bool) (hp : ∀ i, Cut (p i)) (hg : ∀ i, Progress (p i)) :
    ∀ fuel i s l r, repeatLoop p stop fuel i s = .ok (l, r) →
      ∃ u, s = u ++ r ∧ ∀ v, Short v u → ∀ fuel', v.length < fuel' → repeatLoop p stop fuel' i v = .error .stream := by
  intro fuel
  induction fuel with
  | zero => intro i s l r h; exact absurd h fail_ok
  | succ fuel ih =>
    intro i s l r h
    rw [repeatLoop] at h
    obtain ⟨a, m, h1, h2⟩ := bind_ok.mp h
    have hlt := hg i s a m h1
    obtain ⟨u, rfl, hu, hu'⟩ := hp i s a m h1
    split at h2
    · obtain ⟨rfl, rfl⟩ := pure_ok.mp h2
      refine ⟨u, rfl, fun v hv fuel' hf => ?_⟩
      cases fuel' with
      | zero => omega
      | succ f => rw [repeatLoop]; exact bind_err (hu' v hv)
    · next hs =>
      obtain ⟨as, m', h3, h4⟩ := bind_ok.mp h2
      obtain ⟨rfl, rfl⟩ := pure_ok.mp h4
      obtain ⟨w, rfl, hw⟩ := ih (i + 1) m as m' h3
      refine ⟨u ++ w, by rw [List.append_assoc], fun v hv fuel' hf => ?_⟩
      cases fuel' with
      | zero => omega
      | succ f =>
        rw [repeatLoop]
        rcases short_append hv with h | ⟨x, rfl, h⟩
        · exact bind_err (hu' v h)
        · rw [bind_run (hu x), if_neg hs]
          refine bind_err (hw x h f ?_)
          have : 0 < u.length := by simp at hlt; omega
          simp at hf
          omega

theorem cut_repeatUntil {α} (p : Nat → Parser α) (stop : α → Bool) (hp : ∀ i, Cut (p i)) (hg : ∀ i, Progress (p i)) :
    Cut (repeatUntil p stop) := by
  intro s l r h
  obtain ⟨u, e, hu⟩ := local_repeatUntil p stop (fun i => (hp i).local) hg s l r h
  obtain ⟨u', e', hu'⟩ := short_loop p stop hp hg _ _ _ _ _ h
  have : u = u' := List.append_cancel_right (e.symm.trans e')
  subst this
  exact ⟨u, e, hu, fun v hv => hu' v hv _ (Nat.lt_succ_self _)⟩

theorem cut_hItem3 : Cut hItem3 := by
  refine cut_bind (cut_uint 1) fun n => ?_
  split
  · exact cut_fail _
  · exact cut_bind (cut_prefixed _ (cut_uint 2)) fun _ => cut_pure _

theorem cut_hItem4 : Cut hItem4 := by
  refine cut_bind (cut_uint 1) fun n => ?_
  split
  · exact cut_fail _
  · exact cut_bind (cut_prefixed _ (cut_uint 4)) fun _ => cut_pure _

theorem cut_headerVal (path : String) : Cut (headerVal path) := by
  refine cut_bind (cut_bytes 4) fun s1 => cut_bind (cut_bytes 4) fun s2 => ?_
  split
  · exact cut_fail _
  · refine cut_bind (cut_uint 2) fun minor => cut_bind (cut_uint 2) fun major => ?_
    split
    · exact cut_bind (cut_repeatUntil _ _ (fun _ => cut_hItem3) (fun _ => progress_hItem3)) fun _ => cut_pure _
    · split
      · exact cut_bind (cut_repeatUntil _ _ (fun _ => cut_hItem4) (fun _ => progress_hItem4)) fun _ => cut_pure _
      · exact cut_pure _

theorem short_header {path : String} {s r : Bytes} {h : Header} (hp : header path s = .ok (h, r)) {v : Bytes}
    (hv : Short v h.data) : header path v = .error .stream := by
  obtain ⟨e, _⟩ := header_ok hp
  unfold header at hp
  split at hp
  · cases hp
  · next x r0 hx =>
    injection hp with hp
    injection hp with h1 h2
    obtain ⟨u, e', _, hu⟩ := cut_headerVal _ _ _ _ hx
    have : u = h.data := by
      subst h2
      exact List.append_cancel_right (e'.symm.trans e)
    subst this
    unfold header
    rw [hu v hv]

theorem cut_block4 (P : Prims) (base : Bytes) (i : Nat) : Cut (block4 P base i) := by
  refine cut_bind (cut_bytes 32) fun h => cut_bind (cut_prefixed _ (cut_uint 4)) fun d => ?_
  split
  · exact cut_fail _
  · split
    · exact cut_pure _
    · exact cut_fail _

theorem progress_block4 (P : Prims) (base : Bytes) (i : Nat) : Progress (block4 P base i) := by
  refine Progress.bind (progress_bytes (by decide)) fun h s b r hr => ?_
  refine Local.le (Cut.local (cut_bind (cut_prefixed _ (cut_uint 4)) fun d => ?_)) hr
  split
  · exact cut_fail _
  · split
    · exact cut_pure _
    · exact cut_fail _

theorem cut_blocks4 (P : Prims) (base : Bytes) : Cut (blocks4 P base) :=
  cut_repeatUntil _ _ (fun _ => cut_block4 P base _) (fun _ => progress_block4 P base _)

theorem cut_block3 (P : Prims) (i : Nat) : Cut (block3 P i) := by
  refine cut_bind (cut_uint 4) fun n => ?_
  split
  · exact cut_fail _
  · refine cut_bind (cut_bytes 32) fun h => cut_bind (cut_prefixed _ (cut_uint 4)) fun d => ?_
    split <;> split
    · exact cut_pure _
    · exact cut_fail _
    · exact cut_pure _
    · exact cut_fail _

theorem progress_block3 (P : Prims) (i : Nat) : Progress (block3 P i) := by
  refine Progress.bind (progress_uint (by decide)) fun n s b r hr => Local.le (Cut.local ?_) hr
  split
  · exact cut_fail _
  · refine cut_bind (cut_bytes 32) fun h => cut_bind (cut_prefixed _ (cut_uint 4)) fun d => ?_
    split <;> split
    · exact cut_pure _
    · exact cut_fail _
    · exact cut_pure _
    · exact cut_fail _

theorem cut_blocks3 (P : Prims) : Cut (blocks3 P) :=
  cut_repeatUntil _ _ (fun _ => cut_block3 P _) (fun _ => progress_block3 P _)

theorem cut_body4 (P : Prims) (raw : Bytes) (h : DynHeader) (tk : Bytes) (dec : Bool) : Cut (body4 P raw h tk dec) := by
  refine cut_bind (cut_lift _) fun mk => cut_bind (cut_bytes 32) fun sha => ?_
  split
  · exact cut_fail _
  · split
    · refine cut_bind (cut_lift _) fun seed => cut_bind (cut_bytes 32) fun hm => ?_
      split
      · exact cut_fail _
      · exact cut_bind (cut_lift _) fun z => cut_bind (cut_lift _) fun c => cut_bind (cut_blocks4 P _) fun bs =>
          cut_bind (cut_lift _) fun iv => cut_bind (cut_lift _) fun d => cut_bind (cut_lift _) fun pl =>
            cut_bind (cut_lift _) fun p => cut_pure _
    · exact cut_pure _

end Parser
end Verif
