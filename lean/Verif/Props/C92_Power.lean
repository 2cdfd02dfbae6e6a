import Verif.Spec.Power
import Verif.Session.ShareLemmas
import Verif.Props.C86_Together
/-!
# C92 Power loss

Nothing `save` does waits for the medium. If the file system keeps renamings behind the data written before them, a power failure leaves every
database as some save left it; without that the database can be empty; and in no case is a save that has returned safe from it.
-/
namespace Verif.Props
open Verif

/-- Saves to files not named `*.tmp`, through files that are. -/
def Proper (ss : List Saving) : Prop := ∀ s ∈ ss, ¬ NamedTmp s.target ∧ NamedTmp s.tmp

theorem play_append (d : Disk) (a b : List Io) : play d (a ++ b) = play (play d a) b := by
  unfold play; rw [List.foldl_append]

theorem play_cons (d : Disk) (c : Io) (b : List Io) : play d (c :: b) = play (c.apply d) b := rfl

theorem first_apply (d : Disk) (s : Saving) : (s.opens d).apply d = (d.create s.tmp).1 := by
  unfold Saving.opens Disk.create
  cases d.name s.tmp <;> rfl

theorem rename_apply {d : Disk} {p q : PPath} {i : Nat} (h : d.name p = some i) :
    (Io.rename p q).apply d = (d.setName q (some i)).setName p none := by
  show (match d.name p with | some i => _ | none => _) = _
  rw [h]

/-- Writing the pieces. -/
theorem play_writes (i : Nat) (bs : List Bytes) : ∀ (d : Disk) (pos : Nat), (d.data i).length = pos →
    (play d (writesFrom i pos bs)).name = d.name ∧ (play d (writesFrom i pos bs)).next = d.next ∧
    (play d (writesFrom i pos bs)).data i = d.data i ++ bs.flatten ∧
    ∀ j, j ≠ i → (play d (writesFrom i pos bs)).data j = d.data j := by
  induction bs with
  | nil => intro d pos _; exact ⟨rfl, rfl, by simp [writesFrom, play], fun _ _ => rfl⟩
  | cons b bs ih =>
    intro d pos hp
    have e : ((Io.write i pos b).apply d).data i = d.data i ++ b := by
      show (if i = i then _ else _) = _
      rw [if_pos rfl, ← hp, writeAt_end]
    obtain ⟨h1, h2, h3, h4⟩ := ih ((Io.write i pos b).apply d) (pos + b.length) (by rw [e, List.length_append, hp])
    rw [writesFrom, play_cons]
    refine ⟨h1, h2, ?_, fun j hj => ?_⟩
    · rw [h3, e]; simp
    · rw [h4 j hj]; exact if_neg hj

/-- The disk when the temporary file is written. -/
theorem play_builds {d : Disk} (hd : d.Ok) (s : Saving) :
    let D := play d (s.builds d)
    D.Ok ∧ D.name s.tmp = some (d.create s.tmp).2 ∧ D.data (d.create s.tmp).2 = s.pieces.flatten ∧
    (∀ q, q ≠ s.tmp → D.name q = d.name q) ∧ (∀ j, j ≠ (d.create s.tmp).2 → D.data j = d.data j) ∧ d.next ≤ D.next ∧
    (d.name s.tmp = some (d.create s.tmp).2 ∨ (d.create s.tmp).2 = d.next) := by
  intro D
  obtain ⟨k1, k2, k3, k4, k5, k6, k7⟩ := d.create_spec hd s.tmp
  have e : D = play (d.create s.tmp).1 (writesFrom (d.create s.tmp).2 0 s.pieces) := by
    show play d (Saving.builds d s) = _
    unfold Saving.builds
    rw [play_cons, first_apply]
  obtain ⟨h1, h2, h3, h4⟩ := play_writes (d.create s.tmp).2 s.pieces (d.create s.tmp).1 0 (by rw [k3]; rfl)
  rw [e]
  refine ⟨⟨fun p i h => ?_, fun p q i h h' => ?_⟩, ?_, ?_, fun q hq => ?_, fun j hj => ?_, ?_, k7⟩
  · rw [h1] at h; rw [h2]; exact k1.bound p i h
  · rw [h1] at h h'; exact k1.inj p q i h h'
  · rw [h1]; exact k2
  · rw [h3, k3]; rfl
  · rw [h1]; exact k4 q hq
  · rw [h4 j hj]; exact k5 j hj
  · rw [h2]; exact k6

/-- The disk after a save. -/
theorem play_calls {d : Disk} (hd : d.Ok) (s : Saving) :
    let D := play d (s.calls d)
    D.Ok ∧ D.name s.tmp = none ∧ (∀ q, q ≠ s.tmp → q ≠ s.target → D.name q = d.name q) ∧ d.next ≤ D.next ∧
    (∀ q, q ≠ s.tmp → D.content q = if s.target = q ∧ s.fails = none then some s.pieces.flatten else d.content q) := by
  intro D
  obtain ⟨k1, k2, k3, k4, k5, k6, k7⟩ := play_builds hd s
  have e : D = s.ends.apply (play d (s.builds d)) := by
    show play d (Saving.calls d s) = _
    unfold Saving.calls
    rw [play_append]; rfl
  have other : ∀ q, q ≠ s.tmp → ((d.name q).map (play d (s.builds d)).data) = d.content q := by
    intro q hq
    unfold Disk.content
    cases hn : d.name q with
    | none => rfl
    | some j =>
      simp only [Option.map_some, Option.some.injEq]
      refine k5 j fun hj => ?_
      rcases k7 with k7 | k7
      · exact hq (hd.inj q s.tmp j hn (hj ▸ k7))
      · have := hd.bound q j hn; omega
  rw [e]
  unfold Saving.ends
  cases hf : s.fails with
  | some x =>
    have hn : ∀ q, (Io.apply (play d (s.builds d)) (.remove s.tmp)).name q = if q = s.tmp then none else (play d (s.builds d)).name q :=
      fun q => rfl
    refine ⟨⟨fun p i h => ?_, fun p q i h h' => ?_⟩, ?_, fun q h1 h2 => ?_, k6, fun q h1 => ?_⟩
    · rw [hn] at h
      split at h
      · cases h
      · exact k1.bound p i h
    · rw [hn] at h h'
      split at h
      · cases h
      · split at h'
        · cases h'
        · exact k1.inj p q i h h'
    · rw [hn, if_pos rfl]
    · rw [hn, if_neg h1]; exact k4 q h1
    · rw [if_neg (by simp)]
      unfold Disk.content
      rw [hn, if_neg h1, k4 q h1]
      exact other q h1
  | none =>
    have hn : Io.apply (play d (s.builds d)) (.rename s.tmp s.target) =
        ((play d (s.builds d)).setName s.target (some (d.create s.tmp).2)).setName s.tmp none := rename_apply k2
    have hn' : ∀ q, (Io.apply (play d (s.builds d)) (.rename s.tmp s.target)).name q =
        if q = s.tmp then none else if q = s.target then some (d.create s.tmp).2 else (play d (s.builds d)).name q := by
      intro q; rw [hn]; rfl
    have hdata : (Io.apply (play d (s.builds d)) (.rename s.tmp s.target)).data = (play d (s.builds d)).data := by rw [hn]; rfl
    have hnext : (Io.apply (play d (s.builds d)) (.rename s.tmp s.target)).next = (play d (s.builds d)).next := by rw [hn]; rfl
    refine ⟨⟨fun p i h => ?_, fun p q i h h' => ?_⟩, ?_, fun q h1 h2 => ?_, ?_, fun q h1 => ?_⟩
    · rw [hn'] at h
      rw [hnext]
      split at h
      · cases h
      · split at h
        · exact k1.bound s.tmp i (k2.trans h)
        · exact k1.bound p i h
    · rw [hn'] at h h'
      split at h
      · cases h
      · next hp =>
        split at h'
        · cases h'
        · next hq =>
          split at h
          · next hp' =>
            split at h'
            · next hq' => exact hp'.trans hq'.symm
            · exact absurd (k1.inj s.tmp q i (k2.trans h) h').symm hq
          · split at h'
            · exact absurd (k1.inj s.tmp p i (k2.trans h') h).symm hp
            · exact k1.inj p q i h h'
    · rw [hn', if_pos rfl]
    · rw [hn', if_neg h1, if_neg h2]; exact k4 q h1
    · rw [hnext]; exact k6
    · unfold Disk.content
      rw [hn', if_neg h1, hdata]
      by_cases hq : q = s.target
      · subst hq
        rw [if_pos rfl, if_pos ⟨rfl, rfl⟩]
        exact congrArg some k3
      · rw [if_neg hq, if_neg (fun h => hq h.1.symm), k4 q h1]
        exact other q h1

theorem Proper.ne {ss : List Saving} (h : Proper ss) {s : Saving} (hs : s ∈ ss) : s.tmp ≠ s.target := by
  intro e
  have := h s hs
  rw [e] at this
  exact this.1 this.2

theorem Proper.tail {s : Saving} {ss : List Saving} (h : Proper (s :: ss)) : Proper ss := fun x hx => h x (List.mem_cons_of_mem _ hx)

theorem Proper.take {ss : List Saving} (h : Proper ss) (k : Nat) : Proper (ss.take k) := fun x hx => h x (List.mem_of_mem_take hx)

/-- What all programs see after saves: each database is as the last of them left it. -/
theorem saves_content (ss : List Saving) (hp : Proper ss) : ∀ {d : Disk}, d.Ok → ∀ q, ¬ NamedTmp q →
    (play d (callsOf d ss)).content q = (savedIn q ss).or (d.content q) ∧ (play d (callsOf d ss)).Ok := by
  induction ss with
  | nil => intro d hd q _; exact ⟨rfl, hd⟩
  | cons s ss ih =>
    intro d hd q hq
    obtain ⟨k1, _, _, _, k5⟩ := play_calls hd s
    rw [callsOf, play_append]
    obtain ⟨i1, i2⟩ := ih hp.tail k1 q hq
    refine ⟨?_, i2⟩
    rw [i1, savedIn, k5 q (fun e => hq (e ▸ (hp s List.mem_cons_self).2))]
    split
    · rw [Option.or_assoc]; rfl
    · rw [Option.or_none]

/-- A change that leaves alone what the databases on `D` are made of. -/
def Beside (D : Disk) : Io → Prop
  | .make p i => NamedTmp p ∧ D.next ≤ i
  | .empty i => (∃ p, NamedTmp p ∧ D.name p = some i) ∨ D.next ≤ i
  | .write i _ _ => (∃ p, NamedTmp p ∧ D.name p = some i) ∨ D.next ≤ i
  | .remove p => NamedTmp p
  | .rename _ _ => False

/-- A medium that has the databases of `D`. -/
def Same (D M : Disk) : Prop := ∀ q, ¬ NamedTmp q → M.name q = D.name q ∧ ∀ i, D.name q = some i → M.data i = D.data i

theorem Same.content {D M : Disk} (h : Same D M) {q : PPath} (hq : ¬ NamedTmp q) : M.content q = D.content q := by
  unfold Disk.content
  rw [(h q hq).1]
  cases hn : D.name q with
  | none => rfl
  | some i => exact congrArg some ((h q hq).2 i hn)

theorem beside_step {D M : Disk} (hD : D.Ok) (h : Same D M) {c : Io} (hc : Beside D c) : Same D (c.apply M) := by
  have file : ∀ i b, ((∃ p, NamedTmp p ∧ D.name p = some i) ∨ D.next ≤ i) → Same D (M.setData i b) := by
    intro i b hi q hq
    refine ⟨(h q hq).1, fun j hj => ?_⟩
    have hne : j ≠ i := by
      rintro rfl
      rcases hi with ⟨p, hp, hn⟩ | hn
      · exact hq (hD.inj q p j hj hn ▸ hp)
      · have := hD.bound q j hj; omega
    exact (if_neg hne).trans ((h q hq).2 j hj)
  have named : ∀ {M' : Disk} p o, Same D M' → NamedTmp p → Same D (M'.setName p o) := by
    intro M' p o h' hp q hq
    refine ⟨?_, (h' q hq).2⟩
    exact (if_neg (fun e : q = p => hq (e ▸ hp))).trans (h' q hq).1
  cases c with
  | make p i =>
    intro q hq
    have := named p (some i) (file i [] (.inr hc.2)) hc.1 q hq
    exact this
  | empty i => exact file i [] hc
  | write i pos b => exact file i _ hc
  | rename _ _ => exact hc.elim
  | remove p => exact named p none h hc

theorem beside_play {D : Disk} (hD : D.Ok) : ∀ (cs : List Io) {M : Disk}, Same D M → (∀ c ∈ cs, Beside D c) → Same D (play M cs)
  | [], _, h, _ => h
  | c :: cs, _, h, hc => beside_play hD cs (beside_step hD h (hc c List.mem_cons_self)) fun x hx => hc x (List.mem_cons_of_mem _ hx)

theorem writes_mem {i : Nat} {c : Io} : ∀ {bs : List Bytes} {pos : Nat}, c ∈ writesFrom i pos bs → ∃ p b, c = .write i p b
  | b :: bs, pos, h => by
    rcases List.mem_cons.mp h with h | h
    · exact ⟨_, _, h⟩
    · exact writes_mem h

/-- The changes before the end of a save are beside the databases, and no renamings. -/
theorem builds_beside {d : Disk} (hd : d.Ok) (s : Saving) (ht : NamedTmp s.tmp) : ∀ c ∈ s.builds d, Beside d c ∧ c.isRename = false := by
  intro c hc
  obtain ⟨_, _, _, _, _, _, k7⟩ := d.create_spec hd s.tmp
  unfold Saving.builds at hc
  rcases List.mem_cons.mp hc with rfl | hc
  · unfold Saving.opens
    cases hn : d.name s.tmp with
    | none => exact ⟨⟨ht, Nat.le_refl _⟩, rfl⟩
    | some i => exact ⟨.inl ⟨s.tmp, ht, hn⟩, rfl⟩
  · obtain ⟨p, b, rfl⟩ := writes_mem hc
    refine ⟨?_, rfl⟩
    rcases k7 with k7 | k7
    · exact .inl ⟨s.tmp, ht, k7⟩
    · exact .inr (Nat.le_of_eq k7.symm)

theorem calls_beside (ss : List Saving) (hp : Proper ss) : ∀ {d : Disk}, d.Ok → ∀ c ∈ callsOf d ss, c.isRename = false → Beside d c := by
  induction ss with
  | nil => intro d _ c hc; cases hc
  | cons s ss ih =>
    intro d hd c hc hr
    obtain ⟨_, ht⟩ := hp s List.mem_cons_self
    obtain ⟨k1, k2, k3, k4, _⟩ := play_calls hd s
    rw [callsOf] at hc
    rcases List.mem_append.mp hc with hc | hc
    · unfold Saving.calls at hc
      rcases List.mem_append.mp hc with hc | hc
      · exact (builds_beside hd s ht c hc).1
      · rw [List.mem_singleton] at hc
        subst hc
        unfold Saving.ends at hr ⊢
        cases hf : s.fails with
        | none => rw [hf] at hr; cases hr
        | some x => exact ht
    · have hb := ih hp.tail k1 c hc hr
      have up : ∀ i, ((∃ p, NamedTmp p ∧ (play d (s.calls d)).name p = some i) ∨ (play d (s.calls d)).next ≤ i) →
          (∃ p, NamedTmp p ∧ d.name p = some i) ∨ d.next ≤ i := by
        rintro i (⟨p, hp1, hp2⟩ | h)
        · refine .inl ⟨p, hp1, ?_⟩
          by_cases e : p = s.tmp
          · rw [e, k2] at hp2; cases hp2
          · rw [← k3 p e (fun e' => (hp s List.mem_cons_self).1 (e' ▸ hp1))]; exact hp2
        · exact .inr (Nat.le_trans k4 h)
      cases c with
      | make p i => exact ⟨hb.1, Nat.le_trans k4 hb.2⟩
      | empty i => exact up i hb
      | write i pos b => exact up i hb
      | rename _ _ => cases hr
      | remove p => exact hb

/-- A renaming is the end of a save. -/
theorem cut_at_rename (ss : List Saving) (hp : Proper ss) : ∀ {d : Disk}, d.Ok → ∀ (p later : List Io) (c : Io), c.isRename = true →
    callsOf d ss = (p ++ [c]) ++ later → ∃ k, k ≤ ss.length ∧ p ++ [c] = callsOf d (ss.take k) ∧
      later = callsOf (play d (p ++ [c])) (ss.drop k) := by
  induction ss with
  | nil =>
    intro d _ p later c _ h
    have := congrArg List.length h
    simp [callsOf] at this
  | cons s ss ih =>
    intro d hd p later c hc h
    obtain ⟨k1, _, _, _, _⟩ := play_calls hd s
    rw [callsOf] at h
    rcases List.append_eq_append_iff.mp h with ⟨a, ha, hl⟩ | ⟨a, ha, hl⟩
    · -- the save has ended before
      rcases List.eq_nil_or_concat a with rfl | ⟨a', c', rfl⟩
      · rw [List.append_nil] at ha
        refine ⟨1, by simp, ?_, ?_⟩
        · rw [ha]; simp [callsOf]
        · rw [ha]; simpa using hl.symm
      · rw [List.concat_eq_append, ← List.append_assoc] at ha
        obtain ⟨e1, e2⟩ := List.append_inj' ha rfl
        injection e2 with e2
        subst e2
        rw [List.concat_eq_append] at hl
        obtain ⟨k, h1, h2, h3⟩ := ih hp.tail k1 a' later c hc hl
        refine ⟨k + 1, by simp; omega, ?_, ?_⟩
        · rw [e1, List.append_assoc, h2]; rfl
        · rw [e1, List.append_assoc, play_append, h3]; rfl
    · -- it ends with or after this renaming
      rcases List.eq_nil_or_concat a with rfl | ⟨a', c', rfl⟩
      · rw [List.append_nil] at ha
        refine ⟨1, by simp, ?_, ?_⟩
        · rw [← ha]; simp [callsOf]
        · rw [← ha]; simpa using hl
      · exfalso
        unfold Saving.calls at ha
        rw [List.concat_eq_append, ← List.append_assoc] at ha
        obtain ⟨e1, _⟩ := List.append_inj' ha rfl
        have := (builds_beside hd s (hp s List.mem_cons_self).2 c (by rw [e1]; simp)).2
        rw [hc] at this
        cases this

/-- If no renaming overtakes what came before it, a power failure at any moment of any sequence of saves leaves every database as it was
after the first so many saves: complete, and all of them of the same moment. -/
theorem C92_ordered (d : Disk) (hd : d.Ok) (ss : List Saving) (hp : Proper ss) (n : Nat) (ks : List Io)
    (ho : Ordered ks ((callsOf d ss).take n)) :
    ∃ k, k ≤ ss.length ∧ ∀ q, ¬ NamedTmp q → (play d ks).content q = (savedIn q (ss.take k)).or (d.content q) := by
  obtain ⟨pre, later, rest, h1, rfl, h3, h4, h5⟩ := ho
  have hall : callsOf d ss = pre ++ (later ++ (callsOf d ss).drop n) := by
    rw [← List.append_assoc, ← h1, List.take_append_drop]
  rcases h5 with rfl | ⟨p, c, rfl, hc⟩
  · refine ⟨0, Nat.zero_le _, fun q hq => ?_⟩
    have hs : Same d (play d rest) := by
      refine beside_play hd rest (fun _ _ => ⟨rfl, fun _ _ => rfl⟩) fun c hc => ?_
      refine calls_beside ss hp hd c ?_ (h4 c hc)
      rw [hall, List.nil_append]
      exact List.mem_append_left _ (h3.subset hc)
    rw [List.nil_append, hs.content hq]
    rfl
  · obtain ⟨k, k1, k2, k3⟩ := cut_at_rename ss hp hd p _ c hc hall
    refine ⟨k, k1, fun q hq => ?_⟩
    have hD := fun q hq => saves_content (ss.take k) (hp.take k) hd q hq
    rw [← k2] at hD
    have hs : Same (play d (p ++ [c])) (play (play d (p ++ [c])) rest) := by
      refine beside_play (hD q hq).2 rest (fun _ _ => ⟨rfl, fun _ _ => rfl⟩) fun x hx => ?_
      refine calls_beside (ss.drop k) (fun y hy => hp y (List.mem_of_mem_drop hy)) (hD q hq).2 x ?_ (h4 x hx)
      rw [← k3]
      exact List.mem_append_left _ (h3.subset hx)
    rw [play_append, hs.content hq]
    exact (hD q hq).1

/-- Without a failure the saves are all there: what programs see. -/
theorem C92_seen (d : Disk) (hd : d.Ok) (ss : List Saving) (hp : Proper ss) (q : PPath) (hq : ¬ NamedTmp q) :
    (play d (callsOf d ss)).content q = (savedIn q ss).or (d.content q) := (saves_content ss hp hd q hq).1

/-- Finding: a save that has returned is not safe. Even on such a file system all saves can be lost. -/
theorem C92_not_durable (d : Disk) (ss : List Saving) : ∃ ks, Ordered ks (callsOf d ss) ∧ (play d ks).content = d.content :=
  ⟨[], ⟨[], callsOf d ss, [], rfl, rfl, List.nil_sublist _, nofun, .inl rfl⟩, rfl⟩

/-- Finding: if the renaming may reach the medium before the data, the database can be empty afterwards, the old and the new one lost. -/
theorem C92_not_unordered (d : Disk) (s : Saving) (hne : s.tmp ≠ s.target) (hf : s.fails = none) :
    ∃ ks, ks.Sublist (callsOf d [s]) ∧ (play d ks).content s.target = some [] := by
  refine ⟨[s.opens d, .rename s.tmp s.target], ?_, ?_⟩
  · rw [callsOf, callsOf, List.append_nil]
    unfold Saving.calls Saving.builds Saving.ends
    rw [hf, List.cons_append]
    exact (List.sublist_append_right _ _).cons_cons _
  · rw [play_cons, first_apply, play_cons]
    show Disk.content (Io.apply (d.create s.tmp).1 (.rename s.tmp s.target)) s.target = some []
    have k : (d.create s.tmp).1.name s.tmp = some (d.create s.tmp).2 ∧ (d.create s.tmp).1.data (d.create s.tmp).2 = [] := by
      unfold Disk.create
      cases hn : d.name s.tmp with
      | some i => exact ⟨hn, if_pos rfl⟩
      | none => exact ⟨if_pos rfl, if_pos rfl⟩
    rw [rename_apply k.1]
    unfold Disk.content
    have : (((d.create s.tmp).1.setName s.target (some (d.create s.tmp).2)).setName s.tmp none).name s.target = some (d.create s.tmp).2 := by
      show (if s.target = s.tmp then _ else if s.target = s.target then _ else _) = _
      rw [if_neg hne.symm, if_pos rfl]
    rw [this]
    exact congrArg some k.2

theorem alone_writing (s : Saving) (hne : s.tmp ≠ s.target) (i : Nat) (left : List Bytes) : ∀ (pos : Nat) (c : Scene),
    c.phase 0 = .writing i pos left → c.disk.name s.tmp = some i → ∀ n, ∃ m,
      play c.disk ((writesFrom i pos left ++ [s.ends]).take n) = (soloRun (.save s.target s.tmp s.pieces s.fails) c m).disk := by
  induction left with
  | nil =>
    intro pos c hc hn n
    cases n with
    | zero => exact ⟨0, rfl⟩
    | succ n =>
      refine ⟨2, ?_⟩
      have h1 : (Prog.save s.target s.tmp s.pieces s.fails).step c.disk 0 (c.phase 0) = (c.disk, .closed, false) := by rw [hc]; rfl
      rw [soloRun_succ, Scene.step_eq (ps := [_]) (i := 0) rfl h1, soloRun_succ]
      have h2 : (Prog.save s.target s.tmp s.pieces s.fails).step c.disk 0 .closed = c.disk.finish s.target s.tmp s.fails := rfl
      rw [Scene.step_eq (ps := [_]) (i := 0) rfl h2]
      rw [show List.take (n + 1) (writesFrom i pos [] ++ [s.ends]) = [s.ends] by simp [writesFrom]]
      show s.ends.apply c.disk = (c.disk.finish s.target s.tmp s.fails).1
      unfold Saving.ends Disk.finish
      cases s.fails with
      | none => dsimp only; rw [rename_apply hn, hn]; exact (if_neg hne).symm
      | some e => dsimp only; rw [hn]; rfl
  | cons b bs ih =>
    intro pos c hc hn n
    cases n with
    | zero => exact ⟨0, rfl⟩
    | succ n =>
      have h1 : (Prog.save s.target s.tmp s.pieces s.fails).step c.disk 0 (c.phase 0) =
          (c.disk.setData i (writeAt (c.disk.data i) pos b), .writing i (pos + b.length) bs, false) := by rw [hc]; rfl
      obtain ⟨m, hm⟩ := ih (pos + b.length) (c.step [.save s.target s.tmp s.pieces s.fails] 0 0)
        (by rw [Scene.step_eq (ps := [_]) (i := 0) rfl h1]; rfl)
        (by rw [Scene.step_eq (ps := [_]) (i := 0) rfl h1]; exact hn) n
      refine ⟨m + 1, ?_⟩
      rw [soloRun_succ, ← hm, Scene.step_eq (ps := [_]) (i := 0) rfl h1]
      rfl

/-- The changes of a save are those of the program of C86 (and so of C11): what all see after any number of them is what all see at some
moment of that program. -/
theorem C92_alone (d : Disk) (hd : d.Ok) (s : Saving) (hne : s.tmp ≠ s.target) (n : Nat) :
    ∃ m, play d ((s.calls d).take n) = (soloRun (.save s.target s.tmp s.pieces s.fails) (Scene.start d) m).disk := by
  cases n with
  | zero => exact ⟨0, rfl⟩
  | succ n =>
    have h1 : (Prog.save s.target s.tmp s.pieces s.fails).step (Scene.start d).disk 0 ((Scene.start d).phase 0) =
        ((d.create s.tmp).1, .writing (d.create s.tmp).2 0 s.pieces, false) := rfl
    obtain ⟨m, hm⟩ := alone_writing s hne (d.create s.tmp).2 s.pieces 0 ((Scene.start d).step [.save s.target s.tmp s.pieces s.fails] 0 0)
      (by rw [Scene.step_eq (ps := [_]) (i := 0) rfl h1]; rfl)
      (by rw [Scene.step_eq (ps := [_]) (i := 0) rfl h1]; exact (d.create_spec hd s.tmp).2.1) n
    refine ⟨m + 1, ?_⟩
    rw [soloRun_succ, ← hm, Scene.step_eq (ps := [_]) (i := 0) rfl h1]
    unfold Saving.calls Saving.builds
    rw [List.cons_append, List.take_succ_cons, play_cons, first_apply]

/-- Sessions that save to files not named `*.tmp`: on such a file system every database holds, after a power failure, what it held at the
start or the complete bytes one of the sessions built for it. -/
theorem C92_sessions (d : Disk) (hd : d.Ok) (ss : List Saving)
    (hss : ∀ s ∈ ss, ∃ o p res, o.Faithful ∧ ¬ NamedTmp (PPath.ofStr p) ∧ Saving.ofSave o (PPath.ofStr p) res = .ok s)
    (n : Nat) (ks : List Io) (ho : Ordered ks ((callsOf d ss).take n)) (q : PPath) (hq : ¬ NamedTmp q) :
    (play d ks).content q = d.content q ∨
    ∃ s ∈ ss, ∃ o out, o.Faithful ∧ Saving.ofSave o q (.ok out) = .ok s ∧ (play d ks).content q = some out := by
  have hp : Proper ss := by
    intro s hs
    obtain ⟨o, p, res, _, hn, h⟩ := hss s hs
    unfold Saving.ofSave at h
    cases hw : (PPath.ofStr p).withTmp with
    | error e => rw [hw] at h; cases h
    | ok tmp =>
      rw [hw] at h
      dsimp only at h
      split at h <;> (injection h with h; subst h; exact ⟨hn, withTmp_named hw⟩)
  obtain ⟨k, _, h⟩ := C92_ordered d hd ss hp n ks ho
  rw [h q hq]
  cases hs : savedIn q (ss.take k) with
  | none => exact .inl rfl
  | some v =>
    refine .inr ?_
    have key : ∀ l : List Saving, savedIn q l = some v → ∃ s ∈ l, s.target = q ∧ s.fails = none ∧ v = s.pieces.flatten := by
      intro l
      induction l with
      | nil => nofun
      | cons s l ih =>
        intro hl
        rw [savedIn] at hl
        cases hr : savedIn q l with
        | some w =>
          rw [hr] at hl
          obtain ⟨x, hx, hh⟩ := ih (hr.trans hl)
          exact ⟨x, List.mem_cons_of_mem _ hx, hh⟩
        | none =>
          rw [hr] at hl
          by_cases hc : s.target = q ∧ s.fails = none
          · rw [if_pos hc] at hl
            exact ⟨s, List.mem_cons_self, hc.1, hc.2, (Option.some.inj hl).symm⟩
          · rw [if_neg hc] at hl; cases hl
    obtain ⟨s, hm, ht, hf, hv⟩ := key _ hs
    have hm' := List.mem_of_mem_take hm
    obtain ⟨o, p, res, hfa, hn, hof⟩ := hss s hm'
    refine ⟨s, hm', o, v, hfa, ?_, rfl⟩
    unfold Saving.ofSave at hof ⊢
    cases hw : (PPath.ofStr p).withTmp with
    | error e => rw [hw] at hof; cases hof
    | ok tmp =>
      rw [hw] at hof
      dsimp only at hof
      have hq' : PPath.ofStr p = q := by
        rw [← ht]
        split at hof <;> (injection hof with hof; subst hof; rfl)
      rw [← hq', hw]
      dsimp only
      cases res with
      | error e =>
        exfalso
        unfold Os.writes at hof
        dsimp only at hof
        injection hof with hof
        rw [← hof] at hf
        cases hf
      | ok out =>
        have : out = v := by
          unfold Os.writes at hof
          cases hi : o.ioError with
          | some k =>
            rw [hi] at hof
            dsimp only at hof
            injection hof with hof
            rw [← hof] at hf
            cases hf
          | none =>
            rw [hi] at hof
            dsimp only at hof
            injection hof with hof
            rw [hv, ← hof]
            exact (hfa out).symm
        rw [this] at hof
        exact hof

/-- Two saves of one database, in the middle of the second: the first has reached the medium, of the second the name of the temporary file
and its last piece. -/
def twoSaves : List Saving :=
  [⟨PPath.ofStr "dir/a.kdbx".toList, PPath.ofStr "dir/a.tmp".toList, [[2], [3, 4]], none⟩,
   ⟨PPath.ofStr "dir/a.kdbx".toList, PPath.ofStr "dir/a.tmp".toList, [[5], [6]], none⟩]

example : oneFile.Ok ∧ Proper twoSaves ∧
    Ordered ((callsOf oneFile twoSaves).take 5 ++ ((callsOf oneFile twoSaves).drop 6).take 1) ((callsOf oneFile twoSaves).take 7) := by
  refine ⟨⟨fun p i h => ?_, fun p q i h h' => ?_⟩, ?_, ⟨(callsOf oneFile twoSaves).take 4, ((callsOf oneFile twoSaves).drop 4).take 3,
    ((callsOf oneFile twoSaves).drop 4).take 1 ++ ((callsOf oneFile twoSaves).drop 6).take 1, rfl, rfl, ?_, ?_, .inr ⟨(callsOf oneFile twoSaves).take 3, twoSaves[0].ends, rfl, rfl⟩⟩⟩
  · simp only [oneFile] at h ⊢
    split at h
    · injection h with h; omega
    · cases h
  · simp only [oneFile] at h h'
    split at h
    · split at h'
      · next e e' => exact e.trans e'.symm
      · cases h'
    · cases h
  · have t : ¬ NamedTmp (PPath.ofStr "dir/a.kdbx".toList) ∧ NamedTmp (PPath.ofStr "dir/a.tmp".toList) := by
      refine ⟨?_, ["dir".toList], "a".toList, by decide, by decide⟩
      rintro ⟨dir, stem, _, h⟩
      have e : (PPath.ofStr "dir/a.kdbx".toList).parts = ["dir".toList] ++ ["a.kdbx".toList] := by decide
      rw [e] at h
      have := (List.append_inj' h rfl).2
      injection this with this
      have := congrArg List.getLast? this
      rw [List.getLast?_append, show "a.kdbx".toList.getLast? = some 'x' by decide, show ".tmp".toList.getLast? = some 'p' by decide] at this
      exact absurd (Option.some.inj this) (by decide)
    intro s hs
    rcases List.mem_cons.mp hs with rfl | hs
    · exact t
    · rw [List.mem_singleton.mp hs]; exact t
  · exact (List.Sublist.refl _).append ((List.sublist_cons_self _ _)) 
  · decide

/-- After the failure the database is the first save. -/
example : (play oneFile ((callsOf oneFile twoSaves).take 5 ++ ((callsOf oneFile twoSaves).drop 6).take 1)).content
    (PPath.ofStr "dir/a.kdbx".toList) = some [2, 3, 4] := by decide

end Verif.Props
