import Verif.Spec.Together
/-!
# Lemmas about several programs at one disk
-/
namespace Verif

theorem writeAt_end (b x : Bytes) : writeAt b b.length x = b ++ x := by
  unfold writeAt
  split
  · next h => rw [h, List.append_nil]
  · simp

section
variable {d : Disk}

theorem Disk.setName_name (p q : PPath) (i : Option Nat) : (d.setName p i).name q = if q = p then i else d.name q := rfl

theorem Disk.setData_data (i j : Nat) (b : Bytes) : (d.setData i b).data j = if j = i then b else d.data j := rfl

end

/-- What holds in every scene of an orderly interleaving. -/
structure Settled (ps : List Prog) (d : Disk) (c : Scene) : Prop where
  ok : c.disk.Ok
  writing : ∀ i t tmp a e ino pos left, ps[i]? = some (Prog.save t tmp a e) → c.phase i = .writing ino pos left →
    c.disk.name tmp = some ino ∧ (c.disk.data ino).length = pos ∧ c.disk.data ino ++ left.flatten = a.flatten
  closed : ∀ i t tmp a e, ps[i]? = some (Prog.save t tmp a e) → c.phase i = .closed →
    ∃ ino, c.disk.name tmp = some ino ∧ c.disk.data ino = a.flatten
  done : ∀ i t tmp a e r, ps[i]? = some (Prog.save t tmp a e) → c.phase i = .done r →
    r = (match e with | none => .ok [] | some x => .error x) ∧ (e = none → i ∈ c.log) ∧
    (c.disk.name tmp = none ∨ ∃ j t' a' e', ps[j]? = some (Prog.save t' tmp a' e') ∧ (c.phase j).saving = true)
  logged : ∀ i, i ∈ c.log → ∃ t tmp a, ps[i]? = some (Prog.save t tmp a none) ∧ c.phase i = .done (.ok [])
  target : ∀ q, ¬ IsTmp ps q → c.disk.content q = (lastSaved ps q c.log).or (d.content q)
  reading : ∀ i p ino got, ps[i]? = some (Prog.load p) → ¬ IsTmp ps p → c.phase i = .reading ino got →
    ino < c.disk.next ∧ (∀ q, IsTmp ps q → c.disk.name q ≠ some ino) ∧
    Version ps d c.log p (c.disk.data ino) ∧ got <+: c.disk.data ino
  read : ∀ i p r, ps[i]? = some (Prog.load p) → ¬ IsTmp ps p → c.phase i = .done r →
    (r = .error .os ∧ d.content p = none) ∨ ∃ v, r = .ok v ∧ Version ps d c.log p v

theorem lastSaved_version {ps : List Prog} {d : Disk} {log : List Nat} {q : PPath} {v : Bytes}
    (h : (lastSaved ps q log).or (d.content q) = some v) : Version ps d log q v := by
  induction log with
  | nil => exact .inl (by rw [lastSaved] at h; exact h)
  | cons i is ih =>
    have key : (lastSaved ps q is).or (d.content q) = some v → Version ps d (i :: is) q v := by
      intro h'
      rcases ih h' with h1 | ⟨j, t, a, e, hj, h1, h2⟩
      · exact .inl h1
      · exact .inr ⟨j, t, a, e, List.mem_cons_of_mem _ hj, h1, h2⟩
    unfold lastSaved at h
    split at h
    · next t tmp a e hp =>
      split at h
      · next ht =>
        subst ht
        refine .inr ⟨i, tmp, a, e, List.mem_cons_self, hp, ?_⟩
        exact (Option.some.inj h).symm
      · exact key h
    · exact key h

theorem Version.mono {ps : List Prog} {d : Disk} {log : List Nat} {p : PPath} {v : Bytes} (i : Nat)
    (h : Version ps d log p v) : Version ps d (i :: log) p v := by
  rcases h with h | ⟨j, t, a, e, hj, h1, h2⟩
  · exact .inl h
  · exact .inr ⟨j, t, a, e, List.mem_cons_of_mem _ hj, h1, h2⟩

theorem Settled.begin (ps : List Prog) {d : Disk} (h : d.Ok) : Settled ps d (Scene.start d) where
  ok := h
  writing := by intro i t tmp a e ino pos left _ hp; cases hp
  closed := by intro i t tmp a e _ hp; cases hp
  done := by intro i t tmp a e r _ hp; cases hp
  logged := by intro i hi; cases hi
  target := by intro q _; rfl
  reading := by intro i p ino got _ _ hp; cases hp
  read := by intro i p r _ _ hp; cases hp

theorem Disk.create_spec (d : Disk) (h : d.Ok) (p : PPath) :
    (d.create p).1.Ok ∧ (d.create p).1.name p = some (d.create p).2 ∧
    (d.create p).1.data (d.create p).2 = [] ∧
    (∀ q, q ≠ p → (d.create p).1.name q = d.name q) ∧
    (∀ j, j ≠ (d.create p).2 → (d.create p).1.data j = d.data j) ∧
    d.next ≤ (d.create p).1.next ∧
    (d.name p = some (d.create p).2 ∨ (d.create p).2 = d.next) := by
  unfold Disk.create
  cases hn : d.name p with
  | some i =>
    refine ⟨⟨h.bound, h.inj⟩, hn, ?_, fun _ _ => rfl, ?_, Nat.le_refl _, .inl rfl⟩
    · exact if_pos rfl
    · intro j hj; exact if_neg hj
  | none =>
    have h1 : ∀ q, q ≠ p → (d.setName p (some d.next)).name q = d.name q := fun q hq => if_neg hq
    refine ⟨⟨?_, ?_⟩, if_pos rfl, if_pos rfl, h1, ?_, Nat.le_succ _, .inr rfl⟩
    · intro q i hq
      change (d.setName p (some d.next)).name q = some i at hq
      rw [Disk.setName_name] at hq
      split at hq
      · have := Option.some.inj hq
        show i < d.next + 1
        omega
      · have := h.bound q i hq
        show i < d.next + 1
        omega
    · intro q r i hq hr
      change (d.setName p (some d.next)).name q = some i at hq
      change (d.setName p (some d.next)).name r = some i at hr
      rw [Disk.setName_name] at hq hr
      split at hq <;> split at hr
      · next a b => rw [a, b]
      · have := Option.some.inj hq
        have := h.bound r i hr
        omega
      · have := Option.some.inj hr
        have := h.bound q i hq
        omega
      · exact h.inj q r i hq hr
    · intro j hj; exact if_neg hj

theorem Scene.step_eq {ps : List Prog} {c : Scene} {i n : Nat} {p : Prog} {d' : Disk} {ph : Phase} {b : Bool}
    (hp : ps[i]? = some p) (hs : p.step c.disk n (c.phase i) = (d', ph, b)) :
    c.step ps i n = ⟨d', fun j => if j = i then ph else c.phase j, if b then i :: c.log else c.log⟩ := by
  unfold Scene.step
  rw [hp]
  simp only [hs]

/-- One program moves and the others find their files as they were. -/
theorem Settled.move {ps : List Prog} {d : Disk} {c : Scene} (h : Settled ps d c) {i : Nat} {d' : Disk}
    {ph : Phase} {log : List Nat}
    (hok : d'.Ok) (hnext : c.disk.next ≤ d'.next) (hlog : log = c.log ∨ log = i :: c.log)
    (hkeep : ∀ j t tmp a e, j ≠ i → ps[j]? = some (Prog.save t tmp a e) → (c.phase j).saving = true →
      d'.name tmp = c.disk.name tmp ∧ ∀ ino, c.disk.name tmp = some ino → d'.data ino = c.disk.data ino)
    (hnone : ∀ q, IsTmp ps q → c.disk.name q = none → d'.name q = none ∨
      ph.saving = true ∧ ∃ t a e, ps[i]? = some (Prog.save t q a e))
    (hstop : ∀ t tmp a e, ps[i]? = some (Prog.save t tmp a e) → (c.phase i).saving = true →
      ph.saving = true ∨ d'.name tmp = none)
    (hnd : ∀ r, c.phase i ≠ .done r)
    (htarget : ∀ q, ¬ IsTmp ps q → d'.content q = (lastSaved ps q log).or (d.content q))
    (hread : ∀ ino, ino < c.disk.next → (∀ q, IsTmp ps q → c.disk.name q ≠ some ino) →
      d'.data ino = c.disk.data ino ∧ ∀ q, IsTmp ps q → d'.name q ≠ some ino)
    (hW : ∀ t tmp a e ino pos left, ps[i]? = some (Prog.save t tmp a e) → ph = .writing ino pos left →
      d'.name tmp = some ino ∧ (d'.data ino).length = pos ∧ d'.data ino ++ left.flatten = a.flatten)
    (hC : ∀ t tmp a e, ps[i]? = some (Prog.save t tmp a e) → ph = .closed →
      ∃ ino, d'.name tmp = some ino ∧ d'.data ino = a.flatten)
    (hD : ∀ t tmp a e r, ps[i]? = some (Prog.save t tmp a e) → ph = .done r →
      r = (match e with | none => .ok [] | some x => .error x) ∧ (e = none → i ∈ log) ∧ d'.name tmp = none)
    (hL : log = i :: c.log → ∃ t tmp a, ps[i]? = some (Prog.save t tmp a none) ∧ ph = .done (.ok []))
    (hR : ∀ p ino got, ps[i]? = some (Prog.load p) → ¬ IsTmp ps p → ph = .reading ino got →
      ino < d'.next ∧ (∀ q, IsTmp ps q → d'.name q ≠ some ino) ∧
      Version ps d log p (d'.data ino) ∧ got <+: d'.data ino)
    (hE : ∀ p r, ps[i]? = some (Prog.load p) → ¬ IsTmp ps p → ph = .done r →
      (r = .error .os ∧ d.content p = none) ∨ ∃ v, r = .ok v ∧ Version ps d log p v) :
    Settled ps d ⟨d', fun j => if j = i then ph else c.phase j, log⟩ := by
  have mono : ∀ {p v}, Version ps d c.log p v → Version ps d log p v := by
    intro p v hv
    rcases hlog with rfl | rfl
    · exact hv
    · exact hv.mono i
  have old : ∀ {j}, j ≠ i → (if j = i then ph else c.phase j) = c.phase j := fun hj => if_neg hj
  refine ⟨hok, ?_, ?_, ?_, ?_, htarget, ?_, ?_⟩
  · intro j t tmp a e ino pos left hp hph
    by_cases hj : j = i
    · subst hj
      exact hW t tmp a e ino pos left hp ((if_pos rfl).symm.trans hph)
    · have hph' := (old hj).symm.trans hph
      obtain ⟨h1, h2, h3⟩ := h.writing j t tmp a e ino pos left hp hph'
      obtain ⟨k1, k2⟩ := hkeep j t tmp a e hj hp (by rw [hph']; rfl)
      show d'.name tmp = some ino ∧ (d'.data ino).length = pos ∧ d'.data ino ++ left.flatten = a.flatten
      rw [k1, k2 ino h1]
      exact ⟨h1, h2, h3⟩
  · intro j t tmp a e hp hph
    by_cases hj : j = i
    · subst hj
      exact hC t tmp a e hp ((if_pos rfl).symm.trans hph)
    · have hph' := (old hj).symm.trans hph
      obtain ⟨ino, h1, h2⟩ := h.closed j t tmp a e hp hph'
      obtain ⟨k1, k2⟩ := hkeep j t tmp a e hj hp (by rw [hph']; rfl)
      exact ⟨ino, k1.trans h1, (k2 ino h1).trans h2⟩
  · intro j t tmp a e r hp hph
    by_cases hj : j = i
    · subst hj
      obtain ⟨h1, h2, h3⟩ := hD t tmp a e r hp ((if_pos rfl).symm.trans hph)
      exact ⟨h1, h2, .inl h3⟩
    · obtain ⟨h1, h2, h3⟩ := h.done j t tmp a e r hp ((old hj).symm.trans hph)
      refine ⟨h1, fun he => ?_, ?_⟩
      · rcases hlog with rfl | rfl
        · exact h2 he
        · exact List.mem_cons_of_mem _ (h2 he)
      · rcases h3 with h3 | ⟨k, t', a', e', hk, hs⟩
        · rcases hnone tmp ⟨j, t, a, e, hp⟩ h3 with h4 | ⟨h4, t', a', e', h5⟩
          · exact .inl h4
          · exact .inr ⟨i, t', a', e', h5, by dsimp only; rw [if_pos rfl]; exact h4⟩
        · by_cases hki : k = i
          · subst hki
            rcases hstop t' tmp a' e' hk hs with h4 | h4
            · exact .inr ⟨k, t', a', e', hk, by dsimp only; rw [if_pos rfl]; exact h4⟩
            · exact .inl h4
          · exact .inr ⟨k, t', a', e', hk, by dsimp only; rw [if_neg hki]; exact hs⟩
  · intro j hj
    have main : j ∈ c.log → ∃ t tmp a, ps[j]? = some (Prog.save t tmp a none) ∧
        (if j = i then ph else c.phase j) = .done (.ok []) := by
      intro hj
      obtain ⟨t, tmp, a, h1, h2⟩ := h.logged j hj
      refine ⟨t, tmp, a, h1, ?_⟩
      rw [if_neg (fun e => hnd _ (e ▸ h2))]
      exact h2
    rcases hlog with hl | hl
    · rw [hl] at hj
      exact main hj
    · change j ∈ log at hj
      rw [hl] at hj
      rcases List.mem_cons.mp hj with hji | hj
      · subst hji
        obtain ⟨t, tmp, a, h1, h2⟩ := hL hl
        exact ⟨t, tmp, a, h1, by dsimp only; rw [if_pos rfl]; exact h2⟩
      · exact main hj
  · intro j p ino got hp ht hph
    by_cases hj : j = i
    · subst hj
      exact hR p ino got hp ht ((if_pos rfl).symm.trans hph)
    · obtain ⟨h1, h2, h3, h4⟩ := h.reading j p ino got hp ht ((old hj).symm.trans hph)
      obtain ⟨k1, k2⟩ := hread ino h1 h2
      show ino < d'.next ∧ (∀ q, IsTmp ps q → d'.name q ≠ some ino) ∧ Version ps d log p (d'.data ino) ∧ got <+: d'.data ino
      rw [k1]
      exact ⟨Nat.lt_of_lt_of_le h1 hnext, k2, mono h3, h4⟩
  · intro j p r hp ht hph
    by_cases hj : j = i
    · subst hj
      exact hE p r hp ht ((if_pos rfl).symm.trans hph)
    · rcases h.read j p r hp ht ((old hj).symm.trans hph) with h1 | ⟨v, h1, h2⟩
      · exact .inl h1
      · exact .inr ⟨v, h1, mono h2⟩

/-- Two saves through one temporary file are not under way together, so another one's temporary
file is another one. -/
theorem Orderly.other {ps : List Prog} {c : Scene} (h : Orderly ps c) {i j : Nat} {t t' tmp tmp' : PPath}
    {a a' : List Bytes} {e e' : Option PyErr} (hij : j ≠ i) (hp : ps[i]? = some (Prog.save t tmp a e))
    (hi : (c.phase i).saving = true) (hq : ps[j]? = some (Prog.save t' tmp' a' e'))
    (hj : (c.phase j).saving = true) : tmp' ≠ tmp := by
  intro ht
  subst ht
  exact h i j t t' tmp' a a' e e' (Ne.symm hij) hp hq hi hj

theorem Settled.step {ps : List Prog} {d : Disk} {c : Scene} (h : Settled ps d c) (ho : Orderly ps c)
    (sep : ∀ (i : Nat) t tmp a e, ps[i]? = some (Prog.save t tmp a e) → ¬ IsTmp ps t) (i n : Nat)
    (ho' : Orderly ps (c.step ps i n)) : Settled ps d (c.step ps i n) := by
  cases hp : ps[i]? with
  | none =>
    have : c.step ps i n = c := by unfold Scene.step; rw [hp]
    rw [this]
    exact h
  | some p =>
    have same : (p.step c.disk n (c.phase i)) = (c.disk, c.phase i, false) → Settled ps d (c.step ps i n) := by
      intro hs
      rw [Scene.step_eq hp hs]
      have : (fun j => if j = i then c.phase i else c.phase j) = c.phase := by
        funext j
        split
        · next e => rw [e]
        · rfl
      rw [this]
      exact h
    have keepAll : ∀ q : PPath, ¬ IsTmp ps q → c.disk.content q = (lastSaved ps q c.log).or (d.content q) := h.target
    cases p with
    | save t tmp a e =>
      cases hph : c.phase i with
      | idle =>
        have hs : (Prog.save t tmp a e).step c.disk n (c.phase i) =
            ((c.disk.create tmp).1, .writing (c.disk.create tmp).2 0 a, false) := by rw [hph]; rfl
        obtain ⟨k1, k2, k3, k4, k5, k6, k7⟩ := c.disk.create_spec h.ok tmp
        rw [Scene.step_eq hp hs] at ho' ⊢
        have hne : ∀ q ino, q ≠ tmp → c.disk.name q = some ino → ino ≠ (c.disk.create tmp).2 := by
          intro q ino hq hn he
          rcases k7 with k7 | k7
          · exact hq (h.ok.inj q tmp ino hn (he ▸ k7))
          · have := h.ok.bound q ino hn
            omega
        refine h.move (i := i) k1 k6 (.inl rfl) ?_ ?_ ?_ ?_ ?_ ?_ ?_ ?_ ?_ ?_ ?_ ?_
        · intro j t' tmp' a' e' hj hq hsv
          have hne' : tmp' ≠ tmp := by
            refine ho'.other (i := i) (j := j) hj hp ?_ hq ?_
            · dsimp only; rw [if_pos rfl]; rfl
            · dsimp only; rw [if_neg hj]; exact hsv
          exact ⟨k4 tmp' hne', fun ino hn => k5 ino (hne tmp' ino hne' hn)⟩
        · intro q _ hq
          by_cases hqt : q = tmp
          · subst hqt
            exact .inr ⟨rfl, t, a, e, hp⟩
          · exact .inl ((k4 q hqt).trans hq)
        · intro _ _ _ _ _ hsv
          exact .inl rfl
        · intro r hr
          rw [hph] at hr
          cases hr
        · intro q hq
          have hqt : q ≠ tmp := fun he => hq ⟨i, t, a, e, he ▸ hp⟩
          rw [if_neg (by decide), ← keepAll q hq]
          unfold Disk.content
          rw [k4 q hqt]
          cases hn : c.disk.name q with
          | none => rfl
          | some ino =>
            simp only [Option.map_some]
            rw [k5 ino (hne q ino hqt hn)]
        · intro ino hlt hno
          have hine : ino ≠ (c.disk.create tmp).2 := by
            intro he
            rcases k7 with k7 | k7
            · exact hno tmp ⟨i, t, a, e, hp⟩ (he ▸ k7)
            · omega
          refine ⟨k5 ino hine, fun q hq hn => ?_⟩
          by_cases hqt : q = tmp
          · subst hqt
            rw [k2] at hn
            exact hine (Option.some.inj hn).symm
          · rw [k4 q hqt] at hn
            exact hno q hq hn
        · intro t' tmp' a' e' ino pos left hq hw
          rw [hp] at hq
          injection hq with hq
          injection hq with _ hq2 hq3 _
          injection hw with hw1 hw2 hw3
          subst hq2 hq3 hw1 hw2 hw3
          rw [k3]
          exact ⟨k2, rfl, rfl⟩
        · intro _ _ _ _ _ hw
          cases hw
        · intro _ _ _ _ _ _ hw
          cases hw
        · intro hl
          exact absurd (congrArg List.length hl) (by simp)
        · intro _ _ _ hq
          rw [hp] at hq
          cases hq
        · intro _ _ hq
          rw [hp] at hq
          cases hq
      | writing ino pos left =>
        obtain ⟨w1, w2, w3⟩ := h.writing i t tmp a e ino pos left hp hph
        have hsvi : (c.phase i).saving = true := by rw [hph]; rfl
        cases left with
        | nil =>
          have hs : (Prog.save t tmp a e).step c.disk n (c.phase i) = (c.disk, .closed, false) := by rw [hph]; rfl
          rw [Scene.step_eq hp hs]
          refine h.move (i := i) h.ok (Nat.le_refl _) (.inl rfl) ?_ ?_ ?_ ?_ ?_ ?_ ?_ ?_ ?_ ?_ ?_ ?_
          · intro j t' tmp' a' e' _ _ _
            exact ⟨rfl, fun _ _ => rfl⟩
          · intro q _ hq
            exact .inl hq
          · intro _ _ _ _ _ _
            exact .inl rfl
          · intro r hr
            rw [hph] at hr
            cases hr
          · intro q hq
            rw [if_neg (by decide)]
            exact keepAll q hq
          · intro ino _ hno
            exact ⟨rfl, hno⟩
          · intro _ _ _ _ _ _ _ _ hw
            cases hw
          · intro t' tmp' a' e' hq _
            rw [hp] at hq
            injection hq with hq
            injection hq with _ hq2 hq3 _
            subst hq2 hq3
            refine ⟨ino, w1, ?_⟩
            rw [List.flatten_nil, List.append_nil] at w3
            exact w3
          · intro _ _ _ _ _ _ hw
            cases hw
          · intro hl
            exact absurd (congrArg List.length hl) (by simp)
          · intro _ _ _ hq
            rw [hp] at hq
            cases hq
          · intro _ _ hq
            rw [hp] at hq
            cases hq
        | cons b bs =>
          have hs : (Prog.save t tmp a e).step c.disk n (c.phase i) =
              (c.disk.setData ino (writeAt (c.disk.data ino) pos b), .writing ino (pos + b.length) bs, false) := by
            rw [hph]; rfl
          have other : ∀ j, j ≠ ino → (c.disk.setData ino (writeAt (c.disk.data ino) pos b)).data j = c.disk.data j :=
            fun j hj => if_neg hj
          rw [Scene.step_eq hp hs]
          refine h.move (i := i) ⟨h.ok.bound, h.ok.inj⟩ (Nat.le_refl _) (.inl rfl) ?_ ?_ ?_ ?_ ?_ ?_ ?_ ?_ ?_ ?_ ?_ ?_
          · intro j t' tmp' a' e' hj hq hsv
            have hne' : tmp' ≠ tmp := ho.other hj hp hsvi hq hsv
            exact ⟨rfl, fun k hn => other k fun he => hne' (h.ok.inj tmp' tmp k hn (he ▸ w1))⟩
          · intro q _ hq
            exact .inl hq
          · intro _ _ _ _ _ _
            exact .inl rfl
          · intro r hr
            rw [hph] at hr
            cases hr
          · intro q hq
            have hqt : q ≠ tmp := fun he => hq ⟨i, t, a, e, he ▸ hp⟩
            rw [if_neg (by decide), ← keepAll q hq]
            show (c.disk.name q).map _ = (c.disk.name q).map _
            cases hn : c.disk.name q with
            | none => rfl
            | some k =>
              simp only [Option.map_some]
              rw [other k fun he => hqt (h.ok.inj q tmp k hn (he ▸ w1))]
          · intro k _ hno
            exact ⟨other k fun he => hno tmp ⟨i, t, a, e, hp⟩ (he ▸ w1), hno⟩
          · intro t' tmp' a' e' k pos' left' hq hw
            rw [hp] at hq
            injection hq with hq
            injection hq with _ hq2 hq3 _
            injection hw with hw1 hw2 hw3
            subst hq2 hq3 hw1 hw2 hw3
            have hd : (c.disk.setData ino (writeAt (c.disk.data ino) pos b)).data ino = c.disk.data ino ++ b := by
              rw [Disk.setData_data, if_pos rfl, ← w2, writeAt_end]
            rw [hd, List.length_append, w2, List.append_assoc]
            rw [List.flatten_cons] at w3
            exact ⟨w1, rfl, w3⟩
          · intro _ _ _ _ _ hw
            cases hw
          · intro _ _ _ _ _ _ hw
            cases hw
          · intro hl
            exact absurd (congrArg List.length hl) (by simp)
          · intro _ _ _ hq
            rw [hp] at hq
            cases hq
          · intro _ _ hq
            rw [hp] at hq
            cases hq
      | closed =>
        obtain ⟨ino, w1, w2⟩ := h.closed i t tmp a e hp hph
        have hsvi : (c.phase i).saving = true := by rw [hph]; rfl
        have hst := sep i t tmp a e hp
        have hne : tmp ≠ t := fun he => hst ⟨i, t, a, e, he ▸ hp⟩
        cases e with
        | none =>
          have hs : (Prog.save t tmp a none).step c.disk n (c.phase i) =
              ((c.disk.setName t (some ino)).setName tmp none, .done (.ok []), true) := by
            rw [hph]
            show c.disk.finish t tmp none = _
            unfold Disk.finish
            rw [w1]
            simp only [if_neg hne]
          have nm : ∀ q, ((c.disk.setName t (some ino)).setName tmp none).name q =
              if q = tmp then none else if q = t then some ino else c.disk.name q := fun q => rfl
          have nmt : ∀ q, IsTmp ps q → q ≠ tmp →
              ((c.disk.setName t (some ino)).setName tmp none).name q = c.disk.name q := by
            intro q hq hqt
            rw [nm, if_neg hqt, if_neg (fun (he : q = t) => hst (he ▸ hq))]
          rw [Scene.step_eq hp hs]
          refine h.move (i := i) ⟨?_, ?_⟩ (Nat.le_refl _) (.inr rfl) ?_ ?_ ?_ ?_ ?_ ?_ ?_ ?_ ?_ ?_ ?_ ?_
          · intro q k hq
            rw [nm] at hq
            split at hq
            · cases hq
            · split at hq
              · exact h.ok.bound tmp k (Option.some.inj hq ▸ w1)
              · exact h.ok.bound q k hq
          · intro q r k hq hr
            rw [nm] at hq hr
            split at hq
            · cases hq
            · next hqt =>
              split at hr
              · cases hr
              · next hrt =>
                split at hq <;> split at hr
                · next x y => rw [x, y]
                · exact absurd (h.ok.inj r tmp k hr (Option.some.inj hq ▸ w1)) hrt
                · exact absurd (h.ok.inj q tmp k hq (Option.some.inj hr ▸ w1)) hqt
                · exact h.ok.inj q r k hq hr
          · intro j t' tmp' a' e' hj hq hsv
            have hne' : tmp' ≠ tmp := ho.other hj hp hsvi hq hsv
            exact ⟨nmt tmp' ⟨j, t', a', e', hq⟩ hne', fun _ _ => rfl⟩
          · intro q hq hqn
            by_cases hqt : q = tmp
            · exact .inl (by rw [nm, if_pos hqt])
            · exact .inl ((nmt q hq hqt).trans hqn)
          · intro t' tmp' a' e' hq _
            rw [hp] at hq
            injection hq with hq
            injection hq with _ hq2 _ _
            subst hq2
            exact .inr (by rw [nm, if_pos rfl])
          · intro r hr
            rw [hph] at hr
            cases hr
          · intro q hq
            have hqt : q ≠ tmp := fun he => hq ⟨i, t, a, none, he ▸ hp⟩
            rw [if_pos rfl]
            unfold Disk.content
            rw [nm, if_neg hqt]
            unfold lastSaved
            rw [hp]
            simp only
            by_cases hqe : q = t
            · subst hqe
              rw [if_pos rfl, if_pos rfl]
              show some (c.disk.data ino) = _
              rw [w2]
              rfl
            · rw [if_neg hqe, if_neg (Ne.symm hqe)]
              exact keepAll q hq
          · intro k _ hno
            refine ⟨rfl, fun q hq => ?_⟩
            by_cases hqt : q = tmp
            · rw [nm, if_pos hqt]
              nofun
            · rw [nmt q hq hqt]
              exact hno q hq
          · intro _ _ _ _ _ _ _ _ hw
            cases hw
          · intro _ _ _ _ _ hw
            cases hw
          · intro t' tmp' a' e' r hq hw
            rw [hp] at hq
            injection hq with hq
            injection hq with _ hq2 _ hq4
            injection hw with hw
            subst hq2 hq4 hw
            exact ⟨rfl, fun _ => by rw [if_pos rfl]; exact List.mem_cons_self, by rw [nm, if_pos rfl]⟩
          · intro _
            exact ⟨t, tmp, a, hp, rfl⟩
          · intro _ _ _ hq
            rw [hp] at hq
            cases hq
          · intro _ _ hq
            rw [hp] at hq
            cases hq
        | some x =>
          have hs : (Prog.save t tmp a (some x)).step c.disk n (c.phase i) =
              (c.disk.setName tmp none, .done (.error x), false) := by
            rw [hph]
            show c.disk.finish t tmp (some x) = _
            unfold Disk.finish
            rw [w1]
          have nm : ∀ q, (c.disk.setName tmp none).name q = if q = tmp then none else c.disk.name q := fun q => rfl
          rw [Scene.step_eq hp hs]
          refine h.move (i := i) ⟨?_, ?_⟩ (Nat.le_refl _) (.inl rfl) ?_ ?_ ?_ ?_ ?_ ?_ ?_ ?_ ?_ ?_ ?_ ?_
          · intro q k hq
            rw [nm] at hq
            split at hq
            · cases hq
            · exact h.ok.bound q k hq
          · intro q r k hq hr
            rw [nm] at hq hr
            split at hq
            · cases hq
            · split at hr
              · cases hr
              · exact h.ok.inj q r k hq hr
          · intro j t' tmp' a' e' hj hq hsv
            have hne' : tmp' ≠ tmp := ho.other hj hp hsvi hq hsv
            exact ⟨by rw [nm, if_neg hne'], fun _ _ => rfl⟩
          · intro q hq hqn
            refine .inl ?_
            rw [nm]
            split
            · rfl
            · exact hqn
          · intro t' tmp' a' e' hq _
            rw [hp] at hq
            injection hq with hq
            injection hq with _ hq2 _ _
            subst hq2
            exact .inr (by rw [nm, if_pos rfl])
          · intro r hr
            rw [hph] at hr
            cases hr
          · intro q hq
            have hqt : q ≠ tmp := fun he => hq ⟨i, t, a, some x, he ▸ hp⟩
            rw [if_neg (by decide), ← keepAll q hq]
            unfold Disk.content
            rw [nm, if_neg hqt]
            rfl
          · intro k _ hno
            refine ⟨rfl, fun q hq => ?_⟩
            rw [nm]
            split
            · nofun
            · exact hno q hq
          · intro _ _ _ _ _ _ _ _ hw
            cases hw
          · intro _ _ _ _ _ hw
            cases hw
          · intro t' tmp' a' e' r hq hw
            rw [hp] at hq
            injection hq with hq
            injection hq with _ hq2 _ hq4
            injection hw with hw
            subst hq2 hq4 hw
            exact ⟨rfl, nofun, by rw [nm, if_pos rfl]⟩
          · intro hl
            exact absurd (congrArg List.length hl) (by simp)
          · intro _ _ _ hq
            rw [hp] at hq
            cases hq
          · intro _ _ hq
            rw [hp] at hq
            cases hq
      | reading k got => exact same (by rw [hph]; rfl)
      | done r => exact same (by rw [hph]; rfl)
    | load p =>
      have calm : ∀ ph, (∀ r, c.phase i ≠ .done r) → (Prog.load p).step c.disk n (c.phase i) = (c.disk, ph, false) →
          (∀ p' ino got, ps[i]? = some (Prog.load p') → ¬ IsTmp ps p' → ph = .reading ino got →
            ino < c.disk.next ∧ (∀ q, IsTmp ps q → c.disk.name q ≠ some ino) ∧
            Version ps d c.log p' (c.disk.data ino) ∧ got <+: c.disk.data ino) →
          (∀ p' r, ps[i]? = some (Prog.load p') → ¬ IsTmp ps p' → ph = .done r →
            (r = .error .os ∧ d.content p' = none) ∨ ∃ v, r = .ok v ∧ Version ps d c.log p' v) →
          Settled ps d (c.step ps i n) := by
        intro ph hnd hs hR hE
        rw [Scene.step_eq hp hs]
        refine h.move (i := i) h.ok (Nat.le_refl _) (.inl rfl) ?_ ?_ ?_ hnd ?_ ?_ ?_ ?_ ?_ ?_ hR hE
        · intro j t' tmp' a' e' _ _ _
          exact ⟨rfl, fun _ _ => rfl⟩
        · intro q _ hq
          exact .inl hq
        · intro _ _ _ _ hq
          rw [hp] at hq
          cases hq
        · intro q hq
          rw [if_neg (by decide)]
          exact keepAll q hq
        · intro ino _ hno
          exact ⟨rfl, hno⟩
        · intro _ _ _ _ _ _ _ hq
          rw [hp] at hq
          cases hq
        · intro _ _ _ _ hq
          rw [hp] at hq
          cases hq
        · intro _ _ _ _ _ hq
          rw [hp] at hq
          cases hq
        · intro hl
          exact absurd (congrArg List.length hl) (by simp)
      cases hph : c.phase i with
      | idle =>
        cases hn : c.disk.name p with
        | none =>
          refine calm (.done (.error .os)) (by rw [hph]; nofun) ?_ (by intro _ _ _ _ _ hw; cases hw) ?_
          · rw [hph]
            show (match c.disk.name p with | some i => _ | none => _) = _
            rw [hn]
          · intro p' r hq ht hw
            rw [hp] at hq
            injection hq with hq
            injection hq with hq
            injection hw with hw
            subst hq hw
            refine .inl ⟨rfl, ?_⟩
            have := keepAll p ht
            rw [Disk.content, hn] at this
            cases hd : d.content p with
            | none => rfl
            | some v =>
              rw [hd] at this
              cases hls : lastSaved ps p c.log with
              | none => rw [hls] at this; cases this
              | some u => rw [hls] at this; cases this
        | some k =>
          refine calm (.reading k []) (by rw [hph]; nofun) ?_ ?_ (by intro _ _ _ _ hw; cases hw)
          · rw [hph]
            show (match c.disk.name p with | some i => _ | none => _) = _
            rw [hn]
          · intro p' ino got hq ht hw
            rw [hp] at hq
            injection hq with hq
            injection hq with hq
            injection hw with hw1 hw2
            subst hq hw1 hw2
            refine ⟨h.ok.bound p k hn, ?_, ?_, List.nil_prefix⟩
            · intro q hq hqn
              exact ht (h.ok.inj q p k hqn hn ▸ hq)
            · refine lastSaved_version ?_
              rw [← keepAll p ht, Disk.content, hn]
              rfl
      | reading k got =>
        by_cases hl : (c.disk.data k).length ≤ got.length
        · refine calm (.done (.ok got)) (by rw [hph]; nofun) ?_ (by intro _ _ _ _ _ hw; cases hw) ?_
          · rw [hph]
            exact if_pos hl
          · intro p' r hq ht hw
            rw [hp] at hq
            injection hq with hq
            injection hq with hq
            injection hw with hw
            subst hq hw
            obtain ⟨_, _, h3, h4⟩ := h.reading i p k got hp ht hph
            rw [← h4.eq_of_length_le hl] at h3
            exact .inr ⟨got, rfl, h3⟩
        · refine calm (.reading k (got ++ ((c.disk.data k).drop got.length).take (n + 1))) (by rw [hph]; nofun) ?_ ?_
            (by intro _ _ _ _ hw; cases hw)
          · rw [hph]
            exact if_neg hl
          · intro p' ino got' hq ht hw
            rw [hp] at hq
            injection hq with hq
            injection hq with hq
            injection hw with hw1 hw2
            subst hq hw1 hw2
            obtain ⟨h1, h2, h3, r, hr⟩ := h.reading i p k got hp ht hph
            refine ⟨h1, h2, h3, r.drop (n + 1), ?_⟩
            rw [← hr, List.drop_left, List.append_assoc, List.take_append_drop]
      | writing _ _ _ => exact same (by rw [hph]; rfl)
      | closed => exact same (by rw [hph]; rfl)
      | done r => exact same (by rw [hph]; rfl)

theorem Interleaved.settled {ps : List Prog} {d : Disk} {c : Scene} (hd : d.Ok)
    (sep : ∀ (i : Nat) t tmp a e, ps[i]? = some (Prog.save t tmp a e) → ¬ IsTmp ps t)
    (h : Interleaved ps (Scene.start d) c) : Settled ps d c ∧ Orderly ps c := by
  induction h with
  | start => exact ⟨Settled.begin ps hd, fun _ _ _ _ _ _ _ _ _ _ _ _ hs _ => by cases hs⟩
  | step i n _ ho ih => exact ⟨ih.1.step ih.2 sep i n ho, ho⟩

theorem content_setData {d : Disk} (h : d.Ok) {p : PPath} {i : Nat} (hp : d.name p = some i) (b : Bytes) :
    (d.setData i b).content = d.content.set p (some b) := by
  funext q
  show (d.name q).map _ = _
  by_cases hq : q = p
  · subst hq
    rw [hp, Fs.set_same]
    show some ((d.setData i b).data i) = _
    rw [Disk.setData_data, if_pos rfl]
  · rw [Fs.set_ne _ _ hq]
    unfold Disk.content
    cases hn : d.name q with
    | none => rfl
    | some j =>
      show some ((d.setData i b).data j) = some (d.data j)
      rw [Disk.setData_data, if_neg (fun (e : j = i) => hq (h.inj q p j hn (e ▸ hp)))]

theorem content_create {d : Disk} (h : d.Ok) (p : PPath) :
    (d.create p).1.content = d.content.set p (some []) := by
  obtain ⟨_, k2, k3, k4, k5, _, k7⟩ := d.create_spec h p
  funext q
  by_cases hq : q = p
  · subst hq
    rw [Fs.set_same]
    unfold Disk.content
    rw [k2]
    show some _ = _
    rw [k3]
  · rw [Fs.set_ne _ _ hq]
    unfold Disk.content
    rw [k4 q hq]
    cases hn : d.name q with
    | none => rfl
    | some j =>
      show some _ = some _
      rw [k5 j]
      intro e
      rcases k7 with k7 | k7
      · exact hq (h.inj q p j hn (e ▸ k7))
      · have := h.bound q j hn
        omega

theorem soloRun_succ (p : Prog) (c : Scene) (n : Nat) : soloRun p c (n + 1) = soloRun p (c.step [p] 0 0) n := rfl

theorem soloRun_done {p : Prog} {c : Scene} {r : Except PyErr Bytes} (h : c.phase 0 = .done r) (n : Nat) :
    soloRun p c n = c := by
  induction n with
  | zero => rfl
  | succ n ih =>
    rw [soloRun_succ]
    have hs : p.step c.disk 0 (c.phase 0) = (c.disk, c.phase 0, false) := by
      rw [h]
      cases p <;> rfl
    rw [Scene.step_eq (ps := [p]) (i := 0) rfl hs]
    have : (fun j => if j = 0 then c.phase 0 else c.phase j) = c.phase := by
      funext j
      split
      · next e => rw [e]
      · rfl
    rw [this]
    exact ih

/-- What `save` does after the temporary file is closed. -/
def afterwards (o : Os) (fs : Fs) (tmp t : PPath) (c : Bytes) : Option PyErr → Run
  | none => o.move fs tmp t c
  | some e => o.cleanup fs tmp e

theorem soloRun_closed {t tmp : PPath} {a : List Bytes} {e : Option PyErr} {c : Scene} {ino : Nat} (o : Os)
    (hr : o.renameOk = true) (hm : o.removeOk = true)
    (h : c.phase 0 = .closed) (hn : c.disk.name tmp = some ino) (n : Nat) :
    let r := afterwards o c.disk.content tmp t (c.disk.data ino) e
    (soloRun (.save t tmp a e) c n).disk.content ∈ r.states ∧
    (1 ≤ n → (soloRun (.save t tmp a e) c n).disk.content = r.final ∧
      (soloRun (.save t tmp a e) c n).phase 0 = .done (asResult r.result)) := by
  intro r
  have hc : c.disk.content tmp = some (c.disk.data ino) := by unfold Disk.content; rw [hn]; rfl
  cases e with
  | none =>
    have hrr : r = ⟨[c.disk.content, if tmp = t then c.disk.content else
        (c.disk.content.set t (some (c.disk.data ino))).set tmp none],
        if tmp = t then c.disk.content else (c.disk.content.set t (some (c.disk.data ino))).set tmp none, .ok ()⟩ := by
      show o.move _ _ _ _ = _
      unfold Os.move
      rw [if_pos hr]
    have hs : (Prog.save t tmp a none).step c.disk 0 (c.phase 0) =
        (if tmp = t then c.disk else (c.disk.setName t (some ino)).setName tmp none, .done (.ok []), true) := by
      rw [h]
      show c.disk.finish t tmp none = _
      unfold Disk.finish
      rw [hn]
    have hcon : (if tmp = t then c.disk else (c.disk.setName t (some ino)).setName tmp none).content =
        if tmp = t then c.disk.content else (c.disk.content.set t (some (c.disk.data ino))).set tmp none := by
      split
      · rfl
      · funext q
        show ((if q = tmp then none else if q = t then some ino else c.disk.name q).map c.disk.data) = _
        unfold Fs.set
        by_cases h1 : q = tmp
        · rw [if_pos h1, if_pos h1]; rfl
        · rw [if_neg h1, if_neg h1]
          by_cases h2 : q = t
          · rw [if_pos h2, if_pos h2]; rfl
          · rw [if_neg h2, if_neg h2]; rfl
    rw [hrr]
    cases n with
    | zero => exact ⟨List.mem_cons_self, fun hh => by omega⟩
    | succ n =>
      rw [soloRun_succ, Scene.step_eq (ps := [_]) (i := 0) rfl hs, soloRun_done (r := .ok []) rfl]
      refine ⟨?_, fun _ => ⟨hcon, rfl⟩⟩
      show _ ∈ [_, _]
      rw [hcon]
      exact List.mem_cons_of_mem _ List.mem_cons_self
  | some x =>
    have hrr : r = ⟨[c.disk.content, c.disk.content.set tmp none], c.disk.content.set tmp none, .error x⟩ := by
      show o.cleanup _ _ _ = _
      unfold Os.cleanup Os.remove
      rw [hc]
      simp only [hm, if_true]
    have hs : (Prog.save t tmp a (some x)).step c.disk 0 (c.phase 0) =
        (c.disk.setName tmp none, .done (.error x), false) := by
      rw [h]
      show c.disk.finish t tmp (some x) = _
      unfold Disk.finish
      rw [hn]
    have hcon : (c.disk.setName tmp none).content = c.disk.content.set tmp none := by
      funext q
      show ((if q = tmp then none else c.disk.name q).map c.disk.data) = _
      unfold Fs.set
      by_cases h1 : q = tmp
      · rw [if_pos h1, if_pos h1]; rfl
      · rw [if_neg h1, if_neg h1]; rfl
    rw [hrr]
    cases n with
    | zero => exact ⟨List.mem_cons_self, fun hh => by omega⟩
    | succ n =>
      rw [soloRun_succ, Scene.step_eq (ps := [_]) (i := 0) rfl hs, soloRun_done (r := .error x) rfl]
      refine ⟨?_, fun _ => ⟨hcon, rfl⟩⟩
      show _ ∈ [_, _]
      rw [hcon]
      exact List.mem_cons_of_mem _ List.mem_cons_self

theorem soloRun_writing {t tmp : PPath} {a : List Bytes} {e : Option PyErr} (o : Os)
    (hr : o.renameOk = true) (hm : o.removeOk = true) (fs : Fs) (left : List Bytes) :
    ∀ (c : Scene) (ino : Nat) (acc : Bytes), c.phase 0 = .writing ino acc.length left → c.disk.Ok →
      c.disk.name tmp = some ino → c.disk.data ino = acc → c.disk.content = fs.set tmp (some acc) → ∀ n,
    let r := afterwards o (fs.set tmp (some (acc ++ left.flatten))) tmp t (acc ++ left.flatten) e
    (soloRun (.save t tmp a e) c n).disk.content ∈ appendStates fs tmp acc left ++ r.states ∧
    (left.length + 2 ≤ n → (soloRun (.save t tmp a e) c n).disk.content = r.final ∧
      (soloRun (.save t tmp a e) c n).phase 0 = .done (asResult r.result)) := by
  induction left with
  | nil =>
    intro c ino acc hph hok hn hd hc n r
    cases n with
    | zero => exact ⟨List.mem_append_left _ (by rw [appendStates]; exact List.mem_singleton.mpr hc), fun hh => by simp at hh⟩
    | succ n =>
      have hs : (Prog.save t tmp a e).step c.disk 0 (c.phase 0) = (c.disk, .closed, false) := by rw [hph]; rfl
      rw [soloRun_succ, Scene.step_eq (ps := [_]) (i := 0) rfl hs]
      have := soloRun_closed (t := t) (tmp := tmp) (a := a) (e := e)
        (c := ⟨c.disk, fun j => if j = 0 then .closed else c.phase j, if false = true then 0 :: c.log else c.log⟩)
        (ino := ino) o hr hm rfl hn n
      simp only [hc, hd] at this
      have hrr : r = afterwards o (fs.set tmp (some acc)) tmp t acc e := by
        show afterwards _ _ _ _ _ _ = _
        rw [List.flatten_nil, List.append_nil]
      rw [hrr]
      exact ⟨List.mem_append_right _ this.1, fun hh => this.2 (by simp at hh; omega)⟩
  | cons b bs ih =>
    intro c ino acc hph hok hn hd hc n r
    cases n with
    | zero => exact ⟨List.mem_append_left _ (by rw [appendStates, hc.symm]; exact List.mem_cons_self), fun hh => by simp at hh⟩
    | succ n =>
      have hs : (Prog.save t tmp a e).step c.disk 0 (c.phase 0) =
          (c.disk.setData ino (writeAt (c.disk.data ino) acc.length b), .writing ino (acc.length + b.length) bs, false) := by
        rw [hph]; rfl
      rw [hd, writeAt_end] at hs
      rw [soloRun_succ, Scene.step_eq (ps := [_]) (i := 0) rfl hs]
      have h1 := ih ⟨c.disk.setData ino (acc ++ b),
        fun j => if j = 0 then .writing ino (acc.length + b.length) bs else c.phase j,
        if false = true then 0 :: c.log else c.log⟩ ino (acc ++ b) (by rw [List.length_append]; rfl)
        ⟨hok.bound, hok.inj⟩ hn (if_pos rfl)
        (by
          show (c.disk.setData ino (acc ++ b)).content = _
          rw [content_setData hok hn, hc]
          funext q
          unfold Fs.set
          split <;> rfl) n
      have hrr : r = afterwards o (fs.set tmp (some (acc ++ b ++ bs.flatten))) tmp t (acc ++ b ++ bs.flatten) e := by
        show afterwards _ _ _ _ _ _ = _
        rw [List.flatten_cons, List.append_assoc]
      rw [hrr]
      refine ⟨?_, fun hh => h1.2 (by simp at hh; omega)⟩
      rw [appendStates, List.cons_append]
      exact List.mem_cons_of_mem _ h1.1

/-- System calls left in a save. -/
def callsLeft (a : List Bytes) : Phase → Nat
  | .idle => a.length + 3
  | .writing _ _ left => left.length + 2
  | .closed => 1
  | _ => 0

theorem callsLeft_step (d : Disk) (n : Nat) (t tmp : PPath) (a : List Bytes) (e : Option PyErr) (ph : Phase) :
    callsLeft a ((Prog.save t tmp a e).step d n ph).2.1 ≤ callsLeft a ph - 1 := by
  cases ph with
  | idle => exact Nat.le_refl _
  | writing i pos left => cases left <;> simp [Prog.step, callsLeft]
  | closed =>
    show callsLeft a (d.finish t tmp e).2.1 ≤ _
    unfold Disk.finish
    cases e <;> cases d.name tmp <;> exact Nat.le_refl _
  | reading i got => exact Nat.le_refl _
  | done r => exact Nat.le_refl _

theorem callsLeft_zero {a : List Bytes} {ph : Phase} (h : callsLeft a ph = 0) : ph.saving = false := by
  cases ph with
  | writing i pos left => simp [callsLeft] at h
  | closed => simp [callsLeft] at h
  | _ => rfl

theorem load_step_saving (d : Disk) (n : Nat) (p : PPath) (ph : Phase) (h : ph.saving = false) :
    ((Prog.load p).step d n ph).2.1.saving = false := by
  cases ph with
  | idle =>
    show (match d.name p with | some i => (d, Phase.reading i [], false) | none => (d, Phase.done (.error .os), false)).2.1.saving = false
    cases d.name p <;> rfl
  | reading i got =>
    show (if _ then _ else _ : Disk × Phase × Bool).2.1.saving = false
    split <;> rfl
  | writing _ _ _ => cases h
  | closed => cases h
  | done r => rfl

theorem step_phase_other (ps : List Prog) (c : Scene) {i j n : Nat} (h : j ≠ i) : (c.step ps i n).phase j = c.phase j := by
  unfold Scene.step
  split
  · rfl
  · exact if_neg h

theorem step_phase_same {ps : List Prog} (c : Scene) {i n : Nat} {p : Prog} (hp : ps[i]? = some p) :
    (c.step ps i n).phase i = (p.step c.disk n (c.phase i)).2.1 := by
  unfold Scene.step
  rw [hp]
  exact if_pos rfl

end Verif
