import Verif.Session.Session
/-!
# Lemmas on runs of `save`
-/
namespace Verif

theorem withTmp_ne (p : PPath)
    (h : ¬ ∃ dir stem, stem ≠ [] ∧ p.parts = dir ++ [stem ++ ".tmp".toList]) : p.withTmp ≠ .ok p := by
  intro hp
  unfold PPath.withTmp at hp
  cases hl : p.parts.getLast? with
  | none => rw [hl] at hp; cases hp
  | some name =>
    rw [hl] at hp
    injection hp with hp
    have hp' : p.parts.dropLast ++ [(splitSuffix name).1 ++ ".tmp".toList] = p.parts := by
      conv => rhs; rw [← hp]
    refine h ⟨p.parts.dropLast, (splitSuffix name).1, ?_, hp'.symm⟩
    intro he
    have hname : name = (splitSuffix name).1 ++ ".tmp".toList := by
      rw [← hp'] at hl
      simp only [List.getLast?_append, List.getLast?_singleton, Option.some_or, Option.some.injEq] at hl
      exact hl.symm
    rw [he] at hname
    rw [hname] at he
    revert he
    decide

theorem withTmp_ok {p : PPath} (h : p.parts ≠ []) : ∃ t, p.withTmp = .ok t := by
  unfold PPath.withTmp
  cases hl : p.parts.getLast? with
  | none => exact absurd (List.getLast?_eq_none_iff.mp hl) h
  | some n => exact ⟨_, rfl⟩

theorem cleanup_states {o : Os} {f x : Fs} {tmp : PPath} {e : PyErr}
    (hx : x ∈ (o.cleanup f tmp e).states) : x = f ∨ x = f.set tmp none := by
  unfold Os.cleanup Os.remove at hx
  cases hm : f tmp with
  | none =>
    rw [hm] at hx
    simp only [List.mem_cons, List.not_mem_nil, or_false, or_self] at hx
    exact .inl hx
  | some c =>
    rw [hm] at hx
    cases hr : o.removeOk with
    | false =>
      rw [hr] at hx
      simp only [Bool.false_eq_true, if_false, List.mem_cons, List.not_mem_nil, or_false, or_self] at hx
      exact .inl hx
    | true =>
      rw [hr] at hx
      simp only [if_true, List.mem_cons, List.not_mem_nil, or_false] at hx
      exact hx

/-- All states of a save to a path other than its temporary file, when renaming works. -/
theorem saveFile_states {o : Os} {fs : Fs} {t tmp : PPath} {res : Except PyErr Bytes}
    (htmp : t.withTmp = .ok tmp) (hne : tmp ≠ t) (hr : o.renameOk = true) (hf : o.Faithful) :
    ∀ x ∈ (o.saveFile fs t res).states,
      (x t = fs t ∨ ∃ out, res = .ok out ∧ x t = some out) ∧
      ∀ q, q ≠ t → q ≠ tmp → x q = fs q := by
  intro x hx
  unfold Os.saveFile at hx
  rw [htmp] at hx
  simp only at hx
  have base : ∀ c : Option Bytes, ((fs.set tmp c) t = fs t ∨
      ∃ out, res = .ok out ∧ (fs.set tmp c) t = some out) ∧
      ∀ q, q ≠ t → q ≠ tmp → (fs.set tmp c) q = fs q := fun c =>
    ⟨.inl (Fs.set_ne _ _ (Ne.symm hne)), fun q _ h2 => Fs.set_ne _ _ h2⟩
  have clean : ∀ (f : Fs) (e : PyErr), (∀ q, q ≠ tmp → f q = fs q) →
      ∀ x ∈ (o.cleanup f tmp e).states, (x t = fs t ∨ ∃ out, res = .ok out ∧ x t = some out) ∧
      ∀ q, q ≠ t → q ≠ tmp → x q = fs q := by
    intro f e hfq x hx
    have h0 : ∀ q, q ≠ tmp → x q = fs q := by
      rcases cleanup_states hx with rfl | rfl
      · exact hfq
      · exact fun q hq => (Fs.set_ne _ _ hq).trans (hfq q hq)
    exact ⟨.inl (h0 t (Ne.symm hne)), fun q _ h2 => h0 q h2⟩
  have init : (fs t = fs t ∨ ∃ out, res = .ok out ∧ fs t = some out) ∧
      ∀ q, q ≠ t → q ≠ tmp → fs q = fs q := ⟨.inl rfl, fun _ _ _ => rfl⟩
  cases ho : o.openOk with
  | false =>
    rw [ho] at hx
    rcases List.mem_cons.mp hx with rfl | hx
    · exact init
    · exact clean fs _ (fun _ _ => rfl) x hx
  | true =>
    rw [ho] at hx
    simp only [if_true] at hx
    cases hw : o.writes res with
    | mk ps out =>
      rw [hw] at hx
      cases out with
      | error e =>
        simp only [List.cons_append, List.mem_cons, List.mem_append] at hx
        rcases hx with rfl | hx | hx
        · exact init
        · obtain ⟨n, rfl⟩ := appendStates_mem hx
          exact base _
        · exact clean _ _ (fun q hq => Fs.set_ne _ _ hq) x hx
      | ok u =>
        simp only [List.cons_append, List.mem_cons, List.mem_append] at hx
        rcases hx with rfl | hx | hx
        · exact init
        · obtain ⟨n, rfl⟩ := appendStates_mem hx
          exact base _
        · unfold Os.move at hx
          rw [hr] at hx
          simp only [if_true, List.mem_cons, List.not_mem_nil, or_false] at hx
          rcases hx with rfl | rfl
          · exact base _
          · rw [if_neg hne]
            unfold Os.writes at hw
            cases res with
            | error e => cases hw
            | ok b =>
              simp only at hw
              cases hi : o.ioError with
              | some n => rw [hi] at hw; cases hw
              | none =>
                rw [hi] at hw
                injection hw with hw _
                refine ⟨.inr ⟨b, rfl, ?_⟩, fun q h1 h2 => ?_⟩
                · rw [Fs.set_ne _ _ (Ne.symm hne), Fs.set_same, ← hw, hf b]
                · rw [Fs.set_ne _ _ h2, Fs.set_ne _ _ h1, Fs.set_ne _ _ h2]

/-- The last state is one of the states. -/
theorem saveFile_final (o : Os) (fs : Fs) (t : PPath) (res : Except PyErr Bytes) :
    (o.saveFile fs t res).final ∈ (o.saveFile fs t res).states := by
  have clean : ∀ (f : Fs) (tmp : PPath) (e : PyErr),
      (o.cleanup f tmp e).final ∈ (o.cleanup f tmp e).states := by
    intro f tmp e
    unfold Os.cleanup
    cases o.remove f tmp with
    | mk f' r => cases r <;> simp
  have move : ∀ (f : Fs) (a b : PPath) (c : Bytes), (o.move f a b c).final ∈ (o.move f a b c).states := by
    intro f a b c
    unfold Os.move
    cases o.renameOk with
    | true => simp
    | false =>
      simp only [Bool.false_eq_true, if_false]
      cases o.copyError with
      | some n =>
        simp only
        refine List.mem_cons_of_mem _ ?_
        generalize (List.take n (o.pieces c)) = ps
        have : ∀ acc : Bytes, f.set b (some (acc ++ ps.flatten)) ∈ appendStates f b acc ps := by
          induction ps with
          | nil => intro acc; simp [appendStates]
          | cons p ps ih =>
            intro acc
            simp only [appendStates, List.flatten_cons, ← List.append_assoc]
            exact List.mem_cons_of_mem _ (ih _)
        exact this []
      | none =>
        simp only
        cases o.remove (f.set b (some (o.pieces c).flatten)) a with
        | mk f' r => simp
  unfold Os.saveFile
  cases t.withTmp with
  | error e => simp
  | ok tmp =>
    simp only
    cases o.openOk with
    | false =>
      simp only [Bool.false_eq_true, if_false]
      exact List.mem_cons_of_mem _ (clean _ _ _)
    | true =>
      simp only [if_true]
      cases o.writes res with
      | mk ps out =>
        cases out with
        | error e =>
          simp only [List.cons_append]
          exact List.mem_cons_of_mem _ (List.mem_append_right _ (clean _ _ _))
        | ok u =>
          simp only [List.cons_append]
          exact List.mem_cons_of_mem _ (List.mem_append_right _ (move _ _ _ _))

/-- `save` to a path is `saveFile` of the bytes built from the current content. -/
theorem save_path {P : Prims} {o : Os} {fs : Fs} {s : Session} {f : Option Filename}
    {tk : Option Bytes} {p : Str} {k : Kdbx} (hk : s.kdbx = some k)
    (ht : s.target f = some (.path p)) (ho : o.openOk = true) :
    (s.save P o fs f tk).run = o.saveFile fs (PPath.ofStr p)
      (buildKdbx P { password := s.password, keyfile := s.keyfile, transformedKey := tk } k).1 := by
  unfold Session.save
  rw [hk]
  simp only [ht]
  cases hw : (PPath.ofStr p).withTmp with
  | error e =>
    simp only [Os.saveFile, hw]
  | ok t => simp only [ho, if_true]

theorem save_path_refused {P : Prims} {o : Os} {fs : Fs} {s : Session} {f : Option Filename}
    {tk : Option Bytes} {p : Str} {k : Kdbx} (hk : s.kdbx = some k)
    (ht : s.target f = some (.path p)) (ho : o.openOk = false) :
    (s.save P o fs f tk).run = o.saveFile fs (PPath.ofStr p) (.ok []) := by
  unfold Session.save
  rw [hk]
  simp only [ht]
  cases hw : (PPath.ofStr p).withTmp with
  | error e =>
    simp only [Os.saveFile, hw]
  | ok t => simp only [ho, Bool.false_eq_true, if_false]

/-- When the temporary file cannot be opened the target is not touched. -/
theorem saveFile_refused {o : Os} {fs : Fs} {t tmp : PPath} {res : Except PyErr Bytes}
    (htmp : t.withTmp = .ok tmp) (ho : o.openOk = false) :
    (o.saveFile fs t res).result = .error .os ∧
    ∀ x ∈ (o.saveFile fs t res).states, ∀ q, q ≠ tmp → x q = fs q := by
  unfold Os.saveFile
  rw [htmp]
  simp only [ho, Bool.false_eq_true, if_false]
  constructor
  · unfold Os.cleanup Os.remove
    cases fs tmp with
    | none => rfl
    | some c => cases o.removeOk <;> rfl
  · intro x hx
    rcases List.mem_cons.mp hx with rfl | hx
    · exact fun _ _ => rfl
    · rcases cleanup_states hx with rfl | rfl
      · exact fun _ _ => rfl
      · exact fun q hq => Fs.set_ne _ _ hq

/-- A failing build. -/
theorem saveFile_error {o : Os} {fs : Fs} {t tmp : PPath} {res : Except PyErr Bytes} {e : PyErr}
    {ps : List Bytes} (htmp : t.withTmp = .ok tmp) (ho : o.openOk = true) (hrm : o.removeOk = true)
    (hw : o.writes res = (ps, .error e)) :
    (o.saveFile fs t res).result = .error e ∧ (o.saveFile fs t res).final = fs.set tmp none := by
  unfold Os.saveFile
  rw [htmp]
  simp only [ho, if_true, hw]
  unfold Os.cleanup Os.remove
  simp only [Fs.set_same, hrm, if_true]
  refine ⟨trivial, ?_⟩
  funext q
  by_cases h : q = tmp
  · simp [Fs.set, h]
  · simp [Fs.set, h]

/-- A build that succeeds, with a working rename. -/
theorem saveFile_ok {o : Os} {fs : Fs} {t tmp : PPath} {out : Bytes}
    (htmp : t.withTmp = .ok tmp) (ho : o.openOk = true) (hr : o.renameOk = true)
    (hi : o.ioError = none) (hf : o.Faithful) :
    (o.saveFile fs t (.ok out)).result = .ok () ∧
    (o.saveFile fs t (.ok out)).final = if tmp = t then fs.set t (some out)
      else (fs.set t (some out)).set tmp none := by
  unfold Os.saveFile
  rw [htmp]
  simp only [ho, if_true, Os.writes, hi]
  unfold Os.move
  simp only [hr, if_true]
  refine ⟨trivial, ?_⟩
  rw [hf out]
  by_cases h : tmp = t
  · simp only [h, if_true]
  · simp only [if_neg h]
    funext q
    by_cases h1 : q = tmp
    · simp [Fs.set, h1]
    · by_cases h2 : q = t
      · simp [Fs.set, h2]
      · simp [Fs.set, h1, h2]

/-- When saving returns normally the target holds what was built; when the target is its own temporary file the rename must work. -/
theorem saveFile_done {o : Os} {fs : Fs} {t tmp : PPath} {res : Except PyErr Bytes} (htmp : t.withTmp = .ok tmp) (hf : o.Faithful)
    (hn : o.renameOk = true ∨ tmp ≠ t) (h : (o.saveFile fs t res).result = .ok ()) :
    o.openOk = true ∧ ∃ out, res = .ok out ∧ (o.saveFile fs t res).final t = some out := by
  by_cases ho : o.openOk = true
  · refine ⟨ho, ?_⟩
    unfold Os.saveFile at h ⊢
    rw [htmp] at h ⊢
    simp only [ho, if_true] at h ⊢
    have clean : ∀ (f : Fs) (e : PyErr), (o.cleanup f tmp e).result ≠ .ok () := by
      intro f e
      unfold Os.cleanup
      cases o.remove f tmp with
      | mk a b => cases b <;> exact fun h => nomatch h
    cases res with
    | error e => exact absurd h (clean _ e)
    | ok out =>
      refine ⟨out, rfl, ?_⟩
      unfold Os.writes at h ⊢
      cases hi : o.ioError with
      | some n => rw [hi] at h; exact absurd h (clean _ _)
      | none =>
        rw [hi] at h
        simp only at h ⊢
        unfold Os.move at h ⊢
        by_cases hr : o.renameOk = true
        · simp only [hr, if_true]
          by_cases e : tmp = t
          · rw [if_pos e, e, Fs.set_same, hf]
          · rw [if_neg e, Fs.set_ne _ _ (Ne.symm e), Fs.set_same, hf]
        · have hne := hn.resolve_left hr
          simp only [hr, Bool.false_eq_true, if_false] at h ⊢
          cases hce : o.copyError with
          | some n => rw [hce] at h; cases h
          | none =>
            rw [hce] at h
            simp only at h ⊢
            unfold Os.remove
            rw [Fs.set_ne _ _ hne, Fs.set_same]
            simp only
            split <;> simp only
            · rw [Fs.set_ne _ _ (Ne.symm hne), Fs.set_same, hf, hf]
            · rw [Fs.set_same, hf, hf]
  · have := (saveFile_refused (o := o) (fs := fs) (res := res) htmp (by simpa using ho)).1
    rw [this] at h
    cases h

theorem writeAt_drop (b : Bytes) (pos : Nat) (out : Bytes) : ∃ r, (writeAt b pos out).drop pos = out ++ r := by
  unfold writeAt
  split
  · next e => exact ⟨b.drop pos, by rw [e]; rfl⟩
  · refine ⟨b.drop (pos + out.length), ?_⟩
    rw [List.append_assoc, List.drop_append_of_le_length, List.drop_eq_nil_of_le, List.nil_append]
    · rw [List.length_take]; omega
    · rw [List.length_take, List.length_append, List.length_replicate]; omega

end Verif
