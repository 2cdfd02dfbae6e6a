import Verif.Session.ShareLemmas
import Verif.Props.C11_CrashSafeSave
/-!
# C86: several programs save and open databases at the same time
-/
namespace Verif.Props
open Verif

/-- No save writes to the temporary file of one of the saves. -/
def NoTmpTarget (ps : List Prog) : Prop :=
  ∀ (i : Nat) t tmp a e, ps[i]? = some (Prog.save t tmp a e) → ¬ IsTmp ps t

/-- Whatever the order of the system calls of all programs, as long as saves with the same temporary
file take turns: at every moment a file holds the complete output of the last save that replaced it,
or what it held at the start. -/
theorem C86_complete (ps : List Prog) (d : Disk) (hd : d.Ok) (sep : NoTmpTarget ps) (c : Scene)
    (h : Interleaved ps (Scene.start d) c) (q : PPath) (hq : ¬ IsTmp ps q) :
    c.disk.content q = (lastSaved ps q c.log).or (d.content q) :=
  (h.settled hd sep).1.target q hq

/-- Then no save disturbs another: each ends as it would alone, and a successful one is among those
that replaced their target. -/
theorem C86_undisturbed (ps : List Prog) (d : Disk) (hd : d.Ok) (sep : NoTmpTarget ps) (c : Scene)
    (h : Interleaved ps (Scene.start d) c) (i : Nat) (t tmp : PPath) (a : List Bytes)
    (e : Option PyErr) (hp : ps[i]? = some (.save t tmp a e)) (r : Except PyErr Bytes)
    (hr : c.phase i = .done r) :
    (e = none ∧ r = .ok [] ∧ i ∈ c.log) ∨ (∃ x, e = some x ∧ r = .error x ∧ i ∉ c.log) := by
  have hs := (h.settled hd sep).1
  obtain ⟨h1, h2, _⟩ := hs.done i t tmp a e r hp hr
  cases e with
  | none => exact .inl ⟨rfl, h1, h2 rfl⟩
  | some x =>
    refine .inr ⟨x, rfl, h1, fun hi => ?_⟩
    obtain ⟨_, _, _, h3, _⟩ := hs.logged i hi
    rw [hp] at h3
    cases h3

/-- A program that opens a database meanwhile reads one complete version of it: what it has read so
far is the beginning of that version, and in the end all of it. -/
theorem C86_readers (ps : List Prog) (d : Disk) (hd : d.Ok) (sep : NoTmpTarget ps) (c : Scene)
    (h : Interleaved ps (Scene.start d) c) (i : Nat) (p : PPath) (hp : ps[i]? = some (.load p))
    (ht : ¬ IsTmp ps p) :
    (∀ ino got, c.phase i = .reading ino got → ∃ v, Version ps d c.log p v ∧ got <+: v) ∧
    (∀ r, c.phase i = .done r →
      (r = .error .os ∧ d.content p = none) ∨ ∃ v, r = .ok v ∧ Version ps d c.log p v) := by
  have hs := (h.settled hd sep).1
  refine ⟨fun ino got hg => ?_, fun r hr => hs.read i p r hp ht hr⟩
  obtain ⟨_, _, h1, h2⟩ := hs.reading i p ino got hp ht hg
  exact ⟨_, h1, h2⟩

/-- When no save with that temporary file is under way and one has ended, the temporary file is
gone. -/
theorem C86_no_leftovers (ps : List Prog) (d : Disk) (hd : d.Ok) (sep : NoTmpTarget ps) (c : Scene)
    (h : Interleaved ps (Scene.start d) c) (tmp : PPath) (i : Nat) (t : PPath) (a : List Bytes)
    (e : Option PyErr) (hp : ps[i]? = some (.save t tmp a e)) (r : Except PyErr Bytes)
    (hr : c.phase i = .done r)
    (hn : ∀ (j : Nat) t' a' e', ps[j]? = some (.save t' tmp a' e') → (c.phase j).saving = false) :
    c.disk.content tmp = none := by
  obtain ⟨_, _, h1⟩ := (h.settled hd sep).1.done i t tmp a e r hp hr
  rcases h1 with h1 | ⟨j, t', a', e', h2, h3⟩
  · unfold Disk.content
    rw [h1]
    rfl
  · rw [hn j t' a' e' h2] at h3
    cases h3

/-- Saves whose temporary files are all different need not take turns: every schedule is fine. -/
theorem C86_any_order (ps : List Prog) (d : Disk)
    (hne : ∀ (i j : Nat) t t' tmp a a' e e', ps[i]? = some (.save t tmp a e) →
      ps[j]? = some (.save t' tmp a' e') → i = j)
    (sched : List (Nat × Nat)) :
    Interleaved ps (Scene.start d) ((Scene.start d).run ps sched) := by
  suffices H : ∀ c, Interleaved ps (Scene.start d) c → Interleaved ps (Scene.start d) (c.run ps sched) from
    H _ .start
  induction sched with
  | nil => exact fun c hc => hc
  | cons x xs ih =>
    intro c hc
    refine ih _ (.step x.1 x.2 hc ?_)
    intro i j t t' tmp a a' e e' hij hp hq _ _
    exact hij (hne i j t t' tmp a a' e e' hp hq)

theorem withTmp_named {s : Str} {tmp : PPath} (h : (PPath.ofStr s).withTmp = .ok tmp) : NamedTmp tmp := by
  unfold PPath.withTmp at h
  cases hl : (PPath.ofStr s).parts.getLast? with
  | none => rw [hl] at h; cases h
  | some name =>
    rw [hl] at h
    injection h with h
    subst h
    refine ⟨_, _, ?_, rfl⟩
    have hm := List.mem_of_getLast? hl
    have hne : name ≠ [] := by
      have := (List.mem_filter.mp hm).2
      simp only [ne_eq, decide_eq_true_eq] at this
      exact this.1
    unfold splitSuffix
    simp only
    split
    · exact hne
    · next h1 => exact fun h2 => h1 (.inl h2)

/-- For sessions that save to files not named `*.tmp`, and programs that open such files: at every
moment each such file holds what it held at the start, or the complete bytes one of the sessions
built for it. -/
theorem C86_sessions (ps : List Prog) (d : Disk) (hd : d.Ok)
    (hps : ∀ p ∈ ps, (∃ q, p = .load q) ∨
      ∃ o s res, o.Faithful ∧ ¬ NamedTmp (PPath.ofStr s) ∧ Prog.ofSave o (PPath.ofStr s) res = .ok p)
    (c : Scene) (h : Interleaved ps (Scene.start d) c) (q : PPath) (hq : ¬ NamedTmp q) :
    c.disk.content q = d.content q ∨
    ∃ i ∈ c.log, ∃ p o out, ps[i]? = some p ∧ o.Faithful ∧ Prog.ofSave o q (.ok out) = .ok p ∧
      c.disk.content q = some out := by
  have made : ∀ (i : Nat) t tmp a e, ps[i]? = some (Prog.save t tmp a e) →
      ∃ o s res, o.Faithful ∧ ¬ NamedTmp (PPath.ofStr s) ∧ t = PPath.ofStr s ∧
        Prog.ofSave o (PPath.ofStr s) res = .ok (Prog.save t tmp a e) ∧ NamedTmp tmp ∧
        (e = none → res = .ok a.flatten) := by
    intro i t tmp a e hp
    rcases hps _ (List.mem_of_getElem? hp) with ⟨q, h1⟩ | ⟨o, s, res, h1, h2, h3⟩
    · cases h1
    · refine ⟨o, s, res, h1, h2, ?_⟩
      unfold Prog.ofSave at h3 ⊢
      cases hw : (PPath.ofStr s).withTmp with
      | error x => rw [hw] at h3; cases h3
      | ok tmp' =>
        rw [hw] at h3
        simp only at h3 ⊢
        have hnm := withTmp_named hw
        cases hres : o.writes res with
        | mk pcs r =>
          rw [hres] at h3
          cases r with
          | error x =>
            simp only at h3 ⊢
            injection h3 with h3
            injection h3 with h4 h5 h6 h7
            subst h4 h5 h6 h7
            exact ⟨rfl, rfl, hnm, nofun⟩
          | ok u =>
            simp only at h3 ⊢
            injection h3 with h3
            injection h3 with h4 h5 h6 h7
            subst h4 h5 h6 h7
            refine ⟨rfl, rfl, hnm, fun _ => ?_⟩
            unfold Os.writes at hres
            split at hres
            · cases hres
            · next out =>
              split at hres
              · cases hres
              · injection hres with hres _
                rw [← hres, h1 out]
  have sep : NoTmpTarget ps := by
    intro i t tmp a e hp
    obtain ⟨o, s, res, _, h2, h3, _⟩ := made i t tmp a e hp
    rintro ⟨j, t', a', e', hq⟩
    obtain ⟨_, _, _, _, _, _, _, h4, _⟩ := made j t' t a' e' hq
    exact h2 (h3 ▸ h4)
  have hqt : ¬ IsTmp ps q := by
    rintro ⟨j, t', a', e', hj⟩
    obtain ⟨_, _, _, _, _, _, _, h4, _⟩ := made j t' q a' e' hj
    exact hq h4
  have hs := (h.settled hd sep).1
  have hc := hs.target q hqt
  cases hv : c.disk.content q with
  | none =>
    rw [hv] at hc
    cases hl : lastSaved ps q c.log with
    | none => rw [hl] at hc; exact .inl hc
    | some v => rw [hl] at hc; cases hc
  | some v =>
    rw [hv] at hc
    rcases lastSaved_version hc.symm with h1 | ⟨j, tmp, a, e, hj, h1, h2⟩
    · exact .inl h1.symm
    · obtain ⟨t', tmp', a', h3, _⟩ := hs.logged j hj
      obtain ⟨o, s, res, k1, _, k3, k4, _, k6⟩ := made j q tmp a e h1
      rw [h1] at h3
      injection h3 with h3
      injection h3 with _ _ _ h3
      rw [k6 h3] at k4
      subst k3 h2
      exact .inr ⟨j, hj, _, o, _, h1, k1, k4, rfl⟩

/-- A save with the disk to itself is the save of C11: it goes through the same contents of all
files and ends the same way. -/
theorem C86_alone (o : Os) (d : Disk) (hd : d.Ok) (t : PPath) (res : Except PyErr Bytes) (p : Prog)
    (hp : Prog.ofSave o t res = .ok p) (ho : o.openOk = true) (hr : o.renameOk = true)
    (hm : o.removeOk = true) :
    (∀ n, (soloRun p (Scene.start d) n).disk.content ∈ (o.saveFile d.content t res).states) ∧
    ∃ n, ∀ m, n ≤ m →
      (soloRun p (Scene.start d) m).disk.content = (o.saveFile d.content t res).final ∧
      (soloRun p (Scene.start d) m).phase 0 = .done (asResult (o.saveFile d.content t res).result) := by
  unfold Prog.ofSave at hp
  cases hw : t.withTmp with
  | error e => rw [hw] at hp; cases hp
  | ok tmp =>
    rw [hw] at hp
    simp only at hp
    have main : ∀ a e, p = .save t tmp a e → o.writes res = (a, match e with | none => .ok () | some x => .error x) →
        o.saveFile d.content t res =
          ⟨d.content :: appendStates d.content tmp [] a ++
              (afterwards o (d.content.set tmp (some a.flatten)) tmp t a.flatten e).states,
            (afterwards o (d.content.set tmp (some a.flatten)) tmp t a.flatten e).final,
            (afterwards o (d.content.set tmp (some a.flatten)) tmp t a.flatten e).result⟩ := by
      intro a e _ hres
      unfold Os.saveFile
      rw [hw]
      simp only [ho, if_true]
      rw [hres]
      cases e <;> rfl
    have go : ∀ a e, p = .save t tmp a e → o.writes res = (a, match e with | none => .ok () | some x => .error x) →
        (∀ n, (soloRun p (Scene.start d) n).disk.content ∈ (o.saveFile d.content t res).states) ∧
        ∃ n, ∀ m, n ≤ m →
          (soloRun p (Scene.start d) m).disk.content = (o.saveFile d.content t res).final ∧
          (soloRun p (Scene.start d) m).phase 0 = .done (asResult (o.saveFile d.content t res).result) := by
      intro a e hpe hres
      rw [main a e hpe hres]
      subst hpe
      have hs : (Prog.save t tmp a e).step (Scene.start d).disk 0 ((Scene.start d).phase 0) =
          ((d.create tmp).1, .writing (d.create tmp).2 0 a, false) := rfl
      obtain ⟨k1, k2, k3, _⟩ := d.create_spec hd tmp
      have step : ∀ n, soloRun (.save t tmp a e) (Scene.start d) (n + 1) =
          soloRun (.save t tmp a e) ⟨(d.create tmp).1, fun j => if j = 0 then .writing (d.create tmp).2 0 a else .idle, []⟩ n := by
        intro n
        rw [soloRun_succ, Scene.step_eq (ps := [_]) (i := 0) rfl hs]
        rfl
      have h1 := soloRun_writing (t := t) (tmp := tmp) (a := a) (e := e) o hr hm d.content a
        ⟨(d.create tmp).1, fun j => if j = 0 then .writing (d.create tmp).2 0 a else .idle, []⟩ (d.create tmp).2 []
        rfl k1 k2 k3 (content_create hd tmp)
      refine ⟨fun n => ?_, a.length + 3, fun m hm' => ?_⟩
      · cases n with
        | zero => exact List.mem_cons_self
        | succ n =>
          rw [step]
          exact List.mem_cons_of_mem _ (h1 n).1
      · obtain ⟨n, rfl⟩ : ∃ n, m = n + 1 := ⟨m - 1, by omega⟩
        rw [step]
        exact (h1 n).2 (by omega)
    cases hres : o.writes res with
    | mk pcs r =>
      rw [hres] at hp
      cases r with
      | error x => exact go pcs (some x) (Except.ok.inj hp).symm hres
      | ok u => exact go pcs none (Except.ok.inj hp).symm hres

/-- Saves that run one after the other, each to its end, take turns, whatever their order and their
temporary files. -/
theorem C86_in_turn (ps : List Prog) (d : Disk) (order : List (Nat × Nat))
    (ho : ∀ x ∈ order, ∀ t tmp a e, ps[x.1]? = some (.save t tmp a e) → a.length + 3 ≤ x.2) :
    Interleaved ps (Scene.start d) ((Scene.start d).run ps (inTurn order)) := by
  have only : ∀ (c : Scene) (i : Nat), (∀ j, j ≠ i → (c.phase j).saving = false) → Orderly ps c := by
    intro c i h j k t t' tmp a a' e e' hjk hj hk sj sk
    by_cases hji : j = i
    · rw [h k (fun hki => hjk (hji.trans hki.symm))] at sk
      cases sk
    · rw [h j hji] at sj
      cases sj
  have block : ∀ (i n : Nat) (c : Scene), Interleaved ps (Scene.start d) c → (∀ j, j ≠ i → (c.phase j).saving = false) →
      (∀ t tmp a e, ps[i]? = some (.save t tmp a e) → callsLeft a (c.phase i) ≤ n) →
      ((∀ t tmp a e, ps[i]? ≠ some (.save t tmp a e)) → (c.phase i).saving = false) →
      Interleaved ps (Scene.start d) (c.run ps (List.replicate n (i, 0))) ∧
      ∀ j, ((c.run ps (List.replicate n (i, 0))).phase j).saving = false := by
    intro i n
    induction n with
    | zero =>
      intro c hc hj hs hl
      refine ⟨hc, fun j => ?_⟩
      show (c.phase j).saving = false
      by_cases hji : j = i
      · subst hji
        cases hp : ps[j]? with
        | none => exact hl (by rw [hp]; nofun)
        | some p =>
          cases p with
          | save t tmp a e => exact callsLeft_zero (Nat.le_zero.mp (hs t tmp a e hp))
          | load q => exact hl (by rw [hp]; nofun)
      · exact hj j hji
    | succ n ih =>
      intro c hc hj hs hl
      have hj' : ∀ j, j ≠ i → ((c.step ps i 0).phase j).saving = false := by
        intro j hji
        rw [step_phase_other ps c hji]
        exact hj j hji
      refine ih (c.step ps i 0) (.step i 0 hc (only _ i hj')) hj' ?_ ?_
      · intro t tmp a e hp
        rw [step_phase_same c hp]
        have h1 := callsLeft_step c.disk 0 t tmp a e (c.phase i)
        have h2 := hs t tmp a e hp
        omega
      · intro hno
        have h1 := hl hno
        cases hp : ps[i]? with
        | none =>
          unfold Scene.step
          rw [hp]
          exact h1
        | some p =>
          cases p with
          | save t tmp a e => exact absurd hp (hno t tmp a e)
          | load q =>
            rw [step_phase_same c hp]
            exact load_step_saving _ _ _ _ h1
  have bound : ∀ {a : List Bytes} {ph : Phase}, ph.saving = false → callsLeft a ph ≤ a.length + 3 := by
    intro a ph h
    cases ph <;> first | exact Nat.le_refl _ | exact Nat.zero_le _ | cases h
  suffices H : ∀ c, Interleaved ps (Scene.start d) c → (∀ j, (c.phase j).saving = false) →
      Interleaved ps (Scene.start d) (c.run ps (inTurn order)) from H _ .start fun _ => rfl
  clear only
  induction order with
  | nil => exact fun c hc _ => hc
  | cons x xs ih =>
    intro c hc hj
    have hx := ho x List.mem_cons_self
    obtain ⟨h1, h2⟩ := block x.1 x.2 c hc (fun j _ => hj j)
      (fun t tmp a e hp => Nat.le_trans (bound (hj x.1)) (hx t tmp a e hp)) (fun _ => hj x.1)
    have : c.run ps (inTurn (x :: xs)) = (c.run ps (List.replicate x.2 (x.1, 0))).run ps (inTurn xs) := by
      unfold Scene.run inTurn
      rw [List.flatMap_cons, List.foldl_append]
    rw [this]
    exact ih (fun y hy => ho y (List.mem_cons_of_mem _ hy)) _ h1 h2

/-- Finding: saves that overlap share the temporary file.  Two programs that save the same database
at the same time can leave a mixture of their outputs in it, although one of them reports success. -/
theorem C86_not_overlapping (d : Disk) (t tmp : PPath) (hne : tmp ≠ t) (a1 a2 b1 b2 : Bytes)
    (h1 : a1.length = b1.length) (h2 : a2.length = b2.length) :
    ∃ sched, let c := (Scene.start d).run [.save t tmp [a1, a2] none, .save t tmp [b1, b2] none] sched
      c.phase 0 = .done (.ok []) ∧ c.phase 1 = .done (.error .os) ∧
      c.disk.content t = some (b1 ++ a2) ∧
      (a1 ≠ b1 → a2 ≠ b2 → b1 ++ a2 ≠ a1 ++ a2 ∧ b1 ++ a2 ≠ b1 ++ b2) := by
  have hmix : a1 ≠ b1 → a2 ≠ b2 → b1 ++ a2 ≠ a1 ++ a2 ∧ b1 ++ a2 ≠ b1 ++ b2 := fun h h' =>
    ⟨fun e => h (List.append_cancel_right e).symm, fun e => h' (List.append_cancel_left e)⟩
  refine ⟨[(0, 0), (1, 0), (0, 0), (1, 0), (1, 0), (0, 0), (0, 0), (0, 0), (1, 0), (1, 0)], ?_⟩
  have w1 : writeAt [] 0 a1 = a1 := writeAt_end [] a1
  have w2 : writeAt a1 0 b1 = b1 := by
    unfold writeAt
    split
    · next h => rw [h] at h1 ⊢; exact List.eq_nil_of_length_eq_zero h1
    · simp [h1]
  have w3 : writeAt b1 b1.length b2 = b1 ++ b2 := writeAt_end b1 b2
  have w4 : writeAt (b1 ++ b2) b1.length a2 = b1 ++ a2 := by
    unfold writeAt
    split
    · next h => rw [h] at h2 ⊢; rw [List.eq_nil_of_length_eq_zero h2.symm]
    · simp [h2]
  cases hn : d.name tmp with
  | none =>
    simp [Scene.run, Scene.step, Scene.start, Prog.step, Disk.create, Disk.setName, Disk.setData,
      Disk.finish, Disk.content, hn, h1, w1, w2, w3, w4, hne, hne.symm]
    exact fun x y => ⟨fun e => x e.symm, y⟩
  | some i =>
    simp [Scene.run, Scene.step, Scene.start, Prog.step, Disk.create, Disk.setName, Disk.setData,
      Disk.finish, Disk.content, hn, h1, w1, w2, w3, w4, hne, hne.symm]
    exact fun x y => ⟨fun e => x e.symm, y⟩

/-- Finding: the temporary file depends only on the name without its suffix, so saving `x.kdbx` and
`x.kdb` at the same time can put the second database into the first file; that save reports
success, and the other one fails and leaves its own file as it was. -/
theorem C86_wrong_database (d : Disk) (hd : d.Ok) (t t' tmp : PPath) (hne : tmp ≠ t) (hne' : t' ≠ t) (ht' : t' ≠ tmp)
    (a b : Bytes) :
    ∃ sched, let c := (Scene.start d).run [.save t tmp [a] none, .save t' tmp [b] none] sched
      c.phase 0 = .done (.ok []) ∧ c.phase 1 = .done (.error .os) ∧
      c.disk.content t = some b ∧ c.disk.content t' = d.content t' := by
  refine ⟨[(0, 0), (0, 0), (0, 0), (1, 0), (1, 0), (0, 0), (1, 0), (1, 0)], ?_⟩
  have w1 : writeAt [] 0 a = a := writeAt_end [] a
  have w2 : writeAt [] 0 b = b := writeAt_end [] b
  cases hn : d.name tmp with
  | none =>
    simp [Scene.run, Scene.step, Scene.start, Prog.step, Disk.create, Disk.setName, Disk.setData, Disk.finish, Disk.content, hn, w1, w2, hne, hne.symm, hne', ht']
    cases hi : d.name t' with
    | none => rfl
    | some i =>
      have := hd.bound t' i hi
      have hni : i ≠ d.next := by omega
      simp [hni]
  | some k =>
    simp [Scene.run, Scene.step, Scene.start, Prog.step, Disk.create, Disk.setName, Disk.setData, Disk.finish, Disk.content, hn, w1, w2, hne, hne.symm, hne', ht']
    cases hi : d.name t' with
    | none => rfl
    | some i =>
      have hni : i ≠ k := fun e => ht' (hd.inj t' tmp i hi (e ▸ hn))
      simp [hni]

example : (PPath.ofStr "dir/my.kdbx".toList).withTmp = (PPath.ofStr "dir/my.kdb".toList).withTmp := by decide

/-! ### The hypotheses are met -/

/-- A disk with one database. -/
def oneFile : Disk where
  name p := if p = PPath.ofStr "dir/a.kdbx".toList then some 0 else none
  data i := if i = 0 then [1, 1, 1, 1] else []
  next := 1

theorem oneFile_ok : oneFile.Ok where
  bound p i h := by
    change (if _ then some 0 else none) = some i at h
    split at h
    · cases h; decide
    · cases h
  inj p q i hp hq := by
    change (if _ then some 0 else none) = some i at hp
    change (if _ then some 0 else none) = some i at hq
    split at hp
    · next e =>
      split at hq
      · next e' => rw [e, e']
      · cases hq
    · cases hp

/-- Two saves of `dir/a.kdbx`, one of `dir/b.kdbx`, and a program that opens `dir/a.kdbx`. -/
def busyDesk : List Prog :=
  [.save (PPath.ofStr "dir/a.kdbx".toList) (PPath.ofStr "dir/a.tmp".toList) [[2], [3, 4]] none,
   .save (PPath.ofStr "dir/a.kdbx".toList) (PPath.ofStr "dir/a.tmp".toList) [[5], [6], [7]] none,
   .save (PPath.ofStr "dir/b.kdbx".toList) (PPath.ofStr "dir/b.tmp".toList) [[8, 9]] (some .os),
   .load (PPath.ofStr "dir/a.kdbx".toList)]

theorem busyDesk_sep : NoTmpTarget busyDesk := by
  have all : ∀ (i : Nat) t tmp a e, busyDesk[i]? = some (Prog.save t tmp a e) →
      t ∈ [PPath.ofStr "dir/a.kdbx".toList, PPath.ofStr "dir/b.kdbx".toList] ∧
      tmp ∈ [PPath.ofStr "dir/a.tmp".toList, PPath.ofStr "dir/b.tmp".toList] := by
    intro i t tmp a e h
    have hm := List.mem_of_getElem? h
    simp only [busyDesk, List.mem_cons, List.not_mem_nil, or_false] at hm
    rcases hm with hm | hm | hm | hm <;> cases hm <;> decide
  rintro i t tmp a e h ⟨j, t', a', e', h'⟩
  have h1 := (all i t tmp a e h).1
  have h2 := (all j t' t a' e' h').2
  simp only [List.mem_cons, List.not_mem_nil, or_false] at h1 h2
  rcases h1 with rfl | rfl <;> rcases h2 with h2 | h2 <;> revert h2 <;> decide

example : oneFile.Ok ∧ NoTmpTarget busyDesk ∧
    Interleaved busyDesk (Scene.start oneFile) ((Scene.start oneFile).run busyDesk
      (inTurn [(3, 2), (1, 6), (2, 4), (3, 3), (0, 5), (3, 2)])) :=
  ⟨oneFile_ok, busyDesk_sep, C86_in_turn _ _ _ (by
    intro x hx t tmp a e hp
    simp only [List.mem_cons, List.not_mem_nil, or_false] at hx
    rcases hx with rfl | rfl | rfl | rfl | rfl | rfl <;> cases hp <;> decide)⟩

/-- What a program has read. -/
def gotBytes : Phase → Option Bytes
  | .done (.ok v) => some v
  | _ => none

/-- In that run the second save comes first, the reader still gets the version from before both, and
the file holds the output of the first save in the end. -/
example :
    let c := (Scene.start oneFile).run busyDesk (inTurn [(3, 2), (1, 6), (2, 4), (3, 3), (0, 5), (3, 2)])
    c.disk.content (PPath.ofStr "dir/a.kdbx".toList) = some [2, 3, 4] ∧ c.log = [0, 1] ∧
    gotBytes (c.phase 3) = some [1, 1, 1, 1] := by
  decide +kernel

end Verif.Props
