import Verif.Api.DeskOps
/-!
# C75: the settings, the data of attachments and the credentials beside the cards
-/
namespace Verif.Props
open Verif XPath Spec Api

section
variable {s s' : Db}

/-- Operations on cards leave the desk alone. -/
theorem C75_apart (env : Env) (hs : Sound s) (o : Op) (ho : o.Ask env (vaultOf s)) : deskOf (o.run env s).2 = deskOf s := by
  obtain ⟨d, m, r, hk⟩ := hs.skeleton
  have ht := ask_typed ho
  have hfix := (fixes_op env o).eq s
  rw [run_state] at hfix ⊢
  exact desk_same hk (Props.C52_structure env hs.inv hk (.step o.call (.refl s) ht)).2
    (fun i hi => (op_keeps env hs hk o ho (meta_good hs hk)).1.frozen i hi) hfix

theorem setting_name (p : Setting) : TagName p.tag := by cases p <;> decide +kernel

theorem days_tag (req : Bool) : daysKey req = changeDays req ∧ TagName (changeDays req) := by cases req <;> exact ⟨rfl, by decide +kernel⟩

def noNumber (r : Except PyErr Unit) : Except PyErr (Option Int) := r.map fun _ => none

theorem then_number {m : M Unit} {r : Except PyErr Unit} (h : m s = (r, s')) : (do m; pure none : M (Option Int)) s = (noNumber r, s') := by
  rw [bind_run, h]
  cases r <;> rfl

theorem number_put {k : Desk} {n v : Str} : noNumber ((k.put n v).1.map fun _ => ()) = (k.put n v).1 := by
  unfold Desk.put
  split
  · rfl
  · split <;> rfl

theorem number_date {k : Desk} {w : Nat × Nat} {x : DateTime} : noNumber ((k.putDate w x).1.map fun _ => ()) = (k.putDate w x).1 := by
  unfold Desk.putDate
  split
  · rfl
  · exact number_put

theorem last_some {env : Env} {o : Office} {x : Option Int} (h : o.last env = .ok x) : x.isSome = true := by
  unfold Office.last at h
  split at h
  · cases h
  · injection h with h; rw [← h]; rfl

theorem desk_core (env : Env) (hs : Sound s) (o : DeskOp) :
    ∃ s', o.run env s = ((o.step env (officeOf s)).1, s') ∧ Desked s' (o.step env (officeOf s)).2 := by
  cases o with
  | set p v =>
    obtain ⟨s', h1, h2⟩ := setMeta_did env hs (setting_name p) v
    exact ⟨s', (then_number h1).trans (by rw [number_put]; rfl), h2⟩
  | setDate x =>
    obtain ⟨s', h1, h2⟩ := setCredDate_did env hs x
    exact ⟨s', (then_number h1).trans (by rw [number_date]; rfl), h2⟩
  | setDays req n =>
    obtain ⟨s', h1, h2⟩ := setMeta_did env hs (days_tag req).2 (intStr n)
    rw [← (days_tag req).1] at h1
    have h1 : setCredDays env req n s = _ := h1
    rw [(days_tag req).1] at h1
    exact ⟨s', (then_number h1).trans (by rw [number_put]; rfl), h2⟩
  | setPassword p =>
    obtain ⟨s', h1, h2⟩ := setCredDate_did env (sound_creds hs (s.ticks + 1) p s.keyfile s.binaries) (env.now s.ticks)
    exact ⟨s', (then_number (m := setPassword env p) h1).trans (by rw [number_date]; rfl), h2⟩
  | setKeyfile p =>
    obtain ⟨s', h1, h2⟩ := setCredDate_did env (sound_creds hs (s.ticks + 1) s.password p s.binaries) (env.now s.ticks)
    exact ⟨s', (then_number (m := setKeyfile env p) h1).trans (by rw [number_date]; rfl), h2⟩
  | addData data c p =>
    obtain ⟨s', h1, h2⟩ := addData_did env hs data c p
    refine ⟨s', ?_, h2⟩
    show (addBinary env data c p >>= fun n => pure (some n)) s = _
    rw [bind_run, h1]
    cases hr : ((DeskOp.addData data c p).step env (officeOf s)).1 with
    | error e => rfl
    | ok x =>
      cases x with
      | some n => rfl
      | none =>
        exfalso
        have : ∀ o : Office, o.last env ≠ .ok none := fun o h => nomatch last_some h
        unfold DeskOp.step at hr
        simp only [] at hr
        split at hr
        · exact this _ hr
        · split at hr
          · cases hr
          · split at hr
            · cases hr
            · exact this _ hr

theorem desk_state (env : Env) (o : DeskOp) (s : Db) : (o.run env s).2 = (o.call.run env s).2 := by
  have key : ∀ {α β} (m : M α) (f : α → β), ((do let x ← m; pure (f x) : M β) s).2 = (m s).2 := by
    intro α β m f
    rw [bind_run]
    cases m s with
    | mk r t => cases r <;> rfl
  cases o with
  | addData d c p => exact (key (addBinary env d c p) some).trans (key (addBinary env d c p) fun _ => ()).symm
  | _ => exact key _ fun _ => none

theorem desk_typed (o : DeskOp) (h : Heap) : o.call.Typed h := by cases o <;> trivial

/-- What an operation on the desk gives and the office after it are those of the machine: the result, every text of every setting, the data,
the credentials, and every card. -/
theorem C75_desk (env : Env) (hs : Sound s) (o : DeskOp) :
    (o.run env s).1 = (o.step env (officeOf s)).1 ∧ officeOf (o.run env s).2 = (o.step env (officeOf s)).2 ∧ Sound (o.run env s).2 := by
  obtain ⟨s', h1, h2⟩ := desk_core env hs o
  have he : s' = (o.call.run env s).2 := by rw [← desk_state, h1]
  rw [h1]
  refine ⟨rfl, h2.office, ?_⟩
  have h3 := h2.neat
  rw [he] at h3 ⊢
  exact sound_step env hs (desk_typed o _) h3

/-- One step of either kind. -/
theorem C75_step (env : Env) (hs : Sound s) (a : Deed) (ha : a.Ask env (officeOf s)) :
    a.Step env (officeOf s) (a.run env s).1 (officeOf (a.run env s).2) ∧ Sound (a.run env s).2 := by
  have key : ∀ {α β} (m : M α) (f : α → β), (do let x ← m; pure (f x) : M β) s = ((m s).1.map f, (m s).2) := by
    intro α β m f
    rw [bind_run]
    cases m s with
    | mk r t => cases r <;> rfl
  cases a with
  | cards o =>
    obtain ⟨r, t, h1, h2, h3⟩ := C71_step env hs o ha
    have hd := C75_apart env hs o ha
    have e : (Deed.cards o).run env s = _ := key (o.run env) (Sum.inl (β := Option Int))
    rw [h1] at hd e
    rw [e]
    exact ⟨⟨r, rfl, h2, hd⟩, h3⟩
  | desk o =>
    obtain ⟨h1, h2, h3⟩ := C75_desk env hs o
    have e : (Deed.desk o).run env s = _ := key (o.run env) (Sum.inr (α := Option Nat))
    rw [e]
    exact ⟨⟨congrArg (Except.map Sum.inr) h1, h2⟩, h3⟩

/-- Any number of operations of both kinds: the library refines the machine on offices. -/
theorem C75_run (env : Env) {l : List (Deed × Except PyErr Answer)} (hs : Sound s) (h : Acted env s l s') :
    Works env (officeOf s) l (officeOf s') ∧ Sound s' := by
  induction h with
  | nil => exact ⟨.nil _, hs⟩
  | @cons s t a l ha _ ih =>
    obtain ⟨h1, h2⟩ := C75_step env hs a ha
    obtain ⟨h3, h4⟩ := ih h2
    exact ⟨.cons ha h1 h3, h4⟩

/-- On the machine: operations on the desk change no card, and each changes only what it is for. -/
theorem C75_frame (env : Env) (o : Office) (a : DeskOp) :
    let o' := (a.step env o).2
    o'.vault = { o.vault with ticks := o'.vault.ticks } ∧
    ((∀ p, a ≠ .setPassword p) → o'.desk.password = o.desk.password) ∧ ((∀ p, a ≠ .setKeyfile p) → o'.desk.keyfile = o.desk.keyfile) ∧
    ((∀ d c p, a ≠ .addData d c p) → o'.desk.shelves = o.desk.shelves ∧ o'.desk.stock = o.desk.stock) ∧
    (∀ n, (∀ p v, a = .set p v → n ≠ p.tag) → (∀ r k, a = .setDays r k → n ≠ changeDays r) →
      ((∃ d, a = .setDate d) ∨ (∃ p, a = .setPassword p ∨ a = .setKeyfile p) → n ≠ changeDate) → o'.desk.texts n = o.desk.texts n) := by
  have put : ∀ (k : Desk) (n v : Str), (k.put n v).2.password = k.password ∧ (k.put n v).2.keyfile = k.keyfile ∧
      ((k.put n v).2.shelves = k.shelves ∧ (k.put n v).2.stock = k.stock) ∧ ∀ m, m ≠ n → (k.put n v).2.texts m = k.texts m := by
    intro k n v
    unfold Desk.put
    split
    · exact ⟨rfl, rfl, ⟨rfl, rfl⟩, fun _ _ => rfl⟩
    · split
      · exact ⟨rfl, rfl, ⟨rfl, rfl⟩, fun _ h => if_neg h⟩
      · exact ⟨rfl, rfl, ⟨rfl, rfl⟩, fun _ _ => rfl⟩
  have date : ∀ (k : Desk) (w : Nat × Nat) (x : DateTime), (k.putDate w x).2.password = k.password ∧ (k.putDate w x).2.keyfile = k.keyfile ∧
      ((k.putDate w x).2.shelves = k.shelves ∧ (k.putDate w x).2.stock = k.stock) ∧ ∀ m, m ≠ changeDate → (k.putDate w x).2.texts m = k.texts m := by
    intro k w x
    unfold Desk.putDate
    split
    · exact ⟨rfl, rfl, ⟨rfl, rfl⟩, fun _ _ => rfl⟩
    · exact put ..
  cases a with
  | set p v =>
    obtain ⟨h1, h2, h3, h4⟩ := put o.desk p.tag v
    exact ⟨rfl, fun _ => h1, fun _ => h2, fun _ => h3, fun n hn _ _ => h4 n (hn p v rfl)⟩
  | setDate x =>
    obtain ⟨h1, h2, h3, h4⟩ := date o.desk o.vault.version x
    exact ⟨rfl, fun _ => h1, fun _ => h2, fun _ => h3, fun n _ _ hn => h4 n (hn (.inl ⟨x, rfl⟩))⟩
  | setDays r k =>
    obtain ⟨h1, h2, h3, h4⟩ := put o.desk (changeDays r) (intStr k)
    exact ⟨rfl, fun _ => h1, fun _ => h2, fun _ => h3, fun n _ hn _ => h4 n (hn r k rfl)⟩
  | setPassword p =>
    obtain ⟨h1, h2, h3, h4⟩ := date { o.desk with password := p } o.vault.version (env.now o.vault.ticks)
    exact ⟨rfl, fun h => absurd rfl (h p), fun _ => h2, fun _ => h3, fun n _ _ hn => h4 n (hn (.inr ⟨p, .inl rfl⟩))⟩
  | setKeyfile p =>
    obtain ⟨h1, h2, h3, h4⟩ := date { o.desk with keyfile := p } o.vault.version (env.now o.vault.ticks)
    exact ⟨rfl, fun _ => h1, fun h => absurd rfl (h p), fun _ => h3, fun n _ _ hn => h4 n (hn (.inr ⟨p, .inr rfl⟩))⟩
  | addData d c p =>
    have hadd : ∀ {b : Stored} {k : Desk}, o.desk.add b = some k → k.password = o.desk.password ∧ k.keyfile = o.desk.keyfile ∧ k.texts = o.desk.texts := by
      intro b k h
      unfold Desk.add at h
      split at h
      · cases h
      · injection h with h; rw [← h]; exact ⟨rfl, rfl, rfl⟩
    unfold DeskOp.step
    simp only []
    split
    · exact ⟨rfl, fun _ => rfl, fun _ => rfl, fun h => absurd rfl (h d c p), fun _ _ _ _ => rfl⟩
    · split
      · exact ⟨rfl, fun _ => rfl, fun _ => rfl, fun h => absurd rfl (h d c p), fun _ _ _ _ => rfl⟩
      · split
        · exact ⟨rfl, fun _ => rfl, fun _ => rfl, fun h => absurd rfl (h d c p), fun _ _ _ _ => rfl⟩
        · rename_i k hk
          obtain ⟨h1, h2, h3⟩ := hadd hk
          exact ⟨rfl, fun _ => h1, fun _ => h2, fun h => absurd rfl (h d c p), fun n _ _ _ => congrFun h3 n⟩

/-- What the properties of the database give, from the desk. -/
theorem C75_reads (env : Env) (hs : Sound s) :
    let k := (officeOf s).desk
    (∀ p : Setting, getMeta env p.tag s = ((match k.texts p.tag with | [] => .error .attribute | t :: _ => .ok t), s)) ∧
    (∀ req, credDays env req s = ((match k.texts (changeDays req) with
      | [] => .ok none
      | none :: _ => .error .type
      | some t :: _ => (pyInt t).map some), s)) ∧
    credDate env s = ((match k.texts changeDate with | [] => .ok none | t :: _ => (decodeTime (vaultOf s).version t).map some), s) ∧
    binaries env s = ((officeOf s).data env, s) := by
  have els : ∀ n, (deskOf s).texts n = (metaEls s.heap n).map s.heap.text := fun _ => rfl
  refine ⟨fun p => ?_, fun req => ?_, ?_, binaries_data env hs.inv⟩
  · rw [getMeta_run env hs.inv (setting_name p)]
    show _ = (match (deskOf s).texts p.tag with | [] => _ | t :: _ => _, s)
    rw [els]
    cases metaEls s.heap p.tag <;> rfl
  · rw [credDays_run env hs.inv, (days_tag req).1]
    show _ = (match (deskOf s).texts (changeDays req) with | [] => _ | none :: _ => _ | some t :: _ => _, s)
    rw [els]
    cases metaEls s.heap (changeDays req) with
    | nil => rfl
    | cons el l =>
      show (intText (s.heap.text el), s) = (match s.heap.text el :: l.map s.heap.text with | [] => _ | none :: _ => _ | some t :: _ => _, s)
      cases s.heap.text el <;> rfl
  · rw [credDate_run env hs.inv]
    show _ = (match (deskOf s).texts "MasterKeyChanged".toList with | [] => _ | t :: _ => _, s)
    rw [els]
    cases metaEls s.heap "MasterKeyChanged".toList <;> rfl

/-- The data of an attachment: those with its number, which counts positions (from the end if negative). -/
theorem C75_binary (env : Env) (hs : Sound s) {x : Nat} {c : Card} (hc : (vaultOf s).card x = some c) {f : File} (hf : f ∈ c.files) :
    attBinary env f.handle s = ((do
      let bs ← (officeOf s).data env
      let i ← f.index
      binaryAt bs i), s) := by
  unfold attBinary
  rw [bind_run, binaries_data env hs.inv]
  cases (officeOf s).data env with
  | error e => rfl
  | ok bs =>
    show (attId f.handle >>= fun i => lift (binaryAt bs i)) s = _
    have h : attId f.handle s = (f.index, s) := ((C71_files env hs hc).1 f hf).2
    rw [bind_run, h]
    cases f.index <;> rfl

end

/-! ## The hypotheses hold for the sample database -/

/-- Data are added and attached under their number, the password is changed, then the name of the database; last a setting gets a text that
cannot be in a document. -/
def errands : List Deed := [.desk (.addData [7, 7] true true), .cards (.addFile 23 3 "new.txt".toList), .desk (.setPassword (some "secret".toList)),
  .desk (.set .name "Ours".toList), .desk (.set .description [Char.ofNat 0])]

def actRun (env : Env) (s : Db) : List Deed → Db
  | [] => s
  | a :: l => actRun env (a.run env s).2 l

example : ∃ l, l.map Prod.fst = errands ∧ Acted Sample.env Sample.db l (actRun Sample.env Sample.db errands) := by
  refine ⟨_, ?_, .cons (a := .desk (.addData [7, 7] true true)) trivial (.cons (a := .cards (.addFile 23 3 "new.txt".toList)) ?_
    (.cons (a := .desk (.setPassword (some "secret".toList))) trivial (.cons (a := .desk (.set .name "Ours".toList)) trivial
    (.cons (a := .desk (.set .description [Char.ofNat 0])) trivial (.nil _)))))⟩
  · rfl
  · exact ⟨entry_card.mpr (by decide +kernel), by decide⟩

example : ((DeskOp.addData [7, 7] true true).run Sample.env Sample.db).1 = .ok (some 3) ∧
    (attBinary Sample.env 148 (actRun Sample.env Sample.db errands)).1 = .ok [7, 7] ∧
    (actRun Sample.env Sample.db errands).password = some "secret".toList ∧
    (getMeta Sample.env "DatabaseName".toList (actRun Sample.env Sample.db errands)).1 = .ok (some "Ours".toList) ∧
    ((DeskOp.set .description [Char.ofNat 0]).run Sample.env Sample.db).1 = .error .value := by
  refine ⟨?_, ?_, ?_, ?_, ?_⟩ <;> decide +kernel

/-- The same data in a KDBX3 database. -/
example : ((DeskOp.addData [7, 7] true true).run Sample.env Sample.db3).1 = .ok (some 2) ∧
    ((officeOf ((DeskOp.addData [7, 7] true true).run Sample.env Sample.db3).2).data Sample.env) = .ok [[1], [2], [7, 7]] := by
  refine ⟨?_, ?_⟩ <;> decide +kernel

end Verif.Props
