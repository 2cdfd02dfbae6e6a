import Verif.Api.AddLemmas
import Verif.Props.C38_Tags
import Verif.Api.TimeLemmas
/-!
# C39: `add_entry` adds exactly what was asked for
-/
namespace Verif.Props
open Verif XPath Spec Api

/-- The expiry time as stored: the one given, in UTC, or the current time. -/
def storedExpiry (env : Env) (ver : Nat × Nat) (now : DateTime) : Option DateTime → Except PyErr DateTime
  | none => stored ver now
  | some e => (e.astimezoneUtc env.localOff).bind (stored ver)

/-- The new entry `i` reads back as the arguments say. -/
structure ReadsAs (env : Env) (s s' : Db) (i : Nat) (a : EntryArgs) : Prop where
  tag : s'.heap.tag i = "Entry".toList
  fields : ∀ f, getStd env i f s' = (.ok (wanted a f), s')
  custom : ∀ key, Plain key → (∀ f : Field, key ≠ f.key) → getField env i key s' = (.ok none, s')
  secret : ∀ f : Field, isProtected env i f.key s' =
    (.ok (f == .password || (f == .otp && (nonEmpty a.otp).isSome)), s')
  tags : ∀ ts, a.tags = some ts → (∀ t ∈ ts, TagText t) → ts ≠ [[]] → getTags i s' = (.ok ts, s')
  noTags : a.tags = none → getTags i s' = (.ok [], s')
  icon : getIcon i s' = (.ok (nonEmpty a.icon), s')
  uuid : (env.uuid1 s.uuids).length = 16 → getUuid i s' = (.ok (env.uuid1 s.uuids), s')
  times : ∀ p ∈ ["CreationTime".toList, "LastModificationTime".toList, "LastAccessTime".toList, "LocationChanged".toList],
    getTime i p s' = ((stored s.version (env.now s.ticks)).map some, s')
  expiry : getTime i "ExpiryTime".toList s' = ((storedExpiry env s.version (env.now s.ticks) a.expiry).map some, s')
  expires : getExpires i s' = (.ok (some a.expiry.isSome), s')

theorem uuidOfText_ok {b : Bytes} (h : b.length = 16) : uuidOfText (some (b64encode b)) = .ok b := by
  unfold uuidOfText
  simp only [b64decode_b64encode, h, if_true]

theorem ok_of_isOk {α} {x : Except PyErr α} (h : x.isOk = true) : ∃ v, x = .ok v := by
  cases x with
  | error e => cases h
  | ok v => exact ⟨v, rfl⟩

theorem entry_first (u : Bytes) (now exp : Str) (a : EntryArgs) (t n p : Str) :
    xsub (entryXml u now exp a t n p) "UUID".toList = some (b64encode u) ∧
    xsub (entryXml u now exp a t n p) "IconID".toList = nonEmpty a.icon ∧
    xsub (entryXml u now exp a t n p) "Tags".toList = tagsText a.tags ∧
    (xall (entryXml u now exp a t n p) "Times".toList).head? = some (timesX now exp a.expiry.isSome) := by
  refine ⟨?_, ?_, ?_, ?_⟩
  · unfold xsub
    rw [entry_all, if_pos (by decide)]
    rfl
  · unfold xsub
    rw [entry_all, if_neg (by decide), if_pos (by decide), if_neg (by decide), if_neg (by decide), if_neg (by decide), if_neg (by decide)]
    unfold optLeaf
    cases a.icon with
    | none => rfl
    | some w =>
      by_cases hw : w = []
      · simp [hw, nonEmpty]
      · simp only [if_neg hw, nonEmpty]; rfl
  · unfold xsub
    rw [entry_all, if_neg (by decide), if_neg (by decide), if_neg (by decide), if_neg (by decide), if_pos (by decide), if_neg (by decide)]
    unfold tagsX
    cases tagsText a.tags <;> rfl
  · rw [entry_all, if_neg (by decide), if_neg (by decide), if_pos (by decide)]
    rfl

theorem times_first (now exp : Str) (b : Bool) :
    (∀ p ∈ ["CreationTime".toList, "LastModificationTime".toList, "LastAccessTime".toList, "LocationChanged".toList],
      ∃ y, (xall (timesX now exp b) p).head? = some y ∧ y.text = some now) ∧
    (xall (timesX now exp b) "ExpiryTime".toList).head? = some (leafX "ExpiryTime" exp) ∧
    (xall (timesX now exp b) "Expires".toList).head? = some (leafX "Expires" (pyBool b)) := by
  refine ⟨?_, rfl, rfl⟩
  intro p hp
  simp only [List.mem_cons, List.not_mem_nil, or_false] at hp
  rcases hp with rfl | rfl | rfl | rfl
  · exact ⟨leafX "CreationTime" now, rfl, rfl⟩
  · exact ⟨leafX "LastModificationTime" now, rfl, rfl⟩
  · exact ⟨leafX "LastAccessTime" now, rfl, rfl⟩
  · exact ⟨leafX "LocationChanged" now, rfl, rfl⟩

theorem reads_of {env : Env} {s s' : Db} (hs' : Inv s') {i : Nat} (h0 : i ≠ 0) {a : EntryArgs} {now exp t n p : Str}
    (hv : s'.version = s.version) (hc : content s' i = some (entryXml (env.uuid1 s.uuids) now exp a t n p))
    (h1 : a.title = some t) (h2 : a.username = some n) (h3 : a.password = some p)
    (h4 : encodeTime s.version (env.now s.ticks) = .ok now) (h5 : expiryText env s.version a.expiry now = .ok exp) :
    ReadsAs env s s' i a := by
  have hm : i ∈ s'.world.ids := by
    obtain ⟨nd, hn, _⟩ := content_node hc
    obtain ⟨hw, e⟩ := Node.get?_some hn
    rw [← e]; exact List.mem_map_of_mem hw
  obtain ⟨e1, e2, e3, e4⟩ := entry_first (env.uuid1 s.uuids) now exp a t n p
  obtain ⟨f1, f2, f3⟩ := times_first now exp a.expiry.isSome
  refine ⟨?_, ?_, ?_, ?_, ?_, ?_, ?_, ?_, ?_, ?_, ?_⟩
  · exact content_tag hc
  · intro f
    unfold getStd
    rw [getField_run env hs' h0 hm (plain_std f), content_field hs' hc, entry_field _ _ _ h1 h2 h3]
  · intro key hk hf
    rw [getField_run env hs' h0 hm hk, content_field hs' hc, entry_other _ _ _ _ _ _ _ _ hf]
  · intro f
    rw [isProtected_run env hs' h0 hm (plain_std f), content_mark hs' hc, entry_mark]
    cases f with
    | title => rw [if_neg (by decide), if_neg (by decide)]; rfl
    | username => rw [if_neg (by decide), if_neg (by decide)]; rfl
    | password => rw [if_pos (by decide)]; rfl
    | url => rw [if_neg (by decide), if_neg (by decide)]; rfl
    | notes => rw [if_neg (by decide), if_neg (by decide)]; rfl
    | otp =>
      rw [if_neg (by decide), if_pos (by decide)]
      cases nonEmpty a.otp <;> rfl
  · intro ts ht hok h1
    rw [getTags_run, content_sub hs' hc, e3, ht]
    by_cases hn : ts = []
    · subst hn; rfl
    · show (Except.ok (((if ts = [] then none else some (joinTags ts)).map tagsIn).getD []), s') = _
      rw [if_neg hn]
      show (Except.ok (tagsIn (joinTags ts)), s') = _
      rw [tagsIn_join ts hok h1]
  · intro ht
    rw [getTags_run, content_sub hs' hc, e3, ht]
    rfl
  · unfold getIcon
    rw [getSub_content hs' hc, e2]
  · intro hl
    unfold getUuid
    rw [bind_of (getSub_content hs' hc _), e1, lift_run]
    rw [uuidOfText_ok hl]
  · intro q hq
    obtain ⟨y, g1, g2⟩ := f1 q hq
    rw [getTime_content hs' hc e4 g1 g2, hv]
    unfold stored
    rw [h4]
    rfl
  · rw [getTime_content hs' hc e4 f2 rfl, hv]
    unfold storedExpiry
    unfold expiryText at h5
    cases ha : a.expiry with
    | none =>
      rw [ha] at h5
      injection h5 with h5
      subst h5
      unfold stored
      rw [h4]
      rfl
    | some x =>
      rw [ha] at h5
      replace h5 : (match x.astimezoneUtc env.localOff with | .error y => Except.error y | .ok z => encodeTime s.version z) = .ok exp := h5
      show _ = (((x.astimezoneUtc env.localOff).bind (stored s.version)).map some, s')
      cases hz : x.astimezoneUtc env.localOff with
      | error z => rw [hz] at h5; cases h5
      | ok z =>
        rw [hz] at h5
        replace h5 : encodeTime s.version z = .ok exp := h5
        show _ = ((stored s.version z).map some, s')
        unfold stored
        rw [h5]
        rfl
  · rw [getExpires_content hs' hc e4 f3]
    show (Except.ok (some (pyBool a.expiry.isSome == "True".toList)), s') = _
    cases a.expiry.isSome <;> rfl

/-- The elements changed by `add_entry`: one more element, the last child of the destination. Its parts are the
ids from `s.next` on. -/
structure EntryAdded (s s' : Db) (dest i : Nat) : Prop where
  inv : Inv s'
  new : i = s.next
  last : s'.heap.kids dest = s.heap.kids dest ++ [i]
  tag : s'.heap.tag dest = s.heap.tag dest
  text : s'.heap.text dest = s.heap.text dest
  others : ∀ j, j ≠ dest → j < s.next → s'.heap j = s.heap j
  below : ∀ j, s.next ≤ j → (Reach s'.heap i j ↔ j < s'.next)
  entries : ∀ j, s'.heap.tag j = "Entry".toList ↔ s.heap.tag j = "Entry".toList ∨ j = i
  groups : ∀ j, s'.heap.tag j = "Group".toList ↔ s.heap.tag j = "Group".toList
  history : ∀ j, s'.heap.tag j = "History".toList ↔ s.heap.tag j = "History".toList
  outside : s'.version = s.version ∧ s'.binaries = s.binaries ∧ s'.password = s.password ∧ s'.keyfile = s.keyfile
  clock : s'.ticks = s.ticks + 1 ∧ s'.uuids = s.uuids + 1

theorem entryAdded_of {s s' : Db} (hs : Inv s) {dest : Nat} {x : Xml} (hx : x.tag = "Entry".toList)
    (hk : ∀ k ∈ x.kids, Xml.All (fun t _ _ _ => structural t = true) k) (h1 : Inv s')
    (h2 : s' = { s with ticks := s.ticks + 1, uuids := s.uuids + 1, world := s'.world, next := s'.next })
    (h3 : Added s.heap s'.heap dest s.next s'.next) (h4 : content s' s.next = some x) : EntryAdded s s' dest s.next := by
  have htag : s'.heap.tag s.next = "Entry".toList := by rw [content_tag h4, hx]
  have hold : ∀ j, s.next ≤ j → s.heap.tag j = [] := by
    intro j hj
    unfold Heap.tag
    rw [h3.fresh j hj]; rfl
  have hnew : ∀ j, s.next ≤ j → j ≠ s.next → structural (s'.heap.tag j) = true := by
    intro j hj hne
    by_cases hm : j < s'.next
    · exact content_below h1 h4 (P := fun t => structural t = true) hk ((h3.below j).mpr ⟨hj, hm⟩) hne
    · have : s'.heap j = none := heap_none.mpr fun h => hm (h1.bound j h)
      unfold Heap.tag
      rw [this]; decide
  have hstr : ∀ t : Str, structural t = true → t ≠ "Entry".toList ∧ t ≠ "Group".toList ∧ t ≠ "History".toList := by
    intro t h
    unfold structural at h
    rw [Bool.and_eq_true, Bool.and_eq_true, bne_iff_ne, bne_iff_ne, bne_iff_ne] at h
    exact ⟨h.1.1, h.1.2, h.2⟩
  have htags : ∀ j t, t ≠ [] → t ≠ "Entry".toList → (structural t = false) → (s'.heap.tag j = t ↔ s.heap.tag j = t) := by
    intro j t ht hte hst
    by_cases hj : j < s.next
    · rw [added_tag hs h3 hj]
    · rw [hold j (by omega)]
      constructor
      · intro h
        by_cases hjn : j = s.next
        · subst hjn; rw [htag] at h; exact absurd h.symm hte
        · have := hnew j (by omega) hjn
          rw [h, hst] at this; cases this
      · intro h; exact absurd h.symm ht
  refine ⟨h1, rfl, ?_, ?_, ?_, h3.other, ?_, ?_, ?_, ?_, ?_, ?_⟩
  · rw [added_kids hs h3 (added_p hs h3), if_pos rfl]
  · exact added_tag hs h3 (added_p hs h3)
  · exact added_text hs h3 (added_p hs h3)
  · intro j hj; rw [h3.below]; exact ⟨fun h => h.2, fun h => ⟨hj, h⟩⟩
  · intro j
    by_cases hj : j < s.next
    · rw [added_tag hs h3 hj]
      exact ⟨.inl, fun h => h.elim id fun e => by omega⟩
    · rw [hold j (by omega)]
      constructor
      · intro h
        by_cases hjn : j = s.next
        · exact .inr hjn
        · have := (hstr _ (hnew j (by omega) hjn)).1
          exact absurd h this
      · rintro (h | rfl)
        · cases h
        · exact htag
  · intro j; exact htags j _ (by decide) (by decide) (by decide)
  · intro j; exact htags j _ (by decide) (by decide) (by decide)
  · rw [h2]; exact ⟨rfl, rfl, rfl, rfl⟩
  · rw [h2]; exact ⟨rfl, rfl⟩

theorem addEntry_all {env : Env} {s s' : Db} (hs : Inv s) {dest i : Nat} (hm : dest ∈ s.world.ids) {a : EntryArgs} {force : Bool}
    (h : addEntry env dest a force s = (.ok i, s')) : i = s.next ∧ EntryAdded s s' dest i ∧ ReadsAs env s s' i a ∧ Fields s'.heap i ∧
      Added s.heap s'.heap dest s.next s'.next := by
  obtain ⟨o, now, exp, t, n, p, _, _, h1, h2, h3, h4, h5, h6⟩ := addEntry_inv h
  obtain ⟨s1, g1, g2, g3, g4, g5⟩ := add_ok (inv_quiet hs (s.ticks + 1) (s.uuids + 1)) hm
    (entryXml (env.uuid1 s.uuids) now exp a t n p)
  rw [g1] at h6
  injection h6 with e1 e2
  injection e1 with e1
  replace e1 : s.next = i := e1
  subst e2
  replace g3 : s1 = { s with ticks := s.ticks + 1, uuids := s.uuids + 1, world := s1.world, next := s1.next } := g3
  replace g4 : Added s.heap s1.heap dest s.next s1.next := g4
  replace g5 : content s1 s.next = some (entryXml (env.uuid1 s.uuids) now exp a t n p) := g5
  subst e1
  have h0 : s.next ≠ 0 := by have := hs.bound 0 hs.zero_mem; omega
  exact ⟨rfl, entryAdded_of hs rfl (entry_kids_tags _ _ _ _ _ _ _) g2 g3 g4 g5,
    reads_of g2 h0 (by rw [g3]) g5 h1 h2 h3 h4 h5, content_fieldsOk g2 g5 (entry_fieldsOk _ _ _ _ _ _ _), g4⟩

/-- Whatever `add_entry` returns is the one new entry: last in the destination group, its fields reading back as
given, every other element as before. -/
theorem C39_added {env : Env} {s s' : Db} (hs : Inv s) {dest i : Nat} (hm : dest ∈ s.world.ids) {a : EntryArgs} {force : Bool}
    (h : addEntry env dest a force s = (.ok i, s')) : EntryAdded s s' dest i ∧ ReadsAs env s s' i a := by
  obtain ⟨_, h1, h2, _⟩ := addEntry_all hs hm h
  exact ⟨h1, h2⟩

/-- The new entry is found by title and username, and by every other field given. -/
theorem C39_found {env : Env} {s s' : Db} (hs : Inv s) {dest i : Nat} (hd : InDoc s.heap dest) (hg : s.heap.tag dest = "Group".toList)
    (hh : ¬ InHist s.heap dest) {a : EntryArgs} {force : Bool} (h : addEntry env dest a force s = (.ok i, s'))
    (key : Str) (f : Field) (v : Str) (hk : entryPlace key = some (.field f.key)) (hv : wanted a f = some v) (hp : Plain v) :
    ∃ l, findEntryList env true { kwargs := [.attr key (some v)] } s' = (.ok l, s') ∧ l.Nodup ∧ i ∈ l := by
  obtain ⟨hm, hd0⟩ := inDoc_mem hs hd
  obtain ⟨rfl, h1, h2, h3, h4⟩ := addEntry_all hs hm h
  have hs' := h1.inv
  have hkw : ∀ k ∈ [Kw.attr key (some v)], KwOk .entry k := by
    intro k hk'
    rw [List.mem_singleton.mp hk']
    exact ⟨by show (entryPlace key).isSome = true; rw [hk]; rfl, hp⟩
  obtain ⟨l, g1, g2, g3⟩ := findEntryList_run env hs' hkw
  refine ⟨l, g1, g2, (g3 _).mpr ?_⟩
  have hid : s.next ∈ s'.world.ids := (kid_mem hs' (added_n hs h4)).1
  obtain ⟨nd, hn⟩ := get_of_mem hid
  refine ⟨nd, hn, ?_, h2.tag, ?_, ?_⟩
  · exact (added_inDoc hs hs' h4 rfl hd0 _).mpr (.inr ⟨hd, Nat.le_refl _, hs'.bound _ hid⟩)
  · exact added_hist_new hs hs' h4 rfl (by rw [hg]; decide) hh
  · intro k hk'
    rw [List.mem_singleton.mp hk']
    refine ⟨_, hk, (hasValue_field hs' hn _ _).mpr ((value_field h3 _ _).mpr ?_)⟩
    have h0 : s.next ≠ 0 := by have := hs.bound 0 hs.zero_mem; omega
    have := h2.fields f
    unfold getStd at this
    rw [getField_run env hs' h0 hid (plain_std f)] at this
    injection this with this _
    injection this with this
    rw [this, hv]

/-- `add_entry` succeeds for all arguments that can be written to XML, when the destination has no such entry or
the creation is forced. -/
theorem C39_succeeds (env : Env) {s : Db} (hs : Inv s) {dest : Nat} (h0 : dest ≠ 0) (hm : dest ∈ s.world.ids) {a : EntryArgs}
    {now exp t n p : Str} (h : ArgsOk env s a now exp t n p) (pt : Plain t) (pn : Plain n) (force : Bool)
    (hf : force = true ∨ ∀ e ∈ s.heap.all dest "Entry".toList, Fields s.heap e →
      ¬ (field s.heap e "Title".toList = some t ∧ field s.heap e "UserName".toList = some n))
    (hF : ∀ e ∈ s.heap.all dest "Entry".toList, Fields s.heap e) :
    ∃ s', addEntry env dest a force s = (.ok s.next, s') := by
  obtain ⟨o, h1, h2⟩ := dup_run env hs h0 h.title.1 h.username.1 pt pn
  have hc : (o.isSome && !force) = false := by
    rcases hf with rfl | hf
    · simp
    · cases ho : o.isSome with
      | false => rfl
      | true =>
        obtain ⟨e, he, _, g1, g2⟩ := h2.mp ho
        exact absurd ⟨(value_field (hF e he) _ _).mp g1, (value_field (hF e he) _ _).mp g2⟩ (hf e he (hF e he))
  obtain ⟨s', g, _⟩ := add_ok (inv_quiet hs (s.ticks + 1) (s.uuids + 1)) hm (entryXml (env.uuid1 s.uuids) now exp a t n p)
  exact ⟨s', by rw [addEntry_ok h h1 hc]; exact g⟩

/-- `None` as a title, username or password: nothing is added and no element changes. -/
theorem C39_none (env : Env) {s : Db} {dest : Nat} {a : EntryArgs} {force : Bool}
    (h : a.title = none ∨ a.username = none ∨ a.password = none) :
    ∃ x t u, addEntry env dest a force s = (.error x, { s with ticks := t, uuids := u }) := by
  cases hr : addEntry env dest a force s with
  | mk r s' =>
    cases r with
    | ok i =>
      obtain ⟨_, _, _, t, n, p, _, _, h1, h2, h3, _⟩ := addEntry_inv hr
      rw [h1, h2, h3] at h
      rcases h with h | h | h <;> cases h
    | error x =>
      obtain ⟨t, u, rfl⟩ := addEntry_error hr
      exact ⟨x, t, u, rfl⟩

/-- An addition with all arguments, on the sample database. -/
def sampleArgs : EntryArgs :=
  { title := some "new".toList, username := some "ann".toList, password := some "pw <&>".toList, url := some "u".toList,
    notes := some [], otp := some "o".toList, tags := some ["x".toList, "y z".toList], icon := some "3".toList,
    expiry := some ⟨⟨2031, 5, 6⟩, 7, 8, 9, 0, some 3600000000⟩ }

example : ∃ now exp, ArgsOk Sample.env Sample.db sampleArgs now exp "new".toList "ann".toList "pw <&>".toList := by
  obtain ⟨now, h1⟩ := ok_of_isOk (x := encodeTime Sample.db.version (Sample.env.now Sample.db.ticks)) (by decide +kernel)
  obtain ⟨exp, h2⟩ := ok_of_isOk (x := expiryText Sample.env Sample.db.version sampleArgs.expiry []) (by decide +kernel)
  exact ⟨now, exp, ⟨rfl, by decide⟩, ⟨rfl, by decide⟩, ⟨rfl, by decide⟩, (by rintro w ⟨⟩; decide), (by rintro w ⟨⟩; decide),
    (by rintro w ⟨⟩; decide), (by rintro w ⟨⟩; decide), (by rintro w ⟨⟩; decide), h1, h2⟩

example : InDoc Sample.db.heap 93 ∧ Sample.db.heap.tag 93 = "Group".toList ∧ (∀ e ∈ Sample.db.heap.all 93 "Entry".toList, fieldsOk Sample.db.heap e = true) ∧
    entryPlace "url".toList = some (.field Field.url.key) ∧ wanted sampleArgs .url = some "u".toList :=
  ⟨⟨1, by decide +kernel, .snoc (.snoc (.snoc .refl (show 13 ∈ _ by decide +kernel)) (show 14 ∈ _ by decide +kernel))
    (by decide +kernel)⟩, by decide +kernel, by decide +kernel, by decide +kernel, rfl⟩

end Verif.Props
