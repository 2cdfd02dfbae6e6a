import Verif.Spec.Search
/-!
# Reading queries piece by piece

A query built by `_find` is a concatenation of pieces.  Each piece is read on its own, and a value
without double quote (and of characters XML allows) inside `"…"` is read as the literal with exactly that value.
-/
namespace Verif.XPath
open Verif

theorem lexRun_append (l : Lex) (s t : Str) : lexRun l (s ++ t) = lexRun (lexRun l s) t := by
  unfold lexRun; rw [List.foldl_append]

theorem lexRun_lit {v : Str} (h : Plain v) (acc : Str) (out : List Tok) :
    lexRun ⟨.lit '"' acc, out⟩ v = ⟨.lit '"' (acc ++ v), out⟩ := by
  induction v generalizing acc with
  | nil => simp [lexRun]
  | cons c v ih =>
    have hc : c ≠ '"' := (h c (List.mem_cons_self ..)).1
    show lexRun (lexStep ⟨.lit '"' acc, out⟩ c) v = _
    have : lexStep ⟨.lit '"' acc, out⟩ c = ⟨.lit '"' (acc ++ [c]), out⟩ := by
      show (if c = '"' then _ else _) = _
      rw [if_neg hc]
    rw [this, ih fun d hd => h d (List.mem_cons_of_mem _ hd), List.append_assoc]
    rfl

/-- Closed text, a value in quotes, closed text. -/
theorem lexRun_value {l : Lex} {A : Str} {out : List Tok} (hA : lexRun l A = ⟨.lit '"' [], out⟩)
    {v : Str} (hv : Plain v) (B : Str) : lexRun l (A ++ (v ++ B)) = lexRun ⟨.lit '"' v, out⟩ B := by
  rw [lexRun_append, lexRun_append, hA, lexRun_lit hv]
  rfl

theorem lexNormal_frame (out : List Tok) (c : Char) :
    lexNormal out c = ⟨(lexNormal [] c).mode, out ++ (lexNormal [] c).out⟩ := by
  unfold lexNormal
  by_cases h0 : c = '/'
  · simp only [if_pos h0]; simp
  simp only [if_neg h0]
  by_cases h1 : c = '.'
  · simp only [if_pos h1]; simp
  simp only [if_neg h1]
  by_cases h2 : c = '"'
  · simp only [if_pos h2]; simp
  simp only [if_neg h2]
  by_cases h3 : c = '\''
  · simp only [if_pos h3]; simp
  simp only [if_neg h3]
  by_cases h4 : c = '@'
  · simp only [if_pos h4]; simp
  simp only [if_neg h4]
  by_cases h5 : c = '('
  · simp only [if_pos h5]; simp
  simp only [if_neg h5]
  by_cases h6 : c = ')'
  · simp only [if_pos h6]; simp
  simp only [if_neg h6]
  by_cases h7 : c = '['
  · simp only [if_pos h7]; simp
  simp only [if_neg h7]
  by_cases h8 : c = ']'
  · simp only [if_pos h8]; simp
  simp only [if_neg h8]
  by_cases h9 : c = ','
  · simp only [if_pos h9]; simp
  simp only [if_neg h9]
  by_cases h10 : c = '='
  · simp only [if_pos h10]; simp
  simp only [if_neg h10]
  by_cases h11 : c = '>'
  · simp only [if_pos h11]; simp
  simp only [if_neg h11]
  by_cases h12 : isNameStart c = true
  · simp only [if_pos h12]; simp
  simp only [if_neg h12]
  by_cases h13 : c.isDigit = true
  · simp only [if_pos h13]; simp
  simp only [if_neg h13]
  by_cases h14 : isSpace c = true
  · simp only [if_pos h14]; simp
  simp only [if_neg h14]
  simp

theorem lexStep_frame (m : LMode) (out : List Tok) (c : Char) :
    lexStep ⟨m, out⟩ c = ⟨(lexStep ⟨m, []⟩ c).mode, out ++ (lexStep ⟨m, []⟩ c).out⟩ := by
  unfold lexStep
  cases m <;> simp only
  · exact lexNormal_frame out c
  · split
    · simp
    · rw [lexNormal_frame, lexNormal_frame [] c, lexNormal_frame ([] ++ _)]; simp
  · split
    · simp
    · split
      · simp
      · rw [lexNormal_frame, lexNormal_frame ([] ++ _)]; simp
  · split
    · simp
    · split
      · simp
      · rw [lexNormal_frame, lexNormal_frame ([] ++ _)]; simp
  · split
    · simp
    · split
      · simp
      · rw [lexNormal_frame, lexNormal_frame ([] ++ _)]; simp
  · split
    · simp
    · rw [lexNormal_frame, lexNormal_frame ([] ++ _)]; simp
  · split <;> simp

theorem lexRun_frame (m : LMode) (out : List Tok) (s : Str) :
    lexRun ⟨m, out⟩ s = ⟨(lexRun ⟨m, []⟩ s).mode, out ++ (lexRun ⟨m, []⟩ s).out⟩ := by
  induction s generalizing m out with
  | nil => simp [lexRun]
  | cons c s ih =>
    show lexRun (lexStep ⟨m, out⟩ c) s = ⟨(lexRun (lexStep ⟨m, []⟩ c) s).mode, out ++ (lexRun (lexStep ⟨m, []⟩ c) s).out⟩
    rw [lexStep_frame]
    generalize lexStep ⟨m, []⟩ c = r
    obtain ⟨rm, ro⟩ := r
    rw [ih, ih rm ro]
    simp

/-- Between two tokens: nothing pending, or a name that the next character ends. -/
def Clean (l : Lex) : Prop := l.mode = .normal ∨ ∃ n, l.mode = .name n

/-- The tokens read so far, including a pending name. -/
def flush (l : Lex) : List Tok :=
  match l.mode with
  | .name n => l.out ++ [.name n]
  | _ => l.out

theorem lexEnd_clean {l : Lex} (h : Clean l) : lexEnd l = .ok (flush l) := by
  obtain ⟨m, out⟩ := l
  rcases h with h | ⟨n, h⟩ <;> simp only at h <;> subst h <;> rfl

/-- A character that ends a name and begins a step or a predicate. -/
def Opens (c : Char) : Prop := c = '/' ∨ c = '['

theorem lexRun_clean {l : Lex} (h : Clean l) {c : Char} (hc : Opens c) (s : Str) :
    lexRun l (c :: s) = lexRun ⟨.normal, flush l⟩ (c :: s) := by
  obtain ⟨m, out⟩ := l
  rcases h with h | ⟨n, h⟩ <;> simp only at h <;> subst h
  · rfl
  · show lexRun (lexStep _ c) s = lexRun (lexStep _ c) s
    rcases hc with rfl | rfl <;> rfl

theorem pathRun_append (p : PSt) (a b : List Tok) :
    pathRun p (a ++ b) = (pathRun p a).bind fun q => pathRun q b := by
  induction a generalizing p with
  | nil => rfl
  | cons t a ih =>
    rw [List.cons_append, pathRun, pathRun]
    cases pathStep p t with
    | error e => rfl
    | ok q => exact ih q

/-- Put earlier steps before those of a state. -/
def PSt.after (abs : Bool) (js : List Instr) (p : PSt) : PSt := ⟨p.mode, abs, js ++ p.instrs⟩

theorem pathStep_frame {m : PMode} (hm : m ≠ .start) (abs : Bool) (js : List Instr) (t : Tok) :
    pathStep ⟨m, abs, js⟩ t = (pathStep ⟨m, false, []⟩ t).map (PSt.after abs js) ∧
    ∀ p, pathStep ⟨m, false, []⟩ t = .ok p → p.mode ≠ .start := by
  cases m with
  | start => exact absurd rfl hm
  | sep d => cases d <;> cases t <;> simp [pathStep, Except.map, PSt.after]
  | dot => cases t <;> simp [pathStep, Except.map, PSt.after]
  | step => cases t <;> simp [pathStep, Except.map, PSt.after]
  | pred acc =>
    cases t <;> try simp [pathStep, Except.map, PSt.after]
    cases h : parsePred acc with
    | error e => exact ⟨rfl, fun p hp => by cases hp⟩
    | ok e => exact ⟨rfl, fun p hp => by cases hp; exact PMode.noConfusion⟩

theorem pathRun_frame (ts : List Tok) : ∀ {m : PMode}, m ≠ .start → ∀ (abs : Bool) (js : List Instr),
    pathRun ⟨m, abs, js⟩ ts = (pathRun ⟨m, false, []⟩ ts).map (PSt.after abs js) := by
  induction ts with
  | nil => intro m _ abs js; simp [pathRun, Except.map, PSt.after]
  | cons t ts ih =>
    intro m hm abs js
    obtain ⟨h1, h2⟩ := pathStep_frame hm abs js t
    rw [pathRun, pathRun, h1]
    cases h : pathStep ⟨m, false, []⟩ t with
    | error e => rfl
    | ok p =>
      show pathRun (PSt.after abs js p) ts = Except.map _ (pathRun p ts)
      obtain ⟨pm, pa, pi⟩ := p
      have hpm : pm ≠ .start := h2 _ h
      unfold PSt.after
      rw [ih hpm abs (js ++ pi), ih hpm pa pi]
      cases pathRun ⟨pm, false, []⟩ ts with
      | error e => rfl
      | ok q => simp [Except.map, PSt.after]

/-- A text that, after a complete step, adds these instructions. -/
structure Piece (s : Str) (is : List Instr) : Prop where
  opens : ∃ c t, s = c :: t ∧ Opens c
  xml : XmlText s
  run : ∃ l, lexRun ⟨.normal, []⟩ s = l ∧ Clean l ∧ pathRun ⟨.step, false, []⟩ (flush l) = .ok ⟨.step, false, is⟩

/-- A text that is a complete path. -/
def Reads (s : Str) (abs : Bool) (is : List Instr) : Prop :=
  XmlText s ∧ ∃ l, lexRun ⟨.normal, []⟩ s = l ∧ Clean l ∧ pathRun ⟨.start, false, []⟩ (flush l) = .ok ⟨.step, abs, is⟩

theorem Plain.xml {v : Str} (h : Plain v) : XmlText v := fun c hc => (h c hc).2

theorem _root_.Verif.XmlText.append {a b : Str} (ha : XmlText a) (hb : XmlText b) : XmlText (a ++ b) := fun c hc =>
  (List.mem_append.mp hc).elim (ha c) (hb c)

theorem Reads.parse {s : Str} {abs : Bool} {is : List Instr} (h : Reads s abs is) :
    parse s = .ok ⟨abs, is⟩ := by
  obtain ⟨hx, l, h1, h2, h3⟩ := h
  unfold XPath.parse lex
  rw [if_pos hx, h1, lexEnd_clean h2]
  show (pathRun _ (flush l)).bind _ = _
  rw [h3]
  rfl

theorem flush_frame (m : LMode) (out a : List Tok) : flush ⟨m, out ++ a⟩ = out ++ flush ⟨m, a⟩ := by
  cases m <;> simp [flush]

/-- Pieces can be added to a complete path. -/
theorem Reads.append {s p : Str} {abs : Bool} {js is : List Instr} (h : Reads s abs js)
    (hp : Piece p is) : Reads (s ++ p) abs (js ++ is) := by
  obtain ⟨hx, l, h1, h2, h3⟩ := h
  obtain ⟨⟨c, t, rfl, hc⟩, px, l', g1, g2, g3⟩ := hp
  refine ⟨hx.append px, lexRun l (c :: t), by rw [lexRun_append, h1], ?_, ?_⟩
  · rw [lexRun_clean h2 hc, lexRun_frame, g1]; exact g2
  · rw [lexRun_clean h2 hc, lexRun_frame, g1, flush_frame, pathRun_append, h3]
    show pathRun ⟨.step, abs, js⟩ (flush l') = _
    rw [pathRun_frame _ (by simp) abs js, g3]
    rfl

theorem Piece.append {s p : Str} {js is : List Instr} (h : Piece s js) (hp : Piece p is) :
    Piece (s ++ p) (js ++ is) := by
  obtain ⟨⟨d, u, rfl, hd⟩, hx, l, h1, h2, h3⟩ := h
  obtain ⟨⟨c, t, rfl, hc⟩, px, l', g1, g2, g3⟩ := hp
  refine ⟨⟨d, u ++ c :: t, rfl, hd⟩, hx.append px, lexRun l (c :: t), by rw [lexRun_append, h1], ?_, ?_⟩
  · rw [lexRun_clean h2 hc, lexRun_frame, g1]; exact g2
  · rw [lexRun_clean h2 hc, lexRun_frame, g1, flush_frame, pathRun_append, h3]
    show pathRun ⟨.step, false, js⟩ (flush l') = _
    rw [pathRun_frame _ (by simp) false js, g3]
    rfl

/-- A piece with one value: closed text, value, closed text. -/
theorem piece_value {s A B : Str} {v : Str} (hv : Plain v) (e : s = A ++ (v ++ B)) {out : List Tok}
    (ho : ∃ c t, A = c :: t ∧ Opens c)
    (hA : lexRun ⟨.normal, []⟩ A = ⟨.lit '"' [], out⟩) {ts : List Tok}
    (hB : lexRun ⟨.lit '"' v, out⟩ B = ⟨.normal, ts⟩) {is : List Instr}
    (hp : pathRun ⟨.step, false, []⟩ ts = .ok ⟨.step, false, is⟩)
    (xa : XmlText A := by decide) (xb : XmlText B := by decide) : Piece s is := by
  subst e
  obtain ⟨c, t, rfl, hc⟩ := ho
  exact ⟨⟨c, _, rfl, hc⟩, xa.append (hv.xml.append xb), ⟨.normal, ts⟩, by rw [lexRun_value hA hv, hB], Or.inl rfl, hp⟩

/-- A piece with two values. -/
theorem piece_value2 {s A B C : Str} {v u : Str} (hv : Plain v) (hu : Plain u)
    (e : s = A ++ (v ++ (B ++ (u ++ C)))) {out out2 : List Tok}
    (ho : ∃ c t, A = c :: t ∧ Opens c)
    (hA : lexRun ⟨.normal, []⟩ A = ⟨.lit '"' [], out⟩) {ts : List Tok}
    (hB : lexRun ⟨.lit '"' v, out⟩ B = ⟨.lit '"' [], out2⟩)
    (hC : lexRun ⟨.lit '"' u, out2⟩ C = ⟨.normal, ts⟩) {is : List Instr}
    (hp : pathRun ⟨.step, false, []⟩ ts = .ok ⟨.step, false, is⟩)
    (xa : XmlText A := by decide) (xb : XmlText B := by decide) (xc : XmlText C := by decide) : Piece s is := by
  subst e
  obtain ⟨c, t, rfl, hc⟩ := ho
  exact ⟨⟨c, _, rfl, hc⟩, xa.append (hv.xml.append (xb.append (hu.xml.append xc))), ⟨.normal, ts⟩, by rw [lexRun_value hA hv, lexRun_value hB hu, hC], Or.inl rfl, hp⟩

/-- A piece with three values. -/
theorem piece_value3 {s A B C D : Str} {v u x : Str} (hv : Plain v) (hu : Plain u) (hx : Plain x)
    (e : s = A ++ (v ++ (B ++ (u ++ (C ++ (x ++ D)))))) {out out2 out3 : List Tok}
    (ho : ∃ c t, A = c :: t ∧ Opens c)
    (hA : lexRun ⟨.normal, []⟩ A = ⟨.lit '"' [], out⟩) {ts : List Tok}
    (hB : lexRun ⟨.lit '"' v, out⟩ B = ⟨.lit '"' [], out2⟩)
    (hC : lexRun ⟨.lit '"' u, out2⟩ C = ⟨.lit '"' [], out3⟩)
    (hD : lexRun ⟨.lit '"' x, out3⟩ D = ⟨.normal, ts⟩) {is : List Instr}
    (hp : pathRun ⟨.step, false, []⟩ ts = .ok ⟨.step, false, is⟩)
    (xa : XmlText A := by decide) (xb : XmlText B := by decide) (xc : XmlText C := by decide) (xd : XmlText D := by decide) : Piece s is := by
  subst e
  obtain ⟨c, t, rfl, hc⟩ := ho
  exact ⟨⟨c, _, rfl, hc⟩, xa.append (hv.xml.append (xb.append (hu.xml.append (xc.append (hx.xml.append xd))))), ⟨.normal, ts⟩,
    by rw [lexRun_value hA hv, lexRun_value hB hu, lexRun_value hC hx, hD], Or.inl rfl, hp⟩

end Verif.XPath
