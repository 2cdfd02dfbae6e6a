import Verif.Spec.Kdbx
/-!
# The reader and the writer against the file format of `Spec/Kdbx.lean`
-/
namespace Verif
open Verif Verif.Props Spec Parser

/-! ## Credentials and key derivation -/

theorem keyOf_eq {P : Prims} {b k : Bytes} (h : KeyOf P b k) : keyfileComposite P b = .ok k := by
  rcases h with h | ⟨h1, h2, h3, rfl⟩
  · exact C15_formats P b k h
  · exact C15_other P b h1 h2 h3

theorem stand_reusable {P : Prims} {c : Creds} {pw : Option Str} {kf : Option Bytes} (h : Stand P c pw kf) :
    c.keyfile.Reusable := by
  obtain ⟨-, -, h⟩ := h
  cases kf with
  | none => dsimp only at h; rw [h]; trivial
  | some k =>
    obtain ⟨b, h | ⟨pos, h⟩, -⟩ := h <;> rw [h] <;> trivial

theorem stand_composite {P : Prims} {c : Creds} {pw : Option Str} {kf : Option Bytes} (h : Stand P c pw kf) :
    (computeKeyComposite P c.password c.keyfile).1 = .ok (composite P pw kf) := by
  obtain ⟨rfl, -, h⟩ := h
  cases kf with
  | none =>
    dsimp only at h
    rw [h]
    cases c.password <;> rfl
  | some k =>
    obtain ⟨b, h, hk⟩ := h
    have := keyOf_eq hk
    rcases h with h | ⟨pos, h⟩
    · rw [h]
      simp only [computeKeyComposite, Keyfile.read, this]
      cases c.password <;> rfl
    · rw [h]
      simp only [computeKeyComposite, Keyfile.read, this]
      cases c.password <;> rfl

theorem iterEcb_repeat (P : Prims) (seed : Bytes) (n : Nat) (x : Bytes) :
    iterEcb P seed n x = Nat.repeat (P.aesEcb seed) n x := by
  have comm : ∀ n x, Nat.repeat (P.aesEcb seed) n (P.aesEcb seed x) = P.aesEcb seed (Nat.repeat (P.aesEcb seed) n x) := by
    intro n
    induction n with
    | zero => intro x; rfl
    | succ n ih => intro x; exact congrArg (P.aesEcb seed) (ih x)
  induction n generalizing x with
  | zero => rfl
  | succ n ih => rw [iterEcb, ih]; exact comm n x

theorem aesKdf_eq {P : Prims} {seed comp : Bytes} {n : Nat} (h : seed.length = 32) :
    aesKdf P seed n comp = .ok (P.sha256 (Nat.repeat (P.aesEcb seed) n comp)) := by
  unfold aesKdf
  rw [if_pos (.inr (.inr h)), iterEcb_repeat]

/-! ## Header fields -/

theorem nodup_value {fs : List Field} (h : (fs.map Field.idByte).Nodup) : (fs.map fun f => f.value.1).Nodup := by
  have key : ∀ f g : Field, f.value.1 = g.value.1 → f.idByte = g.idByte := by
    intro f g
    cases f <;> cases g <;> intro h <;> first | rfl | (cases h)
  unfold List.Nodup at h ⊢
  rw [List.pairwise_map] at h ⊢
  exact h.imp fun hne he => hne (key _ _ he)

section
variable {fs : List Field} {fin : Bytes} (hn : (fs.map Field.idByte).Nodup)
include hn

theorem field_get {f : Field} (hf : f ∈ fs) :
    DynHeader.get (fs.map Field.value ++ [(.end, .raw fin)]) f.value.1 = some f.value.2 :=
  C27_lookup fs fin (nodup_value hn) f hf

theorem any_cipher {c : CipherId} (h : .cipher c ∈ fs) :
    DynHeader.cipher (fs.map Field.value ++ [(.end, .raw fin)]) = .ok c := by
  have := field_get (fin := fin) hn h
  unfold DynHeader.cipher
  rw [show DynHeader.get (fs.map Field.value ++ [(.end, .raw fin)]) .cipherId = _ from this]
  rfl

theorem any_zip {z : Bool} (h : ∃ flags, .compression flags ∈ fs ∧ (z = true ↔ flags % 2 = 1)) :
    DynHeader.compressed (fs.map Field.value ++ [(.end, .raw fin)]) = .ok z := by
  obtain ⟨flags, h, hz⟩ := h
  have := field_get (fin := fin) hn h
  unfold DynHeader.compressed
  rw [show DynHeader.get (fs.map Field.value ++ [(.end, .raw fin)]) .compressionFlags = _ from this]
  show Except.ok (flags % 2 == 1) = _
  cases z with
  | true => rw [hz.mp rfl]; rfl
  | false =>
    have : flags % 2 ≠ 1 := fun e => by have := hz.mpr e; cases this
    rw [show (flags % 2 == 1) = false by simpa using this]

theorem any_raw {f : Field} {i : HId} {b : Bytes} (h : f ∈ fs) (hv : f.value = (i, .raw b)) :
    DynHeader.raw (fs.map Field.value ++ [(.end, .raw fin)]) i = .ok b := by
  have := field_get (fin := fin) hn h
  rw [hv] at this
  unfold DynHeader.raw
  dsimp only at this
  rw [this]

theorem any_rounds {n : Nat} (h : .transformRounds n ∈ fs) :
    DynHeader.rounds (fs.map Field.value ++ [(.end, .raw fin)]) = .ok n := by
  have := field_get (fin := fin) hn h
  unfold DynHeader.rounds
  rw [show DynHeader.get (fs.map Field.value ++ [(.end, .raw fin)]) .transformRounds = _ from this]
  rfl

theorem any_sid {s : StreamId} (h : .streamId s ∈ fs) :
    DynHeader.streamId (fs.map Field.value ++ [(.end, .raw fin)]) = .ok s := by
  have := field_get (fin := fin) hn h
  unfold DynHeader.streamId
  rw [show DynHeader.get (fs.map Field.value ++ [(.end, .raw fin)]) .protectedStreamId = _ from this]
  rfl

theorem any_skey {b : Bytes} (h : .streamKey b ∈ fs) :
    DynHeader.streamKey (fs.map Field.value ++ [(.end, .raw fin)]) = .ok b := by
  have := field_get (fin := fin) hn h
  unfold DynHeader.streamKey
  rw [show DynHeader.get (fs.map Field.value ++ [(.end, .raw fin)]) .protectedStreamKey = _ from this]
  rfl
end

theorem dict_get {version : Bytes} {es : List (Str × Param)} (hk : (es.map Prod.fst).Nodup) {k : String} {p : Param}
    (he : (k.toList, p) ∈ es) : VDict.get { version, items := es.map fun e => (e.1, e.2.value) } k = .ok p.value := by
  unfold VDict.get dictGet
  have := lookup_mem_nodup (es.map fun e => (e.1, e.2.value)).reverse (by
    rw [List.map_reverse]
    refine nodup_reverse' _ ?_
    rw [List.map_map]; exact hk) (k.toList, p.value) (by
    rw [List.mem_reverse]; exact List.mem_map.mpr ⟨_, he, rfl⟩)
  dsimp only at this ⊢
  rw [this]

/-- The key the reader and the writer compute is the prescribed one. -/
theorem transformed4_eq {P : Prims} {c : Creds} {pw : Option Str} {kf : Option Bytes} (hc : Stand P c pw kf)
    {s : Settings} {fs : List Field} {fin tk : Bytes} (hs : s.In4 fs)
    (hd : s.kdf.Derives P (composite P pw kf) tk) :
    (computeTransformed4 P c (fs.map Field.value ++ [(.end, .raw fin)])).1 = .ok tk := by
  have e1 := stand_composite hc
  have e2 := (composite_again P c.password c.keyfile (stand_reusable hc)).1
  obtain ⟨v, es, hk, hn, hp⟩ := hs.kdf
  have ek : DynHeader.kdf (fs.map Field.value ++ [(.end, .raw fin)]) =
      .ok { version := v, items := es.map fun e => (e.1, e.2.value) } := by
    have := field_get (fin := fin) hs.once hk
    unfold DynHeader.kdf
    rw [show DynHeader.get (fs.map Field.value ++ [(.end, .raw fin)]) .kdfParameters = _ from this]
    rfl
  have gets : ∀ (k : String) (p : Param), (k.toList, p) ∈ es →
      VDict.get { version := v, items := es.map fun e => (e.1, e.2.value) } k = .ok p.value :=
    fun k p h => dict_get hn h
  generalize ({ version := v, items := es.map fun e => (e.1, e.2.value) } : VDict) = D at ek gets
  unfold computeTransformed4
  cases hcc : computeKeyComposite P c.password c.keyfile with
  | mk res kf' =>
    rw [hcc] at e1 e2
    dsimp only at e1 e2
    subst e1
    simp only [ek, hc.2.1]
    generalize s.kdf = kdf at hd hp
    cases hd with
    | aes seed _ rounds hl =>
      rw [gets "$UUID" _ (hp _ List.mem_cons_self)]
      dsimp only [Param.value]
      rw [if_neg (by decide), if_pos (by decide), e2]
      dsimp only
      unfold aesBranch
      rw [exc_bind_run (gets "S" _ (hp _ (.tail _ (.tail _ (.head _))))),
        exc_bind_run (gets "R" _ (hp _ (.tail _ (.head _))))]
      dsimp only [Param.value, VVal.asBytes, VVal.asInt]
      rw [exc_bind_run rfl, if_neg (not_not_intro (.inr (.inr hl)))]
      exact aesKdf_eq hl
    | argon2 hybrid salt _ _ iterations kib lanes version ha =>
      rw [gets "$UUID" _ (hp _ List.mem_cons_self)]
      dsimp only [Param.value]
      rw [if_pos (by cases hybrid <;> decide)]
      dsimp only
      unfold argon2Branch
      rw [exc_bind_run (gets "S" _ (hp _ (.tail _ (.head _)))),
        exc_bind_run (gets "$UUID" _ (hp _ (.head _))),
        exc_bind_run (gets "I" _ (hp _ (.tail _ (.tail _ (.head _))))),
        exc_bind_run (gets "M" _ (hp _ (.tail _ (.tail _ (.tail _ (.head _)))))),
        show (Param.u64 (1024 * kib)).value.asInt = .ok ((1024 * kib : Nat) : Int) from rfl, exc_bind_run rfl,
        exc_bind_run (gets "P" _ (hp _ (.tail _ (.tail _ (.tail _ (.tail _ (.head _))))))),
        exc_bind_run (gets "V" _ (hp _ (.tail _ (.tail _ (.tail _ (.tail _ (.tail _ (.head _)))))))),
        show (Param.bytes salt).value.asBytes = .ok salt from rfl, exc_bind_run rfl,
        show (Param.u64 iterations).value.asInt = .ok (iterations : Int) from rfl, exc_bind_run rfl,
        show (Param.u32 lanes).value.asInt = .ok (lanes : Int) from rfl, exc_bind_run rfl,
        show (Param.u32 version).value.asInt = .ok (version : Int) from rfl, exc_bind_run rfl]
      have em : ((1024 * kib : Nat) : Int) / 1024 = kib := by omega
      rw [em, ← ha]
      cases hybrid <;> rfl

theorem transformed3_eq {P : Prims} {c : Creds} {pw : Option Str} {kf : Option Bytes} (hc : Stand P c pw kf)
    {s : Settings} {start key : Bytes} {sid : StreamId} {fs : List Field} {fin tk : Bytes} (hs : s.In3 start sid key fs)
    (hd : s.kdf.Derives P (composite P pw kf) tk) :
    (computeTransformed3 P c (fs.map Field.value ++ [(.end, .raw fin)])).1 = .ok tk := by
  have e1 := stand_composite hc
  obtain ⟨seed, rounds, hk, h1, h2⟩ := hs.kdf
  rw [hk] at hd
  unfold computeTransformed3
  cases hcc : computeKeyComposite P c.password c.keyfile with
  | mk res kf' =>
    rw [hcc] at e1
    dsimp only at e1
    subst e1
    rw [hc.2.1]
    dsimp only
    rw [exc_bind_run (any_raw hs.once h1 rfl), exc_bind_run (any_rounds hs.once h2)]
    cases hd with
    | aes _ _ _ hl => exact aesKdf_eq hl

/-- Derivation is a function. -/
theorem derives_unique {P : Prims} {k : Kdf} {comp a b : Bytes} (ha : k.Derives P comp a) (hb : k.Derives P comp b) :
    a = b := by
  cases ha with
  | aes => cases hb; rfl
  | argon2 _ _ _ _ _ _ _ _ h =>
    cases hb with
    | argon2 _ _ _ _ _ _ _ _ h' => rw [h] at h'; exact Except.ok.inj h'

/-! ## The outer cipher -/

theorem cbcSpec_congr {E F : Bytes → Bytes} (h : ∀ b, E b = F b) (iv : Bytes) (ps : List Bytes) :
    cbcSpec E iv ps = cbcSpec F iv ps := by rw [funext h]

theorem pieces_flatten (b : Bytes) (h : b.length % 16 = 0) : (pieces b).flatten = b ∧ ∀ p ∈ pieces b, p.length = 16 := by
  refine Twofish.blocks_induction (P := fun b => (pieces b).flatten = b ∧ ∀ p ∈ pieces b, p.length = 16) ?_ ?_ b h
  · exact ⟨rfl, fun p hp => by cases hp⟩
  · intro a r ha _ ih
    rw [pieces_append ha, List.flatten_cons, ih.1]
    refine ⟨rfl, fun p hp => ?_⟩
    rcases List.mem_cons.mp hp with rfl | hp
    · exact ha
    · exact ih.2 p hp

theorem isPadded_eq {d p : Bytes} (h : IsPadded d p) : p = pad d := by
  obtain ⟨n, h1, h2, rfl, h3⟩ := h
  have : n = 16 - d.length % 16 := by
    rw [List.length_append, List.length_replicate] at h3; omega
  subst this
  rfl

theorem encrypts_iff {P : Prims} {c : CipherId} {key iv d e : Bytes} (hk : key.length = 32)
    (hi : iv.length = if c = .chacha20 then 12 else 16) :
    Encrypts P key iv c d e ↔ payloadEncrypt P c key iv d = .ok e := by
  have two : payloadEncrypt P .twofish key iv d = .ok
      (cbcSpec (fun b => (published key b).map UInt8.ofNat) iv (pieces (pad d))).flatten ∨ iv.length ≠ 16 := by
    by_cases hi : iv.length = 16
    · left
      obtain ⟨s, hs, -⟩ := newCbc_ok (.inr (.inr hk)) hi
      obtain ⟨pf, pl⟩ := pieces_flatten (pad d) (pad_length_mod d)
      have h1 := (C23_matches_cbc key iv s hs (pieces (pad d)) pl).1
      have h2 := C23_chunking_encrypt key iv s hs (pieces (pad d)) [pad d] (by rw [pf]; simp)
      rw [h2] at h1
      have h3 : (s.encChunks [pad d]).1 = (s.encUpdate (pad d)).1 := by
        simp [Twofish.Cbc.encChunks]
      rw [h3] at h1
      simp only [payloadEncrypt, hs, h1]
      rw [cbcSpec_congr (F := fun b => (published key b).map UInt8.ofNat)]
      intro b
      have := C60_codebook key iv b s hs
      rw [← this, List.map_map]
      exact (List.map_id'' (fun x => UInt8.ofNat_toNat) _).symm
    · exact .inr hi
  have aes : iv.length = 16 → payloadEncrypt P .aes256 key iv d = .ok (P.aesEnc key iv (pad d)) := by
    intro hi
    simp only [payloadEncrypt]
    rw [if_neg (not_not_intro (.inr (.inr hk))), if_neg (by simp [hi]), if_neg (by simp [pad_length_mod])]
  have cha : iv.length = 12 → payloadEncrypt P .chacha20 key iv d = .ok (ksXor (P.chacha20 key iv) 0 d) := by
    intro hi
    simp only [payloadEncrypt]
    rw [if_neg (by simp [hk]), if_neg (not_not_intro (.inr (.inl hi)))]
  constructor
  · intro h
    cases h with
    | aes _ p h => rw [aes hi, isPadded_eq h]
    | twofish _ p h =>
      rcases two with two | two
      · rw [two, isPadded_eq h]
      · exact absurd hi two
    | chacha20 => rw [cha hi, ksXor_segment]
  · intro h
    cases c with
    | aes256 =>
      rw [aes hi] at h
      cases h
      exact .aes _ _ (C24_pad d)
    | twofish =>
      rcases two with two | two
      · rw [two] at h
        cases h
        exact .twofish _ _ (C24_pad d)
      · exact absurd hi two
    | chacha20 =>
      rw [cha hi] at h
      cases h
      rw [ksXor_segment]
      exact .chacha20 _

/-! ## MACs, packing, streams -/

theorem mac4_key (P : Prims) (seed tk : Bytes) :
    mac4 P (hmacBase P seed tk) = fun i d => P.hmac256 (macKey P seed tk i) (leBytes 8 i ++ (leBytes 4 d.length ++ d)) := rfl

theorem headerHmac_key (P : Prims) (seed tk raw : Bytes) :
    headerHmac P (hmacBase P seed tk) raw = P.hmac256 (macKey P seed tk (2 ^ 64 - 1)) raw := by
  unfold headerHmac macKey hmacBase
  rw [show leBytes 8 (2 ^ 64 - 1) = List.replicate 8 255 by decide +kernel]

theorem packed_decompress {P : Prims} {z : Bool} {plain packed : Bytes} (h : Packed P z plain packed) :
    decompress P z packed = .ok plain := by
  unfold Packed at h
  unfold decompress
  cases z with
  | true => exact h
  | false => rw [if_neg (by decide)] at h ⊢; rw [h]

theorem packed_compress {P : Prims} (hP : P.Lawful) (z : Bool) (plain : Bytes) : Packed P z plain (compress P z plain) := by
  unfold Packed compress
  cases z with
  | true => exact hP.gzip_inverse plain
  | false => rfl

theorem keystream_eq {P : Prims} {key : Bytes} {sid : StreamId} {ks : Nat → UInt8} (h : Keystream P key sid ks) :
    innerStream P sid (.ok key) = .ok (some ks) := by
  cases h <;> rfl

theorem reads_xml {P : Prims} {key text : Bytes} {sid : StreamId} {ks : Nat → UInt8} (h : Keystream P key sid ks)
    {stored : Xml} (hx : P.xmlParse text = .ok stored) : readXml P sid (.ok key) text = .ok (unprotect ks stored) := by
  unfold readXml
  rw [exc_bind_run hx, exc_bind_run (keystream_eq h)]
  rfl

theorem writes_xml {P : Prims} {key x : Bytes} {sid : StreamId} {ks : Nat → UInt8} (h : Keystream P key sid ks)
    {tree : Xml} (hx : writeXml P sid (.ok key) tree = .ok x) : x = P.xmlSer (protect ks tree) := by
  unfold writeXml at hx
  rw [exc_bind_run (keystream_eq h)] at hx
  exact (exc_pure_ok.mp hx).symm

/-! ## Writing an inner header -/

/-- The field a stored item stands for. -/
def innerFieldOf : IType × IVal → Option InnerField
  | (.streamId, .stream s) => some (.streamId s)
  | (.streamKey, .raw b) => some (.streamKey b)
  | (.binary, .raw b) => some (.binary b)
  | _ => none

theorem buildIItem_layout {i : Nat} {x : IType × IVal} {f : InnerField} {y : Bytes} (hf : innerFieldOf x = some f)
    (h : buildIItem i x = .ok y) : y = f.layout ∧ f.data.length < 2 ^ 32 := by
  have raw : ∀ (t : IType) (b y : Bytes), (buildPrefixed 4 b >>= fun z =>
      (pure (leBytes 1 (iTypeNat t) ++ z) : Except PyErr Bytes)) = .ok y →
      y = leBytes 1 (iTypeNat t) ++ lp 4 b ∧ b.length < 2 ^ 32 := by
    intro t b y h
    obtain ⟨z, h1, h2⟩ := exc_bind_ok.mp h
    obtain ⟨h3, rfl⟩ := buildPrefixed_ok h1
    exact ⟨(exc_pure_ok.mp h2).symm, by omega⟩
  unfold innerFieldOf at hf
  split at hf
  · cases hf
    next s =>
    obtain ⟨h1, h2⟩ := raw .streamId (leBytes 4 (streamIdNat s)) y h
    rw [h1]
    cases s <;> exact ⟨by decide +kernel, by decide⟩
  · cases hf
    exact raw .streamKey _ y h
  · cases hf
    exact raw .binary _ y h
  · cases hf

theorem buildUntil_layout (as : List (IType × IVal)) (gs : List InnerField) (hg : as.map innerFieldOf = gs.map some)
    (v : IVal) (i : Nat) (y : Bytes)
    (h : buildUntil buildIItem (fun x => x.1 == .end) i (as ++ [(.end, v)]) = .ok y) :
    ∃ fin, v = .raw fin ∧ fin.length < 2 ^ 32 ∧ y = innerLayout gs fin ∧ ∀ g ∈ gs, g.data.length < 2 ^ 32 := by
  induction as generalizing gs i y with
  | nil =>
    cases gs with
    | cons g gs => cases hg
    | nil =>
      rw [List.nil_append, buildUntil] at h
      obtain ⟨x, h1, h2⟩ := exc_bind_ok.mp h
      rw [if_pos (show ((IType.end, v).1 == IType.end) = true from rfl)] at h2
      obtain rfl := exc_pure_ok.mp h2
      cases v with
      | stream s => cases h1
      | raw b =>
        obtain ⟨z, h3, h4⟩ := exc_bind_ok.mp h1
        obtain ⟨h5, rfl⟩ := buildPrefixed_ok h3
        exact ⟨b, rfl, by omega, (exc_pure_ok.mp h4).symm, fun g hg => by cases hg⟩
  | cons a as ih =>
    cases gs with
    | nil => cases hg
    | cons g gs =>
      rw [List.map_cons, List.map_cons] at hg
      obtain ⟨ha, hg⟩ := List.cons.inj hg
      rw [List.cons_append, buildUntil] at h
      obtain ⟨x, h1, h2⟩ := exc_bind_ok.mp h
      have hne : (a.1 == IType.end) = false := by
        unfold innerFieldOf at ha
        split at ha <;> first | rfl | cases ha
      rw [hne, if_neg (by decide)] at h2
      obtain ⟨z, h3, h4⟩ := exc_bind_ok.mp h2
      obtain rfl := exc_pure_ok.mp h4
      obtain ⟨rfl, hl⟩ := buildIItem_layout ha h1
      obtain ⟨fin, e1, e2, rfl, e4⟩ := ih gs hg _ _ h3
      refine ⟨fin, e1, e2, ?_, ?_⟩
      · unfold innerLayout
        rw [List.flatMap_cons, List.append_assoc]
      · intro g' hg'
        rcases List.mem_cons.mp hg' with rfl | hg'
        · exact hl
        · exact e4 g' hg'

/-- Writing the header with other binaries: a layout with these binaries and the stream settings as before. -/
theorem buildInner_layout {ih : InnerHeader} (hok : ih.Ok) {y : Bytes} (h : buildInner ih = .ok y) {sid : StreamId} {key : Bytes}
    (hs : ih.streamId = .ok sid) (hk : ih.streamKey = .ok key) :
    ∃ gs fin, y = innerLayout gs fin ∧ (∀ g ∈ gs, g.data.length < 2 ^ 32) ∧ fin.length < 2 ^ 32 ∧
      gs.filterMap InnerField.binary? = ih.binaries ∧
      (gs.filterMap InnerField.streamId?).getLast? = some sid ∧
      (gs.filterMap InnerField.streamKey?).getLast? = some key := by
  obtain ⟨fs, v, hfs⟩ := hok.last
  obtain ⟨as, v', he, hs1, hs2⟩ := innerEncode_split ih hok
  have some_of : ∀ a ∈ as, ∃ f, innerFieldOf a = some f := by
    intro a ha
    have h1 := hs2 a (by rw [he]; exact List.mem_append_left _ ha)
    have h2 := hs1 a ha
    obtain ⟨t, w⟩ := a
    cases t <;> cases w <;> first | exact ⟨_, rfl⟩ | exact absurd h2 Bool.noConfusion | exact absurd h1 (by simp [IOk])
  have hg : as.map innerFieldOf = (as.filterMap innerFieldOf).map some := by
    clear he hs1 hs2
    induction as with
    | nil => rfl
    | cons a as ih =>
      obtain ⟨f, hf⟩ := some_of a List.mem_cons_self
      rw [List.map_cons, List.filterMap_cons_some hf, List.map_cons, hf, ih fun b hb => some_of b (List.mem_cons_of_mem _ hb)]
  have h' := h
  unfold buildInner at h'
  rw [he] at h'
  obtain ⟨fin, -, hfin, hy, hl⟩ := buildUntil_layout as _ hg v' 0 y h'
  refine ⟨_, fin, hy, hl, hfin, ?_⟩
  obtain ⟨h0, r1, r2, r3, r4⟩ := C26_read (as.filterMap innerFieldOf) fin [] hl hfin
  rw [← hy, innerHeader_build ih hok y [] h] at r1
  obtain rfl : ih = h0 := congrArg Prod.fst (Except.ok.inj r1)
  have mem_as : ∀ x ∈ ih.fields, x.1 ≠ .end → x ∈ as := by
    intro x hx hne
    have : x ∈ as ++ [(IType.end, v')] := by rw [← he]; exact List.mem_append_right _ hx
    rcases List.mem_append.mp this with h | h
    · exact h
    · exact absurd (by rw [List.mem_singleton.mp h]) hne
  have mem_of_lookup : ∀ (l : List (IType × IVal)) (k : IType) (w : IVal), l.lookup k = some w → (k, w) ∈ l := by
    intro l k w
    induction l with
    | nil => intro h; cases h
    | cons x l ih =>
      obtain ⟨k', w'⟩ := x
      rw [List.lookup]
      split
      · next e =>
        intro h
        cases h
        rw [show k = k' by simpa using e]
        exact List.mem_cons_self
      · intro h; exact List.mem_cons_of_mem _ (ih h)
  refine ⟨r2.symm, ?_, ?_⟩
  · have hm : (IType.streamId, IVal.stream sid) ∈ ih.fields := by
      unfold InnerHeader.streamId at hs
      split at hs
      · next s e => cases hs; exact mem_of_lookup _ _ _ e
      · cases hs
      · cases hs
    have hm2 : sid ∈ (as.filterMap innerFieldOf).filterMap InnerField.streamId? :=
      List.mem_filterMap.mpr ⟨_, List.mem_filterMap.mpr ⟨_, mem_as _ hm IType.noConfusion, rfl⟩, rfl⟩
    cases hl' : ((as.filterMap innerFieldOf).filterMap InnerField.streamId?).getLast? with
    | none => rw [List.getLast?_eq_none_iff.mp hl'] at hm2; cases hm2
    | some s =>
      have := r3 s hl'
      rw [hs] at this
      exact congrArg some (Except.ok.inj this).symm
  · have hm : (IType.streamKey, IVal.raw key) ∈ ih.fields := by
      unfold InnerHeader.streamKey at hk
      split at hk
      · next s e => cases hk; exact mem_of_lookup _ _ _ e
      · cases hk
      · cases hk
    have hm2 : key ∈ (as.filterMap innerFieldOf).filterMap InnerField.streamKey? :=
      List.mem_filterMap.mpr ⟨_, List.mem_filterMap.mpr ⟨_, mem_as _ hm IType.noConfusion, rfl⟩, rfl⟩
    cases hl' : ((as.filterMap innerFieldOf).filterMap InnerField.streamKey?).getLast? with
    | none => rw [List.getLast?_eq_none_iff.mp hl'] at hm2; cases hm2
    | some s =>
      have := r4 s hl'
      rw [hk] at this
      exact congrArg some (Except.ok.inj this).symm

end Verif
