import Verif.Kdbx.SpecLemmas
import Verif.Props.C01_Kdbx4RoundTrip
import Verif.Props.C02_Kdbx3RoundTrip
/-!
# C61 Files are read and written as the KDBX format prescribes

The round trips C01 and C02 would also hold for a program that reads and writes a format of its own. Here the format
is stated by itself (`Spec/Kdbx.lean`): whatever other program laid the file out, it is opened and shows its content,
and what is saved is again laid out so, so that other programs can open it.
-/
namespace Verif.Props
open Verif Spec Parser

/-! ## Trees are determined by skeleton and protected texts -/

mutual
theorem texts_length : ∀ a b : Xml, skeleton a = skeleton b → (protectedTexts a).length = (protectedTexts b).length
  | .mk t1 a1 x1 k1, .mk t2 a2 x2 k2, h => by
    rw [skeleton, skeleton] at h
    obtain ⟨rfl, rfl, -, hk⟩ := Xml.mk.inj h
    rw [protectedTexts, protectedTexts, List.length_append, List.length_append, textsList_length k1 k2 hk]
    rw [marked_eq, marked_eq]
    split <;> rfl
theorem textsList_length : ∀ a b : List Xml, skeletonList a = skeletonList b →
    (protectedTextsList a).length = (protectedTextsList b).length
  | [], [], _ => rfl
  | [], _ :: _, h => by rw [skeletonList, skeletonList] at h; cases h
  | _ :: _, [], h => by rw [skeletonList, skeletonList] at h; cases h
  | a :: as, b :: bs, h => by
    rw [skeletonList, skeletonList] at h
    obtain ⟨h1, h2⟩ := List.cons.inj h
    rw [protectedTextsList, protectedTextsList, List.length_append, List.length_append, texts_length a b h1,
      textsList_length as bs h2]
end

mutual
theorem tree_determined : ∀ a b : Xml, skeleton a = skeleton b → protectedTexts a = protectedTexts b → a = b
  | .mk t1 a1 x1 k1, .mk t2 a2 x2 k2, h, h' => by
    rw [skeleton, skeleton] at h
    rw [protectedTexts, protectedTexts] at h'
    obtain ⟨rfl, rfl, hx, hk⟩ := Xml.mk.inj h
    rw [marked_eq, marked_eq] at hx h'
    by_cases hm : isProtected t1 a1 = true
    · rw [if_pos hm, if_pos hm] at h'
      obtain ⟨hx', h'⟩ := List.cons.inj h'
      rw [hx', treeList_determined k1 k2 hk h']
    · rw [if_neg hm, if_neg hm] at h' hx
      rw [hx, treeList_determined k1 k2 hk h']
theorem treeList_determined : ∀ a b : List Xml, skeletonList a = skeletonList b →
    protectedTextsList a = protectedTextsList b → a = b
  | [], [], _, _ => rfl
  | [], _ :: _, h, _ => by rw [skeletonList, skeletonList] at h; cases h
  | _ :: _, [], h, _ => by rw [skeletonList, skeletonList] at h; cases h
  | a :: as, b :: bs, h, h' => by
    rw [skeletonList, skeletonList] at h
    rw [protectedTextsList, protectedTextsList] at h'
    obtain ⟨h1, h2⟩ := List.cons.inj h
    obtain ⟨h3, h4⟩ := List.append_inj h' (texts_length a b h1)
    rw [tree_determined a b h1 h3, treeList_determined as bs h2 h4]
end

/-- Hidden and revealed trees are unique: the specification determines every byte of text. -/
theorem C61_determined (ks : Nat → UInt8) (t a b : Xml) :
    (Hides ks t a → Hides ks t b → a = b) ∧ (Reveals ks t a → Reveals ks t b → a = b) :=
  ⟨fun h h' => tree_determined a b (h.1.trans h'.1.symm) (h.2.trans h'.2.symm),
   fun h h' => tree_determined a b (h.1.trans h'.1.symm) (h.2.trans h'.2.symm)⟩

/-- What a caller sees of an open KDBX4 file. -/
def Opened4 (k : Kdbx) (minor : Nat) (header : Bytes) (binaries : List Bytes) (tree : Xml) : Prop :=
  k.header.value.major = 4 ∧ k.header.value.minor = minor ∧ k.header.data = header ∧
    ∃ b p ih, k.body = some b ∧ b.payload = some p ∧ p.inner = some ih ∧ ih.binaries = binaries ∧ p.xml = tree

/-- What a caller sees of an open KDBX3 file. -/
def Opened3 (k : Kdbx) (minor : Nat) (header : Bytes) (tree : Xml) : Prop :=
  k.header.value.major = 3 ∧ k.header.value.minor = minor ∧ k.header.data = header ∧
    ∃ b p, k.body = some b ∧ b.payload = some p ∧ p.xml = tree

theorem opens4 {P : Prims} (hP : P.Lawful) {pw : Option Str} {kf : Option Bytes} {minor : Nat} {fs : List Field}
    {fin : Bytes} {s : Settings} {inner : List InnerField} {innerFin text file : Bytes}
    (hf : IsFile4 P pw kf minor fs fin s inner innerFin text file) {sid : StreamId} {key : Bytes} {ks : Nat → UInt8}
    (hsid : (inner.filterMap InnerField.streamId?).getLast? = some sid)
    (hkey : (inner.filterMap InnerField.streamKey?).getLast? = some key) (hks : Keystream P key sid ks)
    {stored : Xml} (hx : P.xmlParse text = .ok stored) {c : Creds} (hc : Stand P c pw kf) (suffix : Bytes) :
    ∃ tk mk ih, openBytes P c true (file ++ suffix) = .ok
      { header := { data := headerLayout 4 minor fs fin,
                    value := { minor := minor, major := 4, dyn := some (fs.map Field.value ++ [(.end, .raw fin)]) } },
        body := some { transformedKey := tk, masterKey := mk,
                       payload := some { inner := some ih, xml := unprotect ks stored } } } ∧
      ih.binaries = inner.filterMap InnerField.binary? ∧ ih.streamId = .ok sid ∧ ih.streamKey = .ok key ∧ ih.Ok ∧
      innerHeader (innerLayout inner innerFin ++ text) = .ok (ih, text) := by
  obtain ⟨hh, hs, hil, hfl, tk, packed, enc, blocks, hd, hp, he, hb1, hb2, hb3, hb4, rfl⟩ := hf
  obtain ⟨ih, i1, i2, i3, i4⟩ := C26_read inner innerFin text hil hfl
  have i3 := i3 sid hsid
  have i4 := i4 key hkey
  have seed := any_raw (fin := fin) hs.once hs.seed rfl
  refine ⟨tk, P.sha256 (s.seed ++ tk), ih, openBytes_ok.mpr ⟨suffix, (parse4_ok rfl).mpr
    ⟨_, tk, _, _, by rw [List.append_assoc]; exact header_run _ 4 minor fs fin hh _, rfl, transformed4_eq hc hs hd, ?_, rfl⟩⟩,
    i2, i3, i4, innerHeader_ok i1, i1⟩
  refine (body4_iff P hP ..).mpr ⟨P.sha256 (s.seed ++ tk), s.seed, s.zip, s.cipher, s.iv, blocks, packed, _, _, _,
    ?_, seed, ?_, any_zip hs.once hs.zip, any_cipher hs.once hs.cipher, (blocks4_iff hP ..).mpr ⟨hb1, hb2, hb3, rfl⟩,
    any_raw hs.once hs.iv rfl, ?_, packed_decompress hp, (unpack4_iff ..).mpr ⟨ih, text, sid, _, i1, i3, ?_, rfl⟩, rfl⟩
  · unfold computeMaster
    rw [exc_bind_run seed]
    rfl
  · rw [headerHmac_key, mac4_key]
    simp only [List.append_assoc]
  · unfold concatBlocks
    rw [hb4]
    exact payload_roundtrip P hP _ _ _ _ _ ((encrypts_iff (hP.sha256_length _) hs.size).mp he)
  · rw [i4]
    exact reads_xml hks hx

/-- Reading KDBX4: a file laid out as prescribed for these credentials is opened with them, whatever follows it. It
shows the header as it is in the file, the binaries in order, and the tree with the protected values revealed. -/
theorem C61_reads4 (P : Prims) (hP : P.Lawful) (pw : Option Str) (kf : Option Bytes) (minor : Nat) (fs : List Field)
    (fin : Bytes) (s : Settings) (inner : List InnerField) (innerFin text file : Bytes)
    (hf : IsFile4 P pw kf minor fs fin s inner innerFin text file) (sid : StreamId) (key : Bytes) (ks : Nat → UInt8)
    (hsid : (inner.filterMap InnerField.streamId?).getLast? = some sid)
    (hkey : (inner.filterMap InnerField.streamKey?).getLast? = some key) (hks : Keystream P key sid ks)
    (stored : Xml) (hx : P.xmlParse text = .ok stored) (c : Creds) (hc : Stand P c pw kf) (suffix : Bytes) :
    ∃ k tree, openBytes P c true (file ++ suffix) = .ok k ∧ Reveals ks stored tree ∧
      Opened4 k minor (headerLayout 4 minor fs fin) (inner.filterMap InnerField.binary?) tree := by
  obtain ⟨tk, mk, ih, h1, h2, -⟩ := opens4 hP hf hsid hkey hks hx hc suffix
  have := C25_read ks stored
  exact ⟨_, _, h1, ⟨this.2, this.1⟩, rfl, rfl, rfl, _, _, _, rfl, rfl, rfl, h2, rfl⟩

/-- Writing KDBX4: a file laid out as prescribed is opened, its tree and binaries are replaced, and it is saved under
any credentials. The result is laid out as prescribed for these: same header, same inner stream, the new binaries in
order, and a text whose tree is the new tree with protected values hidden. -/
theorem C61_writes4 (P : Prims) (hP : P.Lawful) (pw0 : Option Str) (kf0 : Option Bytes) (minor : Nat) (fs : List Field)
    (fin : Bytes) (s : Settings) (inner0 : List InnerField) (innerFin0 text0 file0 : Bytes)
    (hf : IsFile4 P pw0 kf0 minor fs fin s inner0 innerFin0 text0 file0) (sid : StreamId) (key : Bytes) (ks : Nat → UInt8)
    (hsid : (inner0.filterMap InnerField.streamId?).getLast? = some sid)
    (hkey : (inner0.filterMap InnerField.streamKey?).getLast? = some key) (hks : Keystream P key sid ks)
    (stored0 : Xml) (hx : P.xmlParse text0 = .ok stored0) (c0 : Creds) (hc0 : Stand P c0 pw0 kf0)
    (k k' : Kdbx) (hopen : openBytes P c0 true file0 = .ok k) (bs : List Bytes) (tree : Xml) (hedit : Edited4 k k' bs tree)
    (pw : Option Str) (kf : Option Bytes) (c : Creds) (hc : Stand P c pw kf)
    (hd : ∃ tk, s.kdf.Derives P (composite P pw kf) tk) (out : Bytes) (hsave : (buildKdbx P c k').1 = .ok out) :
    ∃ inner innerFin stored, IsFile4 P pw kf minor fs fin s inner innerFin (P.xmlSer stored) out ∧ Hides ks tree stored ∧
      inner.filterMap InnerField.binary? = bs ∧
      (inner.filterMap InnerField.streamId?).getLast? = some sid ∧
      (inner.filterMap InnerField.streamKey?).getLast? = some key := by
  obtain ⟨tk0, mk0, ih, h1, h2, h3, h4, h5, -⟩ := opens4 hP hf hsid hkey hks hx hc0 []
  rw [List.append_nil, hopen] at h1
  obtain rfl := Except.ok.inj h1
  obtain ⟨b, p, ih', e1, e2, e3, rfl⟩ := hedit
  obtain rfl := Option.some.inj e1
  obtain rfl := Option.some.inj e2
  obtain rfl := Option.some.inj e3
  obtain ⟨tk, hd⟩ := hd
  obtain ⟨hh, hs, -⟩ := hf
  have ht := transformed4_eq (fin := fin) hc hs hd
  rcases (buildKdbx_ok rfl rfl).mp hsave with ⟨e, -⟩ | ⟨-, tk', o, g1, g2, rfl⟩
  · exact absurd e (by show ¬ (4 : Nat) = 3; decide)
  · obtain rfl : tk = tk' := Except.ok.inj (ht.symm.trans g1)
    obtain ⟨mk, seed, ib, sid', x, z, cph, iv, enc, blk, q1, q2, q3, q4, q5, q6, q7, q8, q9, q10, rfl⟩ := (buildBody4_iff ..).mp g2
    have hok := innerOk_binaries h5 bs
    obtain ⟨gs, gfin, rfl, l1, l2, l3, l4, l5⟩ := buildInner_layout hok q3 h3 h4
    obtain rfl : sid = sid' := Except.ok.inj (h3.symm.trans q4)
    obtain rfl : s.seed = seed := Except.ok.inj ((any_raw hs.once hs.seed rfl).symm.trans q2)
    obtain rfl : s.zip = z := Except.ok.inj ((any_zip hs.once hs.zip).symm.trans q6)
    obtain rfl : s.cipher = cph := Except.ok.inj ((any_cipher hs.once hs.cipher).symm.trans q7)
    obtain rfl : s.iv = iv := Except.ok.inj ((any_raw hs.once hs.iv rfl).symm.trans q8)
    obtain rfl : P.sha256 (s.seed ++ tk) = mk := by
      unfold computeMaster at q1
      rw [exc_bind_run q2] at q1
      exact exc_pure_ok.mp q1
    have q5 : writeXml P sid (.ok key) tree = .ok x := by rw [← h4]; exact q5
    obtain rfl := writes_xml hks q5
    have hb := (blocks4_iff hP ..).mp (blocks4_build P hP _ _ _ [] q10)
    rw [List.append_nil, List.append_nil] at hb
    obtain ⟨b1, b2, b3, b4⟩ := hb
    have hw := C25_written ks tree
    refine ⟨gs, gfin, protect ks tree, ⟨hh, hs, l1, l2, tk, _, enc, splitBlocks enc, hd, packed_compress hP s.zip _,
      (encrypts_iff (hP.sha256_length _) hs.size).mpr q9, b1, b2, b3, C24_split_concat enc, ?_⟩, ⟨hw.2, hw.1⟩, l3, l4, l5⟩
    rw [b4, headerHmac_key, mac4_key]
    simp only [List.append_assoc]

theorem opens3 {P : Prims} (hP : P.Lawful) {pw : Option Str} {kf : Option Bytes} {minor : Nat} {fs : List Field}
    {fin : Bytes} {s : Settings} {start key text file : Bytes} {sid : StreamId}
    (hf : IsFile3 P pw kf minor fs fin s start sid key text file) {ks : Nat → UInt8} (hks : Keystream P key sid ks)
    {stored : Xml} (hx : P.xmlParse text = .ok stored) {c : Creds} (hc : Stand P c pw kf) :
    ∃ tk mk, openBytes P c true file = .ok
      { header := { data := headerLayout 3 minor fs fin,
                    value := { minor := minor, major := 3, dyn := some (fs.map Field.value ++ [(.end, .raw fin)]) } },
        body := some { transformedKey := tk, masterKey := mk,
                       payload := some { inner := none, xml := unprotect ks stored } } } := by
  obtain ⟨hh, hs, tk, packed, enc, blocks, hd, hp, hb1, hb2, hb3, hb4, he, rfl⟩ := hf
  have seed := any_raw (fin := fin) hs.once hs.seed rfl
  refine ⟨tk, P.sha256 (s.seed ++ tk), openBytes_ok.mpr ⟨[], (parse3_ok rfl).mpr
    ⟨_, tk, _, _, header_run _ 3 minor fs fin hh _, rfl, transformed3_eq hc hs hd, ?_, rfl⟩⟩⟩
  refine (body3_iff P ..).mpr ⟨P.sha256 (s.seed ++ tk), s.cipher, s.iv, _, _, ?_, any_cipher hs.once hs.cipher,
    any_raw hs.once hs.iv rfl, payload_roundtrip P hP _ _ _ _ _ ((encrypts_iff (hP.sha256_length _) hs.size).mp he),
    (unpack3_iff ..).mpr ⟨start, _, sid, s.zip, blocks, [], text, _, hs.startSize, rfl, any_raw hs.once hs.hasStart rfl,
      any_sid hs.once hs.hasId, any_zip hs.once hs.zip, (blocks3_iff hP ..).mpr ⟨hb1, hb2, hb3, (List.append_nil _).symm⟩, ?_, ?_, rfl⟩, rfl, rfl⟩
  · unfold computeMaster
    rw [exc_bind_run seed]
    rfl
  · unfold concatBlocks
    rw [hb4]
    exact packed_decompress hp
  · rw [any_skey hs.once hs.hasKey]
    exact reads_xml hks hx

/-- Reading KDBX3. -/
theorem C61_reads3 (P : Prims) (hP : P.Lawful) (pw : Option Str) (kf : Option Bytes) (minor : Nat) (fs : List Field)
    (fin : Bytes) (s : Settings) (start : Bytes) (sid : StreamId) (key text file : Bytes)
    (hf : IsFile3 P pw kf minor fs fin s start sid key text file) (ks : Nat → UInt8) (hks : Keystream P key sid ks)
    (stored : Xml) (hx : P.xmlParse text = .ok stored) (c : Creds) (hc : Stand P c pw kf) :
    ∃ k tree, openBytes P c true file = .ok k ∧ Reveals ks stored tree ∧
      Opened3 k minor (headerLayout 3 minor fs fin) tree := by
  obtain ⟨tk, mk, h1⟩ := opens3 hP hf hks hx hc
  have := C25_read ks stored
  exact ⟨_, _, h1, ⟨this.2, this.1⟩, rfl, rfl, rfl, _, _, rfl, rfl, rfl⟩

/-- Writing KDBX3. -/
theorem C61_writes3 (P : Prims) (hP : P.Lawful) (pw0 : Option Str) (kf0 : Option Bytes) (minor : Nat) (fs : List Field)
    (fin : Bytes) (s : Settings) (start : Bytes) (sid : StreamId) (key text0 file0 : Bytes)
    (hf : IsFile3 P pw0 kf0 minor fs fin s start sid key text0 file0) (ks : Nat → UInt8) (hks : Keystream P key sid ks)
    (stored0 : Xml) (hx : P.xmlParse text0 = .ok stored0) (c0 : Creds) (hc0 : Stand P c0 pw0 kf0)
    (k k' : Kdbx) (hopen : openBytes P c0 true file0 = .ok k) (tree : Xml) (hedit : Edited3 k k' tree)
    (pw : Option Str) (kf : Option Bytes) (c : Creds) (hc : Stand P c pw kf)
    (hd : ∃ tk, s.kdf.Derives P (composite P pw kf) tk) (out : Bytes) (hsave : (buildKdbx P c k').1 = .ok out) :
    ∃ stored, IsFile3 P pw kf minor fs fin s start sid key (P.xmlSer stored) out ∧ Hides ks tree stored := by
  obtain ⟨tk0, mk0, h1⟩ := opens3 hP hf hks hx hc0
  rw [hopen] at h1
  obtain rfl := Except.ok.inj h1
  obtain ⟨b, p, e1, e2, rfl⟩ := hedit
  obtain rfl := Option.some.inj e1
  obtain rfl := Option.some.inj e2
  obtain ⟨tk, hd⟩ := hd
  obtain ⟨hh, hs, -⟩ := hf
  have ht := transformed3_eq (fin := fin) hc hs hd
  rcases (buildKdbx_ok rfl rfl).mp hsave with ⟨-, tk', o, g1, g2, rfl⟩ | ⟨e, -⟩
  · obtain rfl : tk = tk' := Except.ok.inj (ht.symm.trans g1)
    obtain ⟨mk, start', sid', x, z, blk, cph, iv, q1, q2, q3, q4, q5, q6, q7, q8, q9, q10⟩ := (buildBody3_iff ..).mp g2
    obtain rfl : sid = sid' := Except.ok.inj ((any_sid hs.once hs.hasId).symm.trans q4)
    obtain rfl : start = start' := Except.ok.inj ((any_raw hs.once hs.hasStart rfl).symm.trans q2)
    obtain rfl : s.zip = z := Except.ok.inj ((any_zip hs.once hs.zip).symm.trans q6)
    obtain rfl : s.cipher = cph := Except.ok.inj ((any_cipher hs.once hs.cipher).symm.trans q8)
    obtain rfl : s.iv = iv := Except.ok.inj ((any_raw hs.once hs.iv rfl).symm.trans q9)
    obtain rfl : P.sha256 (s.seed ++ tk) = mk := by
      unfold computeMaster at q1
      rw [exc_bind_run (any_raw (fin := fin) hs.once hs.seed rfl)] at q1
      exact exc_pure_ok.mp q1
    rw [any_skey hs.once hs.hasKey] at q5
    obtain rfl := writes_xml hks q5
    have hb := (blocks3_iff hP ..).mp (blocks3_build P hP _ _ [] q7)
    rw [List.append_nil, List.append_nil] at hb
    obtain ⟨b1, b2, b3, b4⟩ := hb
    have hw := C25_written ks tree
    refine ⟨protect ks tree, ⟨hh, hs, tk, _, o, splitBlocks _, hd, packed_compress hP s.zip _, b1, b2, b3,
      C24_split_concat _, ?_, rfl⟩, ⟨hw.2, hw.1⟩⟩
    refine (encrypts_iff (hP.sha256_length _) hs.size).mpr ?_
    rw [← b4]
    exact q10
  · exact absurd rfl e

/-! ## The hypotheses can be met -/

/-- Files of this format exist for all settings and contents of reasonable size. -/
theorem C61_exists4 (P : Prims) (hP : P.Lawful) (pw : Option Str) (kf : Option Bytes) (minor : Nat) (fs : List Field)
    (fin : Bytes) (hh : HeaderOk 4 minor fs fin) (s : Settings) (hs : s.In4 fs)
    (hd : ∃ tk, s.kdf.Derives P (composite P pw kf) tk) (inner : List InnerField)
    (hi : ∀ f ∈ inner, f.data.length < 2 ^ 32) (innerFin : Bytes) (hif : innerFin.length < 2 ^ 32) (text packed : Bytes)
    (hp : Packed P s.zip (innerLayout inner innerFin ++ text) packed) (hl : packed.length + 16 < 2 ^ 83) :
    ∃ file, IsFile4 P pw kf minor fs fin s inner innerFin text file := by
  obtain ⟨tk, hd⟩ := hd
  obtain ⟨enc, he⟩ := payloadEncrypt_total P s.cipher (P.sha256 (s.seed ++ tk)) s.iv packed (by
    have := hs.size
    have := hP.sha256_length (s.seed ++ tk)
    cases hc : s.cipher <;> simp_all [CipherOk, AesKeyLen])
  have := payloadEncrypt_length hP he
  obtain ⟨blk, hb⟩ := buildBlocks4_total P (hmacBase P s.seed tk) enc (by omega)
  have hb := (blocks4_iff hP ..).mp (blocks4_build P hP _ _ _ [] hb)
  exact ⟨_, hh, hs, hi, hif, tk, packed, enc, splitBlocks enc, hd, hp, (encrypts_iff (hP.sha256_length _) hs.size).mpr he,
    hb.1, hb.2.1, hb.2.2.1, C24_split_concat enc, rfl⟩

theorem C61_exists3 (P : Prims) (hP : P.Lawful) (pw : Option Str) (kf : Option Bytes) (minor : Nat) (fs : List Field)
    (fin : Bytes) (hh : HeaderOk 3 minor fs fin) (s : Settings) (start key : Bytes) (sid : StreamId) (hs : s.In3 start sid key fs)
    (hd : ∃ tk, s.kdf.Derives P (composite P pw kf) tk) (text packed : Bytes)
    (hp : Packed P s.zip text packed) (hl : packed.length < 2 ^ 51) :
    ∃ file, IsFile3 P pw kf minor fs fin s start sid key text file := by
  obtain ⟨tk, hd⟩ := hd
  obtain ⟨blk, hb⟩ := buildBlocks3_total P packed hl
  have hb := (blocks3_iff hP ..).mp (blocks3_build P hP _ _ [] hb)
  obtain ⟨enc, he⟩ := payloadEncrypt_total P s.cipher (P.sha256 (s.seed ++ tk)) s.iv (start ++ stream3 P.sha256 0 (splitBlocks packed)) (by
    have := hs.size
    have := hP.sha256_length (s.seed ++ tk)
    cases hc : s.cipher <;> simp_all [CipherOk, AesKeyLen])
  exact ⟨_, hh, hs, tk, packed, enc, splitBlocks packed, hd, hp, hb.1, hb.2.1, hb.2.2.1, C24_split_concat packed,
    (encrypts_iff (hP.sha256_length _) hs.size).mpr he, rfl⟩

/-- Settings of the example headers. -/
def toySettings (c : CipherId) (z : Bool) (kdf : Kdf) : Settings :=
  { cipher := c, zip := z, seed := List.replicate 32 7, iv := List.replicate (if c = .chacha20 then 12 else 16) 9, kdf := kdf }

theorem toy_in4 (c : CipherId) (z : Bool) : (toySettings c z (.argon2 false [5, 6] 2 64 2 0x13)).In4 (Toy.fields4 c z) where
  once := by cases c <;> cases z <;> decide
  cipher := .tail _ (.head _)
  zip := ⟨_, .tail _ (.tail _ (.head _)), by cases c <;> cases z <;> decide⟩
  seed := .tail _ (.tail _ (.tail _ (.head _)))
  iv := .tail _ (.tail _ (.tail _ (.tail _ (.head _))))
  size := by cases c <;> rfl
  kdf := ⟨_, _, .tail _ (.tail _ (.tail _ (.tail _ (.tail _ (.head _))))), by decide, fun e he => he⟩

theorem toy_in3 (c : CipherId) (z : Bool) :
    (toySettings c z (.aes (List.replicate 32 3) 3)).In3 (List.replicate 32 4) .salsa20 [1, 2, 3] (Toy.fields3 c z) where
  once := by cases c <;> cases z <;> decide
  cipher := .head _
  zip := ⟨_, .tail _ (.head _), by cases c <;> cases z <;> decide⟩
  seed := .tail _ (.tail _ (.head _))
  iv := .tail _ (.tail _ (.tail _ (.tail _ (.tail _ (.head _)))))
  size := by cases c <;> rfl
  kdf := ⟨_, _, rfl, .tail _ (.tail _ (.tail _ (.head _))), .tail _ (.tail _ (.tail _ (.tail _ (.head _))))⟩
  startSize := rfl
  hasStart := .tail _ (.tail _ (.tail _ (.tail _ (.tail _ (.tail _ (.tail _ (.head _)))))))
  hasId := .tail _ (.tail _ (.tail _ (.tail _ (.tail _ (.tail _ (.tail _ (.tail _ (.head _))))))))
  hasKey := .tail _ (.tail _ (.tail _ (.tail _ (.tail _ (.tail _ (.head _))))))

/-- A key file of 32 bytes beside the password. -/
def toyCreds : Creds := { password := some "p".toList, keyfile := .path (some (List.replicate 32 1)), transformedKey := none }

theorem toy_stand : Stand Toy.prims toyCreds (some "p".toList) (some (List.replicate 32 1)) :=
  ⟨rfl, rfl, _, .inl rfl, .inl (.raw _ rfl (.inl (by decide +kernel)))⟩

/-- The inner header of the example: two binaries. -/
def toyInner : List InnerField := [.binary [0, 1], .streamId .chacha20, .streamKey [8, 8], .binary [1, 2]]

theorem toy_file4 (c : CipherId) (z : Bool) :
    ∃ file, IsFile4 Toy.prims (some "p".toList) (some (List.replicate 32 1)) 0 (Toy.fields4 c z) [13, 10]
      (toySettings c z (.argon2 false [5, 6] 2 64 2 0x13)) toyInner [] (Toy.prims.xmlSer Toy.tree) file :=
  C61_exists4 Toy.prims Toy.lawful _ _ 0 (Toy.fields4 c z) [13, 10]
    (Toy.headerOk4 c z) _ (toy_in4 c z) ⟨_, .argon2 _ _ _ _ _ _ _ _ rfl⟩
    toyInner (by decide) [] (by decide) _ _ (packed_compress Toy.lawful z _) (by
      have := Toy.compress_length z (innerLayout toyInner [] ++ Toy.prims.xmlSer Toy.tree)
      have : (innerLayout toyInner [] ++ Toy.prims.xmlSer Toy.tree).length < 2 ^ 40 := by decide +kernel
      omega)

theorem toy_file3 (c : CipherId) (z : Bool) :
    ∃ file, IsFile3 Toy.prims (some "p".toList) (some (List.replicate 32 1)) 1 (Toy.fields3 c z) []
      (toySettings c z (.aes (List.replicate 32 3) 3)) (List.replicate 32 4) .salsa20 [1, 2, 3]
      (Toy.prims.xmlSer Toy.tree) file :=
  C61_exists3 Toy.prims Toy.lawful _ _ 1 (Toy.fields3 c z) []
    (Toy.headerOk3 c z) _ _ _ _ (toy_in3 c z) ⟨_, .aes _ _ _ rfl⟩
    (Toy.prims.xmlSer Toy.tree) _ (packed_compress Toy.lawful z _) (by
      have := Toy.compress_length z (Toy.prims.xmlSer Toy.tree)
      have : (Toy.prims.xmlSer Toy.tree).length < 2 ^ 40 := by decide +kernel
      omega)

/-- Reading KDBX4: Argon2, every cipher, compressed or not, password and key file, two binaries. -/
example (c : CipherId) (z : Bool) : ∃ file stored ks,
    IsFile4 Toy.prims (some "p".toList) (some (List.replicate 32 1)) 0 (Toy.fields4 c z) [13, 10]
      (toySettings c z (.argon2 false [5, 6] 2 64 2 0x13)) toyInner [] (Toy.prims.xmlSer Toy.tree) file ∧
    (toyInner.filterMap InnerField.streamId?).getLast? = some .chacha20 ∧
    (toyInner.filterMap InnerField.streamKey?).getLast? = some [8, 8] ∧ Keystream Toy.prims [8, 8] .chacha20 ks ∧
    Toy.prims.xmlParse (Toy.prims.xmlSer Toy.tree) = .ok stored ∧ protectedTexts stored ≠ [] ∧
    Stand Toy.prims toyCreds (some "p".toList) (some (List.replicate 32 1)) := by
  obtain ⟨file, hf⟩ := toy_file4 c z
  exact ⟨file, _, _, hf, rfl, rfl, .chacha20, Toy.lawful.xml_inverse Toy.tree Toy.tree_valid, by decide +kernel, toy_stand⟩

/-- Reading KDBX3. -/
example (c : CipherId) (z : Bool) : ∃ file stored ks,
    IsFile3 Toy.prims (some "p".toList) (some (List.replicate 32 1)) 1 (Toy.fields3 c z) []
      (toySettings c z (.aes (List.replicate 32 3) 3)) (List.replicate 32 4) .salsa20 [1, 2, 3]
      (Toy.prims.xmlSer Toy.tree) file ∧
    Keystream Toy.prims [1, 2, 3] .salsa20 ks ∧ Toy.prims.xmlParse (Toy.prims.xmlSer Toy.tree) = .ok stored ∧
    protectedTexts stored ≠ [] := by
  obtain ⟨file, hf⟩ := toy_file3 c z
  exact ⟨file, _, _, hf, .salsa20, Toy.lawful.xml_inverse Toy.tree Toy.tree_valid, by decide +kernel⟩

/-- Writing KDBX4: the file above, a third binary, another tree, another password, no key file. -/
example (c : CipherId) (z : Bool) : ∃ file k k' out,
    IsFile4 Toy.prims (some "p".toList) (some (List.replicate 32 1)) 0 (Toy.fields4 c z) [13, 10]
      (toySettings c z (.argon2 false [5, 6] 2 64 2 0x13)) toyInner [] (Toy.prims.xmlSer Toy.tree) file ∧
    openBytes Toy.prims toyCreds true file = .ok k ∧ Edited4 k k' [[0, 1], [1, 2], [0, 3]] Toy.tree ∧
    Stand Toy.prims Toy.wrong (some "q".toList) none ∧ (buildKdbx Toy.prims Toy.wrong k').1 = .ok out := by
  obtain ⟨file, hf⟩ := toy_file4 c z
  obtain ⟨tk, mk, ih, h1, -, -, -, -, h6⟩ := opens4 Toy.lawful hf (sid := .chacha20) (key := [8, 8]) rfl rfl .chacha20
    (Toy.lawful.xml_inverse Toy.tree Toy.tree_valid) toy_stand []
  rw [List.append_nil] at h1
  have hst : Stand Toy.prims Toy.wrong (some "q".toList) none := ⟨rfl, rfl, rfl⟩
  have hih : ih = innerDecode (toyInner.map InnerField.item ++ [(.end, .raw [])]) := by
    have : innerHeader (innerLayout toyInner [] ++ Toy.prims.xmlSer Toy.tree) =
        .ok (innerDecode (toyInner.map InnerField.item ++ [(.end, .raw [])]), Toy.prims.xmlSer Toy.tree) := by
      unfold innerHeader
      rw [bind_run (innerItems_run toyInner [] _ (by decide) (by decide))]
      rfl
    rw [this] at h6
    cases h6
    rfl
  subst hih
  obtain ⟨out, ho⟩ := C01_save_succeeds Toy.prims Toy.lawful _ _ _ _ h1 rfl [[0, 1], [1, 2], [0, 3]] Toy.tree
    ⟨_, _, _, rfl, rfl, rfl, rfl⟩ (by decide) (by
      intro b' d z hb hp
      cases hb
      have := Toy.compress_length z d
      have : d.length < 2 ^ 40 := by
        refine (?_ : ∀ e, e = Except.ok d → (match e with | .ok x => x.length | .error (_ : PyErr) => 0) < 2 ^ 40 → d.length < 2 ^ 40)
          _ hp (by dsimp only; decide +kernel)
        rintro e rfl h
        exact h
      omega) Toy.wrong _ _ rfl (transformed4_eq hst (toy_in4 c z) (.argon2 _ _ _ _ _ _ _ _ rfl))
  exact ⟨file, _, _, out, hf, h1, ⟨_, _, _, rfl, rfl, rfl, rfl⟩, hst, ho⟩

end Verif.Props
