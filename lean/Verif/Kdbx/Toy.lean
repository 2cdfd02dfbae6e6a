import Verif.Kdbx.RoundTrip
import Verif.Kdbx.FormatLemmas
import Verif.Tree.XmlText
/-!
# A concrete instance of the primitives, and example files

The instance shows that `Prims.Lawful` can be satisfied; it is not cryptography.  The XML part is
the serialiser and parser of `Verif/Tree/XmlText.lean`.  The example files are laid out with
`Verif/Spec/Format.lean`; the theorems use them to show that their hypotheses can be met.
-/
namespace Verif
namespace Toy

/-- A checksum. -/
def mix (n : Nat) (x : Bytes) : Bytes :=
  let h := x.foldl (fun a b => (a * 31 + b.toNat) % 65521) 7
  (List.range n).map fun i => UInt8.ofNat (h / (1 + i % 3) + i)

/-- Primitives for examples. -/
def prims : Prims where
  sha256 := mix 32
  sha512 := mix 64
  hmac256 k m := mix 32 (k ++ m)
  aesEcb k d := d.map (· ^^^ k.headD 0)
  aesEnc k iv d := d.map (· ^^^ (k.headD 0 + iv.headD 0))
  aesDec k iv d := d.map (· ^^^ (k.headD 0 + iv.headD 0))
  chacha20 k n i := k.headD 0 + n.headD 0 + UInt8.ofNat i
  salsa20 k n i := k.headD 0 ^^^ n.headD 0 ^^^ UInt8.ofNat i
  argon2 _ s salt _ _ _ _ := .ok (mix 32 (s ++ salt))
  gzip d := 0x1f :: 0x8b :: d
  gunzip d := match d with
    | 0x1f :: 0x8b :: r => .ok r
    | _ => .error .zlib
  xmlSer := Xml.serDoc
  xmlParse := Xml.parseDoc
  xmlFromString := Xml.parseDoc

theorem mix_length (n : Nat) (x : Bytes) : (mix n x).length = n := by simp [mix]

theorem lawful : prims.Lawful where
  sha256_length := mix_length 32
  sha512_length := mix_length 64
  hmac256_length := fun _ _ => mix_length 32 _
  aesEnc_length := fun _ _ _ _ _ _ => by simp [prims]
  aesDec_length := fun _ _ _ _ _ _ => by simp [prims]
  aes_inverse := fun k iv d _ _ _ => by
    simp only [prims, List.map_map]
    refine Eq.trans (List.map_congr_left (g := id) fun b _ => ?_) (List.map_id _)
    simp only [Function.comp_apply, UInt8.xor_assoc, UInt8.xor_self, UInt8.xor_zero, id]
  gzip_inverse := fun _ => rfl
  xml_inverse := Xml.parseDoc_serDoc

/-- An element with a text. -/
def leaf (t s : String) : Xml := .mk t.toList [] (some s.toList) []

/-- A protected value. -/
def prot (s : String) : Xml :=
  .mk "Value".toList [("Protected".toList, "True".toList)] (some s.toList) []

/-- A small database with protected values, an empty text and characters that need escaping. -/
def tree : Xml :=
  .mk "KeePassFile".toList [] none [
    .mk "Meta".toList [] none [leaf "DatabaseName" "db <1> & é"],
    .mk "Root".toList [] none [
      .mk "Group".toList [] none [
        leaf "Name" "Root",
        .mk "Entry".toList [] none [
          .mk "String".toList [] none [leaf "Key" "Title", leaf "Value" "t"],
          .mk "String".toList [] none [leaf "Key" "Password", prot "pâss"],
          .mk "String".toList [] none [leaf "Key" "otp", prot "x"],
          .mk "String".toList [] none [leaf "Key" "Notes", leaf "Value" ""]]]]]

/-- Header fields of the KDBX4 example. -/
def fields4 (c : CipherId) (z : Bool) : List Spec.Field :=
  [.comment [1, 2], .cipher c, .compression (if z then 1 else 0), .masterSeed (List.replicate 32 7),
   .encryptionIv (List.replicate (if c = .chacha20 then 12 else 16) 9),
   .kdf [0, 1] [("$UUID".toList, .bytes uuidArgon2), ("S".toList, .bytes [5, 6]),
     ("I".toList, .u64 2), ("M".toList, .u64 65536), ("P".toList, .u32 2), ("V".toList, .u32 0x13)]]

/-- Header fields of the KDBX3 example. -/
def fields3 (c : CipherId) (z : Bool) : List Spec.Field :=
  [.cipher c, .compression (if z then 1 else 0), .masterSeed (List.replicate 32 7), .transformSeed (List.replicate 32 3),
   .transformRounds 3, .encryptionIv (List.replicate (if c = .chacha20 then 12 else 16) 9),
   .streamKey [1, 2, 3], .streamStart (List.replicate 32 4), .streamId .salsa20]

/-- Parsed header of the examples. -/
def header4 (c : CipherId) (z : Bool) : Header :=
  { data := Spec.headerLayout 4 0 (fields4 c z) [13, 10],
    value := { minor := 0, major := 4,
               dyn := some ((fields4 c z).map Spec.Field.value ++ [(.end, .raw [13, 10])]) } }

def header3 (c : CipherId) (z : Bool) : Header :=
  { data := Spec.headerLayout 3 1 (fields3 c z) [],
    value := { minor := 1, major := 3,
               dyn := some ((fields3 c z).map Spec.Field.value ++ [(.end, .raw [])]) } }

/-- Inner header of the KDBX4 example with two binaries. -/
def inner : InnerHeader :=
  { binaries := [[0, 1, 2], [1]],
    fields := [(.streamId, .stream .chacha20), (.streamKey, .raw [8, 8]), (.end, .raw [])] }

/-- Password `p`. -/
def creds : Creds := { password := some "p".toList, keyfile := .none, transformedKey := none }

/-- Content before the file is written. -/
def content4 (c : CipherId) (z : Bool) : Kdbx :=
  { header := header4 c z,
    body := some { transformedKey := [], masterKey := [], payload := some { inner := some inner, xml := tree } } }

def content3 (c : CipherId) (z : Bool) : Kdbx :=
  { header := header3 c z,
    body := some { transformedKey := [], masterKey := [], payload := some { inner := none, xml := tree } } }

/-- The bytes of the example files. -/
def file4 (c : CipherId) (z : Bool) : Bytes :=
  match (buildKdbx prims creds (content4 c z)).1 with
  | .ok b => b
  | .error _ => []

def file3 (c : CipherId) (z : Bool) : Bytes :=
  match (buildKdbx prims creds (content3 c z)).1 with
  | .ok b => b
  | .error _ => []

theorem inner_ok : inner.Ok where
  typed := by decide
  nodup := by decide
  last := ⟨[(.streamId, .stream .chacha20), (.streamKey, .raw [8, 8])], .raw [], rfl⟩

instance (t a x ks) : Decidable (Xml.OkNode t a x ks) := by
  unfold Xml.OkNode
  cases x with
  | none => exact decidable_of_iff (Xml.isName t = true ∧ (∀ p ∈ a, Xml.isName p.1 = true ∧ XmlText p.2) ∧
        (a.map Prod.fst).Nodup) (by simp)
  | some s => exact decidable_of_iff (Xml.isName t = true ∧
      (∀ p ∈ a, Xml.isName p.1 = true ∧ XmlText p.2) ∧ (a.map Prod.fst).Nodup ∧ XmlText s ∧
        (ks.isEmpty = true ∨ s = [] ∨ Xml.blank s = false)) (by
          constructor
          · rintro ⟨h1, h2, h3, h4, h5⟩
            refine ⟨h1, h2, h3, fun s' e => by injection e with e; rw [← e]; exact h4, ?_⟩
            intro hk s' e
            injection e with e
            subst e
            rcases h5 with h5 | h5
            · exact absurd (List.isEmpty_iff.mp h5) hk
            · exact h5
          · rintro ⟨h1, h2, h3, h4, h5⟩
            refine ⟨h1, h2, h3, h4 s rfl, ?_⟩
            by_cases hk : ks = []
            · exact .inl (List.isEmpty_iff.mpr hk)
            · exact .inr (h5 hk s rfl))

mutual
/-- Executable check of validity. -/
def validB : Xml → Bool
  | .mk t a x ks => decide (Xml.OkNode t a x ks) && validBList ks
def validBList : List Xml → Bool
  | [] => true
  | k :: ks => validB k && validBList ks
end

theorem validBList_all (ks : List Xml) (h : validBList ks = true) : ∀ k ∈ ks, validB k = true := by
  induction ks with
  | nil => intro k hk; cases hk
  | cons x xs ih =>
    rw [validBList, Bool.and_eq_true] at h
    intro k hk
    rcases List.mem_cons.mp hk with rfl | hk
    · exact h.1
    · exact ih h.2 k hk

theorem valid_of_validB (x : Xml) : validB x = true → x.Valid := by
  refine Xml.ind (P := fun x => validB x = true → x.Valid) ?_ x
  intro t a x ks ih h
  rw [validB, Bool.and_eq_true] at h
  exact .mk (of_decide_eq_true h.1) fun k hk => ih k hk (validBList_all ks h.2 k hk)

theorem tree_valid : tree.Valid := valid_of_validB _ (by decide +kernel)

theorem headerOk4 (c : CipherId) (z : Bool) : Spec.HeaderOk 4 0 (fields4 c z) [13, 10] where
  version := .inr rfl
  minor := by decide
  field := by
    have h : ∀ e ∈ [("$UUID".toList, Spec.Param.bytes uuidArgon2), ("S".toList, .bytes [5, 6]),
        ("I".toList, .u64 2), ("M".toList, .u64 65536), ("P".toList, .u32 2), ("V".toList, .u32 0x13)],
        (utf8Enc e.1).length < 2 ^ 32 ∧ e.2.Fits := by
      intro e he
      simp only [List.mem_cons, List.not_mem_nil, or_false] at he
      rcases he with rfl | rfl | rfl | rfl | rfl | rfl <;> exact ⟨by decide, by
        simp [Spec.Param.Fits, uuidArgon2]⟩
    intro f hf
    simp only [fields4, List.mem_cons, List.not_mem_nil, or_false] at hf
    rcases hf with rfl | rfl | rfl | rfl | rfl | rfl
    · exact ⟨trivial, trivial, by decide⟩
    · exact ⟨trivial, trivial, by cases c <;> decide⟩
    · exact ⟨trivial, by show (if z = true then 1 else 0) < 2 ^ 32; cases z <;> decide, by cases z <;> decide⟩
    · exact ⟨trivial, trivial, by decide⟩
    · exact ⟨trivial, trivial, by cases c <;> decide⟩
    · exact ⟨rfl, ⟨rfl, by simp, h⟩, by decide +kernel⟩
  fin := by decide

theorem headerOk3 (c : CipherId) (z : Bool) : Spec.HeaderOk 3 1 (fields3 c z) [] where
  version := .inl rfl
  minor := by decide
  field := by
    intro f hf
    simp only [fields3, List.mem_cons, List.not_mem_nil, or_false] at hf
    rcases hf with rfl | rfl | rfl | rfl | rfl | rfl | rfl | rfl | rfl
    · exact ⟨trivial, trivial, by cases c <;> decide⟩
    · exact ⟨trivial, by show (if z = true then 1 else 0) < 2 ^ 32; cases z <;> decide, by cases z <;> decide⟩
    · exact ⟨trivial, trivial, by decide⟩
    · exact ⟨rfl, trivial, by decide⟩
    · exact ⟨rfl, by show (3 : Nat) < 2 ^ 64; decide, by decide⟩
    · exact ⟨trivial, trivial, by cases c <;> decide⟩
    · exact ⟨rfl, trivial, by decide⟩
    · exact ⟨rfl, trivial, by decide⟩
    · exact ⟨rfl, trivial, by decide⟩
  fin := by decide

/-- Dynamic headers of the examples. -/
abbrev dyn4 (c : CipherId) (z : Bool) : DynHeader :=
  (fields4 c z).map Spec.Field.value ++ [(.end, .raw [13, 10])]
abbrev dyn3 (c : CipherId) (z : Bool) : DynHeader :=
  (fields3 c z).map Spec.Field.value ++ [(.end, .raw [])]

theorem key4 (c : CipherId) (z : Bool) : ∃ tk, (computeTransformed4 prims creds (dyn4 c z)).1 = .ok tk := by
  cases c <;> cases z <;> exact ⟨_, rfl⟩

theorem key3 (c : CipherId) (z : Bool) : ∃ tk, (computeTransformed3 prims creds (dyn3 c z)).1 = .ok tk := by
  cases c <;> cases z <;> exact ⟨_, rfl⟩

theorem settings4 (c : CipherId) (z : Bool) : ∃ seed iv,
    (dyn4 c z).raw .masterSeed = .ok seed ∧ (dyn4 c z).raw .encryptionIv = .ok iv ∧
    (dyn4 c z).compressed = .ok z ∧ (dyn4 c z).cipher = .ok c ∧
    iv.length = if c = .chacha20 then 12 else 16 := by
  cases c <;> cases z <;> exact ⟨_, _, rfl, rfl, rfl, rfl, rfl⟩

theorem settings3 (c : CipherId) (z : Bool) : ∃ seed iv start,
    (dyn3 c z).raw .masterSeed = .ok seed ∧ (dyn3 c z).raw .encryptionIv = .ok iv ∧
    (dyn3 c z).compressed = .ok z ∧ (dyn3 c z).cipher = .ok c ∧
    iv.length = (if c = .chacha20 then 12 else 16) ∧
    (dyn3 c z).raw .streamStartBytes = .ok start ∧ start.length = 32 ∧
    (dyn3 c z).streamId = .ok .salsa20 ∧ (dyn3 c z).streamKey = .ok [1, 2, 3] := by
  cases c <;> cases z <;> exact ⟨_, _, _, rfl, rfl, rfl, rfl, rfl, rfl, rfl, rfl, rfl⟩

theorem cipherOk (c : CipherId) (key iv : Bytes) (hk : key.length = 32)
    (hi : iv.length = if c = .chacha20 then 12 else 16) : CipherOk c key iv := by
  cases c <;> simp_all [CipherOk, AesKeyLen]

theorem compress_length (z : Bool) (d : Bytes) : (compress prims z d).length ≤ d.length + 2 := by
  cases z
  · show d.length ≤ _; omega
  · exact Nat.le_refl _

/-- The XML of the examples as written. -/
def writeXmlBytes (s : StreamId) (k : Bytes) : Bytes :=
  match writeXml prims s (.ok k) tree with
  | .ok x => x
  | .error _ => []

theorem xml_written (s : StreamId) (hs : s = .salsa20 ∨ s = .chacha20) (k : Bytes) :
    ∃ x, writeXml prims s (.ok k) tree = .ok x ∧ x = writeXmlBytes s k := by
  rcases hs with rfl | rfl <;> exact ⟨_, rfl, rfl⟩

theorem xml_len3 : (writeXmlBytes .salsa20 [1, 2, 3]).length < 2 ^ 40 := by decide +kernel
theorem xml_len4 : (writeXmlBytes .chacha20 [8, 8]).length < 2 ^ 40 := by decide +kernel

theorem buildInner_len : ∃ y, buildInner inner = .ok y ∧ y.length < 2 ^ 20 := ⟨_, rfl, by decide⟩

theorem build4 (c : CipherId) (z : Bool) : ∃ out, (buildKdbx prims creds (content4 c z)).1 = .ok out := by
  obtain ⟨tk, htk⟩ := key4 c z
  obtain ⟨seed, iv, h1, h2, h3, h4, h5⟩ := settings4 c z
  obtain ⟨x, hx, hxe⟩ := xml_written .chacha20 (.inr rfl) [8, 8]
  obtain ⟨y, hy, hyl⟩ := buildInner_len
  have hmk : computeMaster prims (dyn4 c z) tk = .ok (prims.sha256 (seed ++ tk)) := by
    unfold computeMaster; rw [exc_bind_run h1]; rfl
  obtain ⟨enc, henc⟩ := payloadEncrypt_total prims c (prims.sha256 (seed ++ tk)) iv
    (compress prims z (y ++ x)) (cipherOk c _ iv (lawful.sha256_length _) h5)
  have hl := payloadEncrypt_length lawful henc
  have hl2 := compress_length z (y ++ x)
  have hl3 := xml_len4
  rw [List.length_append, hxe] at hl2
  rw [hxe] at hl
  obtain ⟨blk, hblk⟩ := buildBlocks4_total prims (hmacBase prims seed tk) enc (by omega)
  have hb := (buildBody4_iff prims (header4 c z).data (dyn4 c z) tk inner tree _).mpr
    ⟨_, seed, y, .chacha20, x, z, c, iv, enc, blk, hmk, h1, hy, rfl, hx, h3, h4, h2, henc, hblk, rfl⟩
  exact ⟨_, (buildKdbx_ok (d := dyn4 c z) (b := _) rfl
    (rfl : (content4 c z).body = some _)).mpr
    (.inr ⟨by show (4 : Nat) ≠ 3; decide, tk, _, htk, hb, rfl⟩)⟩

theorem build3 (c : CipherId) (z : Bool) : ∃ out, (buildKdbx prims creds (content3 c z)).1 = .ok out := by
  obtain ⟨tk, htk⟩ := key3 c z
  obtain ⟨seed, iv, start, h1, h2, h3, h4, h5, h6, h7, h8, h9⟩ := settings3 c z
  obtain ⟨x, hx, hxe⟩ := xml_written .salsa20 (.inl rfl) [1, 2, 3]
  have hmk : computeMaster prims (dyn3 c z) tk = .ok (prims.sha256 (seed ++ tk)) := by
    unfold computeMaster; rw [exc_bind_run h1]; rfl
  have hl2 := compress_length z x
  have hl3 := xml_len3
  rw [← hxe] at hl3
  obtain ⟨blk, hblk⟩ := buildBlocks3_total prims (compress prims z x) (by omega)
  obtain ⟨enc, henc⟩ := payloadEncrypt_total prims c (prims.sha256 (seed ++ tk)) iv
    (start ++ blk) (cipherOk c _ iv (lawful.sha256_length _) h5)
  have hb := (buildBody3_iff prims (dyn3 c z) tk none tree enc).mpr
    ⟨_, start, .salsa20, x, z, blk, c, iv, hmk, h6, h7, h8, by rw [h9]; exact hx, h3, hblk, h4, h2, henc⟩
  exact ⟨_, (buildKdbx_ok (d := dyn3 c z) rfl
    (rfl : (content3 c z).body = some _)).mpr (.inl ⟨rfl, tk, _, htk, hb, rfl⟩)⟩

/-- The KDBX4 example opens, for every cipher, compressed or not. -/
theorem open4 (c : CipherId) (z : Bool) : ∃ tk mkey, openBytes prims creds true (file4 c z) =
    .ok { header := header4 c z,
          body := some { transformedKey := tk, masterKey := mkey,
                         payload := some { inner := some inner, xml := tree.norm } } } := by
  obtain ⟨out, hout⟩ := build4 c z
  have hf : file4 c z = out := by unfold file4; rw [hout]
  rw [hf]
  rcases (buildKdbx_ok (d := dyn4 c z) rfl
    (rfl : (content4 c z).body = some _)).mp hout with h | ⟨_, tk, o, h1, h2, rfl⟩
  · exact absurd h.1 (by show (4 : Nat) ≠ 3; decide)
  · obtain ⟨mkey, _, hb⟩ := body4_build prims lawful _ _ _ inner inner_ok tree tree_valid o [] h2
    refine ⟨tk, mkey, openBytes_ok.mpr ⟨[], (parse4_ok rfl).mpr ⟨dyn4 c z, tk, o, _, ?_, rfl, h1, ?_, rfl⟩⟩⟩
    · exact Parser.header_run _ 4 0 _ _ (headerOk4 c z) o
    · rw [List.append_nil] at hb; exact hb

/-- The KDBX3 example opens, for every cipher, compressed or not. -/
theorem open3 (c : CipherId) (z : Bool) : ∃ tk mkey, openBytes prims creds true (file3 c z) =
    .ok { header := header3 c z,
          body := some { transformedKey := tk, masterKey := mkey,
                         payload := some { inner := none, xml := tree.norm } } } := by
  obtain ⟨out, hout⟩ := build3 c z
  have hf : file3 c z = out := by unfold file3; rw [hout]
  rw [hf]
  rcases (buildKdbx_ok (d := dyn3 c z) rfl
    (rfl : (content3 c z).body = some _)).mp hout with ⟨_, tk, o, h1, h2, rfl⟩ | h
  · obtain ⟨mkey, _, hb⟩ := body3_build prims lawful _ _ none tree tree_valid o h2
    refine ⟨tk, mkey, openBytes_ok.mpr ⟨[], (parse3_ok rfl).mpr ⟨dyn3 c z, tk, o, _, ?_, rfl, h1, hb, rfl⟩⟩⟩
    exact Parser.header_run _ 3 1 _ _ (headerOk3 c z) o
  · exact absurd rfl h.1

/-- Parts of the KDBX4 example. -/
theorem file4_parts (c : CipherId) (z : Bool) : ∃ tk r,
    (computeTransformed4 prims creds (dyn4 c z)).1 = .ok tk ∧
    file4 c z = (header4 c z).data ++ (prims.sha256 (header4 c z).data ++
      (headerHmac prims (hmacBase prims (List.replicate 32 7) tk) (header4 c z).data ++ r)) := by
  obtain ⟨out, hout⟩ := build4 c z
  have hf : file4 c z = out := by unfold file4; rw [hout]
  rcases (buildKdbx_ok (d := dyn4 c z) rfl
    (rfl : (content4 c z).body = some _)).mp hout with h | ⟨_, tk, o, h1, h2, rfl⟩
  · exact absurd h.1 (by show (4 : Nat) ≠ 3; decide)
  · obtain ⟨mk, seed, ih, sid, x, z', cc, iv, enc, bl, k1, k2, _, _, _, _, _, _, _, _, rfl⟩ :=
      (buildBody4_iff ..).mp h2
    have : seed = List.replicate 32 7 := by
      have h3 : (dyn4 c z).raw .masterSeed = .ok (List.replicate 32 7) := by cases c <;> cases z <;> rfl
      rw [h3] at k2; injection k2 with k2; exact k2.symm
    subst this
    exact ⟨tk, bl, h1, by rw [hf, List.append_assoc]; rfl⟩

/-- Other credentials. -/
def wrong : Creds := { creds with password := some "q".toList }

end Toy
end Verif
