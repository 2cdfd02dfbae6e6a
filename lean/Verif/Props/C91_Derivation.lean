import Verif.Kdbx.FileLemmas
import Verif.Kdbx.SpecLemmas
import Verif.Kdbx.Toy
import Verif.Props.C26_InnerHeader
import Verif.Props.C72_Missing
import Verif.Props.C81_Malformed
/-!
# C91 The parameters of the key derivation are used as the file has them, before anything is verified

The parameters stand in the part of the file that is verified with the derived key, so they are used before they are verified. A good set
of them is used as it is, without a lower bound; a bad one raises `KeyError`, `TypeError` or `ValueError`, never an exception that tells
about credentials or damage. The inner header of a KDBX4 file stands behind all verification and its faults have their own exceptions.
-/
namespace Verif.Props
open Verif Parser Spec

/-- A value that counts as a number: an integer of any size and sign, or a boolean. -/
inductive Number : VVal → Int → Prop
  | int (n : Int) : Number (.int n) n
  | yes : Number (.bool true) 1
  | no : Number (.bool false) 0

theorem asInt_number {v : VVal} {n : Int} (h : Number v n) : v.asInt = .ok n := by cases h <;> rfl

theorem asInt_other {v : VVal} (h : ∀ n, ¬ Number v n) : v.asInt = .error .type := by
  cases v with
  | int n => exact absurd (.int n) (h n)
  | bool b => cases b with
    | true => exact absurd .yes (h 1)
    | false => exact absurd .no (h 0)
  | _ => rfl

theorem number_or (v : VVal) : (∃ n, Number v n) ∨ v.asInt = .error .type := by
  cases v with
  | int n => exact .inl ⟨n, .int n⟩
  | bool b => cases b with
    | true => exact .inl ⟨1, .yes⟩
    | false => exact .inl ⟨0, .no⟩
  | _ => exact .inr rfl

theorem asBytes_other {v : VVal} (h : ∀ b, v ≠ .bytes b) : v.asBytes = .error .type := by
  cases v with
  | bytes b => exact absurd rfl (h b)
  | _ => rfl

variable {P : Prims} {c : Creds} {s : Bytes} {d : DynHeader}

/-- The value of a parameter. -/
def param (v : VDict) (k : String) : Option VVal := dictGet v.items k.toList

theorem get_some {v : VDict} {k : String} {x : VVal} (h : param v k = some x) : v.get k = .ok x := by
  unfold param at h; unfold VDict.get; rw [h]

theorem get_none {v : VDict} {k : String} (h : param v k = none) : v.get k = .error .key := by
  unfold param at h; unfold VDict.get; rw [h]

/-- The key derivation comes first: if it fails, opening fails in the same way, whatever follows the header. -/
theorem C91_first {h : Header} {r : Bytes} (hh : header "(parsing)" s = .ok (h, r)) (hd : h.value.dyn = some d) (dec : Bool) (e : PyErr)
    (he : (∀ p, e ≠ .check p) ∧ ∀ p, e ≠ .checksum p) :
    (h.value.major = 3 → (computeTransformed3 P c d).1 = .error e → openBytes P c dec s = .error e) ∧
    (h.value.major = 4 → (computeTransformed4 P c d).1 = .error e → openBytes P c dec s = .error e) := by
  have hr : readErr e = e := by
    cases e with
    | check p => exact absurd rfl (he.1 p)
    | checksum p => exact absurd rfl (he.2 p)
    | _ => rfl
  constructor
  · intro hv h; rw [(open_err3 hh hv hd dec).1 e h, hr]
  · intro hv h; rw [(open_err4 hh hv hd dec).1 e h, hr]

theorem kdf3_eq (hk : c.transformedKey = none) {comp : Bytes} (hc : (computeKeyComposite P c.password c.keyfile).1 = .ok comp)
    {seed : Bytes} {n : Nat} (hs : d.get .transformSeed = some (.raw seed)) (hn : d.get .transformRounds = some (.rounds n)) :
    (computeTransformed3 P c d).1 = aesKdf P seed n comp := by
  unfold computeTransformed3
  rw [hk]
  dsimp only
  generalize computeKeyComposite P c.password c.keyfile = q at hc
  obtain ⟨q, kf⟩ := q
  dsimp only at hc
  subst hc
  dsimp only
  rw [exc_bind_run (raw_get.mpr hs)]
  exact exc_bind_run (by unfold DynHeader.rounds; rw [hn])

/-- KDBX3: the seed of the file is the AES key, the rounds of the file are done; a seed that is no AES key is a `ValueError`. -/
theorem C91_three {h : Header} {r : Bytes} (hh : header "(parsing)" s = .ok (h, r)) (hv : h.value.major = 3) (hd : h.value.dyn = some d)
    (hk : c.transformedKey = none) {comp : Bytes} (hc : (computeKeyComposite P c.password c.keyfile).1 = .ok comp)
    {seed : Bytes} {n : Nat} (hs : d.get .transformSeed = some (.raw seed)) (hn : d.get .transformRounds = some (.rounds n)) (dec : Bool) :
    (seed.length ∈ [16, 24, 32] → (computeTransformed3 P c d).1 = .ok (P.sha256 (Nat.repeat (P.aesEcb seed) n comp))) ∧
    (seed.length ∉ [16, 24, 32] → openBytes P c dec s = .error .value) := by
  have ht := kdf3_eq hk hc hs hn
  constructor
  · intro hl
    rw [ht]
    unfold aesKdf
    rw [if_pos (by unfold AesKeyLen; simpa using hl), iterEcb_repeat]
  · intro hl
    refine (C91_first hh hd dec .value ⟨nofun, nofun⟩).1 hv ?_
    rw [ht]
    unfold aesKdf
    rw [if_neg (by unfold AesKeyLen; simpa using hl)]

theorem kdf4_argon (hk : c.transformedKey = none) {comp : Bytes} (hc : (computeKeyComposite P c.password c.keyfile).1 = .ok comp)
    {v : VDict} (hd : d.get .kdfParameters = some (.dict v)) {u : Bytes} (hu : param v "$UUID" = some (.bytes u))
    (ha : u = uuidArgon2 ∨ u = uuidArgon2id) : (computeTransformed4 P c d).1 = argon2Branch P v comp := by
  unfold computeTransformed4
  generalize computeKeyComposite P c.password c.keyfile = q at hc
  obtain ⟨q, kf⟩ := q
  dsimp only at hc
  subst hc
  dsimp only
  rw [kdf_get.mpr hd, hk]
  dsimp only
  rw [get_some hu]
  dsimp only
  rw [if_pos (ha.imp (congrArg _) (congrArg _))]

/-- KDBX4 with Argon2: the parameters of the file are used as they are, and each fault has its exception. -/
theorem C91_argon2 {h : Header} {r : Bytes} (hh : header "(parsing)" s = .ok (h, r)) (hv : h.value.major = 4) (hd : h.value.dyn = some d)
    (hk : c.transformedKey = none) {comp : Bytes} (hc : (computeKeyComposite P c.password c.keyfile).1 = .ok comp)
    {v : VDict} (hkdf : d.get .kdfParameters = some (.dict v)) {u : Bytes} (hu : param v "$UUID" = some (.bytes u))
    (ha : u = uuidArgon2 ∨ u = uuidArgon2id) (dec : Bool) :
    ((param v "S" = none ∨ param v "I" = none ∨ param v "M" = none) → openBytes P c dec s = .error .key) ∧
    ∀ salt time memory, param v "S" = some salt → param v "I" = some time → param v "M" = some memory →
      ((∀ n, ¬ Number memory n) → openBytes P c dec s = .error .type) ∧
      ∀ m, Number memory m →
        ((param v "P" = none ∨ param v "V" = none) → openBytes P c dec s = .error .key) ∧
        ∀ lanes version, param v "P" = some lanes → param v "V" = some version →
          ((∀ b, salt ≠ .bytes b) ∨ (∀ n, ¬ Number time n) ∨ (∀ n, ¬ Number lanes n) ∨ (∀ n, ¬ Number version n) →
            openBytes P c dec s = .error .type) ∧
          ∀ b t p w, salt = .bytes b → Number time t → Number lanes p → Number version w →
            (computeTransformed4 P c d).1 = P.argon2 (u == uuidArgon2id) comp b t (m / 1024) p w := by
  have ht := kdf4_argon hk hc hkdf hu ha
  have first := fun e he h => (C91_first (P := P) (c := c) hh hd dec e he).2 hv (ht.trans h)
  refine ⟨fun hm => first .key ⟨nofun, nofun⟩ ?_, fun salt time memory hs hi hm => ⟨fun hn => first .type ⟨nofun, nofun⟩ ?_, fun m hn =>
    ⟨fun h2 => first .key ⟨nofun, nofun⟩ ?_, fun lanes version hp hw => ⟨fun h3 => first .type ⟨nofun, nofun⟩ ?_, fun b t p w hb h4 h5 h6 => ht.trans ?_⟩⟩⟩⟩
  · unfold argon2Branch
    cases h1 : param v "S" with
    | none => exact exc_bind_err (get_none h1)
    | some _ =>
      rw [exc_bind_run (get_some h1), exc_bind_run (get_some hu)]
      cases h2 : param v "I" with
      | none => exact exc_bind_err (get_none h2)
      | some _ =>
        rw [exc_bind_run (get_some h2)]
        rcases hm with h | h | h
        · rw [h1] at h; cases h
        · rw [h2] at h; cases h
        · exact exc_bind_err (get_none h)
  · unfold argon2Branch
    rw [exc_bind_run (get_some hs), exc_bind_run (get_some hu), exc_bind_run (get_some hi), exc_bind_run (get_some hm)]
    exact exc_bind_err (asInt_other hn)
  · unfold argon2Branch
    rw [exc_bind_run (get_some hs), exc_bind_run (get_some hu), exc_bind_run (get_some hi), exc_bind_run (get_some hm),
      exc_bind_run (asInt_number hn)]
    cases h1 : param v "P" with
    | none => exact exc_bind_err (get_none h1)
    | some _ =>
      rw [exc_bind_run (get_some h1)]
      rcases h2 with h | h
      · rw [h1] at h; cases h
      · exact exc_bind_err (get_none h)
  · unfold argon2Branch
    rw [exc_bind_run (get_some hs), exc_bind_run (get_some hu), exc_bind_run (get_some hi), exc_bind_run (get_some hm),
      exc_bind_run (asInt_number hn), exc_bind_run (get_some hp), exc_bind_run (get_some hw)]
    by_cases hsb : ∀ b, salt ≠ .bytes b
    · exact exc_bind_err (asBytes_other hsb)
    · obtain ⟨b, hsb'⟩ : ∃ b, salt = .bytes b := by
        refine Classical.byContradiction fun h => hsb fun b e => h ⟨b, e⟩
      subst hsb'
      rw [exc_bind_run (show (VVal.bytes b).asBytes = .ok b from rfl)]
      rcases number_or time with ⟨t, h4⟩ | h4
      · rw [exc_bind_run (asInt_number h4)]
        rcases number_or lanes with ⟨p, h5⟩ | h5
        · rw [exc_bind_run (asInt_number h5)]
          rcases h3 with h | h | h | h
          · exact absurd h hsb
          · exact absurd h4 (h t)
          · exact absurd h5 (h p)
          · exact exc_bind_err (asInt_other h)
        · exact exc_bind_err h5
      · exact exc_bind_err h4
  · unfold argon2Branch
    subst hb
    rw [exc_bind_run (get_some hs), exc_bind_run (get_some hu), exc_bind_run (get_some hi), exc_bind_run (get_some hm),
      exc_bind_run (asInt_number hn), exc_bind_run (get_some hp), exc_bind_run (get_some hw),
      exc_bind_run (show (VVal.bytes b).asBytes = .ok b from rfl), exc_bind_run (asInt_number h4), exc_bind_run (asInt_number h5),
      exc_bind_run (asInt_number h6)]
    have : ((VVal.bytes u) == .bytes uuidArgon2id) = (u == uuidArgon2id) := by
      rcases ha with rfl | rfl <;> rfl
    rw [this]

theorem kdf4_aes (hk : c.transformedKey = none) {comp comp2 : Bytes} {kf : Keyfile}
    (hc : computeKeyComposite P c.password c.keyfile = (.ok comp, kf)) (hc2 : (computeKeyComposite P c.password kf).1 = .ok comp2)
    {v : VDict} (hd : d.get .kdfParameters = some (.dict v)) (hu : param v "$UUID" = some (.bytes uuidAesKdf)) :
    (computeTransformed4 P c d).1 = aesBranch P v comp2 := by
  unfold computeTransformed4
  rw [hc]
  dsimp only
  rw [kdf_get.mpr hd, hk]
  dsimp only
  rw [get_some hu]
  dsimp only
  rw [if_neg (by decide), if_pos rfl]
  generalize computeKeyComposite P c.password kf = q at hc2
  obtain ⟨q, kf2⟩ := q
  dsimp only at hc2
  subst hc2
  rfl

/-- KDBX4 with AES-KDF. A number of rounds below one means no rounds. -/
theorem C91_aes {h : Header} {r : Bytes} (hh : header "(parsing)" s = .ok (h, r)) (hv : h.value.major = 4) (hd : h.value.dyn = some d)
    (hk : c.transformedKey = none) {comp comp2 : Bytes} {kf : Keyfile}
    (hc : computeKeyComposite P c.password c.keyfile = (.ok comp, kf)) (hc2 : (computeKeyComposite P c.password kf).1 = .ok comp2)
    {v : VDict} (hkdf : d.get .kdfParameters = some (.dict v)) (hu : param v "$UUID" = some (.bytes uuidAesKdf)) (dec : Bool) :
    ((param v "S" = none ∨ param v "R" = none) → openBytes P c dec s = .error .key) ∧
    ∀ seed rounds, param v "S" = some seed → param v "R" = some rounds →
      ((∀ b, seed ≠ .bytes b) → openBytes P c dec s = .error .type) ∧
      ∀ b, seed = .bytes b →
        (b.length ∉ [16, 24, 32] → openBytes P c dec s = .error .value) ∧
        (b.length ∈ [16, 24, 32] →
          ((∀ n, ¬ Number rounds n) → openBytes P c dec s = .error .type) ∧
          ∀ n, Number rounds n →
            (∀ k : Nat, n = k → (computeTransformed4 P c d).1 = .ok (P.sha256 (Nat.repeat (P.aesEcb b) k comp2))) ∧
            (n ≤ 0 → (computeTransformed4 P c d).1 = .ok (P.sha256 comp2))) := by
  have ht := kdf4_aes hk hc hc2 hkdf hu
  have first := fun e he h => (C91_first (P := P) (c := c) hh hd dec e he).2 hv (ht.trans h)
  refine ⟨fun hm => first .key ⟨nofun, nofun⟩ ?_, fun seed rounds hs hr => ⟨fun hb => first .type ⟨nofun, nofun⟩ ?_, ?_⟩⟩
  · unfold aesBranch
    cases h1 : param v "S" with
    | none => exact exc_bind_err (get_none h1)
    | some _ =>
      rw [exc_bind_run (get_some h1)]
      rcases hm with h | h
      · rw [h1] at h; cases h
      · exact exc_bind_err (get_none h)
  · unfold aesBranch
    rw [exc_bind_run (get_some hs), exc_bind_run (get_some hr)]
    exact exc_bind_err (asBytes_other hb)
  · rintro b rfl
    refine ⟨fun hl => first .value ⟨nofun, nofun⟩ ?_, fun hl => ?_⟩
    · unfold aesBranch
      rw [exc_bind_run (get_some hs), exc_bind_run (get_some hr), exc_bind_run (show (VVal.bytes b).asBytes = .ok b from rfl),
        if_pos (by unfold AesKeyLen; simpa using hl)]
      rfl
    · have hl' : AesKeyLen b := by unfold AesKeyLen; simpa using hl
      have go : aesBranch P v comp2 = rounds.asInt >>= fun n => aesKdf P b n.toNat comp2 := by
        unfold aesBranch
        rw [exc_bind_run (get_some hs), exc_bind_run (get_some hr), exc_bind_run (show (VVal.bytes b).asBytes = .ok b from rfl),
          if_neg (not_not_intro hl')]
      refine ⟨fun hn => first .type ⟨nofun, nofun⟩ (go.trans (exc_bind_err (asInt_other hn))), fun n hn => ?_⟩
      have e : (computeTransformed4 P c d).1 = .ok (P.sha256 (Nat.repeat (P.aesEcb b) n.toNat comp2)) := by
        rw [ht, go, exc_bind_run (asInt_number hn)]
        unfold aesKdf
        rw [if_pos hl', iterEcb_repeat]
      refine ⟨fun k hk => ?_, fun h0 => ?_⟩
      · rw [e, hk]; rfl
      · rw [e, Int.toNat_of_nonpos h0]; rfl

/-- With a transformed key the parameters are not looked at. -/
theorem C91_given {v : VDict} {key comp : Bytes} (hk : c.transformedKey = some key) :
    (computeTransformed3 P c d).1 = .ok key ∧
    ((computeKeyComposite P c.password c.keyfile).1 = .ok comp → d.get .kdfParameters = some (.dict v) → (computeTransformed4 P c d).1 = .ok key) := by
  constructor
  · unfold computeTransformed3; rw [hk]
  · intro hc hd
    unfold computeTransformed4
    generalize computeKeyComposite P c.password c.keyfile = q at hc
    obtain ⟨q, kf⟩ := q
    dsimp only at hc
    subst hc
    dsimp only
    rw [kdf_get.mpr hd, hk]

/-- The faults an inner header can have behind well-formed fields, and what they raise. -/
inductive InnerWrong : Bytes → PyErr → Prop
  | over : InnerWrong [] .stream
  | unknown {n t} (h : 3 < n) (h' : n < 256) : InnerWrong (leBytes 1 n ++ t) .mapping
  | noLength {n t} (h : n ≤ 3) (ht : t.length < 4) : InnerWrong (leBytes 1 n ++ t) .stream
  | cut {n m t} (h : n ≤ 3) (hm : m < 2 ^ 32) (ht : t.length < m) : InnerWrong (leBytes 1 n ++ (leBytes 4 m ++ t)) .stream
  | short {data t} (h : data.length < 4) : InnerWrong (leBytes 1 1 ++ (lp 4 data ++ t)) .stream
  | stream {n x t} (h : 3 < n) (h' : n < 2 ^ 32) (hl : (leBytes 4 n ++ x).length < 2 ^ 32) :
      InnerWrong (leBytes 1 1 ++ (lp 4 (leBytes 4 n ++ x) ++ t)) .mapping

theorem iType_some {n : Nat} (h : n ≤ 3) : ∃ t, iType n = some t := by
  match n, h with
  | 0, _ => exact ⟨_, rfl⟩
  | 1, _ => exact ⟨_, rfl⟩
  | 2, _ => exact ⟨_, rfl⟩
  | 3, _ => exact ⟨_, rfl⟩

theorem innerWrong_item {bad : Bytes} {e : PyErr} (h : InnerWrong bad e) : iItem bad = .error e := by
  unfold iItem
  cases h with
  | over => rfl
  | unknown h h' =>
    rw [bind_run (uint_leBytes 1 _ _ h')]
    have : ∀ n, 3 < n → iType n = none := by
      intro n h; unfold iType; split <;> first | omega | rfl
    rw [this _ h]
    rfl
  | @noLength n t h ht =>
    rw [bind_run (uint_leBytes 1 _ _ (by omega))]
    obtain ⟨i, hi⟩ := iType_some h
    rw [hi]
    exact bind_err (bind_err (uint_short ht))
  | @cut n m t h hm ht =>
    rw [bind_run (uint_leBytes 1 _ _ (by omega))]
    obtain ⟨i, hi⟩ := iType_some h
    rw [hi]
    refine bind_err ?_
    unfold prefixed
    rw [bind_run (uint_leBytes 4 m t hm)]
    exact bind_err (bytes_short ht)
  | short h =>
    rw [bind_run (uint_leBytes 1 1 _ (by decide))]
    exact bind_err (prefixed_err 4 _ _ _ (by omega) (bind_err (bind_err (uint_short h))))
  | stream h h' hl =>
    rw [bind_run (uint_leBytes 1 1 _ (by decide))]
    exact bind_err (prefixed_err 4 _ _ _ hl (bind_err (vstream h h')))

theorem innerWrong_header {bad : Bytes} {e : PyErr} (h : InnerWrong bad e) (fs : List InnerField) (hl : ∀ f ∈ fs, f.data.length < 2 ^ 32) :
    innerHeader (fs.flatMap InnerField.layout ++ bad) = .error e := by
  have loop : ∀ n i, fs.length < n → repeatLoop (fun _ => iItem) (fun x => x.1 == .end) n i
      (fs.flatMap InnerField.layout ++ bad) = .error e := by
    induction fs with
    | nil =>
      intro n i hn
      cases n with
      | zero => omega
      | succ n => rw [repeatLoop]; exact bind_err (innerWrong_item h)
    | cons f fs ih =>
      intro n i hn
      cases n with
      | zero => omega
      | succ n =>
        rw [repeatLoop, List.flatMap_cons, List.append_assoc, bind_run (iItem_run f (hl f List.mem_cons_self) _),
          if_neg (by cases f <;> exact nofun)]
        exact bind_err (ih (fun g hg => hl g (List.mem_cons_of_mem _ hg)) n (i + 1) (by simp at hn; omega))
  unfold innerHeader
  refine bind_err (loop _ 0 ?_)
  have := flatMap_length_le InnerField.layout (fun f => by
    unfold InnerField.layout; simp only [List.length_append, leBytes_length]; omega) fs
  simp only [List.length_append]; omega

/-- A file that passes all verification and has a malformed inner header raises the listed exception. -/
theorem C91_inner (hP : P.Lawful) {h : Header} {r : Bytes} (hh : header "(parsing)" s = .ok (h, r)) (hv : h.value.major = 4)
    (hd : h.value.dyn = some d) {tk seed y iv x : Bytes} {z : Bool} {a : CipherId} {blocks : List Bytes} {r' : Bytes}
    (ht : (computeTransformed4 P c d).1 = .ok tk) (hs : d.get .masterSeed = some (.raw seed))
    (hr : r = P.sha256 h.data ++ (headerHmac P (hmacBase P seed tk) h.data ++ y)) (hz : d.get .compressionFlags = some (.flag z))
    (ha : d.get .cipherId = some (.cipher a)) (hbl : blocks4 P (hmacBase P seed tk) y = .ok (blocks, r'))
    (hi : d.get .encryptionIv = some (.raw iv)) (hp : payloadDecrypt P a (P.sha256 (seed ++ tk)) iv (concatBlocks blocks) = .ok x)
    (fs : List InnerField) (hl : ∀ f ∈ fs, f.data.length < 2 ^ 32) (bad : Bytes) (e : PyErr) (hw : InnerWrong bad e)
    (hpl : decompress P z x = .ok (fs.flatMap InnerField.layout ++ bad)) :
    openBytes P c true s = .error e := by
  have he : readErr e = e := by cases hw <;> rfl
  rw [← he]
  refine (open_err4 hh hv hd true).2 tk e ht ?_
  have hm : computeMaster P d tk = .ok (P.sha256 (seed ++ tk)) := exc_bind_run (raw_get.mpr hs)
  subst hr
  unfold body4
  rw [bind_run (lift_run hm _), bind_run (bytes_append' _ _ (hP.sha256_length _)),
    if_neg (not_not_intro rfl), if_pos rfl, bind_run (lift_run (raw_get.mpr hs) _),
    bind_run (bytes_append' (headerHmac P (hmacBase P seed tk) h.data) y (hP.hmac256_length _ _)), if_neg (not_not_intro rfl),
    bind_run (lift_run (compressed_get.mpr hz) _), bind_run (lift_run (cipher_get.mpr ha) _), bind_run hbl,
    bind_run (lift_run (raw_get.mpr hi) _), bind_run (lift_run hp _), bind_run (lift_run hpl _)]
  refine bind_err (lift_err ?_ _)
  unfold unpack4
  exact exc_bind_err (innerWrong_header hw fs hl)

/-! A header with these parameters and nothing valid behind it. -/

def derived (es : List (Str × Param)) : Bytes := headerLayout 4 0 [.kdf [0, 1] (("$UUID".toList, .bytes uuidAesKdf) :: es)] [] ++ [1, 2, 3]
def hashed (es : List (Str × Param)) : Bytes := headerLayout 4 0 [.kdf [0, 1] (("$UUID".toList, .bytes uuidArgon2) :: es)] [] ++ [1, 2, 3]

/-- AES-KDF: no rounds; a seed of three bytes; rounds that are text; rounds that are a boolean, where the missing master seed is next. -/
example : outcome (derived [("S".toList, .bytes [1, 2, 3])]) = some .key := by decide +kernel
example : outcome (derived [("S".toList, .bytes [1, 2, 3]), ("R".toList, .u64 3)]) = some .value := by decide +kernel
example : outcome (derived [("S".toList, .bytes (List.replicate 16 1)), ("R".toList, .str "3".toList)]) = some .type := by decide +kernel
example : outcome (derived [("S".toList, .bytes (List.replicate 16 1)), ("R".toList, .bool true)]) = some .attribute := by decide +kernel
example : outcome (derived [("S".toList, .bytes (List.replicate 24 1)), ("R".toList, .i32 (-5))]) = some .attribute := by decide +kernel

/-- Argon2: text as memory comes before the missing lanes; missing lanes; text as salt. -/
example : outcome (hashed [("S".toList, .bytes [1]), ("I".toList, .u64 3), ("M".toList, .str "8".toList)]) = some .type := by decide +kernel
example : outcome (hashed [("S".toList, .bytes [1]), ("I".toList, .u64 3), ("M".toList, .u64 8)]) = some .key := by decide +kernel
example : outcome (hashed [("S".toList, .str "s".toList), ("I".toList, .u64 3), ("M".toList, .u64 8), ("P".toList, .u32 1), ("V".toList, .u32 0x13)]) =
    some .type := by decide +kernel

/-- KDBX3: a seed of four bytes. -/
example : outcome (headerLayout 3 1 [.transformSeed [1, 2, 3, 4], .transformRounds 5] [] ++ [1]) = some .value := by decide +kernel

/-- A file that passes all verification, with this inner header. -/
def innerFile (inner : Bytes) : Bytes :=
  let P := Toy.prims
  let raw := headerLayout 4 0 (Toy.fields4 .chacha20 false) [13, 10]
  match (computeTransformed4 P Toy.creds ((Toy.header4 .chacha20 false).value.dyn.getD [])).1 with
  | .error _ => []
  | .ok tk =>
    let base := hmacBase P (List.replicate 32 7) tk
    match payloadEncrypt P .chacha20 (P.sha256 (List.replicate 32 7 ++ tk)) (List.replicate 12 9) inner with
    | .error _ => []
    | .ok enc =>
      match buildBlocks4 P base (splitBlocks enc) with
      | .error _ => []
      | .ok bs => raw ++ P.sha256 raw ++ headerHmac P base raw ++ bs

example : outcome (innerFile ([InnerField.streamId .chacha20, .binary [0, 5]].flatMap InnerField.layout ++ (leBytes 1 7 ++ [0]))) = some .mapping := by
  decide +kernel
example : outcome (innerFile ([InnerField.binary [0, 5]].flatMap InnerField.layout ++ (leBytes 1 2 ++ (leBytes 4 9 ++ [0])))) = some .stream := by
  decide +kernel
example : InnerWrong (leBytes 1 7 ++ [0]) .mapping ∧ InnerWrong (leBytes 1 2 ++ (leBytes 4 9 ++ [0])) .stream ∧
    InnerWrong (leBytes 1 1 ++ (lp 4 [1, 0] ++ [])) .stream ∧ InnerWrong (leBytes 1 1 ++ (lp 4 (leBytes 4 4 ++ []) ++ [])) .mapping :=
  ⟨.unknown (by decide) (by decide), .cut (by decide) (by decide) (by decide), .short (by decide), .stream (by decide) (by decide) (by decide)⟩

end Verif.Props
