import Verif.Kdbx.Construct
import Verif.Base.Text
/-!
# Outer header of KDBX3 and KDBX4 files

`kdbx_parsing/kdbx.py`, the header parts of `kdbx3.py` and `kdbx4.py`, `DynamicDict` and the enums of
`common.py`.
-/
namespace Verif

/-- The values of `CipherId`, common.py:392-398. -/
inductive CipherId where
  | aes256 | twofish | chacha20
  deriving DecidableEq, Repr

/-- The values of `ProtectedStreamId`, common.py:402-409. -/
inductive StreamId where
  | none | arcfourvariant | salsa20 | chacha20
  deriving DecidableEq, Repr

/-- The values of the `id` mappings, kdbx3.py:78-92 and kdbx4.py:158-169. -/
inductive HId where
  | end | comment | cipherId | compressionFlags | masterSeed | transformSeed | transformRounds
  | encryptionIv | protectedStreamKey | streamStartBytes | protectedStreamId | kdfParameters
  | publicCustomData
  deriving DecidableEq, Repr

/-- A value of a variant dictionary, kdbx4.py:125-135. `none` is what an unknown type gives
(`Switch` without default builds/parses `Pass`). -/
inductive VVal where
  | int (v : Int)
  | bool (b : Bool)
  | bytes (b : Bytes)
  | str (s : Str)
  | none
  deriving DecidableEq, Repr

/-- `VariantDictionary`, kdbx4.py:141-151: entries in order of appearance. -/
structure VDict where
  version : Bytes
  items : List (Str × VVal)
  deriving DecidableEq, Repr

/-- The parsed data of a header item. -/
inductive HVal where
  | raw (b : Bytes)
  | flag (compression : Bool)
  | cipher (c : CipherId)
  | rounds (n : Nat)
  | stream (s : StreamId)
  | dict (d : VDict)
  deriving DecidableEq, Repr

/-- A dynamic header: items in order of appearance (the last is `end`). As an `OrderedDict` filled
in this order (`DynamicDict._decode`, common.py:61-71), a later item replaces an earlier one with
the same id; `DynHeader.get` looks up the last. -/
abbrev DynHeader := List (HId × HVal)

/-- Dictionary lookup: the last item with the key wins. -/
def dictGet {κ ν} [BEq κ] (l : List (κ × ν)) (k : κ) : Option ν := l.reverse.lookup k

namespace DynHeader
def get (h : DynHeader) (i : HId) : Option HVal := dictGet h i
end DynHeader

namespace Parser

/-- `CipherId`, common.py:392-398: `Mapping(GreedyBytes, ...)`. -/
def cipherIdBytes : CipherId → Bytes
  | .aes256 => [0x31, 0xc1, 0xf2, 0xe6, 0xbf, 0x71, 0x43, 0x50, 0xbe, 0x58, 0x05, 0x21, 0x6a, 0xfc,
      0x5a, 0xff]
  | .twofish => [0xad, 0x68, 0xf2, 0x9f, 0x57, 0x6f, 0x4b, 0xb9, 0xa3, 0x6a, 0xd4, 0x7a, 0xf9, 0x65,
      0x34, 0x6c]
  | .chacha20 => [0xd6, 0x03, 0x8a, 0x2b, 0x8b, 0x6f, 0x4c, 0xb5, 0xa5, 0x24, 0x33, 0x9a, 0x31,
      0xdb, 0xb5, 0x9a]

def pCipherId : Parser CipherId := do
  let b ← greedy
  if b = cipherIdBytes .aes256 then return .aes256
  else if b = cipherIdBytes .twofish then return .twofish
  else if b = cipherIdBytes .chacha20 then return .chacha20
  else fail .mapping

/-- `ProtectedStreamId`, common.py:402-409. -/
def pStreamId : Parser StreamId := do
  let n ← uint 4
  if n = 0 then return .none
  else if n = 1 then return .arcfourvariant
  else if n = 2 then return .salsa20
  else if n = 3 then return .chacha20
  else fail .mapping

/-- Number written for a stream id. -/
def streamIdNat : StreamId → Nat
  | .none => 0 | .arcfourvariant => 1 | .salsa20 => 2 | .chacha20 => 3

/-- `CompressionFlags`, common.py:100-102: bit 0 of the first of four bytes. -/
def pCompressionFlags : Parser Bool := do
  let b ← bytes 4
  return leNat b % 2 == 1

/-- The value part of `VariantDictionaryItem`, kdbx4.py:125-135. -/
def pVVal (type : Nat) : Parser VVal :=
  if type = 0x04 then do return .int (Int.ofNat (← uint 4))
  else if type = 0x05 then do return .int (Int.ofNat (← uint 8))
  else if type = 0x08 then do return .bool ((← uint 1) != 0)
  else if type = 0x0C then do return .int (← sint 4)
  else if type = 0x0D then do return .int (← sint 8)
  else if type = 0x42 then do return .bytes (← greedy)
  else if type = 0x18 then do
    match utf8Dec (← greedy) with
    | some s => return .str s
    | Option.none => fail .stringErr
  else return .none

/-- `GreedyString('utf-8')`. -/
def greedyStr : Parser Str := do
  match utf8Dec (← greedy) with
  | some s => return s
  | none => fail .stringErr

/-- `VariantDictionaryItem`, kdbx4.py:120-138; the last component is `next_byte`. -/
def pVItem : Parser ((Str × VVal) × Option UInt8) := do
  let type ← uint 1
  let key ← prefixed (uint 4) greedyStr
  let value ← prefixed (uint 4) (pVVal type)
  let next ← peekByte
  return ((key, value), next)

/-- `VariantDictionary`, kdbx4.py:141-151. -/
def pVDict : Parser VDict := do
  let version ← bytes 2
  let items ← repeatUntil (fun _ => pVItem) (fun x => x.2 == some 0)
  let _ ← bytes 1
  return { version := version, items := items.map Prod.fst }

/-- `id` mapping of KDBX3 headers, kdbx3.py:78-92. -/
def hId3 (n : Nat) : Option HId :=
  match n with
  | 0 => some .end | 1 => some .comment | 2 => some .cipherId | 3 => some .compressionFlags
  | 4 => some .masterSeed | 5 => some .transformSeed | 6 => some .transformRounds
  | 7 => some .encryptionIv | 8 => some .protectedStreamKey | 9 => some .streamStartBytes
  | 10 => some .protectedStreamId
  | _ => Option.none

/-- `id` mapping of KDBX4 headers, kdbx4.py:158-169. -/
def hId4 (n : Nat) : Option HId :=
  match n with
  | 0 => some .end | 1 => some .comment | 2 => some .cipherId | 3 => some .compressionFlags
  | 4 => some .masterSeed | 7 => some .encryptionIv | 11 => some .kdfParameters
  | 12 => some .publicCustomData
  | _ => Option.none

/-- Data of a KDBX3 header item, kdbx3.py:95-103. -/
def hVal3 (i : HId) : Parser HVal :=
  match i with
  | .compressionFlags => do return .flag (← pCompressionFlags)
  | .cipherId => do return .cipher (← pCipherId)
  | .transformRounds => do return .rounds (← uint 8)
  | .protectedStreamId => do return .stream (← pStreamId)
  | _ => do return .raw (← greedy)

/-- Data of a KDBX4 header item, kdbx4.py:172-179. -/
def hVal4 (i : HId) : Parser HVal :=
  match i with
  | .compressionFlags => do return .flag (← pCompressionFlags)
  | .kdfParameters => do return .dict (← pVDict)
  | .cipherId => do return .cipher (← pCipherId)
  | _ => do return .raw (← greedy)

/-- `DynamicHeaderItem` of KDBX3, kdbx3.py:77-105. -/
def hItem3 : Parser (HId × HVal) := do
  let n ← uint 1
  match hId3 n with
  | Option.none => fail .mapping
  | some i => do
    let v ← prefixed (uint 2) (hVal3 i)
    return (i, v)

/-- `DynamicHeaderItem` of KDBX4, kdbx4.py:157-181. -/
def hItem4 : Parser (HId × HVal) := do
  let n ← uint 1
  match hId4 n with
  | Option.none => fail .mapping
  | some i => do
    let v ← prefixed (uint 4) (hVal4 i)
    return (i, v)

/-- `DynamicHeader` of KDBX3, kdbx3.py:107-113. -/
def dynHeader3 : Parser DynHeader := repeatUntil (fun _ => hItem3) (fun x => x.1 == .end)
/-- `DynamicHeader` of KDBX4, kdbx4.py:183-189. -/
def dynHeader4 : Parser DynHeader := repeatUntil (fun _ => hItem4) (fun x => x.1 == .end)

end Parser

/-- `header.value`, kdbx.py:15-27. The dynamic header is `none` for a major version other than 3
and 4 (`Switch` without default). -/
structure HeaderVal where
  minor : Nat
  major : Nat
  dyn : Option DynHeader
  deriving DecidableEq, Repr

/-- `header` with the raw bytes kept by `RawCopy`, kdbx.py:14. -/
structure Header where
  data : Bytes
  value : HeaderVal
  deriving DecidableEq, Repr

namespace Parser

/-- First half of the signature, kdbx.py:11. -/
def sig1 : Bytes := [0x03, 0xd9, 0xa2, 0x9a]
/-- Second half of the signature, kdbx.py:11. -/
def sig2 : Bytes := [0x67, 0xfb, 0x4b, 0xb5]

/-- The struct inside `RawCopy`, kdbx.py:15-27; `path` is construct's path of the struct. -/
def headerVal (path : String) : Parser HeaderVal := do
  let s1 ← bytes 4
  let s2 ← bytes 4
  if ¬ (s1 = sig1 ∧ s2 = sig2) then fail (.check (path ++ " -> sig_check"))
  else do
    let minor ← uint 2
    let major ← uint 2
    if major = 3 then do
      let d ← dynHeader3
      return { minor, major, dyn := some d }
    else if major = 4 then do
      let d ← dynHeader4
      return { minor, major, dyn := some d }
    else return { minor, major, dyn := Option.none }

/-- `"header" / RawCopy(...)`, kdbx.py:14-28: keeps the bytes consumed. -/
def header (path : String) : Parser Header := fun s =>
  match headerVal (path ++ " -> header") s with
  | .error e => .error e
  | .ok (v, r) => .ok ({ data := s.take (s.length - r.length), value := v }, r)

/-! ## Locality -/

theorem local_hItem3 : Local hItem3 := by
  refine local_bind (local_uint 1) fun n => ?_
  split
  · exact local_fail _
  · exact local_bind (local_prefixed _ (local_uint 2)) fun _ => local_pure _

theorem local_hItem4 : Local hItem4 := by
  refine local_bind (local_uint 1) fun n => ?_
  split
  · exact local_fail _
  · exact local_bind (local_prefixed _ (local_uint 4)) fun _ => local_pure _

theorem progress_uint {n : Nat} (h : 0 < n) : Progress (uint n) := by
  refine Progress.bind (progress_bytes h) ?_
  intro a s b r h
  obtain ⟨_, rfl⟩ := pure_ok.mp h
  exact Nat.le_refl _

theorem progress_hItem3 : Progress hItem3 := by
  refine Progress.bind (progress_uint (by decide)) ?_
  intro n s b r h
  exact Local.le (by
    split
    · exact local_fail _
    · exact local_bind (local_prefixed _ (local_uint 2)) fun _ => local_pure _) h

theorem progress_hItem4 : Progress hItem4 := by
  refine Progress.bind (progress_uint (by decide)) ?_
  intro n s b r h
  exact Local.le (by
    split
    · exact local_fail _
    · exact local_bind (local_prefixed _ (local_uint 4)) fun _ => local_pure _) h

theorem local_dynHeader3 : Local dynHeader3 :=
  local_repeatUntil _ _ (fun _ => local_hItem3) (fun _ => progress_hItem3)

theorem local_dynHeader4 : Local dynHeader4 :=
  local_repeatUntil _ _ (fun _ => local_hItem4) (fun _ => progress_hItem4)

theorem local_headerVal (path : String) : Local (headerVal path) := by
  refine local_bind (local_bytes 4) fun s1 => local_bind (local_bytes 4) fun s2 => ?_
  split
  · exact local_fail _
  · refine local_bind (local_uint 2) fun minor => local_bind (local_uint 2) fun major => ?_
    split
    · exact local_bind local_dynHeader3 fun _ => local_pure _
    · split
      · exact local_bind local_dynHeader4 fun _ => local_pure _
      · exact local_pure _

/-- The header parser consumes exactly the bytes it keeps, and re-reading those bytes followed by
anything gives the same header. -/
theorem header_ok {path : String} {s r : Bytes} {h : Header} (hp : header path s = .ok (h, r)) :
    s = h.data ++ r ∧ ∀ r', header path (h.data ++ r') = .ok (h, r') := by
  unfold header at hp
  split at hp
  · cases hp
  · next v r0 hv =>
    injection hp with hp
    injection hp with h1 h2
    subst h2
    obtain ⟨u, hu, hl⟩ := local_headerVal _ s v r0 hv
    have hd : h.data = u := by
      rw [← h1, hu]; simp
    have hval : h.value = v := by rw [← h1]
    refine ⟨by rw [hd, hu], fun r' => ?_⟩
    unfold header
    rw [hd, hl r']
    simp only
    congr 2
    rw [← h1]
    simp [hu]

end Parser
end Verif
