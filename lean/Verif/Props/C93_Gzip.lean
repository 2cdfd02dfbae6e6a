import Verif.Crypto.GzipLemmas
import Verif.Kdbx.Compressor
import Verif.Props.C89_Standard
/-!
# C93: compression
-/
namespace Verif.Props
open Verif Gzip Spec.Gz

/-- Decompression gives back the data of every gzip file, however it was compressed and whatever follows it. -/
theorem C93_reads {file d : Bytes} (h : IsGzip file d) (suffix : Bytes) : gunzip (file ++ suffix) = .ok d := gunzip_complete h suffix

/-- Whatever decompression accepts begins with a gzip file of what it returns: in particular the checksum and the length are those
of the data. -/
theorem C93_sound {file d : Bytes} (h : gunzip file = .ok d) : ∃ g suffix, file = g ++ suffix ∧ IsGzip g d := gunzip_sound h

/-- A gzip file is a file of one content only. -/
theorem C93_one {file d e : Bytes} (h : IsGzip file d) (h' : IsGzip file e) : d = e := by
  have := C93_reads h []
  rw [C93_reads h' []] at this
  exact (Except.ok.inj this).symm

/-- What does not begin with a gzip file is refused with `zlib.error`. -/
theorem C93_refused {file : Bytes} (h : ∀ g suffix d, file = g ++ suffix → ¬ IsGzip g d) : gunzip file = .error .zlib := by
  cases hg : gunzip file with
  | error e => rw [gunzip_error hg]
  | ok d =>
    obtain ⟨g, s, hs, hd⟩ := C93_sound hg
    exact absurd hd (h g s d hs)

/-- A file cut short anywhere is refused. -/
theorem C93_truncated {file d : Bytes} (h : IsGzip file d) {n : Nat} (hn : n < file.length) : gunzip (file.take n) = .error .zlib := by
  cases hg : gunzip (file.take n) with
  | error e => rw [gunzip_error hg]
  | ok d' =>
    obtain ⟨g, s, hs, hd⟩ := C93_sound hg
    have hp : g <+: file := (show g <+: file.take n from hs ▸ List.prefix_append ..).trans (List.take_prefix n file)
    have := isGzip_prefix h hd hp
    have h1 := congrArg List.length hs
    rw [List.length_take, List.length_append, this] at h1
    omega

/-- There is a gzip file of any data. -/
theorem C93_stored (d : Bytes) : IsGzip (stored d) d := stored_isGzip d

variable {argon2 : Bool → Bytes → Bytes → Int → Int → Int → Int → Except PyErr Bytes}

/-- All laws assumed of the libraries hold of the published algorithms, if the compressor writes gzip files of its data. -/
theorem C93_lawful {gzip : Bytes → Bytes} (h : ∀ d, IsGzip (gzip d) d) : (standard argon2 gzip gunzip).Lawful :=
  C89_lawful fun d => by have := C93_reads (h d) []; rwa [List.append_nil] at this

/-- With a compressor that stores, they hold without any assumption. -/
theorem C93_unconditional : (standard argon2 stored gunzip).Lawful := C93_lawful C93_stored

/-- A database saved with one compressor is read by programs that have any other: C01 between two of them. -/
theorem C93_writers4 {gzip gzip' : Bytes → Bytes} (h : ∀ d, IsGzip (gzip d) d) (c0 : Creds) (file : Bytes) (k k' : Kdbx)
    (hopen : openBytes (standard argon2 gzip gunzip) c0 true file = .ok k) (hver : k.header.value.major = 4)
    (bs : List Bytes) (xml : Xml) (hedit : Edited4 k k' bs xml) (hx : xml.Valid)
    (c : Creds) (hc : c.keyfile.Reusable) (out : Bytes) (kf : Keyfile)
    (hsave : buildKdbx (standard argon2 gzip gunzip) c k' = (.ok out, kf)) (suffix : Bytes) :
    ∃ k2, openBytes (standard argon2 gzip' gunzip) { c with keyfile := kf } true (out ++ suffix) = .ok k2 ∧
      Shows4 k2 k.header bs xml.norm := by
  obtain ⟨k2, h2, hk⟩ := C01_roundtrip _ (C93_lawful h) c0 file k k' hopen hver bs xml hedit hx c hc out kf hsave suffix
  refine ⟨k2, ?_, hk⟩
  have e : standard argon2 gzip' gunzip = { standard argon2 gzip gunzip with gzip := gzip' } := by simp only [standard]
  rw [e, openBytes_gz]
  exact h2

/-- C02 between two of them. -/
theorem C93_writers3 {gzip gzip' : Bytes → Bytes} (h : ∀ d, IsGzip (gzip d) d) (c0 : Creds) (file : Bytes) (k k' : Kdbx)
    (hopen : openBytes (standard argon2 gzip gunzip) c0 true file = .ok k) (hver : k.header.value.major = 3)
    (xml : Xml) (hedit : Edited3 k k' xml) (hx : xml.Valid)
    (c : Creds) (hc : c.keyfile.Reusable) (out : Bytes) (kf : Keyfile)
    (hsave : buildKdbx (standard argon2 gzip gunzip) c k' = (.ok out, kf)) :
    ∃ k2, openBytes (standard argon2 gzip' gunzip) { c with keyfile := kf } true out = .ok k2 ∧ Shows3 k2 k.header xml.norm := by
  obtain ⟨k2, h2, hk⟩ := C02_roundtrip _ (C93_lawful h) c0 file k k' hopen hver xml hedit hx c hc out kf hsave
  refine ⟨k2, ?_, hk⟩
  have e : standard argon2 gzip' gunzip = { standard argon2 gzip gunzip with gzip := gzip' } := by simp only [standard]
  rw [e, openBytes_gz]
  exact h2

/-! ### Files of zlib -/

/-- All optional parts of a header: an extra field with a zero in it, a file name, a comment, a checksum. -/
def zlibParts : Bytes :=
  [31, 139, 8, 31, 1, 2, 3, 4, 0, 3, 4, 0, 97, 98, 0, 99, 110, 97, 109, 101, 0, 119, 104, 97, 116, 0, 194, 140, 75, 76, 74, 78, 68, 66, 0, 163, 140, 39,
   211, 15, 0, 0, 0]

example : gunzip zlibParts = .ok "abcabcabcabcabc".toUTF8.toList := by decide +kernel
example : gunzip (zlibParts.set 27 141) = .error .zlib ∧ gunzip (zlibParts.set 3 63) = .error .zlib := by decide +kernel

/-- `abcabcabcabcabc`: fixed codes, a repetition that overlaps itself. -/
def zlibFixed : Bytes :=
  [31, 139, 8, 0, 0, 0, 0, 0, 0, 3, 75, 76, 74, 78, 68, 66, 0, 163, 140, 39, 211, 15, 0, 0, 0]

example : gunzip zlibFixed = .ok "abcabcabcabcabc".toUTF8.toList := by decide +kernel
example : ∃ g suffix, zlibFixed = g ++ suffix ∧ IsGzip g "abcabcabcabcabc".toUTF8.toList := C93_sound (by decide +kernel)

/-- One bit of the checksum wrong; a repetition from before the beginning (`a`, then three bytes from two back). -/
example : gunzip (zlibFixed.set 17 162) = .error .zlib := by decide +kernel
example : symbols (canon fixedLit) (canon fixedDist) 9 (msb 8 (0x30 + 97) ++ msb 7 1 ++ msb 5 1 ++ msb 7 0) [] = none := by decide +kernel
example : symbols (canon fixedLit) (canon fixedDist) 9 (msb 8 (0x30 + 97) ++ msb 7 1 ++ msb 5 0 ++ msb 7 0) [] = some ([97, 97, 97, 97], []) := by
  decide +kernel

/-- A block with codes of its own. -/
def zlibDynamic : Bytes :=
  [31, 139, 8, 0, 0, 0, 0, 0, 2, 3, 5, 193, 1, 1, 0, 0, 0, 130, 160, 173, 210, 255, 15, 65, 41, 165, 148, 82, 138, 201, 50, 77, 102, 50, 98, 146, 69, 203, 146, 52, 77, 22, 203, 76, 150, 101, 201, 50, 7, 72, 43, 104, 94, 109, 0, 0, 0]

example : gunzip zlibDynamic = .ok [97, 97, 98, 97, 97, 98, 97, 97, 98, 97, 97, 98, 97, 97, 98, 97, 97, 98, 97, 97, 98, 97, 97, 98, 98, 99, 98, 97, 98, 99, 97, 98, 99, 98, 97, 99, 98, 97, 98, 99, 98, 99, 98, 97, 98, 99, 98, 98, 97, 98, 98, 99, 98, 97, 98, 97, 98, 99, 97, 98, 98, 97, 99, 97, 98, 99, 97, 98, 97, 98, 97, 98, 97, 99, 98, 97, 99, 98, 97, 98, 99, 97, 98, 98, 99, 97, 98, 99, 98, 99, 98, 97, 98, 99, 97, 98, 99, 97, 98, 99, 97, 98, 97, 98, 99, 97, 98, 99, 98] := by decide +kernel

/-- The example of RFC 1951 §3.2.2. -/
example : canon [3, 3, 3, 3, 3, 2, 4, 4] =
    [(0, msb 3 2), (1, msb 3 3), (2, msb 3 4), (3, msb 3 5), (4, msb 3 6), (5, msb 2 0), (6, msb 4 14), (7, msb 4 15)] := by decide +kernel

/-- The fixed code as in the table of RFC 1951 §3.2.6. -/
example : (canon fixedLit).map (·.2) =
    (List.range 288).map fun s =>
      if s < 144 then msb 8 (0x30 + s) else if s < 256 then msb 9 (0x190 + (s - 144)) else if s < 280 then msb 7 (s - 256) else msb 8 (0xc0 + (s - 280)) := by
  decide +kernel
example : (canon fixedDist).map (·.2) = (List.range 32).map (msb 5) := by decide +kernel

/-- The tables of RFC 1951 §3.2.5 leave no gap: each base is the one before, plus the numbers the extra bits can write; the last
length, 258, has a symbol of its own. -/
example : (lengths.take 28).zip ((lengths.take 28).drop 1) |>.all (fun p => p.1.1 + 2 ^ p.1.2 == p.2.1) := by decide
example : distances.zip (distances.drop 1) |>.all (fun p => p.1.1 + 2 ^ p.1.2 == p.2.1) := by decide

/-- The check value of CRC-32. -/
example : crc32 "123456789".toUTF8.toList = 0xCBF43926 := by decide +kernel

/-- Code lengths that zlib refuses: too many codes, too few; and the exceptions for sets of at most one code. -/
example : usable false [1, 1, 1] = false ∧ usable false [2, 2, 2] = false ∧ usable false [1] = true ∧ usable true [1] = false ∧ usable true [] = true := by
  decide +kernel

end Verif.Props
