import Verif.Kdbx.BlockLemmas
import Verif.Kdbx.Toy
/-!
# C17: bytes after the end of a KDBX4 database are ignored
-/
namespace Verif.Props
open Verif Parser Spec

/-- Appending any bytes to a KDBX4 file that opens changes nothing. -/
theorem C17_ignored (P : Prims) (hP : P.Lawful) (c : Creds) (file x : Bytes) (k : Kdbx)
    (ho : openBytes P c true file = .ok k) (hv : k.header.value.major = 4) :
    openBytes P c true (file ++ x) = .ok k := by
  obtain ⟨rest, hp⟩ := openBytes_ok.mp ho
  obtain ⟨d, tk, r, b, g1, g2, g3, g4, g5⟩ := (parse4_ok hv).mp hp
  obtain ⟨e1, e2⟩ := header_ok g1
  refine openBytes_ok.mpr ⟨rest ++ x, (parse4_ok hv).mpr ⟨d, tk, r ++ x, b, ?_, g2, g3, ?_, g5⟩⟩
  · rw [e1, List.append_assoc]; exact e2 _
  · obtain ⟨mk, seed, z, cc, iv, blocks, dd, plain, p, s', k1, k2, k3, k4, k5, k6, k7⟩ :=
      (body4_iff P hP ..).mp g4
    refine (body4_iff P hP ..).mpr ⟨mk, seed, z, cc, iv, blocks, dd, plain, p, s' ++ x, k1, k2,
      by rw [k3]; simp, k4, k5, ?_, k7⟩
    obtain ⟨l1, l2, l3, l4⟩ := (blocks4_iff hP ..).mp k6
    exact (blocks4_iff hP ..).mpr ⟨l1, l2, l3, by rw [l4, List.append_assoc]⟩

/-- The same without decrypting. -/
theorem C17_ignored_header_only (P : Prims) (c : Creds) (file x : Bytes) (k : Kdbx)
    (ho : openBytes P c false file = .ok k) (hv : k.header.value.major = 4) :
    openBytes P c false (file ++ x) = .ok k := by
  obtain ⟨rest, hp⟩ := openBytes_ok.mp ho
  obtain ⟨d, tk, r, b, g1, g2, g3, g4, g5⟩ := (parse4_ok hv).mp hp
  obtain ⟨e1, e2⟩ := header_ok g1
  refine openBytes_ok.mpr ⟨rest ++ x, (parse4_ok hv).mpr ⟨d, tk, r ++ x, b, ?_, g2, g3, ?_, g5⟩⟩
  · rw [e1, List.append_assoc]; exact e2 _
  · have hl : Local (body4 P k.header.data d tk false) := by
      unfold body4
      refine local_bind (local_lift _) fun mk => local_bind (local_bytes 32) fun sha => ?_
      split
      · exact local_fail _
      · rw [if_neg (by decide)]; exact local_pure _
    obtain ⟨u, hu, hrun⟩ := hl _ _ _ g4
    rw [hu, List.append_assoc]
    exact hrun _

/-- Saving a shorter database at the start of a longer stream: what is left of the old content does
not matter. `old` is the previous content, `new` what was written over its beginning. -/
theorem C17_shorter_over_longer (P : Prims) (hP : P.Lawful) (c : Creds) (old new : Bytes) (k : Kdbx)
    (ho : openBytes P c true new = .ok k) (hv : k.header.value.major = 4) :
    openBytes P c true (new ++ old.drop new.length) = .ok k := C17_ignored P hP c new _ k ho hv

/-- Finding: KDBX3 differs. The rest of the stream is one ciphertext, so a single byte after an AES
database makes it unreadable. -/
theorem C17_not_for_kdbx3 (P : Prims) (c : Creds) (file : Bytes) (x : UInt8) (k : Kdbx) (d : DynHeader)
    (ho : openBytes P c true file = .ok k) (hv : k.header.value.major = 3)
    (hd : k.header.value.dyn = some d) (hc : d.cipher = .ok .aes256) :
    openBytes P c true (file ++ [x]) = .error .value := by
  obtain ⟨rest, hp⟩ := openBytes_ok.mp ho
  obtain ⟨d', tk, r, b, g1, g2, g3, g4, g5⟩ := (parse3_ok hv).mp hp
  rw [hd] at g2
  injection g2 with g2
  subst g2
  obtain ⟨e1, e2⟩ := header_ok g1
  obtain ⟨mk, cid, iv, plain, p, k1, k2, k3, k4, k5, _⟩ := (body3_iff P ..).mp g4
  rw [hc] at k2
  injection k2 with k2
  subst k2
  have hb : body3 P d tk true (r ++ [x]) = .error .value := by
    unfold body3
    rw [bind_run (lift_run k1 _), if_pos rfl, bind_run (lift_run hc _),
      bind_run (show greedy (r ++ [x]) = .ok (r ++ [x], []) from rfl), bind_run (lift_run k3 _)]
    refine bind_err ?_
    have : payloadDecrypt P .aes256 mk iv (r ++ [x]) = .error .value := by
      simp only [payloadDecrypt] at k4 ⊢
      split at k4
      · cases k4
      · next h1 =>
        split at k4
        · cases k4
        · next h2 =>
          split at k4
          · cases k4
          · next h3 =>
            rw [if_neg h1, if_neg h2, if_pos (by rw [List.length_append, List.length_singleton]; omega)]
    rw [this]; rfl
  unfold openBytes parseKdbx
  rw [e1, List.append_assoc, e2]
  simp only [hd]
  rw [if_pos hv]
  cases ht : computeTransformed3 P c d with
  | mk res kf =>
    rw [ht] at g3
    simp only at g3
    subst g3
    simp only [hb]
    rfl

/-- The example file with anything behind it. -/
example (c : CipherId) (z : Bool) (x : Bytes) : ∃ k,
    openBytes Toy.prims Toy.creds true (Toy.file4 c z ++ x) = .ok k := by
  obtain ⟨tk, mk, h⟩ := Toy.open4 c z
  exact ⟨_, C17_ignored _ Toy.lawful _ _ x _ h rfl⟩
example (z : Bool) : openBytes Toy.prims Toy.creds true (Toy.file3 .aes256 z ++ [0]) = .error .value := by
  obtain ⟨tk, mk, h⟩ := Toy.open3 .aes256 z
  exact C17_not_for_kdbx3 _ _ _ 0 _ (Toy.dyn3 .aes256 z) h rfl rfl (by cases z <;> rfl)

end Verif.Props
