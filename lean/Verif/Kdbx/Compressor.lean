import Verif.Kdbx.File
/-!
# Opening a file does not use the compressor
-/
namespace Verif
open Parser

theorem innerStream_gz (P : Prims) (g : Bytes → Bytes) : innerStream { P with gzip := g } = innerStream P := by unfold innerStream; rfl

theorem readXml_gz (P : Prims) (g : Bytes → Bytes) : readXml { P with gzip := g } = readXml P := by
  unfold readXml; rw [innerStream_gz]

theorem decompress_gz (P : Prims) (g : Bytes → Bytes) : decompress { P with gzip := g } = decompress P := by unfold decompress; rfl

theorem plainKeyfile_gz (P : Prims) (g : Bytes → Bytes) : plainKeyfile { P with gzip := g } = plainKeyfile P := by unfold plainKeyfile; rfl

theorem xmlKeyfile_gz (P : Prims) (g : Bytes → Bytes) : xmlKeyfile { P with gzip := g } = xmlKeyfile P := by unfold xmlKeyfile; rfl

theorem keyfileComposite_gz (P : Prims) (g : Bytes → Bytes) : keyfileComposite { P with gzip := g } = keyfileComposite P := by
  unfold keyfileComposite; simp only [xmlKeyfile_gz, plainKeyfile_gz]

theorem passwordComposite_gz (P : Prims) (g : Bytes → Bytes) : passwordComposite { P with gzip := g } = passwordComposite P := by
  funext p; cases p <;> rfl

theorem composite_gz (P : Prims) (g : Bytes → Bytes) : computeKeyComposite { P with gzip := g } = computeKeyComposite P := by
  unfold computeKeyComposite; simp only [keyfileComposite_gz, passwordComposite_gz]

theorem iterEcb_gz (P : Prims) (g : Bytes → Bytes) : iterEcb { P with gzip := g } = iterEcb P := by
  funext k n x
  induction n generalizing x with
  | zero => rfl
  | succ n ih => rw [iterEcb, iterEcb, ih]

theorem aesKdf_gz (P : Prims) (g : Bytes → Bytes) : aesKdf { P with gzip := g } = aesKdf P := by
  unfold aesKdf; simp only [iterEcb_gz]

theorem transformed3_gz (P : Prims) (g : Bytes → Bytes) : computeTransformed3 { P with gzip := g } = computeTransformed3 P := by
  unfold computeTransformed3; simp only [composite_gz, aesKdf_gz]

theorem transformed4_gz (P : Prims) (g : Bytes → Bytes) : computeTransformed4 { P with gzip := g } = computeTransformed4 P := by
  unfold computeTransformed4 aesBranch argon2Branch; simp only [composite_gz, aesKdf_gz]

theorem master_gz (P : Prims) (g : Bytes → Bytes) : computeMaster { P with gzip := g } = computeMaster P := by unfold computeMaster; rfl

theorem decrypt_gz (P : Prims) (g : Bytes → Bytes) : payloadDecrypt { P with gzip := g } = payloadDecrypt P := by unfold payloadDecrypt; rfl

theorem blocks4_gz (P : Prims) (g : Bytes → Bytes) : blocks4 { P with gzip := g } = blocks4 P := by
  unfold blocks4 block4 blockHmac; rfl

theorem blocks3_gz (P : Prims) (g : Bytes → Bytes) : blocks3 { P with gzip := g } = blocks3 P := by
  unfold blocks3 block3; rfl

theorem unpack3_gz (P : Prims) (g : Bytes → Bytes) : unpack3 { P with gzip := g } = unpack3 P := by
  unfold unpack3; simp only [blocks3_gz, readXml_gz, decompress_gz]

theorem unpack4_gz (P : Prims) (g : Bytes → Bytes) : unpack4 { P with gzip := g } = unpack4 P := by
  unfold unpack4; simp only [readXml_gz]

theorem body3_gz (P : Prims) (g : Bytes → Bytes) : body3 { P with gzip := g } = body3 P := by
  unfold body3; simp only [master_gz, decrypt_gz, unpack3_gz]

theorem body4_gz (P : Prims) (g : Bytes → Bytes) : body4 { P with gzip := g } = body4 P := by
  unfold body4 hmacBase headerHmac; simp only [master_gz, decrypt_gz, unpack4_gz, blocks4_gz, decompress_gz]

theorem openBytes_gz (P : Prims) (g : Bytes → Bytes) : openBytes { P with gzip := g } = openBytes P := by
  unfold openBytes parseKdbx; simp only [body3_gz, body4_gz, transformed3_gz, transformed4_gz]

end Verif
