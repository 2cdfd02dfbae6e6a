import Verif.Crypto.Aes
import Verif.Crypto.Sha2
import Verif.Crypto.Stream
import Verif.Kdbx.Prims
import Verif.Tree.XmlText
/-!
# The primitives as published

SHA-2, HMAC, AES, ChaCha20 and Salsa20 as in the standards, XML as in `Verif/Tree/XmlText.lean`.
Argon2 and gzip remain parameters; for gzip see `Verif/Crypto/Gzip.lean`.
-/
namespace Verif

/-- Published algorithms in the place of the libraries the repository calls. -/
def standard (argon2 : Bool → Bytes → Bytes → Int → Int → Int → Int → Except PyErr Bytes) (gzip : Bytes → Bytes)
    (gunzip : Bytes → Except PyErr Bytes) : Prims where
  sha256 := Sha2.sha256
  sha512 := Sha2.sha512
  hmac256 := Sha2.hmac256
  aesEcb := Aes.ecb
  aesEnc := Aes.encrypt
  aesDec := Aes.decrypt
  chacha20 := Stream.chacha20
  salsa20 := Stream.salsa20
  argon2 := argon2
  gzip := gzip
  gunzip := gunzip
  xmlSer := Xml.serDoc
  xmlParse := Xml.parseDoc
  xmlFromString := Xml.parseDoc

end Verif
