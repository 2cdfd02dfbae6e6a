/-!
# Python values and exceptions used throughout the model

`Str` models Python `str` (restricted to Unicode scalar values: lxml rejects surrogates, so no
text stored in a database can contain one).  `Bytes` models Python `bytes`.
Exceptions are values of type `PyErr`; a Python call that raises returns `Except.error`.
-/
namespace Verif

/-- Python `str`, as its list of characters. -/
abbrev Str := List Char

/-- Python `bytes`. -/
abbrev Bytes := List UInt8

/-- The Python exceptions that can leave the modelled functions.
`pykeepass/exceptions.py:3-24`; the others belong to the standard library, `construct`, `lxml`
and `Cryptodome`. -/
inductive PyErr where
  /-- `pykeepass.exceptions.CredentialsError` -/
  | credentials
  /-- `pykeepass.exceptions.HeaderChecksumError` -/
  | headerChecksum
  /-- `pykeepass.exceptions.PayloadChecksumError` -/
  | payloadChecksum
  /-- `pykeepass.exceptions.BinaryError` -/
  | binary
  /-- `pykeepass.exceptions.UnableToSendToRecycleBin` -/
  | unableToRecycle
  /-- `construct.ChecksumError` with its `path` -/
  | checksum (path : String)
  /-- `construct.CheckError` with its `path` -/
  | check (path : String)
  /-- `construct.StreamError`: fewer bytes than requested -/
  | stream
  /-- `construct.MappingError`: value not in a `Mapping` -/
  | mapping
  /-- `construct.FormatFieldError` / `IntegerError`: value does not fit the field -/
  | formatField
  /-- `construct.RepeatError` -/
  | repeatErr
  /-- `construct.StringError` (UTF-8 decoding of a `GreedyString`) -/
  | stringErr
  | value | type | attribute | key | index | name | assertion | notImplemented
  | struct | binascii | unicodeDecode | overflow | recursion
  /-- `OSError` family: `IOError`, `FileNotFoundError` -/
  | os
  /-- `lxml.etree.XPathEvalError` -/
  | xpathEval
  /-- `lxml.etree.XMLSyntaxError` -/
  | xmlSyntax
  /-- `zlib.error` -/
  | zlib
  /-- `argon2.exceptions.HashingError` -/
  | argon2
  /-- a plain `Exception(...)` raised by the repository -/
  | exception
  /-- `re.error`: a pattern that does not compile -/
  | regex
  /-- not a Python exception: the call leaves the modelled fragment -/
  | unmodelled
  deriving DecidableEq, Repr

deriving instance DecidableEq for Except

end Verif
