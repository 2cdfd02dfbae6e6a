# Formal model of pykeepass in Lean 4: design

Repository modelled: `/repo` (pykeepass 4.1.1.post1).  Lean 4.33.0.  Sources under `lean/Verif/`.

## 1. Shape of the model

| Layer | Modules | Python code |
|---|---|---|
| Bytes, little-endian integers, base64 (CPython `binascii` lenient decoder), hex, PKCS#7, UTF-8 | `Verif/Base/*` | stdlib / Cryptodome functions the repo calls; modelled executably |
| `construct` combinators used (Bytes, IntNul, Prefixed, Mapping, Switch, RepeatUntil, Peek, Checksum, Pointer, RawCopy) as parsers `Bytes → Except Err (α × Bytes)` and builders `α → Except Err Bytes` | `Verif/Kdbx/*` | `kdbx_parsing/{kdbx,kdbx3,kdbx4,common}.py` |
| Twofish block cipher and CBC streaming | `Verif/Twofish/*` | `kdbx_parsing/{pytwofish,twofish}.py` |
| XML elements with identity, forests of attached and detached elements | `Verif/Tree/*` | the lxml operations the repo uses: append, remove, insert, find, findall, getparent, text, attrib, deepcopy |
| XPath: template table, `str.format`, lexer, parser, evaluator of the fragment used | `Verif/XPath/*` | `xpath.py`, `PyKeePass._find`, `PyKeePass.xpath` |
| API operations as state-passing functions with Python exceptions as values; a failing call returns the state it had reached | `Verif/Api/*` | `pykeepass.py`, `entry.py`, `group.py`, `baseelement.py`, `attachment.py` |
| Session: files, streams, credentials, read/save/reload/create_database, crash points | `Verif/Session/*` | `PyKeePass.read/save/reload`, `create_database` |
| Dates | `Verif/Time/*` | `_encode_time/_decode_time`, expiry logic |
| Property theorems, each with its specification and a satisfiability example | `Verif/Props/C??_*.lean` | |

Conventions
* Every definition cites the file and lines it models; simplifications are stated there.
* Exceptions are values (`PyErr`).  The API monad is `State → Except PyErr α × State`, so partial effects of a failing call are visible.
* Clock, `uuid1()`, set iteration order, regular-expression engine, crash points are parameters that theorems quantify over.
* Cryptographic primitives and compression that live in C libraries (SHA-2, HMAC, AES, ChaCha20, Salsa20, Argon2, zlib) are fields of a structure `Prims`; the laws used (`decrypt (encrypt x) = x`, output lengths, `gunzip (gzip x) = x`) are the fields of `Prims.Lawful`, an explicit hypothesis, shown satisfiable by a concrete instance.
* XML text ↔ tree (lxml's parser/serialiser) is likewise a pair of functions with a round-trip law, and an actual serialiser/parser for the element fragment is given as instance.

## 2. Trusted base

* Lean's kernel; axioms at most `propext`, `Classical.choice`, `Quot.sound` (checked by `#print axioms` in `Verif/Audit.lean`).
* The reading of the Python code and of the library functions it calls (construct 2.10.70, lxml 5.3.1 / libxml2, pycryptodomex 3.21, CPython 3.11 stdlib), none of which can be run here.
* Laws in `Prims.Lawful` for the C libraries. C89 and C93 prove them for the algorithms as published; of the
  compressor C93 asks that it writes gzip files of its data, as RFC 1951 and RFC 1952 define them.

## 3. Plan per property

| Id | Model | Proof |
|---|---|---|
| C01, C02 | `Kdbx` open/build on bytes for both versions | composition of inverse lemmas: header locality, checksum recomputation, block split/concat, pad/unpad, cipher inverse, gzip inverse, inner header, protected stream, XML |
| C03 | protect pass on a forest with identities: deepcopy gets fresh ids, texts overwritten by id | frame lemma: ids of the copy are disjoint from the original |
| C04 | `RawCopy` build branch | unfolding + induction over save cycles |
| C05–C09 | `read` error mapping by error path | case analysis on parser; C08 under an explicit unforgeability hypothesis, induction over blocks |
| C10 | `If(decrypt)` branches | unfolding |
| C11, C12 | file-system trace semantics of save: truncate, write byte prefix, rename | invariant over all prefixes of the trace |
| C13, C14, C16, C18 | session object | unfolding, counterexamples by `decide` |
| C15 | `compute_key_composite` with key-file branches, `int(_,16)` grammar | case analysis, hex/base64 inverse lemmas |
| C17 | locality of parsers | parser returns remaining input unchanged |
| C19 | base64 encoder and CPython decoder | induction in steps of three bytes |
| C20, C21 | datetime fields, ordinals, correctly rounded float division | arithmetic (omega), string parsing lemmas |
| C22, C23 | Twofish rounds on Nat words with masks as in the code | xor cancellation, rotation inverse; CBC by induction on blocks and chunks |
| C24 | pad/unpad, block splitting | list induction |
| C25 | protected stream over trees | mutual induction over trees threading the key-stream offset |
| C26, C27 | DynamicDict, VariantDictionary | list induction |
| C28–C34, C57 | XPath text is built from the template table, lexed, parsed, evaluated | lexer lemma for quote-free literals; each filter segment is a test on its context node; result = filter of document order |
| C35–C38 | string-field operations on an entry element | list lemmas, induction over operation sequences |
| C39–C46, C49–C53 | forest operations with unique ids | structural induction, permutation lemmas |
| C47, C48 | binaries list (KDBX4) / Meta/Binaries (KDBX3) | list index lemmas |
| C54 | `deref` with fuel; set order as arbitrary permutation | well-founded measure for acyclic reference graphs; confluence |
| C55, C56, C58, C59 | decision logic | case analysis |
| C61 | relation between credentials, content and bytes of whole files | reader and writer lemmas of C01, C02, C23–C27, C60 put together |
| C62 | streams with content and position | locality of the KDBX4 parser |
| C63 | forest operations with unique ids | as C39 |
| C64 | every sequence of calls | invariant `Tidy` by induction over calls |
| C65 | twelve wrappers | C28–C30 |
| C66 | printed text from paths | C50 |
| C67 | attributes: place in the document, round trip, independence | C20, C21, C36, C38 |
| C68 | tags of parents as a table; groups reached by subgroups | invariant `Shaped` by induction over calls; C28, C52 |
| C69 | objects in use: calls, credentials, `save`, `reload` as acts (`Session/Life`) | invariant `Alive` by induction over acts; C01, C02, C11, C64 |
| C70 | `save` after `read` without a change | what is read back is the payload that was written, so the builder gets the same input; `Settled` |
| C71 | the calls of `Op` (Spec/Vault.lean) | refinement: `vaultOf` maps a database to a machine on cards which knows nothing of XML; every call is a step of it (`C71_step`), by induction every sequence (`C71_run`); getters and lists are functions of the cards; `Sound` is kept and holds after opening |
| C72 | `parseKdbx`, `Body`, `compute_transformed` of both versions | inversion of successful runs; case by case in the order of evaluation |
| C73 | `_find`, `find_entries`, `find_groups`, `find_attachments`, `attachments`, paths | C28–C30 give the result as nodes; `Sound` turns nodes into cards: `held` by induction over the way down, `kw_card` argument by argument |
| C74 | `read`, `save`, all operations of C71 | `FromFile`: a bijection between the cards of a vault and those read back; `Walks` pairs elements at the same place of the two trees; C64 gives the tree, C71 the cards |
| C75 | settings, credentials, `add_binary`, `binaries`, all operations of C71 | `Office`: vault and desk; nothing of a card is below `Meta` (frame with the document element gated), and a change below `Meta` touches no card (`Aside`) |
| C76 | `read`, `save`, all operations of C75 | `OfficeBack`: C74's bijection and, beside it, texts and data of the desk read back; `Terms`/`Records`: sessions of code and of machine |
| C77 | all methods of C71 and C75, `expired`, `credchange_required`, `credchange_recommended`, `append`, `reindex`, `trash_*`, `delete_binary` | `Task.Step`: the machine on offices (`Spec/Whole`); `Served`/`Proceeds`: sequences of code and of machine; `Filed` (`Spec/Shape`): attachments with one number, lists of data |
| C78 | `read`, `save`, all methods of C77 | `Years`/`Chronicle`: sessions of code and of machine |
| C79 | `KDBX`, `read`, `save`, header properties | unfolding; the session and file-system model of C11 |
| C80 | all parsers of the outer file | `Cut`: a parser consumes a definite piece and raises StreamError on each shorter one; closed under the combinators (`Kdbx/CutLemmas`) |
| C81 | header items, parameter dictionary | `Wrong`: malformed fields with their exceptions; induction over the fields before |
| C82 | all setters, `add_*`, `delete*` with arguments that are refused; all methods of C77 | `Refusal.Step` (`Spec/Refuse`): what is raised and what is left; `Call.Met` (`Spec/Cover`): the conditions under which a call is one of the machine |
| C83 | `xpath` (`first`, `cast`) with paths written by hand | `Hop`, `Route` (`Spec/Query`) on the document part of the heap view; read piece by piece (`Piece`), evaluated by induction over the parts |
| C84 | `create_database`, `blank_database.kdbx` (its header) | `shippedHeader`, `shippedFields` (`Spec/Shipped`); induction over the cycles of C04 |
| C85 | `_find`, `find_entries`, `find_groups`, `find_attachments` with `None` as value | the search without the argument |
| C86 | `save`, `read` as sequences of system calls on names and inodes (`Session/Share`) | `Orderly`, `Interleaved`, `lastSaved`, `Version` (`Spec/Together`); invariant over all interleavings; alone it is the save of C11 |
| C87 | `xml`, `dump_xml` of database and elements (`Session/Dump`, `Tree/Pretty`: lxml's output with indentation) | the XML parser of `Tree`; `PartOf`, `Contains` |
| C88 | acts of C69 by any number of objects on one file | `Crowd` (`Spec/Crowd`); the invariant of C69 for all objects at once |
| C89 | none; what the theorems assume of the libraries | AES, SHA-2, HMAC, ChaCha20, Salsa20 as published (`Crypto/`); GF(2^8) linearity, S-box by `decide +kernel` |
| C90 | `create_database`, `blank_database.kdbx` (its content), properties and searches | `shippedTree`, `NewVault`, `NewDesk` (`Spec/New`); the machine of C77 and C78 on the two assignments |
| C91 | `compute_transformed`, `aes_kdf`, `InnerHeader` | `Number`, `param`, `InnerWrong`; cases in evaluation order |
| C92 | the system calls of `save`, one by one, on a medium that gets them later | `Ordered`, `savedIn` (`Spec/Power`); what is not yet there never touches a file that has a database's name |
| C93 | `Decompressed` (common.py:369-387), zlib's decompression | deflate and gzip as relations (`Spec/Gzip`), decoder (`Crypto/Gzip`) proved equivalent to them; codes of code lengths are prefix-free; tables, codes and checksum described without the decoder (`Props/C93_Tables`: formulas, shares of the code space, division of polynomials); a compressor with stored blocks |
| C60 | independent Twofish specification over GF(2^8) | finite tables by `decide +kernel`, linearity |

Nothing is planned as not applicable.  Findings (places where the code does not satisfy the English property) are recorded in section 5 with a theorem stating the negation on a witness.

## 4. What is not modelled

Parameters of the model, with assumed laws where a theorem needs them:

* SHA-256, SHA-512, HMAC, AES, ChaCha20, Salsa20, Argon2, gzip: `Prims`, laws in `Prims.Lawful`. Nothing is assumed about the
  strength of a primitive except where a theorem says so as a hypothesis (C08: only MACs the writer computed verify).
* lxml's parser and serialiser between bytes and trees: `xmlParse`, `xmlSer` with the law that parsing the serialised tree gives the
  tree with empty texts as None. Comments, processing instructions, tails, namespaces and entity definitions are not part of trees.
* The EXSLT regular-expression engine (`Regex`), the clock, `uuid1()`, the local time zone, the order of a Python set, what the
  operating system does (`Os`).

Left out:

* `icons.py` (a table of constants), `version.py`, logging, `debug_setup`.
* Python-level misuse: arguments of types other than those named in the model (for example a number as title), threads, running out of
  memory, KeyboardInterrupt.
* The inner stream ArcFour: the class has no cipher, the model raises as the code does.
* The decryption of `blank_database.kdbx`: C18, C84 and C90 take as hypothesis that it opens with its password, C90 also that its content is
  `shippedTree`, a literal. `tools/realfiles/run.py show blank_database password -` computes it with the model.
* Python's recursion limit, except in `deref` where it is the fuel.

Simplifications are stated in the comment of each definition. The ones that matter most:

* Elements are numbered. A Python object is a number; the document and detached elements are children of one node with number 0.
* A stream given to `save` is taken to be another one than the stream the database was opened from.
* In C86 and C92 the operating system refuses nothing, renaming is atomic, and files have one name each; C11 has the refusals of a single save.
* `None` as a search value is in C85 only; the arguments in the other properties about searches have values.

The model was also evaluated on the files in /repo/tests and on the blank database (`tools/realfiles`; a test, not a proof, and no code of
/repo is run): with its own AES, SHA-2, ChaCha20, Salsa20, Twofish and gzip, and with an Argon2 written for this purpose, it opens all of
them with the right credentials, refuses wrong ones, gives the results that `tests.py` expects in the cases that were transcribed (62 for
each of test3.kdbx and test4.kdbx), and reads back what it saves.

## 5. Findings

Places where the code does not do what its documentation or a user would expect. Each has a theorem stating it, unless marked (read).

Files and credentials
* The root groups of all databases made with `create_database` have the same uuid: `C90_answers`.
* The parameters of the key derivation are used before they are verified and have no lower bound; AES-KDF with a negative number of rounds does
  none: `C91_first`, `C91_aes`.
* `save` never refreshes master seed, IV or inner stream key: `C04_no_refresh`. With ChaCha20 two saves of a database reveal the exclusive or of their plaintexts: `C04_two_time_pad`.
* Bytes behind a KDBX3 database make it unreadable: `C17_not_for_kdbx3`. KDBX4 ignores them: `C17_ignored`.
* A wrong block index of KDBX3 raises construct's `ChecksumError` and not one of the library's errors: `C09_bad_index`.
* KDBX4: an unreadable key file is reported before a corrupt header: `C07_keyfile_first`.
* A database named `*.tmp` is not saved crash-safely: `C11_not_for_tmp`, `C12_not_for_tmp`. An unrelated file with the temporary name is
  destroyed: `C11_destroys_tmp`. When renaming fails the target is truncated and copied over: `C11_not_without_rename`; the new database is then in the temporary file as long as the target is incomplete: `C11_recoverable`, `C11_copied`.
* `save` does not wait for the medium: after a power failure a save that has returned can be lost, and on file systems that let the renaming
  overtake the data the database can be empty: `C92_not_durable`, `C92_not_unordered`.
* Saves that overlap share the temporary file: the database can end up as a mixture of two outputs, or `x.kdbx` with the content of
  `x.kdb`, while the save reports success: `C86_not_overlapping`, `C86_wrong_database`.
* Two objects opened from one file: the last save wins, the other's changes are lost, a changed password is changed back:
  `C88_last_save_wins`, `C88_lost_update`.
* `dump_xml` empties its file before it knows whether there is anything to write: `C87_not_crash_safe`, `C87_header_only`. Written over the
  database itself it destroys it: `C87_not_a_database`. Passwords are in it in clear text: `C87_in_clear`.
* Streams are not protected: `C12_not_for_streams`. Saving back to the stream a database was read from appends: `C62_again`.
  `reload` on a stream that has been read to its end raises: `C62_reload`.
* `create_database` passes the transformed key as file name: `C18_transformed_key`. All databases it makes share master seed, IV and the salt
  of Argon2, for good: `C84_header`; so equal passwords give equal keys, whoever made them: `C84_same_keys`.
* Opening and saving a database unchanged gives other bytes while there are empty texts: `C70_not_at_once`.
* A failing `read` has already replaced credentials and file name: `C13_credentials_changed`.
* `save` of a database opened by transformed key alone encrypts it under empty credentials: `C14_save_without_key`.
* Key files: `C15_none_vs_empty`, `C15_password_is_keyfile`, `C15_hex_prefix_fails`, `C15_malformed_xml`. A stream that cannot seek gives
  the key of an empty file for AES-KDF in KDBX4: `C16_aeskdf_reads_twice`.
* The Twofish object can be made in CBC mode only, the default mode does not exist: `C23_only_cbc`, `C23_default_mode`. `final` compares
  `ed` with `b'e'` where `'e'` was stored and so never pads: `C23_final`, `C23_final_loses`. An object that has encrypted cannot decrypt: `C23_one_direction`.
* `kdf_algorithm` is None for versions other than 3.1 and 4.0: `C58_other_version`. Files of other major versions open with any password, and saving such a database cuts the file down to twelve bytes: `C79_opens`, `C79_truncates`.

Times
* KDBX4: `C20_not_truncated` (rounding up), `C20_datetime_max`, `C20_before_year_one`, `C20_naive`, `C20_iso_z`. KDBX3: `C21_offset_dropped` (`add_entry` converts to UTC first: `C39_expiry`); the other spellings that are read: `C21_forms`, `C21_date`.
* Setting a time an element does not have is dropped silently: `C56_missing`. `credchange_required` without days raises: `C55_no_days`.
* Setting the password of a database without MasterKeyChanged raises after changing it: `C59_missing`.

Searching
* A quote in a search value changes the query or makes it fail: `C34_quote_changes_query`, `C34_quote_fails`; consequences `C35_quote`,
  `C40_quote_twice`, `C40_quote_refused`, `C45_quote`. An empty list of tags fails: `C34_no_tags`. `None` is ignored except for
  `uuid`, `tags` and `string`, where it raises: `C85_uuid`, `C85_tags`, `C85_string`. A value with a character
  that XML does not allow raises ValueError: `C34_not_xml`.
* `find_groups(recursive=False)` without a group finds nothing: `C31_nothing`. `find_attachments(path=...)` returns a group:
  `C30_attachments_return_group`. A text as path is read as a list of characters: `C65_path_text`. Flags other than `i` do nothing: `C57_only_i`. With `regex=True` the base64 text of a uuid is a pattern, so
  a uuid with a `+` does not find its entry: `C57_uuid`, `C57_uuid_plus`.
* Tags are matched as substrings of the stored text: `C38_substring`. `['']` reads back as `[]`: `C38_one_empty`; separators split:
  `C38_separator`.

Entries and groups
* A field set to None or to text that XML cannot hold loses its old value: `C35_none_loses`, `C35_control_loses`; so do icon, name, notes and
  tags: `C82_step`, `C82_lost`. Duplicate keys:
  `C35_duplicate_keys`. The same holds for icons and for names and notes of groups: `C67_none_loses`.
* `add_entry` with None raises: `C39_none`. A custom property with the empty key is lost to `get_custom_property('')` once the file is reopened: `C74_empty_key`. Data stored with an empty text and marked compressed raises zlib's error before saving and is empty after reopening: `C76_not_packed`.
* Deleting twice raises: `C41_twice`. Nothing prevents deleting the root group: `C52_root_deleted`. Trashing a group above the bin:
  `C43_refuse_above`. `delete_history(all=True)` without history: `C46_refused`.
* `delete_binary` does not renumber attachments in histories and accepts negative ids: `C48_history`, `C48_negative`, `C48_ids`. KDBX3
  `binaries` is misordered for ids out of order: `C47_disordered`, `C47_gap`. History entries never show attachments: `C49_history`.
* `reindex` counts entries, not children: `C51_interleaved`. Negative numbers do not count from the last entry, and numbers
  beyond the entries lead behind the subgroups: `C51_negative`, `C51_beyond` (`C51_any` says where the entry lands). Groups without name are left out of paths: `C50_unnamed`.
* Different entries compare equal when their uuids are congruent modulo 2^61-1: `C53_collision`, `C53_collision_case`.
* `deref`: `C54_ref_uuid`, `C54_ref_empty`, `C54_cycle`, `C54_order_matters`, `C54_order_matters_error`.
* Deleted entries and groups, and entries of deleted groups, cannot be printed: `C66_detached`, `C66_in_deleted`.
