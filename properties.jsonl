{"id": "C01", "title": "KDBX4 save/open round-trip", "statement": "Saving an open KDBX4 database and opening the bytes again with the same credentials succeeds and yields the same XML content (empty-string texts read back as None), the same binaries in the same order and the same header settings.", "quantifier": "every header the parser accepts, every cipher (AES, ChaCha20, Twofish), compression on or off, every inner stream cipher, every tree, every list of binaries, every password/keyfile/transformed key", "why_tests_cant": "The content, header fields and sizes are unbounded; a test opens a handful of fixture files.", "anchors": ["pykeepass/pykeepass.py:PyKeePass.save", "pykeepass/pykeepass.py:PyKeePass.read", "pykeepass/kdbx_parsing/kdbx4.py:Body", "pykeepass/kdbx_parsing/kdbx4.py:UnpackedPayload", "pykeepass/kdbx_parsing/common.py:Concatenated", "pykeepass/kdbx_parsing/common.py:DecryptedPayload", "pykeepass/kdbx_parsing/kdbx.py:KDBX"]}
{"id": "C02", "title": "KDBX3 save/open round-trip", "statement": "Saving an open KDBX3 database and opening the bytes again with the same credentials succeeds and yields the same XML content (empty-string texts read back as None) and header settings.", "quantifier": "every accepted KDBX3 header, every cipher, compression on or off, every inner stream cipher, every tree, every credential", "why_tests_cant": "Unbounded content and header space.", "anchors": ["pykeepass/pykeepass.py:PyKeePass.save", "pykeepass/kdbx_parsing/kdbx3.py:Body", "pykeepass/kdbx_parsing/kdbx3.py:UnpackedPayload", "pykeepass/kdbx_parsing/kdbx3.py:PayloadBlocks", "pykeepass/kdbx_parsing/common.py:Unprotect"]}
{"id": "C03", "title": "save() does not disturb the open database", "statement": "After save() every element of the in-memory database still has the text, attributes and children it had before: protected values stay readable in clear, handles stay valid.", "quantifier": "every tree, every set of protected values, every key", "why_tests_cant": "The protect pass mutates elements; only a proof over all trees shows it touches the copy and nothing else.", "anchors": ["pykeepass/kdbx_parsing/common.py:UnprotectedStream._encode", "pykeepass/pykeepass.py:PyKeePass.save"]}
{"id": "C04", "title": "save() writes the header of the opened file verbatim", "statement": "The header bytes of every saved file are the bytes read when the database was opened, so version, cipher, KDF parameters survive any number of open/edit/save cycles. (Consequence: master seed, IV and inner stream key are never refreshed by save().)", "quantifier": "every header, every sequence of edits and saves", "why_tests_cant": "It is a statement about every sequence of saves; a test sees one.", "anchors": ["pykeepass/kdbx_parsing/kdbx.py:KDBX", "pykeepass/pykeepass.py:PyKeePass.save"]}
{"id": "C05", "title": "Wrong credentials are reported as CredentialsError", "statement": "Opening a well-formed file with credentials whose derived key fails the credential check raises CredentialsError (never another error, never a database), and whenever a database is returned the credential check matched.", "quantifier": "every well-formed KDBX3/KDBX4 file and every credential", "why_tests_cant": "Credentials and files are unbounded; tests try a few wrong passwords.", "anchors": ["pykeepass/pykeepass.py:PyKeePass.read", "pykeepass/kdbx_parsing/kdbx4.py:compute_header_hmac_hash", "pykeepass/kdbx_parsing/kdbx3.py:UnpackedPayload", "pykeepass/kdbx_parsing/common.py:DecryptedPayload._decode"]}
{"id": "C06", "title": "A file without the KeePass signature is rejected as HeaderChecksumError", "statement": "Opening any file of at least eight bytes whose first eight bytes are not the KeePass signature raises HeaderChecksumError whatever the credentials; no other content of the file matters.", "quantifier": "every byte string of length >= 8 not starting with the signature, every credential", "why_tests_cant": "All byte strings.", "anchors": ["pykeepass/kdbx_parsing/kdbx.py:check_signature", "pykeepass/pykeepass.py:PyKeePass.read"]}
{"id": "C07", "title": "KDBX4 header corruption is detected before credentials are judged", "statement": "If the SHA-256 stored after a KDBX4 header differs from the hash of the header bytes, opening raises HeaderChecksumError for every credential from which a key can be derived (an unreadable key file is reported first) and never yields a database; if opening succeeds the stored hash and the keyed header hash both match the header bytes.", "quantifier": "every KDBX4 byte string whose header parses, every credential", "why_tests_cant": "Every corruption of every header.", "anchors": ["pykeepass/kdbx_parsing/kdbx4.py:Body", "pykeepass/pykeepass.py:PyKeePass.read"]}
{"id": "C08", "title": "KDBX4 payload blocks cannot be altered, dropped, reordered, duplicated or truncated", "statement": "If only (index, block) pairs authenticated by the writer verify under the block keys, then any block sequence the reader accepts yields exactly the bytes the writer wrote; a block whose HMAC does not verify raises PayloadChecksumError.", "quantifier": "every payload of every length, every attacker-chosen byte sequence in its place", "why_tests_cant": "The adversary is unbounded: it is a statement about all byte sequences.", "anchors": ["pykeepass/kdbx_parsing/kdbx4.py:compute_payload_block_hash", "pykeepass/kdbx_parsing/kdbx4.py:EncryptedPayloadBlock", "pykeepass/kdbx_parsing/kdbx4.py:EncryptedPayload", "pykeepass/kdbx_parsing/common.py:Concatenated"]}
{"id": "C09", "title": "KDBX3 payload blocks are checked for position and content", "statement": "A KDBX3 block stream is accepted only when the i-th block carries index i and the SHA-256 of its data (zeros for the terminator); a content mismatch raises PayloadChecksumError.", "quantifier": "every decrypted KDBX3 block stream", "why_tests_cant": "All byte streams.", "anchors": ["pykeepass/kdbx_parsing/kdbx3.py:PayloadBlock", "pykeepass/kdbx_parsing/kdbx3.py:PayloadBlocks", "pykeepass/pykeepass.py:PyKeePass.read"]}
{"id": "C10", "title": "decrypt=False reads the header and never exposes the payload", "statement": "Opening with decrypt=False succeeds for every password as soon as the header parses (and, for KDBX4, its SHA-256 matches); version, cipher, KDF and salt are those of the file; asking for the tree raises ValueError; a later save() fails without touching the target file.", "quantifier": "every file with a valid header, every password", "why_tests_cant": "All files, all passwords.", "anchors": ["pykeepass/pykeepass.py:PyKeePass.payload", "pykeepass/kdbx_parsing/kdbx4.py:Body", "pykeepass/kdbx_parsing/kdbx3.py:Body", "pykeepass/pykeepass.py:PyKeePass.database_salt"]}
{"id": "C11", "title": "save() to a path is crash-safe", "statement": "At every point during save(filename) at which the process may stop, the target path holds either its complete previous content or the complete new database, provided the target is not itself named *.tmp and the system can rename. Where it cannot rename, the temporary file holds the complete new database whenever the target is incomplete.", "quantifier": "every crash point (every prefix of the bytes written), every previous file-system content, every database", "why_tests_cant": "Crash points are unbounded in number and cannot be enumerated by a unit test.", "anchors": ["pykeepass/pykeepass.py:PyKeePass.save"]}
{"id": "C12", "title": "A failing save() leaves the target and leaves no temporary file", "statement": "If building the database raises, the exception propagates, the target path keeps its content and the temporary file is gone; other files are untouched.", "quantifier": "every failure point, every file system", "why_tests_cant": "Every possible failure position.", "anchors": ["pykeepass/pykeepass.py:PyKeePass.save"]}
{"id": "C13", "title": "A failing read() does not replace the open database", "statement": "When read() raises, the previously open content is still what the object serves and what save() would write. (The object already carries the new filename and credentials: see the counterexample theorem.)", "quantifier": "every object state, every failing read", "why_tests_cant": "All failing reads in all states.", "anchors": ["pykeepass/pykeepass.py:PyKeePass.read", "pykeepass/pykeepass.py:PyKeePass.reload"]}
{"id": "C14", "title": "A cached transformed key is interchangeable with the credentials it came from", "statement": "Opening with transformed_key equal to the one derived from password and keyfile gives exactly the result of opening with password and keyfile; save(transformed_key=k) produces a file that opens with k. save() without the key of a database opened by key alone re-encrypts it under the empty credentials.", "quantifier": "every file, every credential, every key", "why_tests_cant": "All files and credentials.", "anchors": ["pykeepass/pykeepass.py:PyKeePass.transformed_key", "pykeepass/kdbx_parsing/kdbx4.py:compute_transformed", "pykeepass/kdbx_parsing/kdbx3.py:compute_transformed", "pykeepass/pykeepass.py:PyKeePass.save"]}
{"id": "C15", "title": "Key files of all supported formats yield the key they encode", "statement": "A 32-byte raw file, a 64-digit hex file, an XML 1.0 file and an XML 2.0 file with correct hash that encode the same 32 bytes all give the same composite key; any other file contributes its SHA-256; None and the empty password differ as inputs to the hash; an XML 2.0 file with a wrong hash is rejected.", "quantifier": "every key, every file content", "why_tests_cant": "All contents; the format decision has many branches.", "anchors": ["pykeepass/kdbx_parsing/common.py:compute_key_composite"]}
{"id": "C16", "title": "A seekable key-file stream can be used any number of times", "statement": "When the keyfile is a seekable stream every open and save derives the same key regardless of the stream position left by earlier use; a non-seekable stream is consumed by its first use.", "quantifier": "every stream content, every initial position, every number of uses", "why_tests_cant": "Unbounded histories of uses.", "anchors": ["pykeepass/kdbx_parsing/common.py:compute_key_composite", "pykeepass/kdbx_parsing/kdbx4.py:compute_transformed"]}
{"id": "C17", "title": "Bytes after the end of a KDBX4 database are ignored", "statement": "Appending any bytes to a KDBX4 file that opens leaves the result of opening unchanged, so saving a shorter database over a longer stream stays readable.", "quantifier": "every KDBX4 file that opens, every suffix", "why_tests_cant": "All suffixes.", "anchors": ["pykeepass/kdbx_parsing/kdbx4.py:Body", "pykeepass/pykeepass.py:PyKeePass.save"]}
{"id": "C18", "title": "create_database produces a database openable with the given credentials", "statement": "create_database(filename, password, keyfile) writes the blank database under exactly these credentials; a transformed_key argument is not honoured (it is passed as the file name).", "quantifier": "every credential, every key", "why_tests_cant": "All credentials.", "anchors": ["pykeepass/pykeepass.py:create_database", "pykeepass/pykeepass.py:PyKeePass.save"]}
{"id": "C19", "title": "Base64 text stored in the database decodes to the bytes that were encoded", "statement": "For all bytes, decoding the encoded text gives the bytes back, and a UUID or binary written through the API reads back identical.", "quantifier": "every byte string", "why_tests_cant": "All byte strings of all lengths.", "anchors": ["pykeepass/baseelement.py:BaseElement.uuid", "pykeepass/pykeepass.py:PyKeePass.add_binary", "pykeepass/pykeepass.py:PyKeePass._encode_time"]}
{"id": "C20", "title": "KDBX4 times round-trip to the second", "statement": "Writing an aware datetime to a time property of a KDBX4 element and reading it gives an instant less than one second away; whole-second datetimes come back exactly, in any time zone; only the addressed time property changes.", "quantifier": "every aware datetime whose instant is at least one second before the end of year 9999 and not before year 1, every UTC offset, every sub-second part", "why_tests_cant": "All instants; float rounding makes a handful of sub-second values round up.", "anchors": ["pykeepass/pykeepass.py:PyKeePass._encode_time", "pykeepass/pykeepass.py:PyKeePass._decode_time", "pykeepass/baseelement.py:BaseElement._set_times_property"]}
{"id": "C21", "title": "KDBX3 times round-trip for UTC datetimes", "statement": "Writing a UTC (or naive) datetime to a time property of a KDBX3 element and reading it gives the same wall-clock fields labelled UTC, microseconds included. Times written by other programs are read too: any date with hours, minutes, seconds, milliseconds or microseconds, with T or a space, with Z or no zone; parts not written are zero. (For other offsets the offset is dropped on reading: counterexample theorem.)", "quantifier": "every valid datetime", "why_tests_cant": "All datetimes.", "anchors": ["pykeepass/pykeepass.py:PyKeePass._encode_time", "pykeepass/pykeepass.py:PyKeePass._decode_time"]}
{"id": "C22", "title": "Twofish decryption inverts encryption", "statement": "For every key of 16, 24 or 32 bytes and every data whose length is a multiple of 16, decrypting the encryption returns the data; other key sizes raise.", "quantifier": "every key, every block", "why_tests_cant": "2^256 keys and 2^128 blocks.", "anchors": ["pykeepass/kdbx_parsing/pytwofish.py:encrypt", "pykeepass/kdbx_parsing/pytwofish.py:decrypt", "pykeepass/kdbx_parsing/pytwofish.py:set_key", "pykeepass/kdbx_parsing/pytwofish.py:Twofish"]}
{"id": "C23", "title": "Twofish-CBC is independent of how data is chunked", "statement": "Feeding data to the CBC cipher in any sequence of chunks outputs the same bytes as feeding it at once (complete blocks only, the rest is kept), and decryption inverts encryption for any chunking on both sides. A cipher object can be made for CBC only, and calling final on it at any time changes and returns nothing.", "quantifier": "every key, IV, data and every pair of chunkings; every mode; every sequence of uses of an object", "why_tests_cant": "All chunkings of all data.", "anchors": ["pykeepass/kdbx_parsing/twofish.py:CBC.update", "pykeepass/kdbx_parsing/twofish.py:BlockCipher"]}
{"id": "C24", "title": "Payload padding and block splitting are inverted by the reader", "statement": "Padding then unpadding any payload returns it; splitting any payload into 1 MiB blocks plus terminator and concatenating returns it; every block but the last is exactly 1 MiB and none before the terminator is empty.", "quantifier": "every payload of every length", "why_tests_cant": "All lengths, in particular multiples of 16 and of 2^20.", "anchors": ["pykeepass/kdbx_parsing/common.py:AES256Payload", "pykeepass/kdbx_parsing/common.py:Concatenated"]}
{"id": "C25", "title": "Protected values stay synchronised with the inner stream", "statement": "Unprotecting a protected tree returns the tree: each protected value is decrypted with the same key-stream segment it was encrypted with, whatever values (empty, multi-byte) are in between; elements not marked Protected are written and read unchanged.", "quantifier": "every tree, every key stream", "why_tests_cant": "A desynchronisation shows only for particular sequences of values.", "anchors": ["pykeepass/kdbx_parsing/common.py:UnprotectedStream", "pykeepass/kdbx_parsing/common.py:Salsa20Stream", "pykeepass/kdbx_parsing/common.py:ChaCha20Stream"]}
{"id": "C26", "title": "The inner header keeps binaries in order", "statement": "Reading an inner header, then writing and reading it again gives the same stream id, key and the same binaries in the same order, wherever binaries were interleaved in the file.", "quantifier": "every well-formed inner header", "why_tests_cant": "All interleavings.", "anchors": ["pykeepass/kdbx_parsing/kdbx4.py:InnerHeader", "pykeepass/kdbx_parsing/common.py:DynamicDict"]}
{"id": "C27", "title": "Header records parse to the fields that were encoded", "statement": "Every outer header laid out as the KDBX3/KDBX4 format prescribes (any order of fields, any KDF parameter dictionary) parses to exactly these fields and the parser consumes exactly the header.", "quantifier": "every field list, every variant dictionary", "why_tests_cant": "All field lists.", "anchors": ["pykeepass/kdbx_parsing/kdbx4.py:DynamicHeader", "pykeepass/kdbx_parsing/kdbx4.py:VariantDictionary", "pykeepass/kdbx_parsing/kdbx3.py:DynamicHeader"]}
{"id": "C28", "title": "find_entries returns exactly the matching entries", "statement": "find_entries with any combination of title, username, password, url, notes, otp, uuid, tags, string, autotype filters returns, in document order and without duplicates, exactly the entries outside history whose fields match all filters (exact match), provided no filter value contains a double quote or a character that XML does not allow.", "quantifier": "every database tree, every filter combination and order, every quote-free value", "why_tests_cant": "All trees and all filter values.", "anchors": ["pykeepass/pykeepass.py:PyKeePass.find_entries", "pykeepass/pykeepass.py:PyKeePass._find", "pykeepass/xpath.py:entry_xp"]}
{"id": "C29", "title": "find_groups returns exactly the matching groups", "statement": "find_groups with any combination of name, uuid, notes returns, in document order and without duplicates, exactly the groups that match all filters.", "quantifier": "every tree, every filter combination, every quote-free value", "why_tests_cant": "All trees and values.", "anchors": ["pykeepass/pykeepass.py:PyKeePass.find_groups", "pykeepass/xpath.py:group_xp"]}
{"id": "C30", "title": "Searching by path follows group names from the root", "statement": "find_groups(path=p) / find_entries(path=p) return the first element in document order reached from the root group by following the names in p (and the title last), or None when there is none; all other filters are ignored.", "quantifier": "every tree, every path of any length", "why_tests_cant": "All trees and paths.", "anchors": ["pykeepass/pykeepass.py:PyKeePass._find", "pykeepass/xpath.py:path_xp"]}
{"id": "C31", "title": "group= and recursive= delimit the search", "statement": "With group=g the result is exactly the matching elements strictly below g (recursive) or the direct children of g (non-recursive); without group, a non-recursive search finds nothing.", "quantifier": "every tree, group and filter", "why_tests_cant": "All trees.", "anchors": ["pykeepass/pykeepass.py:PyKeePass.find_entries", "pykeepass/pykeepass.py:PyKeePass.find_groups"]}
{"id": "C32", "title": "History entries are hidden unless requested", "statement": "Without history=True no element below a History element is ever returned by find_entries, find_attachments, entries or attachments; with history=True exactly the history elements that match are added.", "quantifier": "every tree and filter", "why_tests_cant": "All trees.", "anchors": ["pykeepass/pykeepass.py:PyKeePass._find"]}
{"id": "C33", "title": "first=True is the head of the full result", "statement": "For the same arguments, first=True returns the first element of the list returned with first=False, or None if that list is empty.", "quantifier": "every tree and arguments", "why_tests_cant": "All trees and arguments.", "anchors": ["pykeepass/pykeepass.py:PyKeePass.xpath"]}
{"id": "C34", "title": "Search values are treated as data", "statement": "A search value or custom key without double quote can never change which elements are examined. A value containing a double quote is not data: it makes the search fail or match other elements (counterexample theorems). A value with a character that XML does not allow makes the search raise ValueError.", "quantifier": "every quote-free string as value", "why_tests_cant": "All strings.", "anchors": ["pykeepass/pykeepass.py:PyKeePass._find", "pykeepass/entry.py:Entry._get_string_field"]}
{"id": "C35", "title": "Reading a string field returns the value last set", "statement": "After setting title, username, password, url, notes, otp or a custom property of an entry with unique field keys, reading it returns the value set, every other field reads as before, and the rest of the database is unchanged.", "quantifier": "every entry, every sequence of sets, every value", "why_tests_cant": "All histories of sets.", "anchors": ["pykeepass/entry.py:Entry._set_string_field", "pykeepass/entry.py:Entry._get_string_field"]}
{"id": "C36", "title": "Protection flags survive value changes", "statement": "Setting a field keeps its Protected marking; a password or otp set on an entry that has none is created protected; set_custom_property sets the marking given. Fields never changed keep theirs.", "quantifier": "every entry and every sequence of sets", "why_tests_cant": "All histories.", "anchors": ["pykeepass/entry.py:Entry._set_string_field", "pykeepass/entry.py:Entry._is_property_protected", "pykeepass/entry.py:Entry.password"]}
{"id": "C37", "title": "Custom properties behave like a dictionary", "statement": "Any sequence of set/get/delete_custom_property behaves like a finite map: get returns the last value set and not deleted, deleting an absent key raises, reserved keys are rejected and never listed, and standard fields are unaffected.", "quantifier": "every sequence of operations", "why_tests_cant": "All operation sequences.", "anchors": ["pykeepass/entry.py:Entry.set_custom_property", "pykeepass/entry.py:Entry.delete_custom_property", "pykeepass/entry.py:Entry.custom_properties"]}
{"id": "C38", "title": "Tags round-trip", "statement": "Setting tags to a list of tags none of which contains a comma or semicolon, not just one empty tag, and reading them returns the list; searching by tags never misses an entry carrying all of them.", "quantifier": "every list of tags", "why_tests_cant": "All lists.", "anchors": ["pykeepass/entry.py:Entry.tags", "pykeepass/pykeepass.py:PyKeePass._find"]}
{"id": "C39", "title": "add_entry creates the entry that was asked for", "statement": "A successful add_entry adds exactly one entry, last in the destination group, whose fields read back as given and which is found by find_entries; everything else is unchanged. An expiry time in any time zone (a naive one in that of the system) reads back as the same moment in UTC, exactly in KDBX3 and to the second in KDBX4.", "quantifier": "every database, group and field values", "why_tests_cant": "All states.", "anchors": ["pykeepass/pykeepass.py:PyKeePass.add_entry", "pykeepass/entry.py:Entry.__init__"]}
{"id": "C40", "title": "add_entry refuses duplicates", "statement": "Without force_creation, add_entry raises and changes nothing iff the destination group directly contains an entry with the same title and username; any sequence of such additions keeps (title, username) pairs distinct in every group.", "quantifier": "every sequence of additions", "why_tests_cant": "All sequences.", "anchors": ["pykeepass/pykeepass.py:PyKeePass.add_entry"]}
{"id": "C41", "title": "Deleting removes exactly the subtree", "statement": "delete_entry / delete_group remove the element and everything below it and nothing else; the order of the rest is kept; the deleted element remains intact for its holder and can be re-attached.", "quantifier": "every database and element", "why_tests_cant": "All states.", "anchors": ["pykeepass/baseelement.py:BaseElement.delete", "pykeepass/pykeepass.py:PyKeePass.delete_group"]}
{"id": "C42", "title": "Moving relocates without loss", "statement": "move_entry / move_group put the element last in the destination with its content intact, remove it from where it was and change nothing else; the set of entries and groups of the database is preserved; moving a group into itself or below itself is refused and changes nothing.", "quantifier": "every database, element and destination", "why_tests_cant": "All states.", "anchors": ["pykeepass/pykeepass.py:PyKeePass.move_group", "pykeepass/group.py:Group.append"]}
{"id": "C43", "title": "Trashing moves to one recycle bin", "statement": "trash_entry / trash_group move the element into the recycle bin group, creating it at most once over any history; the root group and the bin itself are refused with no change; no entry or group is lost.", "quantifier": "every history of trash operations", "why_tests_cant": "All histories.", "anchors": ["pykeepass/pykeepass.py:PyKeePass.trash_entry", "pykeepass/pykeepass.py:PyKeePass.trash_group", "pykeepass/pykeepass.py:PyKeePass._create_or_get_recyclebin_group", "pykeepass/pykeepass.py:PyKeePass._can_be_moved_to_recyclebin"]}
{"id": "C44", "title": "empty_group terminates and empties exactly the group", "statement": "empty_group terminates for every group, leaves it without entries and subgroups, keeps its name, notes and other children and leaves the rest of the database unchanged.", "quantifier": "every group of any size", "why_tests_cant": "Unbounded sizes; termination.", "anchors": ["pykeepass/pykeepass.py:PyKeePass.empty_group"]}
{"id": "C45", "title": "History snapshots are faithful and frozen", "statement": "save_history appends one snapshot equal to the entry without its history; no later change to the entry alters earlier snapshots; snapshots never contain snapshots.", "quantifier": "every entry and every sequence of edits", "why_tests_cant": "All edit sequences.", "anchors": ["pykeepass/entry.py:Entry.save_history", "pykeepass/entry.py:Entry.history"]}
{"id": "C46", "title": "delete_history removes the chosen snapshots only", "statement": "delete_history(h) removes exactly snapshot h, delete_history(all=True) removes all; current fields are unchanged.", "quantifier": "every entry with history", "why_tests_cant": "All states.", "anchors": ["pykeepass/entry.py:Entry.delete_history"]}
{"id": "C47", "title": "add_binary gives a stable, dense id", "statement": "add_binary returns the number of binaries before the call; binaries[id] is the data given; ids and data of earlier binaries are unchanged (KDBX4, and KDBX3 with ordered ids).", "quantifier": "every database and data", "why_tests_cant": "All states, data.", "anchors": ["pykeepass/pykeepass.py:PyKeePass.add_binary", "pykeepass/pykeepass.py:PyKeePass.binaries"]}
{"id": "C48", "title": "delete_binary keeps remaining attachments pointing at their data", "statement": "After delete_binary(i) with 0 <= i < n, attachments of current entries that referred to i are gone and every other attachment of a current entry still yields the bytes it yielded before; an id >= n raises BinaryError and changes nothing. (History attachments and negative ids violate this: counterexample theorems.)", "quantifier": "every database, every set of attachments, every id", "why_tests_cant": "All states.", "anchors": ["pykeepass/pykeepass.py:PyKeePass.delete_binary", "pykeepass/attachment.py:Attachment.binary"]}
{"id": "C49", "title": "Attachments yield the binary they refer to", "statement": "entry.add_attachment(id, name) adds one attachment with that id and name whose data is binaries[id], or BinaryError if there is none; deleting the attachment removes only the reference.", "quantifier": "every state, id and name", "why_tests_cant": "All states.", "anchors": ["pykeepass/entry.py:Entry.add_attachment", "pykeepass/attachment.py:Attachment"]}
{"id": "C50", "title": "path names the element", "statement": "For an element of the database all of whose ancestors are named, path is the list of ancestor names below the root followed by its own name; find by this path returns an element with the same path, and the element itself when sibling names are unique.", "quantifier": "every tree and element", "why_tests_cant": "All depths.", "anchors": ["pykeepass/entry.py:Entry.path", "pykeepass/group.py:Group.path"]}
{"id": "C51", "title": "reindex moves an entry to the position asked for", "statement": "In a group whose entries are contiguous, e.reindex(i) for 0 <= i < n makes e.index == i, keeps the relative order of the other entries and changes nothing else. In any group and for any number, positive or negative, no child of the group is lost, the others keep their order and nothing else changes; negative numbers do not count from the last entry.", "quantifier": "every group, arrangement of its children and number", "why_tests_cant": "All sizes, positions.", "anchors": ["pykeepass/entry.py:Entry.reindex", "pykeepass/entry.py:Entry.index", "pykeepass/group.py:Group._first_entry"]}
{"id": "C52", "title": "Element structure is preserved by every API history", "statement": "After any sequence of API operations, including ones that raise, every element has at most one parent, occurs once, nothing is below itself, and the document keeps its root element, Meta and Root; it keeps its root group unless the caller deletes or moves that very group.", "quantifier": "every sequence of operations from every well-formed state", "why_tests_cant": "All histories.", "anchors": ["pykeepass/group.py:Group.append", "pykeepass/baseelement.py:BaseElement.delete", "pykeepass/entry.py:Entry.reindex"]}
{"id": "C53", "title": "Identity of entries and groups", "statement": "Equality of Entry/Group objects is equality of uuid, up to collisions of Python hashes (uuids congruent modulo 2^61-1 collide); history entries additionally compare modification time; a uuid set reads back; no other call changes a uuid; elements created by the API in one database have pairwise different uuids when the uuid source does not repeat.", "quantifier": "every state", "why_tests_cant": "All states.", "anchors": ["pykeepass/baseelement.py:BaseElement.__eq__", "pykeepass/baseelement.py:BaseElement.uuid", "pykeepass/entry.py:HistoryEntry.__hash__"]}
{"id": "C54", "title": "References resolve to the referenced field", "statement": "deref(e.ref(field)) is deref(e.field) for a current entry with a unique uuid and a text in that field; a string without references is returned unchanged; an unresolvable reference among resolvable ones gives None; on acyclic references that are not written inside one another deref terminates and its result does not depend on the order in which the set of references is processed.", "quantifier": "every database, string and set iteration order", "why_tests_cant": "All iteration orders (hash seeds) and all reference graphs.", "anchors": ["pykeepass/pykeepass.py:PyKeePass.deref", "pykeepass/entry.py:Entry.ref"]}
{"id": "C55", "title": "Expiry decisions follow the stored dates", "statement": "expired is true iff expires is set and the expiry time is strictly before now; credchange_required / recommended are true iff more than the configured number of whole days have passed since the last change, and false when the setting is -1. A date that cannot be read raises in both cases; an empty one TypeError in KDBX4 and AttributeError in KDBX3.", "quantifier": "every date, setting and clock value", "why_tests_cant": "All instants and settings.", "anchors": ["pykeepass/baseelement.py:BaseElement.expired", "pykeepass/pykeepass.py:PyKeePass.credchange_required"]}
{"id": "C56", "title": "touch and time setters change only the addressed times", "statement": "touch() sets access time to now and leaves everything else; touch(modify=True) additionally sets modification time; setting one time property leaves the others.", "quantifier": "every element and clock", "why_tests_cant": "All states.", "anchors": ["pykeepass/baseelement.py:BaseElement.touch", "pykeepass/baseelement.py:BaseElement._set_times_property"]}
{"id": "C57", "title": "A regular-expression search refines by the pattern only", "statement": "With regex=True the result is exactly the elements whose field text matches the pattern according to the regular-expression engine, for every engine behaviour; only the i flag influences the engine. A uuid is searched by using its base64 text as a pattern, so that with regex=True a uuid with a + in it need not find its own entry.", "quantifier": "every tree, pattern, flags and matching function", "why_tests_cant": "All patterns; engine abstract.", "anchors": ["pykeepass/pykeepass.py:PyKeePass._find", "pykeepass/xpath.py:entry_xp"]}
{"id": "C58", "title": "Reported algorithms and version match the header", "statement": "version, encryption_algorithm, kdf_algorithm and database_salt report what the header says; kdf_algorithm is one of the three names for versions 3.1 and 4.0 with a known KDF and None otherwise.", "quantifier": "every parsed header", "why_tests_cant": "All headers.", "anchors": ["pykeepass/pykeepass.py:PyKeePass.kdf_algorithm", "pykeepass/pykeepass.py:PyKeePass.version", "pykeepass/pykeepass.py:PyKeePass.encryption_algorithm", "pykeepass/pykeepass.py:PyKeePass.database_salt"]}
{"id": "C59", "title": "Database metadata setters", "statement": "Setting database_name, database_description, default_username or the credential-change days makes them read back as set and changes nothing else; changing password or keyfile sets the change date to now.", "quantifier": "every state and value", "why_tests_cant": "All states.", "anchors": ["pykeepass/pykeepass.py:PyKeePass.database_name", "pykeepass/pykeepass.py:PyKeePass.password"]}
{"id": "C60", "title": "Twofish implementation equals the Twofish specification", "statement": "The table-driven key schedule and round function compute the Twofish cipher as published (q-permutations, MDS and RS matrices over GF(256), PHT, whitening) for every key and block.", "quantifier": "every 128/192/256-bit key and every block", "why_tests_cant": "Two test vectors cover two points.", "anchors": ["pykeepass/kdbx_parsing/pytwofish.py:gen_mtab", "pykeepass/kdbx_parsing/pytwofish.py:gen_mk_tab", "pykeepass/kdbx_parsing/pytwofish.py:h_fun", "pykeepass/kdbx_parsing/pytwofish.py:mds_rem", "pykeepass/kdbx_parsing/pytwofish.py:set_key", "pykeepass/kdbx_parsing/pytwofish.py:encrypt"]}
{"id": "C61", "title": "Files are read and written as the KDBX format prescribes", "statement": "Every file laid out as the format documentation prescribes for a password and key file is opened with them and shows the header, binaries and revealed tree the file encodes; saving an edited database under any credentials writes a file laid out as prescribed for these, with the same settings, the binaries in order and the protected values hidden.", "quantifier": "every file of versions 3 and 4, all three ciphers, all three key derivation functions, both inner streams, compressed or not", "why_tests_cant": "A round-trip test passes even when reader and writer share a mistake, and other programs could not read the file.", "anchors": ["pykeepass/kdbx_parsing/kdbx4.py:DynamicHeader", "pykeepass/kdbx_parsing/kdbx4.py:Body", "pykeepass/kdbx_parsing/kdbx3.py:Body", "pykeepass/kdbx_parsing/common.py:compute_key_composite", "pykeepass/kdbx_parsing/common.py:Unprotect"]}
{"id": "C62", "title": "Databases in streams", "statement": "Saving to a stream writes exactly the new database at the position of the stream, leaves the bytes before it and behind it, and touches no file; opening from that position shows what was saved. Saving without argument a database that was opened from a stream puts the new one behind the old one, and opening from the old position shows the old one. Saving elsewhere leaves file name, password and content of the object as they are, and reload opens the file the object was opened from with the credentials it has.", "quantifier": "every stream, position, database and edit", "why_tests_cant": "Depends on position and content of the stream; tests use fresh streams.", "anchors": ["pykeepass/pykeepass.py:PyKeePass.save", "pykeepass/pykeepass.py:PyKeePass.read", "pykeepass/pykeepass.py:PyKeePass.reload"]}
{"id": "C63", "title": "add_group adds exactly the group asked for", "statement": "add_group returns the one new group: last in the destination, with the name, notes and icon asked for, a new uuid and the current times, empty; every other element is unchanged, and a search by name finds what it found before plus the new group if the name fits. A call that raises changes no element; without a name it raises.", "quantifier": "every database, destination, name, icon and notes", "why_tests_cant": "Tests check one group on one database and do not look at the rest of the tree.", "anchors": ["pykeepass/pykeepass.py:PyKeePass.add_group", "pykeepass/group.py:Group.__init__", "pykeepass/baseelement.py:BaseElement.__init__"]}
{"id": "C64", "title": "Whatever methods are called, the database can be saved and read back", "statement": "Open a file, call any documented methods in any order with any arguments (also such that raise half-way), save under any credentials, open again: the tree is the one the calls made (empty texts as None), the binaries are the same, and the result is again such that this holds for the next session.", "quantifier": "every file, every sequence of calls, every argument", "why_tests_cant": "Sequences of calls are unbounded, and a call that raises leaves a state no test looks at.", "anchors": ["pykeepass/pykeepass.py:PyKeePass.save", "pykeepass/pykeepass.py:PyKeePass.read", "pykeepass/baseelement.py:BaseElement._set_subelement_text", "pykeepass/entry.py:Entry._set_string_field"]}
{"id": "C65", "title": "The older search functions return exactly what they name", "statement": "find_entries_by_title/username/password/url/notes/uuid/string/path and find_groups_by_name/notes/uuid/path return, in document order, exactly the entries or groups whose value at that place passes the comparison, within the group and history asked for; with first, the first one; None as value means all. Finding: a text given as path is read as a list of characters.", "quantifier": "every database, value, flags and options", "why_tests_cant": "Twelve near-identical wrappers; one with a swapped keyword passes any test that does not use that function with that option.", "anchors": ["pykeepass/deprecated.py:find_entries_by_title", "pykeepass/deprecated.py:find_groups_by_path", "pykeepass/pykeepass.py:PyKeePass._find"]}
{"id": "C66", "title": "What is printed for entries, groups and attachments", "statement": "str() of a group, entry or history entry is its path and username in the documented form, of an attachment its file name and id; printing changes nothing; groups that print the same have the same path if no name has a slash. Finding: entries and groups that were deleted cannot be printed, and a deleted attachment cannot be asked for its entry (TypeError).", "quantifier": "every database and element", "why_tests_cant": "Depends on the position of the element in the tree, on missing names and on deleted parents.", "anchors": ["pykeepass/entry.py:Entry.__str__", "pykeepass/entry.py:HistoryEntry.__str__", "pykeepass/group.py:Group.__str__", "pykeepass/attachment.py:Attachment.__repr__"]}
{"id": "C67", "title": "Attributes read back, and are independent of each other", "statement": "For every attribute of entries and groups (uuid, icon, name, notes, the standard and custom string fields, tags, the times, expires, the auto-type settings): reading gives the meaning of the text the format keeps at that place; assigning writes that place and reads back the value; assigning, whether it succeeds or raises, leaves every other attribute of the element and every attribute of all others as they were. Finding: assigning None to an icon, or to the name or notes of a group, raises and loses the old value.", "quantifier": "every database, element, pair of attributes and value", "why_tests_cant": "Tests set one attribute and read that one; there are hundreds of pairs, and the damage a failing assignment does is not looked at.", "anchors": ["pykeepass/baseelement.py:BaseElement._set_subelement_text", "pykeepass/baseelement.py:BaseElement._set_times_property", "pykeepass/baseelement.py:BaseElement.expires", "pykeepass/entry.py:Entry._set_string_field", "pykeepass/entry.py:Entry.autotype_enabled", "pykeepass/entry.py:Entry.tags", "pykeepass/group.py:Group.name"]}
{"id": "C68", "title": "Lists of groups and entries are complete, and the links between them agree", "statement": "Whatever methods were called: every entry, group, history, field and attachment is inside an element that may hold it; PyKeePass.groups lists every group below Root once, and these are exactly the root groups, their subgroups, and so on; PyKeePass.entries lists exactly, and once each, what these groups list as their entries; the group of a listed entry lists it and no other group does, the same for parentgroup and subgroups; exactly the root groups have no parentgroup, and is_root_group says so; items of a history are history entries, are not listed, and have the group of their entry.", "quantifier": "every database whose elements are where they may be when it is opened, every sequence of method calls", "why_tests_cant": "The lists come from searches over the whole document, the links from walking up from one element; that they agree after arbitrary moves, deletions and snapshots is an invariant over all sequences of calls.", "anchors": ["pykeepass/pykeepass.py:PyKeePass.groups", "pykeepass/pykeepass.py:PyKeePass.entries", "pykeepass/group.py:Group.entries", "pykeepass/group.py:Group.subgroups", "pykeepass/group.py:Group.is_root_group", "pykeepass/baseelement.py:BaseElement.group", "pykeepass/entry.py:Entry.is_a_history_entry"]}
{"id": "C69", "title": "The file of a database in use is always the database as last saved", "statement": "Open a database from a path, or create one with create_database, and do anything with the object, in any order and whether it works or raises: call methods, change password and key file, save to this or other places, reload. At every moment, also in the middle of a save, the file opens with the credentials the object had when it was last saved without error and shows the tree and binaries it then had (or, in the middle of a save, those of the save in progress). reload brings this state back. A changed password is the password of the file once saved, and credentials giving another keyed hash, such as the former ones, are refused.", "quantifier": "every database, every sequence of acts, every failure of the operating system other than that of rename, every point of interruption", "why_tests_cant": "The claim is about all interleavings of edits, credential changes, failing and completed saves and crashes; tests run a few of them.", "anchors": ["pykeepass/pykeepass.py:PyKeePass.read", "pykeepass/pykeepass.py:PyKeePass.reload", "pykeepass/pykeepass.py:PyKeePass.save", "pykeepass/pykeepass.py:PyKeePass.password", "pykeepass/pykeepass.py:PyKeePass.keyfile"]}
{"id": "C70", "title": "A database opened and saved without a change is the same file, bit by bit", "statement": "If no text in the tree is empty, what save writes is exactly what opening that file and saving it again writes, under the same credentials, for both formats, all ciphers and whatever was done before; the path holds the same bytes at every moment of that save. Saving under other credentials and back gives the former bytes. With empty texts, which are read back as None, this holds from the second save on, but not at once.", "quantifier": "every database, every sequence of calls before, every credentials, every failure of the operating system other than that of rename", "why_tests_cant": "The claim is the equality of all bytes for all databases; a test compares a few files.", "anchors": ["pykeepass/pykeepass.py:PyKeePass.save", "pykeepass/kdbx_parsing/kdbx.py:KDBX", "pykeepass/kdbx_parsing/common.py:UnprotectedStream", "pykeepass/kdbx_parsing/common.py:XML"]}
{"id": "C71", "title": "The library behaves as a machine on cards: every call of a sequence does what that machine does", "statement": "Take an entry or group as a card with texts, times, string fields, attachments, a history and lists of other cards. Setting any of these, adding, deleting and moving entries and groups, adding, renaming and removing attachments, emptying a group, saving, removing and clearing history change exactly the cards the machine says and no others, raise exactly the exceptions it says, and ask the clock and the uuid source exactly as often. Every getter is a function of the card, groups and entries list exactly what is below the root. So a sequence of calls of any length can be understood without knowing about XML. Databases read from a well-formed tree are in such a state, and stay in one.", "quantifier": "every well-formed database, every sequence of the twenty-six modelled operations with any arguments of the right kind, every clock and uuid source", "why_tests_cant": "The claim is about the interplay of all calls in any order; the tests check calls one by one on a few databases.", "anchors": ["pykeepass/entry.py:Entry", "pykeepass/group.py:Group", "pykeepass/baseelement.py:BaseElement", "pykeepass/pykeepass.py:PyKeePass.add_entry", "pykeepass/pykeepass.py:PyKeePass.add_group", "pykeepass/pykeepass.py:PyKeePass.move_group", "pykeepass/pykeepass.py:PyKeePass.delete_entry"]}
{"id": "C72", "title": "A database is opened only if everything it is opened with is in the file", "statement": "No part of a header has a default: if opening succeeds, cipher, compression, master seed, IV and, depending on the version, start bytes, inner stream id and key, transform seed and rounds or KDF parameters are all there. If one is missing the exception is AttributeError or KeyError, depending only on which one is the first that is asked for, and never one of those that tell about credentials or damage. The transform seed and rounds of KDBX3 are not needed if the transformed key is given, the KDF parameters of KDBX4 are.", "quantifier": "every file, all credentials, all ciphers, both formats", "why_tests_cant": "The claim is about every header that can be written, with any subset of fields; the tests open complete files only.", "anchors": ["pykeepass/kdbx_parsing/kdbx3.py:Body", "pykeepass/kdbx_parsing/kdbx4.py:Body", "pykeepass/kdbx_parsing/kdbx4.py:compute_transformed", "pykeepass/kdbx_parsing/kdbx3.py:compute_transformed", "pykeepass/kdbx_parsing/common.py:compute_master", "pykeepass/pykeepass.py:PyKeePass.read"]}
{"id": "C73", "title": "A search finds exactly the cards that satisfy it", "statement": "find_entries looks at the entries of the groups of the database, or of the given group and those below it, or with recursive=False of the given group only; with history=True also at what these entries were before, however often. find_groups likewise. Of these the result contains, once each and in the order of the document, exactly those whose own fields, tags, uuid and custom strings satisfy all arguments, and first=True gives the first of them or None. A path follows group names from the top, the last name of an entry path is a title. recursive=False without a group finds nothing. find_attachments finds exactly the attachments of the entries in the groups of the database, or of the given group and those below it, or of the given entry, whose name and number satisfy all arguments, with history=True also those of earlier states; the stored data of KDBX3 databases are never among them. attachments is the list of all of them that have a name. Deleted entries and groups are never found unless the search starts in one.", "quantifier": "every well-formed database, every combination of arguments without double quotes, exact or with any regular expression engine (patterns that also fit an absent text only where absent and empty are not confused)", "why_tests_cant": "The claim relates all searches to what the user sees on entries and groups, for every database a sequence of calls can lead to; the tests search one file.", "anchors": ["pykeepass/pykeepass.py:PyKeePass._find", "pykeepass/pykeepass.py:PyKeePass.find_entries", "pykeepass/pykeepass.py:PyKeePass.find_groups", "pykeepass/pykeepass.py:PyKeePass.find_attachments", "pykeepass/pykeepass.py:PyKeePass.attachments", "pykeepass/xpath.py:entry_xp", "pykeepass/xpath.py:group_xp", "pykeepass/xpath.py:attachment_xp", "pykeepass/xpath.py:path_xp"]}
{"id": "C74", "title": "What is on the cards is in the file", "statement": "When a database is opened, changed by any operations, saved and opened again, under the same or other credentials, the file opens and holds exactly the entries and groups the operations led to: one for each that was in the database, with the same title, user name, password and other fields, protection marks, tags, icon, uuid, times, attachments and auto-type settings, the same history, and the same entries and groups below it in the same order; what was deleted is gone. The only difference is that an empty text is read back as None. This can be repeated for any number of sessions. A field with the empty key is the exception: after reopening it cannot be asked for by its key.", "quantifier": "every lawful set of primitives, every KDBX3 or KDBX4 file with a well-formed tree, every list of operations, all credentials, any number of sessions", "why_tests_cant": "It composes arbitrary sequences of calls with the whole file format, over any number of sessions; a test runs one sequence on one file and compares a few fields.", "anchors": ["pykeepass/pykeepass.py:PyKeePass.read", "pykeepass/pykeepass.py:PyKeePass.save", "pykeepass/kdbx_parsing/kdbx4.py:Body", "pykeepass/kdbx_parsing/kdbx3.py:Body", "pykeepass/kdbx_parsing/common.py:XML", "pykeepass/entry.py:Entry", "pykeepass/group.py:Group"]}
{"id": "C75", "title": "Settings, attached data and credentials beside the cards", "statement": "Next to the entries and groups a database is a desk: the texts of its settings, the data of its attachments, the password and the key file. Every sequence of calls, on entries and groups (C71) and on the database itself (name, description, default user name, date and days for changing credentials, password, key file, adding data), gives the results and leads to the state that the machine on offices gives: a setting that is not in the document is refused with AttributeError, a text XML does not allow with ValueError, both without any change; a new password is kept even if its date cannot be written; adding data puts it behind the others and returns the last position. Operations on entries and groups change nothing on the desk, operations on the desk change no entry or group and nothing they are not for. What the properties of the database return, and the data an attachment yields, are functions of this state.", "quantifier": "every sound database state, KDBX3 and KDBX4, every list of operations of both kinds with all arguments, any length", "why_tests_cant": "Independence of all settings, data and entries over arbitrary interleavings of calls is a statement about every pair of operations and every state; tests look at a few values after single calls.", "anchors": ["pykeepass/pykeepass.py:PyKeePass.database_name", "pykeepass/pykeepass.py:PyKeePass.password", "pykeepass/pykeepass.py:PyKeePass.credchange_date", "pykeepass/pykeepass.py:PyKeePass.add_binary", "pykeepass/pykeepass.py:PyKeePass.binaries", "pykeepass/attachment.py:Attachment.binary"]}
{"id": "C76", "title": "Settings and attached data through files, over any number of sessions", "statement": "Open a file, make any calls on entries, groups and the database itself, save under any credentials, open the file again, and so on any number of times. Every file that is saved opens again with the credentials it was saved with, and what is then there is what the machine on offices holds: besides the entries and groups (C74) every setting with its text, the data of all attachments in their order, the version and the header; only empty texts are read as none. An attachment at the same position of the same entry has the same name and yields the same data as before the file was written, unless an empty text was stored as compressed data, which the library itself never stores.", "quantifier": "every file that opens with a sound content, KDBX3 and KDBX4, every cipher and compression, every list of sessions, every list of operations of both kinds, every credentials, all primitives with the stated laws", "why_tests_cant": "The statement composes reading, editing, encryption and writing over sessions of any length and any mixture of calls; a test follows one file through one session.", "anchors": ["pykeepass/pykeepass.py:PyKeePass.save", "pykeepass/pykeepass.py:PyKeePass.read", "pykeepass/pykeepass.py:PyKeePass.binaries", "pykeepass/pykeepass.py:PyKeePass.add_binary", "pykeepass/attachment.py:Attachment.binary", "pykeepass/kdbx_parsing/kdbx.py:KDBX"]}
{"id": "C77", "title": "Every method that changes a database works on cards and desk as an abstract machine says", "statement": "The state of a database is abstracted to an office: a card for every entry and group, and a desk with settings, data and credentials. Every method that changes a database or asks the clock - those of C71 and C75, and expired, credchange_required and credchange_recommended, Group.append with a list, Entry.reindex, trash_entry and trash_group, delete_binary - gives the result or exception that the machine on offices says and leaves the office the machine says, so sequences of calls of all these methods in any order refine sequences of steps of the machine. Trashing refuses the root group and the bin, makes a bin at the end of the root group if no group has the uuid the settings name, and moves the element there; deleting data removes the attachments of listed entries that refer to it and renumbers those of entries and histories that refer to later data. What delete_binary relies on - an attachment has one name and one number, lists of data contain only data - is kept by every sequence of calls. Refused calls (C82) are steps of the machine like any other.", "quantifier": "all sound databases, all methods and arguments the office knows, all sequences of calls, whether or not they raise", "why_tests_cant": "A sequence of calls of forty methods has no end of orders; tests call each method a few times on one file.", "anchors": ["pykeepass/pykeepass.py:PyKeePass.delete_binary", "pykeepass/pykeepass.py:PyKeePass.trash_entry", "pykeepass/pykeepass.py:PyKeePass.trash_group", "pykeepass/pykeepass.py:PyKeePass.credchange_required", "pykeepass/baseelement.py:BaseElement.expired", "pykeepass/entry.py:Entry.reindex", "pykeepass/group.py:Group.append"]}
{"id": "C78", "title": "Every method, through files, over any number of sessions", "statement": "A file is opened, any of the methods of C77 are called in any order, the database is saved under any credentials and opened again, any number of times. Every file is opened again, and what all calls gave and all states in between are what the machine on offices gives and holds, where reading back changes nothing but empty texts.", "quantifier": "all lawful primitives, all files that open as sound databases, all sequences of calls, all sequences of sessions", "why_tests_cant": "Neither the calls nor the number of sessions are bounded; a defect that appears only after the third save of a database with deleted data is out of reach of tests.", "anchors": ["pykeepass/pykeepass.py:PyKeePass.read", "pykeepass/pykeepass.py:PyKeePass.save", "pykeepass/pykeepass.py:PyKeePass.delete_binary", "pykeepass/pykeepass.py:PyKeePass.trash_entry"]}
{"id": "C79", "title": "Files of a major version other than 3 and 4", "statement": "A file with the KeePass signature whose major version is neither 3 nor 4 is not refused: it opens with any password, key file or transformed key, whatever follows the version. Of such a database the version can be read, encryption_algorithm, database_salt, payload and tree raise AttributeError and kdf_algorithm is None. Saving it returns normally and leaves of the file only its first twelve bytes.", "quantifier": "every minor and major version, every content, all credentials, every state of the file system", "why_tests_cant": "No such file is among the test data, and the claim is about every version number and every content.", "anchors": ["pykeepass/kdbx_parsing/kdbx.py:KDBX", "pykeepass/pykeepass.py:PyKeePass.read", "pykeepass/pykeepass.py:PyKeePass.save", "pykeepass/pykeepass.py:PyKeePass.tree", "pykeepass/pykeepass.py:PyKeePass.encryption_algorithm"]}
{"id": "C80", "title": "A database file that ends too early is refused", "statement": "A file cut inside its header is refused with StreamError whatever the credentials. A KDBX4 file cut anywhere is refused with StreamError or, if only bytes behind the last block are missing, opens to the same database; from a file the library saved nothing can be cut off. A KDBX3 file whose encrypted part decrypts to less than the start bytes and blocks that were there is refused with StreamError.", "quantifier": "every file that opens, every place of the cut, all credentials, all ciphers, no assumption about the strength of a primitive", "why_tests_cant": "There are as many places to cut as bytes in all files; tests cut none.", "anchors": ["pykeepass/kdbx_parsing/kdbx.py:KDBX", "pykeepass/kdbx_parsing/kdbx4.py:Body", "pykeepass/kdbx_parsing/kdbx4.py:EncryptedPayload", "pykeepass/kdbx_parsing/kdbx3.py:PayloadBlocks", "pykeepass/pykeepass.py:PyKeePass.read"]}
{"id": "C81", "title": "Which exception a malformed header raises", "statement": "A field of a header with an id the version does not have, a cipher that is not one of the three or a stream id that is not one of the four raises MappingError; flags, rounds or a stream id that are too short and a parameter dictionary without its end raise StreamError; a key or a text of the dictionary that is not UTF-8 raises StringError. This holds behind any well-formed fields, whatever follows and whatever the credentials, so a malformed header is never reported as wrong credentials.", "quantifier": "both versions, every list of well-formed fields before, every malformed field of the listed kinds, every continuation", "why_tests_cant": "The malformed headers are unbounded in number; the tests contain none.", "anchors": ["pykeepass/kdbx_parsing/kdbx3.py:DynamicHeaderItem", "pykeepass/kdbx_parsing/kdbx4.py:DynamicHeaderItem", "pykeepass/kdbx_parsing/kdbx4.py:VariantDictionary", "pykeepass/kdbx_parsing/kdbx4.py:VariantDictionaryItem", "pykeepass/kdbx_parsing/common.py:CipherId", "pykeepass/kdbx_parsing/common.py:ProtectedStreamId"]}
{"id": "C82", "title": "What a refused call leaves behind, and which calls the machine speaks about", "statement": "A setter given None or a text that XML cannot hold raises TypeError or ValueError after it has removed the old value: icon, name, notes, tags, standard and custom fields are then gone, the password too. Every other refused call leaves all cards as they were: a group, entry or attachment that cannot be made is not there, neither is half of one; setting auto-type or the name of an attachment, deleting what is in no list, a history entry that is not in the history or a property that is not there, and reserved keys or keys XML cannot hold. No refused call touches settings, data or credentials, and the exception is the first that applies, in the order the arguments are written. Together with C77 this covers every method that changes a database: any call on objects of the class that has the method is a step of the machine, up to conditions listed in one definition.", "quantifier": "all sound databases, all refused calls of the listed kinds, all arguments; all calls of all methods and all sequences of them under Call.Met", "why_tests_cant": "A test shows that a call raises for one bad text; that nothing else changed, for every database and every text, and that no method was forgotten is not testable.", "anchors": ["pykeepass/baseelement.py:BaseElement._set_subelement_text", "pykeepass/entry.py:Entry._set_string_field", "pykeepass/entry.py:Entry.delete_history", "pykeepass/entry.py:Entry.delete_custom_property", "pykeepass/pykeepass.py:PyKeePass.add_group", "pykeepass/pykeepass.py:PyKeePass.add_entry"]}
{"id": "C83", "title": "A query written by hand finds what its steps lead to", "statement": "kp.xpath with a location path made of steps to children (/name), descendants (//name) and the parent (/..) and of conditions [text()=\"v\"], [contains(text(), \"v\")] and [@a=\"v\"] returns, once each and in the order of the document, exactly the elements the steps lead to, starting at the document for a path that begins with / (also when asked of an element inside or one that was removed), and otherwise at the element given or the outermost element. The document itself is never returned. first=True gives the first of them or None. With cast=True the result is the same if all of it are entries, groups or attachments of entries; otherwise the call raises.", "quantifier": "every state, every number of steps and conditions, names of ASCII letters, digits, - . and _, values without double quotes", "why_tests_cant": "There are infinitely many paths; the tests use a handful built by the library itself.", "anchors": ["pykeepass/pykeepass.py:PyKeePass.xpath"]}
{"id": "C84", "title": "Databases made by create_database all have the same header", "statement": "A database made by create_database, with whatever password and key file and however often it has been opened, edited and saved since, is KDBX 4.0 with AES, compression and Argon2d (14 passes, 64 MiB, 2 lanes). Its header is that of the blank database in the package byte for byte, so master seed, initialisation vector and the salt of the key derivation are the same in all of them, and two databases that open with the same password have the same keys.", "quantifier": "every password, key file, path and clock, every number of sessions with any edits and credentials, every result of the encryption primitives", "why_tests_cant": "Tests create one database and look at it once; that the salt is never made anew, in no session, is a statement about all runs.", "anchors": ["pykeepass/pykeepass.py:create_database", "pykeepass/pykeepass.py:PyKeePass.database_salt", "pykeepass/pykeepass.py:PyKeePass.kdf_algorithm", "pykeepass/pykeepass.py:PyKeePass.encryption_algorithm"]}
{"id": "C85", "title": "None as a search argument", "statement": "find_entries, find_groups and find_attachments with None for an attribute (title, username, name, filename and so on) give the result of the search without that argument, whatever the other arguments. None for string or uuid raises AttributeError, None for tags TypeError, and an unknown keyword raises TypeError also when its value is None. With a path no other argument is looked at.", "quantifier": "every database, every combination and order of the other arguments, regular expressions or not", "why_tests_cant": "Arguments combine in unboundedly many ways; tests never pass None.", "anchors": ["pykeepass/pykeepass.py:PyKeePass._find", "pykeepass/pykeepass.py:PyKeePass.find_entries", "pykeepass/pykeepass.py:PyKeePass.find_groups", "pykeepass/pykeepass.py:PyKeePass.find_attachments"]}
{"id": "C86", "title": "Several programs save and open databases at the same time", "statement": "Whatever the order of the system calls of any number of programs that save and open databases: as long as saves with the same temporary file take turns, every file holds at every moment the complete output of the last save that replaced it, or what it held before; every save ends as it would alone and leaves no temporary file; and a program that opens a database meanwhile reads one complete version of it. Saves with different temporary files need not take turns. Without turns this fails: two overlapping saves of one database can leave a mixture of both in it while one reports success, and overlapping saves of x.kdbx and x.kdb, whose temporary file is the same, can put one database into the file of the other.", "quantifier": "any number of programs, all interleavings of their system calls, all outputs and all ways to cut them into pieces", "why_tests_cant": "The number of interleavings is unbounded and tests run one program.", "anchors": ["pykeepass/pykeepass.py:PyKeePass.save", "pykeepass/pykeepass.py:PyKeePass.read"]}
{"id": "C87", "title": "Export as XML", "statement": "The text that xml returns, and dump_xml writes, is the whole database: reading it as XML gives the tree in memory, with every value as it is there; it is UTF-8 and its first line says so. The same holds of dump_xml of an entry or group, with and without pretty printing, whose text is ASCII. Protected values are in it in clear text. dump_xml touches no other file. It is not crash-safe as save is: the file is emptied first, and when there is nothing to export, as with decrypt=False, it raises and leaves the file empty. The text is no database: written to the file of the database itself, that can no longer be opened.", "quantifier": "all trees that XML can represent, all texts, all behaviours of the operating system", "why_tests_cant": "Depends on escaping and white space for arbitrary trees and texts; tests write one file and do not read it back.", "anchors": ["pykeepass/pykeepass.py:PyKeePass.xml", "pykeepass/pykeepass.py:PyKeePass.dump_xml", "pykeepass/baseelement.py:BaseElement.dump_xml"]}
{"id": "C88", "title": "Several objects for one database file", "statement": "Any number of PyKeePass objects work on one file; each calls methods, changes credentials, saves, reloads, in any order, further ones are opened meanwhile. At every moment the file opens with the credentials, and shows the tree and binaries, of the object that last saved it without error (in the middle of a save, also those of the object that saves). reload brings an object to that state if its credentials open the file; if another object has changed them, it raises CredentialsError and the object keeps what it has. Saves are not merged: the last one wins, and what others saved since the object was opened, a new password included, is lost without a report.", "quantifier": "any number of objects, all sequences of acts, every failure of the operating system other than that of rename, every point of interruption", "why_tests_cant": "Arbitrary many objects and interleavings of arbitrary long histories; tests use one object.", "anchors": ["pykeepass/pykeepass.py:PyKeePass.save", "pykeepass/pykeepass.py:PyKeePass.reload", "pykeepass/pykeepass.py:PyKeePass.read"]}
{"id": "C89", "title": "The laws assumed of the cryptographic libraries hold of the published algorithms", "statement": "The theorems assume of AES-CBC that decryption inverts encryption and keeps the length, of SHA-256, SHA-512 and HMAC the length of the result. These laws hold of AES (FIPS 197), SHA-2 (FIPS 180-4) and HMAC (RFC 2104) as published, for all keys and data, so that with these algorithms, ChaCha20 and Salsa20 the theorems (the round trips of C01 and C02 are spelt out) need no assumption except that gzip decompression inverts compression.", "quantifier": "all keys, initial vectors and data of any length", "why_tests_cant": "A statement about all keys and all data; test vectors fix only which algorithm it is.", "anchors": ["pykeepass/kdbx_parsing/common.py:aes_kdf", "pykeepass/kdbx_parsing/common.py:AES256Payload", "pykeepass/kdbx_parsing/common.py:compute_master"]}
{"id": "C90", "title": "A new database", "statement": "The file create_database writes, opened with the credentials given to it, is a KDBX 4.0 database with one group called Root and nothing else: entries and attachments are empty, no search for entries finds anything, groups is the root group alone, recyclebin_group is None, binaries is empty, database_name is Passwords, description and default user name are None, credchange_date is the moment the credentials were set (whole seconds) and no change of credentials is due after any number of days. Whatever is then done with it, over any number of sessions, follows the machine of C77 and C78. The root group of every new database has the same uuid.", "quantifier": "all paths, passwords, key files, times and operating systems for which create_database returns; all later sequences of calls, saves and openings", "why_tests_cant": "The assumptions of the other properties must hold of real databases from the start, for all later histories; tests look at a few fixed files.", "anchors": ["pykeepass/pykeepass.py:create_database", "pykeepass/pykeepass.py:PyKeePass.root_group", "pykeepass/pykeepass.py:PyKeePass.recyclebin_group", "pykeepass/pykeepass.py:PyKeePass.entries"]}
{"id": "C91", "title": "Key derivation uses the parameters of the file, before they are verified", "statement": "Without a transformed key, the key is derived with the parameters the header has: Argon2d or Argon2id with its salt, iterations, memory divided by 1024, lanes and version, AES-KDF with its seed as key and its rounds. They are used as they are, a boolean counts as 0 or 1, and AES-KDF with rounds below one derives the key without any round. This comes before any verification: when it fails, opening fails in the same way whatever follows the header. A missing parameter raises KeyError, one of the wrong type TypeError, a seed that is no AES key (also in KDBX3) ValueError; in the order in which the code needs them, never an exception about credentials or damage. With a transformed key none of them is looked at. Behind all verification of a KDBX4 file, a malformed inner header raises MappingError (field type or stream id unknown) or StreamError (too short, no end).", "quantifier": "all headers, parameter dictionaries, credentials and following bytes; all inner headers of well-formed fields followed by a malformed one", "why_tests_cant": "Arbitrary dictionaries and contents; tests open intact files.", "anchors": ["pykeepass/kdbx_parsing/kdbx4.py:compute_transformed", "pykeepass/kdbx_parsing/kdbx3.py:compute_transformed", "pykeepass/kdbx_parsing/common.py:aes_kdf", "pykeepass/kdbx_parsing/kdbx4.py:InnerHeader"]}
{"id": "C92", "title": "Power failure", "statement": "save calls neither flush nor fsync, so what it writes reaches the medium later, and the library relies on the file system for the order. If no renaming reaches the medium before what was done before it, then after a power failure at any moment of any sequence of saves every database (not named *.tmp) is complete: all are as they were after the first so many saves, so each holds what it held at the start or the bytes one of the saves built for it. But a save that has returned can still be lost, and if renamings may overtake the data, the database can be empty afterwards, with the old and the new content lost.", "quantifier": "all disks, all sequences of saves, successful or not, all moments, all parts of the changes that may have reached the medium", "why_tests_cant": "Tests cannot cut the power, nor try all subsets of outstanding writes.", "anchors": ["pykeepass/pykeepass.py:PyKeePass.save"]}
{"id": "C93", "title": "Compression loses nothing, whoever compressed", "statement": "Decompression returns the data of every gzip file (RFC 1951, RFC 1952: stored blocks, fixed codes, own codes, repetitions that overlap themselves, headers with any optional parts), whichever of the many encodings the compressor chose and whatever follows; it accepts only what begins with such a file of the data returned, so a file cut short or with a wrong checksum is refused, with zlib.error; no file has two contents. The codes are those of RFC 1951, the checksum is the remainder of the data in the division by the polynomial of CRC-32. Hence a database saved with one compressor opens in programs with any other, and all laws assumed of the libraries hold without assumption for a compressor that stores.", "quantifier": "all data, all encodings, all bytes offered for decompression", "why_tests_cant": "There are unboundedly many encodings of each text; tests see those one version of zlib writes.", "anchors": ["pykeepass/kdbx_parsing/common.py:Decompressed"]}
