#!/usr/bin/env python3
"""Single source of /verif/properties.jsonl.  Run: python3 tools/properties.py"""
import json, os
P = []
def p(id, title, statement, quantifier, why, anchors):
    P.append(dict(id=id, title=title, statement=statement, quantifier=quantifier,
                  why_tests_cant=why, anchors=anchors))
PK='pykeepass/pykeepass.py'; EN='pykeepass/entry.py'; GR='pykeepass/group.py'; BE='pykeepass/baseelement.py'
AT='pykeepass/attachment.py'; XP='pykeepass/xpath.py'; CO='pykeepass/kdbx_parsing/common.py'
K3='pykeepass/kdbx_parsing/kdbx3.py'; K4='pykeepass/kdbx_parsing/kdbx4.py'; KX='pykeepass/kdbx_parsing/kdbx.py'
TF='pykeepass/kdbx_parsing/twofish.py'; PT='pykeepass/kdbx_parsing/pytwofish.py'; DE='pykeepass/deprecated.py'

p('C01','KDBX4 save/open round-trip',
  'Saving an open KDBX4 database and opening the bytes again with the same credentials succeeds and yields the same XML content (empty-string texts read back as None), the same binaries in the same order and the same header settings.',
  'every header the parser accepts, every cipher (AES, ChaCha20, Twofish), compression on or off, every inner stream cipher, every tree, every list of binaries, every password/keyfile/transformed key',
  'The content, header fields and sizes are unbounded; a test opens a handful of fixture files.',
  [f'{PK}:PyKeePass.save',f'{PK}:PyKeePass.read',f'{K4}:Body',f'{K4}:UnpackedPayload',f'{CO}:Concatenated',f'{CO}:DecryptedPayload',f'{KX}:KDBX'])
p('C02','KDBX3 save/open round-trip',
  'Saving an open KDBX3 database and opening the bytes again with the same credentials succeeds and yields the same XML content (empty-string texts read back as None) and header settings.',
  'every accepted KDBX3 header, every cipher, compression on or off, every inner stream cipher, every tree, every credential',
  'Unbounded content and header space.',
  [f'{PK}:PyKeePass.save',f'{K3}:Body',f'{K3}:UnpackedPayload',f'{K3}:PayloadBlocks',f'{CO}:Unprotect'])
p('C03','save() does not disturb the open database',
  'After save() every element of the in-memory database still has the text, attributes and children it had before: protected values stay readable in clear, handles stay valid.',
  'every tree, every set of protected values, every key',
  'The protect pass mutates elements; only a proof over all trees shows it touches the copy and nothing else.',
  [f'{CO}:UnprotectedStream._encode',f'{PK}:PyKeePass.save'])
p('C04','save() writes the header of the opened file verbatim',
  'The header bytes of every saved file are the bytes read when the database was opened, so version, cipher, KDF parameters survive any number of open/edit/save cycles. (Consequence: master seed, IV and inner stream key are never refreshed by save().)',
  'every header, every sequence of edits and saves',
  'It is a statement about every sequence of saves; a test sees one.',
  [f'{KX}:KDBX',f'{PK}:PyKeePass.save'])
p('C05','Wrong credentials are reported as CredentialsError',
  'Opening a well-formed file with credentials whose derived key fails the credential check raises CredentialsError (never another error, never a database), and whenever a database is returned the credential check matched.',
  'every well-formed KDBX3/KDBX4 file and every credential',
  'Credentials and files are unbounded; tests try a few wrong passwords.',
  [f'{PK}:PyKeePass.read',f'{K4}:compute_header_hmac_hash',f'{K3}:UnpackedPayload',f'{CO}:DecryptedPayload._decode'])
p('C06','A file without the KeePass signature is rejected as HeaderChecksumError',
  'Opening any file of at least eight bytes whose first eight bytes are not the KeePass signature raises HeaderChecksumError whatever the credentials; no other content of the file matters.',
  'every byte string of length >= 8 not starting with the signature, every credential',
  'All byte strings.',
  [f'{KX}:check_signature',f'{PK}:PyKeePass.read'])
p('C07','KDBX4 header corruption is detected before credentials are judged',
  'If the SHA-256 stored after a KDBX4 header differs from the hash of the header bytes, opening raises HeaderChecksumError for every credential from which a key can be derived (an unreadable key file is reported first) and never yields a database; if opening succeeds the stored hash and the keyed header hash both match the header bytes.',
  'every KDBX4 byte string whose header parses, every credential',
  'Every corruption of every header.',
  [f'{K4}:Body',f'{PK}:PyKeePass.read'])
p('C08','KDBX4 payload blocks cannot be altered, dropped, reordered, duplicated or truncated',
  'If only (index, block) pairs authenticated by the writer verify under the block keys, then any block sequence the reader accepts yields exactly the bytes the writer wrote; a block whose HMAC does not verify raises PayloadChecksumError.',
  'every payload of every length, every attacker-chosen byte sequence in its place',
  'The adversary is unbounded: it is a statement about all byte sequences.',
  [f'{K4}:compute_payload_block_hash',f'{K4}:EncryptedPayloadBlock',f'{K4}:EncryptedPayload',f'{CO}:Concatenated'])
p('C09','KDBX3 payload blocks are checked for position and content',
  'A KDBX3 block stream is accepted only when the i-th block carries index i and the SHA-256 of its data (zeros for the terminator); a content mismatch raises PayloadChecksumError.',
  'every decrypted KDBX3 block stream',
  'All byte streams.',
  [f'{K3}:PayloadBlock',f'{K3}:PayloadBlocks',f'{PK}:PyKeePass.read'])
p('C10','decrypt=False reads the header and never exposes the payload',
  'Opening with decrypt=False succeeds for every password as soon as the header parses (and, for KDBX4, its SHA-256 matches); version, cipher, KDF and salt are those of the file; asking for the tree raises ValueError; a later save() fails without touching the target file.',
  'every file with a valid header, every password',
  'All files, all passwords.',
  [f'{PK}:PyKeePass.payload',f'{K4}:Body',f'{K3}:Body',f'{PK}:PyKeePass.database_salt'])
p('C11','save() to a path is crash-safe',
  'At every point during save(filename) at which the process may stop, the target path holds either its complete previous content or the complete new database, provided the target is not itself named *.tmp and the system can rename. Where it cannot rename, the temporary file holds the complete new database whenever the target is incomplete.',
  'every crash point (every prefix of the bytes written), every previous file-system content, every database',
  'Crash points are unbounded in number and cannot be enumerated by a unit test.',
  [f'{PK}:PyKeePass.save'])
p('C12','A failing save() leaves the target and leaves no temporary file',
  'If building the database raises, the exception propagates, the target path keeps its content and the temporary file is gone; other files are untouched.',
  'every failure point, every file system',
  'Every possible failure position.',
  [f'{PK}:PyKeePass.save'])
p('C13','A failing read() does not replace the open database',
  'When read() raises, the previously open content is still what the object serves and what save() would write. (The object already carries the new filename and credentials: see the counterexample theorem.)',
  'every object state, every failing read',
  'All failing reads in all states.',
  [f'{PK}:PyKeePass.read',f'{PK}:PyKeePass.reload'])
p('C14','A cached transformed key is interchangeable with the credentials it came from',
  'Opening with transformed_key equal to the one derived from password and keyfile gives exactly the result of opening with password and keyfile; save(transformed_key=k) produces a file that opens with k. save() without the key of a database opened by key alone re-encrypts it under the empty credentials.',
  'every file, every credential, every key',
  'All files and credentials.',
  [f'{PK}:PyKeePass.transformed_key',f'{K4}:compute_transformed',f'{K3}:compute_transformed',f'{PK}:PyKeePass.save'])
p('C15','Key files of all supported formats yield the key they encode',
  'A 32-byte raw file, a 64-digit hex file, an XML 1.0 file and an XML 2.0 file with correct hash that encode the same 32 bytes all give the same composite key; any other file contributes its SHA-256; None and the empty password differ as inputs to the hash; an XML 2.0 file with a wrong hash is rejected.',
  'every key, every file content',
  'All contents; the format decision has many branches.',
  [f'{CO}:compute_key_composite'])
p('C16','A seekable key-file stream can be used any number of times',
  'When the keyfile is a seekable stream every open and save derives the same key regardless of the stream position left by earlier use; a non-seekable stream is consumed by its first use.',
  'every stream content, every initial position, every number of uses',
  'Unbounded histories of uses.',
  [f'{CO}:compute_key_composite',f'{K4}:compute_transformed'])
p('C17','Bytes after the end of a KDBX4 database are ignored',
  'Appending any bytes to a KDBX4 file that opens leaves the result of opening unchanged, so saving a shorter database over a longer stream stays readable.',
  'every KDBX4 file that opens, every suffix',
  'All suffixes.',
  [f'{K4}:Body',f'{PK}:PyKeePass.save'])
p('C18','create_database produces a database openable with the given credentials',
  'create_database(filename, password, keyfile) writes the blank database under exactly these credentials; a transformed_key argument is not honoured (it is passed as the file name).',
  'every credential, every key',
  'All credentials.',
  [f'{PK}:create_database',f'{PK}:PyKeePass.save'])
p('C19','Base64 text stored in the database decodes to the bytes that were encoded',
  'For all bytes, decoding the encoded text gives the bytes back, and a UUID or binary written through the API reads back identical.',
  'every byte string',
  'All byte strings of all lengths.',
  [f'{BE}:BaseElement.uuid',f'{PK}:PyKeePass.add_binary',f'{PK}:PyKeePass._encode_time'])
p('C20','KDBX4 times round-trip to the second',
  'Writing an aware datetime to a time property of a KDBX4 element and reading it gives an instant less than one second away; whole-second datetimes come back exactly, in any time zone; only the addressed time property changes.',
  'every aware datetime whose instant is at least one second before the end of year 9999 and not before year 1, every UTC offset, every sub-second part',
  'All instants; float rounding makes a handful of sub-second values round up.',
  [f'{PK}:PyKeePass._encode_time',f'{PK}:PyKeePass._decode_time',f'{BE}:BaseElement._set_times_property'])
p('C21','KDBX3 times round-trip for UTC datetimes',
  'Writing a UTC (or naive) datetime to a time property of a KDBX3 element and reading it gives the same wall-clock fields labelled UTC, microseconds included. Times written by other programs are read too: any date with hours, minutes, seconds, milliseconds or microseconds, with T or a space, with Z or no zone; parts not written are zero. (For other offsets the offset is dropped on reading: counterexample theorem.)',
  'every valid datetime',
  'All datetimes.',
  [f'{PK}:PyKeePass._encode_time',f'{PK}:PyKeePass._decode_time'])
p('C22','Twofish decryption inverts encryption',
  'For every key of 16, 24 or 32 bytes and every data whose length is a multiple of 16, decrypting the encryption returns the data; other key sizes raise.',
  'every key, every block',
  '2^256 keys and 2^128 blocks.',
  [f'{PT}:encrypt',f'{PT}:decrypt',f'{PT}:set_key',f'{PT}:Twofish'])
p('C23','Twofish-CBC is independent of how data is chunked',
  'Feeding data to the CBC cipher in any sequence of chunks outputs the same bytes as feeding it at once (complete blocks only, the rest is kept), and decryption inverts encryption for any chunking on both sides. A cipher object can be made for CBC only, and calling final on it at any time changes and returns nothing.',
  'every key, IV, data and every pair of chunkings; every mode; every sequence of uses of an object',
  'All chunkings of all data.',
  [f'{TF}:CBC.update',f'{TF}:BlockCipher'])
p('C24','Payload padding and block splitting are inverted by the reader',
  'Padding then unpadding any payload returns it; splitting any payload into 1 MiB blocks plus terminator and concatenating returns it; every block but the last is exactly 1 MiB and none before the terminator is empty.',
  'every payload of every length',
  'All lengths, in particular multiples of 16 and of 2^20.',
  [f'{CO}:AES256Payload',f'{CO}:Concatenated'])
p('C25','Protected values stay synchronised with the inner stream',
  'Unprotecting a protected tree returns the tree: each protected value is decrypted with the same key-stream segment it was encrypted with, whatever values (empty, multi-byte) are in between; elements not marked Protected are written and read unchanged.',
  'every tree, every key stream',
  'A desynchronisation shows only for particular sequences of values.',
  [f'{CO}:UnprotectedStream',f'{CO}:Salsa20Stream',f'{CO}:ChaCha20Stream'])
p('C26','The inner header keeps binaries in order',
  'Reading an inner header, then writing and reading it again gives the same stream id, key and the same binaries in the same order, wherever binaries were interleaved in the file.',
  'every well-formed inner header',
  'All interleavings.',
  [f'{K4}:InnerHeader',f'{CO}:DynamicDict'])
p('C27','Header records parse to the fields that were encoded',
  'Every outer header laid out as the KDBX3/KDBX4 format prescribes (any order of fields, any KDF parameter dictionary) parses to exactly these fields and the parser consumes exactly the header.',
  'every field list, every variant dictionary',
  'All field lists.',
  [f'{K4}:DynamicHeader',f'{K4}:VariantDictionary',f'{K3}:DynamicHeader'])
p('C28','find_entries returns exactly the matching entries',
  'find_entries with any combination of title, username, password, url, notes, otp, uuid, tags, string, autotype filters returns, in document order and without duplicates, exactly the entries outside history whose fields match all filters (exact match), provided no filter value contains a double quote or a character that XML does not allow.',
  'every database tree, every filter combination and order, every quote-free value',
  'All trees and all filter values.',
  [f'{PK}:PyKeePass.find_entries',f'{PK}:PyKeePass._find',f'{XP}:entry_xp'])
p('C29','find_groups returns exactly the matching groups',
  'find_groups with any combination of name, uuid, notes returns, in document order and without duplicates, exactly the groups that match all filters.',
  'every tree, every filter combination, every quote-free value',
  'All trees and values.',
  [f'{PK}:PyKeePass.find_groups',f'{XP}:group_xp'])
p('C30','Searching by path follows group names from the root',
  'find_groups(path=p) / find_entries(path=p) return the first element in document order reached from the root group by following the names in p (and the title last), or None when there is none; all other filters are ignored.',
  'every tree, every path of any length',
  'All trees and paths.',
  [f'{PK}:PyKeePass._find',f'{XP}:path_xp'])
p('C31','group= and recursive= delimit the search',
  'With group=g the result is exactly the matching elements strictly below g (recursive) or the direct children of g (non-recursive); without group, a non-recursive search finds nothing.',
  'every tree, group and filter',
  'All trees.',
  [f'{PK}:PyKeePass.find_entries',f'{PK}:PyKeePass.find_groups'])
p('C32','History entries are hidden unless requested',
  'Without history=True no element below a History element is ever returned by find_entries, find_attachments, entries or attachments; with history=True exactly the history elements that match are added.',
  'every tree and filter',
  'All trees.',
  [f'{PK}:PyKeePass._find'])
p('C33','first=True is the head of the full result',
  'For the same arguments, first=True returns the first element of the list returned with first=False, or None if that list is empty.',
  'every tree and arguments',
  'All trees and arguments.',
  [f'{PK}:PyKeePass.xpath'])
p('C34','Search values are treated as data',
  'A search value or custom key without double quote can never change which elements are examined. A value containing a double quote is not data: it makes the search fail or match other elements (counterexample theorems). A value with a character that XML does not allow makes the search raise ValueError.',
  'every quote-free string as value',
  'All strings.',
  [f'{PK}:PyKeePass._find',f'{EN}:Entry._get_string_field'])
p('C35','Reading a string field returns the value last set',
  'After setting title, username, password, url, notes, otp or a custom property of an entry with unique field keys, reading it returns the value set, every other field reads as before, and the rest of the database is unchanged.',
  'every entry, every sequence of sets, every value',
  'All histories of sets.',
  [f'{EN}:Entry._set_string_field',f'{EN}:Entry._get_string_field'])
p('C36','Protection flags survive value changes',
  'Setting a field keeps its Protected marking; a password or otp set on an entry that has none is created protected; set_custom_property sets the marking given. Fields never changed keep theirs.',
  'every entry and every sequence of sets',
  'All histories.',
  [f'{EN}:Entry._set_string_field',f'{EN}:Entry._is_property_protected',f'{EN}:Entry.password'])
p('C37','Custom properties behave like a dictionary',
  'Any sequence of set/get/delete_custom_property behaves like a finite map: get returns the last value set and not deleted, deleting an absent key raises, reserved keys are rejected and never listed, and standard fields are unaffected.',
  'every sequence of operations',
  'All operation sequences.',
  [f'{EN}:Entry.set_custom_property',f'{EN}:Entry.delete_custom_property',f'{EN}:Entry.custom_properties'])
p('C38','Tags round-trip',
  'Setting tags to a list of tags none of which contains a comma or semicolon, not just one empty tag, and reading them returns the list; searching by tags never misses an entry carrying all of them.',
  'every list of tags',
  'All lists.',
  [f'{EN}:Entry.tags',f'{PK}:PyKeePass._find'])
p('C39','add_entry creates the entry that was asked for',
  'A successful add_entry adds exactly one entry, last in the destination group, whose fields read back as given and which is found by find_entries; everything else is unchanged. An expiry time in any time zone (a naive one in that of the system) reads back as the same moment in UTC, exactly in KDBX3 and to the second in KDBX4.',
  'every database, group and field values',
  'All states.',
  [f'{PK}:PyKeePass.add_entry',f'{EN}:Entry.__init__'])
p('C40','add_entry refuses duplicates',
  'Without force_creation, add_entry raises and changes nothing iff the destination group directly contains an entry with the same title and username; any sequence of such additions keeps (title, username) pairs distinct in every group.',
  'every sequence of additions',
  'All sequences.',
  [f'{PK}:PyKeePass.add_entry'])
p('C41','Deleting removes exactly the subtree',
  'delete_entry / delete_group remove the element and everything below it and nothing else; the order of the rest is kept; the deleted element remains intact for its holder and can be re-attached.',
  'every database and element',
  'All states.',
  [f'{BE}:BaseElement.delete',f'{PK}:PyKeePass.delete_group'])
p('C42','Moving relocates without loss',
  'move_entry / move_group put the element last in the destination with its content intact, remove it from where it was and change nothing else; the set of entries and groups of the database is preserved; moving a group into itself or below itself is refused and changes nothing.',
  'every database, element and destination',
  'All states.',
  [f'{PK}:PyKeePass.move_group',f'{GR}:Group.append'])
p('C43','Trashing moves to one recycle bin',
  'trash_entry / trash_group move the element into the recycle bin group, creating it at most once over any history; the root group and the bin itself are refused with no change; no entry or group is lost.',
  'every history of trash operations',
  'All histories.',
  [f'{PK}:PyKeePass.trash_entry',f'{PK}:PyKeePass.trash_group',f'{PK}:PyKeePass._create_or_get_recyclebin_group',f'{PK}:PyKeePass._can_be_moved_to_recyclebin'])
p('C44','empty_group terminates and empties exactly the group',
  'empty_group terminates for every group, leaves it without entries and subgroups, keeps its name, notes and other children and leaves the rest of the database unchanged.',
  'every group of any size',
  'Unbounded sizes; termination.',
  [f'{PK}:PyKeePass.empty_group'])
p('C45','History snapshots are faithful and frozen',
  'save_history appends one snapshot equal to the entry without its history; no later change to the entry alters earlier snapshots; snapshots never contain snapshots.',
  'every entry and every sequence of edits',
  'All edit sequences.',
  [f'{EN}:Entry.save_history',f'{EN}:Entry.history'])
p('C46','delete_history removes the chosen snapshots only',
  'delete_history(h) removes exactly snapshot h, delete_history(all=True) removes all; current fields are unchanged.',
  'every entry with history',
  'All states.',
  [f'{EN}:Entry.delete_history'])
p('C47','add_binary gives a stable, dense id',
  'add_binary returns the number of binaries before the call; binaries[id] is the data given; ids and data of earlier binaries are unchanged (KDBX4, and KDBX3 with ordered ids).',
  'every database and data',
  'All states, data.',
  [f'{PK}:PyKeePass.add_binary',f'{PK}:PyKeePass.binaries'])
p('C48','delete_binary keeps remaining attachments pointing at their data',
  'After delete_binary(i) with 0 <= i < n, attachments of current entries that referred to i are gone and every other attachment of a current entry still yields the bytes it yielded before; an id >= n raises BinaryError and changes nothing. (History attachments and negative ids violate this: counterexample theorems.)',
  'every database, every set of attachments, every id',
  'All states.',
  [f'{PK}:PyKeePass.delete_binary',f'{AT}:Attachment.binary'])
p('C49','Attachments yield the binary they refer to',
  'entry.add_attachment(id, name) adds one attachment with that id and name whose data is binaries[id], or BinaryError if there is none; deleting the attachment removes only the reference.',
  'every state, id and name',
  'All states.',
  [f'{EN}:Entry.add_attachment',f'{AT}:Attachment'])
p('C50','path names the element',
  'For an element of the database all of whose ancestors are named, path is the list of ancestor names below the root followed by its own name; find by this path returns an element with the same path, and the element itself when sibling names are unique.',
  'every tree and element',
  'All depths.',
  [f'{EN}:Entry.path',f'{GR}:Group.path'])
p('C51','reindex moves an entry to the position asked for',
  'In a group whose entries are contiguous, e.reindex(i) for 0 <= i < n makes e.index == i, keeps the relative order of the other entries and changes nothing else. In any group and for any number, positive or negative, no child of the group is lost, the others keep their order and nothing else changes; negative numbers do not count from the last entry.',
  'every group, arrangement of its children and number',
  'All sizes, positions.',
  [f'{EN}:Entry.reindex',f'{EN}:Entry.index',f'{GR}:Group._first_entry'])
p('C52','Element structure is preserved by every API history',
  'After any sequence of API operations, including ones that raise, every element has at most one parent, occurs once, nothing is below itself, and the document keeps its root element, Meta and Root; it keeps its root group unless the caller deletes or moves that very group.',
  'every sequence of operations from every well-formed state',
  'All histories.',
  [f'{GR}:Group.append',f'{BE}:BaseElement.delete',f'{EN}:Entry.reindex'])
p('C53','Identity of entries and groups',
  'Equality of Entry/Group objects is equality of uuid, up to collisions of Python hashes (uuids congruent modulo 2^61-1 collide); history entries additionally compare modification time; a uuid set reads back; no other call changes a uuid; elements created by the API in one database have pairwise different uuids when the uuid source does not repeat.',
  'every state',
  'All states.',
  [f'{BE}:BaseElement.__eq__',f'{BE}:BaseElement.uuid',f'{EN}:HistoryEntry.__hash__'])
p('C54','References resolve to the referenced field',
  'deref(e.ref(field)) is deref(e.field) for a current entry with a unique uuid and a text in that field; a string without references is returned unchanged; an unresolvable reference among resolvable ones gives None; on acyclic references that are not written inside one another deref terminates and its result does not depend on the order in which the set of references is processed.',
  'every database, string and set iteration order',
  'All iteration orders (hash seeds) and all reference graphs.',
  [f'{PK}:PyKeePass.deref',f'{EN}:Entry.ref'])
p('C55','Expiry decisions follow the stored dates',
  'expired is true iff expires is set and the expiry time is strictly before now; credchange_required / recommended are true iff more than the configured number of whole days have passed since the last change, and false when the setting is -1. A date that cannot be read raises in both cases; an empty one TypeError in KDBX4 and AttributeError in KDBX3.',
  'every date, setting and clock value',
  'All instants and settings.',
  [f'{BE}:BaseElement.expired',f'{PK}:PyKeePass.credchange_required'])
p('C56','touch and time setters change only the addressed times',
  'touch() sets access time to now and leaves everything else; touch(modify=True) additionally sets modification time; setting one time property leaves the others.',
  'every element and clock',
  'All states.',
  [f'{BE}:BaseElement.touch',f'{BE}:BaseElement._set_times_property'])
p('C57','A regular-expression search refines by the pattern only',
  'With regex=True the result is exactly the elements whose field text matches the pattern according to the regular-expression engine, for every engine behaviour; only the i flag influences the engine. A uuid is searched by using its base64 text as a pattern, so that with regex=True a uuid with a + in it need not find its own entry.',
  'every tree, pattern, flags and matching function',
  'All patterns; engine abstract.',
  [f'{PK}:PyKeePass._find',f'{XP}:entry_xp'])
p('C58','Reported algorithms and version match the header',
  'version, encryption_algorithm, kdf_algorithm and database_salt report what the header says; kdf_algorithm is one of the three names for versions 3.1 and 4.0 with a known KDF and None otherwise.',
  'every parsed header',
  'All headers.',
  [f'{PK}:PyKeePass.kdf_algorithm',f'{PK}:PyKeePass.version',f'{PK}:PyKeePass.encryption_algorithm',f'{PK}:PyKeePass.database_salt'])
p('C59','Database metadata setters',
  'Setting database_name, database_description, default_username or the credential-change days makes them read back as set and changes nothing else; changing password or keyfile sets the change date to now.',
  'every state and value',
  'All states.',
  [f'{PK}:PyKeePass.database_name',f'{PK}:PyKeePass.password'])
p('C60','Twofish implementation equals the Twofish specification',
  'The table-driven key schedule and round function compute the Twofish cipher as published (q-permutations, MDS and RS matrices over GF(256), PHT, whitening) for every key and block.',
  'every 128/192/256-bit key and every block',
  'Two test vectors cover two points.',
  [f'{PT}:gen_mtab',f'{PT}:gen_mk_tab',f'{PT}:h_fun',f'{PT}:mds_rem',f'{PT}:set_key',f'{PT}:encrypt'])
p('C61','Files are read and written as the KDBX format prescribes',
  'Every file laid out as the format documentation prescribes for a password and key file is opened with them and shows the header, binaries and revealed tree the file encodes; saving an edited database under any credentials writes a file laid out as prescribed for these, with the same settings, the binaries in order and the protected values hidden.',
  'every file of versions 3 and 4, all three ciphers, all three key derivation functions, both inner streams, compressed or not',
  'A round-trip test passes even when reader and writer share a mistake, and other programs could not read the file.',
  [f'{K4}:DynamicHeader',f'{K4}:Body',f'{K3}:Body',f'{CO}:compute_key_composite',f'{CO}:Unprotect'])
p('C62','Databases in streams',
  'Saving to a stream writes exactly the new database at the position of the stream, leaves the bytes before it and behind it, and touches no file; opening from that position shows what was saved. Saving without argument a database that was opened from a stream puts the new one behind the old one, and opening from the old position shows the old one. Saving elsewhere leaves file name, password and content of the object as they are, and reload opens the file the object was opened from with the credentials it has.',
  'every stream, position, database and edit',
  'Depends on position and content of the stream; tests use fresh streams.',
  [f'{PK}:PyKeePass.save',f'{PK}:PyKeePass.read',f'{PK}:PyKeePass.reload'])
p('C63','add_group adds exactly the group asked for',
  'add_group returns the one new group: last in the destination, with the name, notes and icon asked for, a new uuid and the current times, empty; every other element is unchanged, and a search by name finds what it found before plus the new group if the name fits. A call that raises changes no element; without a name it raises.',
  'every database, destination, name, icon and notes',
  'Tests check one group on one database and do not look at the rest of the tree.',
  [f'{PK}:PyKeePass.add_group',f'{GR}:Group.__init__',f'{BE}:BaseElement.__init__'])
p('C64','Whatever methods are called, the database can be saved and read back',
  'Open a file, call any documented methods in any order with any arguments (also such that raise half-way), save under any credentials, open again: the tree is the one the calls made (empty texts as None), the binaries are the same, and the result is again such that this holds for the next session.',
  'every file, every sequence of calls, every argument',
  'Sequences of calls are unbounded, and a call that raises leaves a state no test looks at.',
  [f'{PK}:PyKeePass.save',f'{PK}:PyKeePass.read',f'{BE}:BaseElement._set_subelement_text',f'{EN}:Entry._set_string_field'])
p('C65','The older search functions return exactly what they name',
  'find_entries_by_title/username/password/url/notes/uuid/string/path and find_groups_by_name/notes/uuid/path return, in document order, exactly the entries or groups whose value at that place passes the comparison, within the group and history asked for; with first, the first one; None as value means all. Finding: a text given as path is read as a list of characters.',
  'every database, value, flags and options',
  'Twelve near-identical wrappers; one with a swapped keyword passes any test that does not use that function with that option.',
  ['pykeepass/deprecated.py:find_entries_by_title','pykeepass/deprecated.py:find_groups_by_path',f'{PK}:PyKeePass._find'])
p('C66','What is printed for entries, groups and attachments',
  'str() of a group, entry or history entry is its path and username in the documented form, of an attachment its file name and id; printing changes nothing; groups that print the same have the same path if no name has a slash. Finding: entries and groups that were deleted cannot be printed, and a deleted attachment cannot be asked for its entry (TypeError).',
  'every database and element',
  'Depends on the position of the element in the tree, on missing names and on deleted parents.',
  [f'{EN}:Entry.__str__',f'{EN}:HistoryEntry.__str__',f'{GR}:Group.__str__',f'{AT}:Attachment.__repr__'])
p('C67','Attributes read back, and are independent of each other',
  'For every attribute of entries and groups (uuid, icon, name, notes, the standard and custom string fields, tags, the times, expires, the auto-type settings): reading gives the meaning of the text the format keeps at that place; assigning writes that place and reads back the value; assigning, whether it succeeds or raises, leaves every other attribute of the element and every attribute of all others as they were. Finding: assigning None to an icon, or to the name or notes of a group, raises and loses the old value.',
  'every database, element, pair of attributes and value',
  'Tests set one attribute and read that one; there are hundreds of pairs, and the damage a failing assignment does is not looked at.',
  [f'{BE}:BaseElement._set_subelement_text',f'{BE}:BaseElement._set_times_property',f'{BE}:BaseElement.expires',f'{EN}:Entry._set_string_field',f'{EN}:Entry.autotype_enabled',f'{EN}:Entry.tags',f'{GR}:Group.name'])
p('C68','Lists of groups and entries are complete, and the links between them agree',
  'Whatever methods were called: every entry, group, history, field and attachment is inside an element that may hold it; PyKeePass.groups lists every group below Root once, and these are exactly the root groups, their subgroups, and so on; PyKeePass.entries lists exactly, and once each, what these groups list as their entries; the group of a listed entry lists it and no other group does, the same for parentgroup and subgroups; exactly the root groups have no parentgroup, and is_root_group says so; items of a history are history entries, are not listed, and have the group of their entry.',
  'every database whose elements are where they may be when it is opened, every sequence of method calls',
  'The lists come from searches over the whole document, the links from walking up from one element; that they agree after arbitrary moves, deletions and snapshots is an invariant over all sequences of calls.',
  [f'{PK}:PyKeePass.groups',f'{PK}:PyKeePass.entries',f'{GR}:Group.entries',f'{GR}:Group.subgroups',f'{GR}:Group.is_root_group',f'{BE}:BaseElement.group',f'{EN}:Entry.is_a_history_entry'])
p('C69','The file of a database in use is always the database as last saved',
  'Open a database from a path, or create one with create_database, and do anything with the object, in any order and whether it works or raises: call methods, change password and key file, save to this or other places, reload. At every moment, also in the middle of a save, the file opens with the credentials the object had when it was last saved without error and shows the tree and binaries it then had (or, in the middle of a save, those of the save in progress). reload brings this state back. A changed password is the password of the file once saved, and credentials giving another keyed hash, such as the former ones, are refused.',
  'every database, every sequence of acts, every failure of the operating system other than that of rename, every point of interruption',
  'The claim is about all interleavings of edits, credential changes, failing and completed saves and crashes; tests run a few of them.',
  [f'{PK}:PyKeePass.read',f'{PK}:PyKeePass.reload',f'{PK}:PyKeePass.save',f'{PK}:PyKeePass.password',f'{PK}:PyKeePass.keyfile'])
p('C70','A database opened and saved without a change is the same file, bit by bit',
  'If no text in the tree is empty, what save writes is exactly what opening that file and saving it again writes, under the same credentials, for both formats, all ciphers and whatever was done before; the path holds the same bytes at every moment of that save. Saving under other credentials and back gives the former bytes. With empty texts, which are read back as None, this holds from the second save on, but not at once.',
  'every database, every sequence of calls before, every credentials, every failure of the operating system other than that of rename',
  'The claim is the equality of all bytes for all databases; a test compares a few files.',
  [f'{PK}:PyKeePass.save',f'{KX}:KDBX',f'{CO}:UnprotectedStream',f'{CO}:XML'])
p('C71','The library behaves as a machine on cards: every call of a sequence does what that machine does',
  'Take an entry or group as a card with texts, times, string fields, attachments, a history and lists of other cards. Setting any of these, adding, deleting and moving entries and groups, adding, renaming and removing attachments, emptying a group, saving, removing and clearing history change exactly the cards the machine says and no others, raise exactly the exceptions it says, and ask the clock and the uuid source exactly as often. Every getter is a function of the card, groups and entries list exactly what is below the root. So a sequence of calls of any length can be understood without knowing about XML. Databases read from a well-formed tree are in such a state, and stay in one.',
  'every well-formed database, every sequence of the twenty-six modelled operations with any arguments of the right kind, every clock and uuid source',
  'The claim is about the interplay of all calls in any order; the tests check calls one by one on a few databases.',
  [f'{EN}:Entry',f'{GR}:Group',f'{BE}:BaseElement',f'{PK}:PyKeePass.add_entry',f'{PK}:PyKeePass.add_group',f'{PK}:PyKeePass.move_group',f'{PK}:PyKeePass.delete_entry'])
p('C72','A database is opened only if everything it is opened with is in the file',
  'No part of a header has a default: if opening succeeds, cipher, compression, master seed, IV and, depending on the version, start bytes, inner stream id and key, transform seed and rounds or KDF parameters are all there. If one is missing the exception is AttributeError or KeyError, depending only on which one is the first that is asked for, and never one of those that tell about credentials or damage. The transform seed and rounds of KDBX3 are not needed if the transformed key is given, the KDF parameters of KDBX4 are.',
  'every file, all credentials, all ciphers, both formats',
  'The claim is about every header that can be written, with any subset of fields; the tests open complete files only.',
  [f'{K3}:Body',f'{K4}:Body',f'{K4}:compute_transformed',f'{K3}:compute_transformed',f'{CO}:compute_master',f'{PK}:PyKeePass.read'])
p('C73','A search finds exactly the cards that satisfy it',
  'find_entries looks at the entries of the groups of the database, or of the given group and those below it, or with recursive=False of the given group only; with history=True also at what these entries were before, however often. find_groups likewise. Of these the result contains, once each and in the order of the document, exactly those whose own fields, tags, uuid and custom strings satisfy all arguments, and first=True gives the first of them or None. A path follows group names from the top, the last name of an entry path is a title. recursive=False without a group finds nothing. find_attachments finds exactly the attachments of the entries in the groups of the database, or of the given group and those below it, or of the given entry, whose name and number satisfy all arguments, with history=True also those of earlier states; the stored data of KDBX3 databases are never among them. attachments is the list of all of them that have a name. Deleted entries and groups are never found unless the search starts in one.',
  'every well-formed database, every combination of arguments without double quotes, exact or with any regular expression engine (patterns that also fit an absent text only where absent and empty are not confused)',
  'The claim relates all searches to what the user sees on entries and groups, for every database a sequence of calls can lead to; the tests search one file.',
  [f'{PK}:PyKeePass._find',f'{PK}:PyKeePass.find_entries',f'{PK}:PyKeePass.find_groups',f'{PK}:PyKeePass.find_attachments',f'{PK}:PyKeePass.attachments',f'{XP}:entry_xp',f'{XP}:group_xp',f'{XP}:attachment_xp',f'{XP}:path_xp'])
p('C74','What is on the cards is in the file',
  'When a database is opened, changed by any operations, saved and opened again, under the same or other credentials, the file opens and holds exactly the entries and groups the operations led to: one for each that was in the database, with the same title, user name, password and other fields, protection marks, tags, icon, uuid, times, attachments and auto-type settings, the same history, and the same entries and groups below it in the same order; what was deleted is gone. The only difference is that an empty text is read back as None. This can be repeated for any number of sessions. A field with the empty key is the exception: after reopening it cannot be asked for by its key.',
  'every lawful set of primitives, every KDBX3 or KDBX4 file with a well-formed tree, every list of operations, all credentials, any number of sessions',
  'It composes arbitrary sequences of calls with the whole file format, over any number of sessions; a test runs one sequence on one file and compares a few fields.',
  [f'{PK}:PyKeePass.read',f'{PK}:PyKeePass.save',f'{K4}:Body',f'{K3}:Body',f'{CO}:XML',f'{EN}:Entry',f'{GR}:Group'])
p('C75','Settings, attached data and credentials beside the cards',
  'Next to the entries and groups a database is a desk: the texts of its settings, the data of its attachments, the password and the key file. Every sequence of calls, on entries and groups (C71) and on the database itself (name, description, default user name, date and days for changing credentials, password, key file, adding data), gives the results and leads to the state that the machine on offices gives: a setting that is not in the document is refused with AttributeError, a text XML does not allow with ValueError, both without any change; a new password is kept even if its date cannot be written; adding data puts it behind the others and returns the last position. Operations on entries and groups change nothing on the desk, operations on the desk change no entry or group and nothing they are not for. What the properties of the database return, and the data an attachment yields, are functions of this state.',
  'every sound database state, KDBX3 and KDBX4, every list of operations of both kinds with all arguments, any length',
  'Independence of all settings, data and entries over arbitrary interleavings of calls is a statement about every pair of operations and every state; tests look at a few values after single calls.',
  [f'{PK}:PyKeePass.database_name',f'{PK}:PyKeePass.password',f'{PK}:PyKeePass.credchange_date',f'{PK}:PyKeePass.add_binary',f'{PK}:PyKeePass.binaries',f'{AT}:Attachment.binary'])
p('C76','Settings and attached data through files, over any number of sessions',
  'Open a file, make any calls on entries, groups and the database itself, save under any credentials, open the file again, and so on any number of times. Every file that is saved opens again with the credentials it was saved with, and what is then there is what the machine on offices holds: besides the entries and groups (C74) every setting with its text, the data of all attachments in their order, the version and the header; only empty texts are read as none. An attachment at the same position of the same entry has the same name and yields the same data as before the file was written, unless an empty text was stored as compressed data, which the library itself never stores.',
  'every file that opens with a sound content, KDBX3 and KDBX4, every cipher and compression, every list of sessions, every list of operations of both kinds, every credentials, all primitives with the stated laws',
  'The statement composes reading, editing, encryption and writing over sessions of any length and any mixture of calls; a test follows one file through one session.',
  [f'{PK}:PyKeePass.save',f'{PK}:PyKeePass.read',f'{PK}:PyKeePass.binaries',f'{PK}:PyKeePass.add_binary',f'{AT}:Attachment.binary',f'{KX}:KDBX'])
p('C77','Every method that changes a database works on cards and desk as an abstract machine says',
  'The state of a database is abstracted to an office: a card for every entry and group, and a desk with settings, data and credentials. Every method that changes a database or asks the clock - those of C71 and C75, and expired, credchange_required and credchange_recommended, Group.append with a list, Entry.reindex, trash_entry and trash_group, delete_binary - gives the result or exception that the machine on offices says and leaves the office the machine says, so sequences of calls of all these methods in any order refine sequences of steps of the machine. Trashing refuses the root group and the bin, makes a bin at the end of the root group if no group has the uuid the settings name, and moves the element there; deleting data removes the attachments of listed entries that refer to it and renumbers those of entries and histories that refer to later data. What delete_binary relies on - an attachment has one name and one number, lists of data contain only data - is kept by every sequence of calls. Refused calls (C82) are steps of the machine like any other.',
  'all sound databases, all methods and arguments the office knows, all sequences of calls, whether or not they raise',
  'A sequence of calls of forty methods has no end of orders; tests call each method a few times on one file.',
  [f'{PK}:PyKeePass.delete_binary',f'{PK}:PyKeePass.trash_entry',f'{PK}:PyKeePass.trash_group',f'{PK}:PyKeePass.credchange_required',f'{BE}:BaseElement.expired',f'{EN}:Entry.reindex',f'{GR}:Group.append'])
p('C78','Every method, through files, over any number of sessions',
  'A file is opened, any of the methods of C77 are called in any order, the database is saved under any credentials and opened again, any number of times. Every file is opened again, and what all calls gave and all states in between are what the machine on offices gives and holds, where reading back changes nothing but empty texts.',
  'all lawful primitives, all files that open as sound databases, all sequences of calls, all sequences of sessions',
  'Neither the calls nor the number of sessions are bounded; a defect that appears only after the third save of a database with deleted data is out of reach of tests.',
  [f'{PK}:PyKeePass.read',f'{PK}:PyKeePass.save',f'{PK}:PyKeePass.delete_binary',f'{PK}:PyKeePass.trash_entry'])
p('C79','Files of a major version other than 3 and 4',
  'A file with the KeePass signature whose major version is neither 3 nor 4 is not refused: it opens with any password, key file or transformed key, whatever follows the version. Of such a database the version can be read, encryption_algorithm, database_salt, payload and tree raise AttributeError and kdf_algorithm is None. Saving it returns normally and leaves of the file only its first twelve bytes.',
  'every minor and major version, every content, all credentials, every state of the file system',
  'No such file is among the test data, and the claim is about every version number and every content.',
  [f'{KX}:KDBX',f'{PK}:PyKeePass.read',f'{PK}:PyKeePass.save',f'{PK}:PyKeePass.tree',f'{PK}:PyKeePass.encryption_algorithm'])
p('C80','A database file that ends too early is refused',
  'A file cut inside its header is refused with StreamError whatever the credentials. A KDBX4 file cut anywhere is refused with StreamError or, if only bytes behind the last block are missing, opens to the same database; from a file the library saved nothing can be cut off. A KDBX3 file whose encrypted part decrypts to less than the start bytes and blocks that were there is refused with StreamError.',
  'every file that opens, every place of the cut, all credentials, all ciphers, no assumption about the strength of a primitive',
  'There are as many places to cut as bytes in all files; tests cut none.',
  [f'{KX}:KDBX',f'{K4}:Body',f'{K4}:EncryptedPayload',f'{K3}:PayloadBlocks',f'{PK}:PyKeePass.read'])
p('C81','Which exception a malformed header raises',
  'A field of a header with an id the version does not have, a cipher that is not one of the three or a stream id that is not one of the four raises MappingError; flags, rounds or a stream id that are too short and a parameter dictionary without its end raise StreamError; a key or a text of the dictionary that is not UTF-8 raises StringError. This holds behind any well-formed fields, whatever follows and whatever the credentials, so a malformed header is never reported as wrong credentials.',
  'both versions, every list of well-formed fields before, every malformed field of the listed kinds, every continuation',
  'The malformed headers are unbounded in number; the tests contain none.',
  [f'{K3}:DynamicHeaderItem',f'{K4}:DynamicHeaderItem',f'{K4}:VariantDictionary',f'{K4}:VariantDictionaryItem',f'{CO}:CipherId',f'{CO}:ProtectedStreamId'])
p('C82','What a refused call leaves behind, and which calls the machine speaks about',
  'A setter given None or a text that XML cannot hold raises TypeError or ValueError after it has removed the old value: icon, name, notes, tags, standard and custom fields are then gone, the password too. Every other refused call leaves all cards as they were: a group, entry or attachment that cannot be made is not there, neither is half of one; setting auto-type or the name of an attachment, deleting what is in no list, a history entry that is not in the history or a property that is not there, and reserved keys or keys XML cannot hold. No refused call touches settings, data or credentials, and the exception is the first that applies, in the order the arguments are written. Together with C77 this covers every method that changes a database: any call on objects of the class that has the method is a step of the machine, up to conditions listed in one definition.',
  'all sound databases, all refused calls of the listed kinds, all arguments; all calls of all methods and all sequences of them under Call.Met',
  'A test shows that a call raises for one bad text; that nothing else changed, for every database and every text, and that no method was forgotten is not testable.',
  [f'{BE}:BaseElement._set_subelement_text',f'{EN}:Entry._set_string_field',f'{EN}:Entry.delete_history',f'{EN}:Entry.delete_custom_property',f'{PK}:PyKeePass.add_group',f'{PK}:PyKeePass.add_entry'])
p('C83','A query written by hand finds what its steps lead to',
  'kp.xpath with a location path made of steps to children (/name), descendants (//name) and the parent (/..) and of conditions [text()="v"], [contains(text(), "v")] and [@a="v"] returns, once each and in the order of the document, exactly the elements the steps lead to, starting at the document for a path that begins with / (also when asked of an element inside or one that was removed), and otherwise at the element given or the outermost element. The document itself is never returned. first=True gives the first of them or None. With cast=True the result is the same if all of it are entries, groups or attachments of entries; otherwise the call raises.',
  'every state, every number of steps and conditions, names of ASCII letters, digits, - . and _, values without double quotes',
  'There are infinitely many paths; the tests use a handful built by the library itself.',
  [f'{PK}:PyKeePass.xpath'])
p('C84','Databases made by create_database all have the same header',
  'A database made by create_database, with whatever password and key file and however often it has been opened, edited and saved since, is KDBX 4.0 with AES, compression and Argon2d (14 passes, 64 MiB, 2 lanes). Its header is that of the blank database in the package byte for byte, so master seed, initialisation vector and the salt of the key derivation are the same in all of them, and two databases that open with the same password have the same keys.',
  'every password, key file, path and clock, every number of sessions with any edits and credentials, every result of the encryption primitives',
  'Tests create one database and look at it once; that the salt is never made anew, in no session, is a statement about all runs.',
  [f'{PK}:create_database', f'{PK}:PyKeePass.database_salt', f'{PK}:PyKeePass.kdf_algorithm', f'{PK}:PyKeePass.encryption_algorithm'])
p('C85','None as a search argument',
  'find_entries, find_groups and find_attachments with None for an attribute (title, username, name, filename and so on) give the result of the search without that argument, whatever the other arguments. None for string or uuid raises AttributeError, None for tags TypeError, and an unknown keyword raises TypeError also when its value is None. With a path no other argument is looked at.',
  'every database, every combination and order of the other arguments, regular expressions or not',
  'Arguments combine in unboundedly many ways; tests never pass None.',
  [f'{PK}:PyKeePass._find', f'{PK}:PyKeePass.find_entries', f'{PK}:PyKeePass.find_groups', f'{PK}:PyKeePass.find_attachments'])
p('C86','Several programs save and open databases at the same time',
  'Whatever the order of the system calls of any number of programs that save and open databases: as long as saves with the same temporary file take turns, every file holds at every moment the complete output of the last save that replaced it, or what it held before; every save ends as it would alone and leaves no temporary file; and a program that opens a database meanwhile reads one complete version of it. Saves with different temporary files need not take turns. Without turns this fails: two overlapping saves of one database can leave a mixture of both in it while one reports success, and overlapping saves of x.kdbx and x.kdb, whose temporary file is the same, can put one database into the file of the other.',
  'any number of programs, all interleavings of their system calls, all outputs and all ways to cut them into pieces',
  'The number of interleavings is unbounded and tests run one program.',
  [f'{PK}:PyKeePass.save', f'{PK}:PyKeePass.read'])
p('C87','Export as XML',
  'The text that xml returns, and dump_xml writes, is the whole database: reading it as XML gives the tree in memory, with every value as it is there; it is UTF-8 and its first line says so. The same holds of dump_xml of an entry or group, with and without pretty printing, whose text is ASCII. Protected values are in it in clear text. dump_xml touches no other file. It is not crash-safe as save is: the file is emptied first, and when there is nothing to export, as with decrypt=False, it raises and leaves the file empty. The text is no database: written to the file of the database itself, that can no longer be opened.',
  'all trees that XML can represent, all texts, all behaviours of the operating system',
  'Depends on escaping and white space for arbitrary trees and texts; tests write one file and do not read it back.',
  [f'{PK}:PyKeePass.xml', f'{PK}:PyKeePass.dump_xml', f'{BE}:BaseElement.dump_xml'])
p('C88','Several objects for one database file',
  'Any number of PyKeePass objects work on one file; each calls methods, changes credentials, saves, reloads, in any order, further ones are opened meanwhile. At every moment the file opens with the credentials, and shows the tree and binaries, of the object that last saved it without error (in the middle of a save, also those of the object that saves). reload brings an object to that state if its credentials open the file; if another object has changed them, it raises CredentialsError and the object keeps what it has. Saves are not merged: the last one wins, and what others saved since the object was opened, a new password included, is lost without a report.',
  'any number of objects, all sequences of acts, every failure of the operating system other than that of rename, every point of interruption',
  'Arbitrary many objects and interleavings of arbitrary long histories; tests use one object.',
  [f'{PK}:PyKeePass.save', f'{PK}:PyKeePass.reload', f'{PK}:PyKeePass.read'])
p('C89','The laws assumed of the cryptographic libraries hold of the published algorithms',
  'The theorems assume of AES-CBC that decryption inverts encryption and keeps the length, of SHA-256, SHA-512 and HMAC the length of the result. These laws hold of AES (FIPS 197), SHA-2 (FIPS 180-4) and HMAC (RFC 2104) as published, for all keys and data, so that with these algorithms, ChaCha20 and Salsa20 the theorems (the round trips of C01 and C02 are spelt out) need no assumption except that gzip decompression inverts compression.',
  'all keys, initial vectors and data of any length',
  'A statement about all keys and all data; test vectors fix only which algorithm it is.',
  [f'{CO}:aes_kdf', f'{CO}:AES256Payload', f'{CO}:compute_master'])
p('C90','A new database',
  'The file create_database writes, opened with the credentials given to it, is a KDBX 4.0 database with one group called Root and nothing else: entries and attachments are empty, no search for entries finds anything, groups is the root group alone, recyclebin_group is None, binaries is empty, database_name is Passwords, description and default user name are None, credchange_date is the moment the credentials were set (whole seconds) and no change of credentials is due after any number of days. Whatever is then done with it, over any number of sessions, follows the machine of C77 and C78. The root group of every new database has the same uuid.',
  'all paths, passwords, key files, times and operating systems for which create_database returns; all later sequences of calls, saves and openings',
  'The assumptions of the other properties must hold of real databases from the start, for all later histories; tests look at a few fixed files.',
  [f'{PK}:create_database', f'{PK}:PyKeePass.root_group', f'{PK}:PyKeePass.recyclebin_group', f'{PK}:PyKeePass.entries'])
p('C91','Key derivation uses the parameters of the file, before they are verified',
  'Without a transformed key, the key is derived with the parameters the header has: Argon2d or Argon2id with its salt, iterations, memory divided by 1024, lanes and version, AES-KDF with its seed as key and its rounds. They are used as they are, a boolean counts as 0 or 1, and AES-KDF with rounds below one derives the key without any round. This comes before any verification: when it fails, opening fails in the same way whatever follows the header. A missing parameter raises KeyError, one of the wrong type TypeError, a seed that is no AES key (also in KDBX3) ValueError; in the order in which the code needs them, never an exception about credentials or damage. With a transformed key none of them is looked at. Behind all verification of a KDBX4 file, a malformed inner header raises MappingError (field type or stream id unknown) or StreamError (too short, no end).',
  'all headers, parameter dictionaries, credentials and following bytes; all inner headers of well-formed fields followed by a malformed one',
  'Arbitrary dictionaries and contents; tests open intact files.',
  [f'{K4}:compute_transformed', f'{K3}:compute_transformed', f'{CO}:aes_kdf', f'{K4}:InnerHeader'])
p('C92','Power failure',
  'save calls neither flush nor fsync, so what it writes reaches the medium later, and the library relies on the file system for the order. If no renaming reaches the medium before what was done before it, then after a power failure at any moment of any sequence of saves every database (not named *.tmp) is complete: all are as they were after the first so many saves, so each holds what it held at the start or the bytes one of the saves built for it. But a save that has returned can still be lost, and if renamings may overtake the data, the database can be empty afterwards, with the old and the new content lost.',
  'all disks, all sequences of saves, successful or not, all moments, all parts of the changes that may have reached the medium',
  'Tests cannot cut the power, nor try all subsets of outstanding writes.',
  [f'{PK}:PyKeePass.save'])
p('C93','Compression loses nothing, whoever compressed',
  'Decompression returns the data of every gzip file (RFC 1951, RFC 1952: stored blocks, fixed codes, own codes, repetitions that overlap themselves, headers with any optional parts), whichever of the many encodings the compressor chose and whatever follows; it accepts only what begins with such a file of the data returned, so a file cut short or with a wrong checksum is refused, with zlib.error; no file has two contents. The codes are those of RFC 1951, the checksum is the remainder of the data in the division by the polynomial of CRC-32. Hence a database saved with one compressor opens in programs with any other, and all laws assumed of the libraries hold without assumption for a compressor that stores.',
  'all data, all encodings, all bytes offered for decompression',
  'There are unboundedly many encodings of each text; tests see those one version of zlib writes.',
  [f'{CO}:Decompressed'])
out=os.path.join(os.path.dirname(os.path.abspath(__file__)),'..','properties.jsonl')
with open(out,'w') as f:
    for o in P: f.write(json.dumps(o, ensure_ascii=False)+'\n')
print(len(P))
