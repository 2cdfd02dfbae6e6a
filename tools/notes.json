{
 "C01": {
  "note": "Primitives (SHA, AES, ChaCha20, zlib, KDFs) are parameters with the laws in Kdbx/Prims.lean; Twofish is modelled in full."
 },
 "C02": {
  "note": "As C01."
 },
 "C03": {
  "note": "The deep copy is a new tree beside the document (in lxml a new document); the protected elements are selected directly, not through the XPath model."
 },
 "C04": {
  "note": "C04_no_refresh records that master seed, IV and stream key are never refreshed; C04_two_time_pad what that means for ChaCha20."
 },
 "C05": {
  "note": "KDBX4: HMAC mismatch. KDBX3: stream start bytes mismatch; C05_kdbx3_length covers padding failures."
 },
 "C07": {
  "note": "Errors of key derivation (for example a missing key file) come before the hash check in the code; the theorem assumes key derivation succeeds."
 },
 "C08": {
  "note": "Integrity is relative to the hypothesis that only MACs the writer computed verify."
 },
 "C16": {
  "note": "C16_aeskdf_reads_twice: with KDBX4 AES-KDF a non-seekable stream yields the key of an empty key file."
 },
 "C17": {
  "note": "C17_not_for_kdbx3 shows the property fails for KDBX3, for which it is not claimed."
 },
 "C43": {
  "note": "C43_trash, C43_create, C43_refuse_root, C43_refuse_bin, C43_refuse_above for single calls; C43_history for any history of trash calls by induction. Hypotheses: one root group, the setting RecycleBinUUID holds a uuid that at most one group has, and the uuid source gives uuids that no group has yet."
 },
 "C45": {
  "note": "C45_frozen covers every sequence of calls on entries, groups and attachments outside histories; database-wide methods (trash, binaries, credentials) are left out there, delete_binary renumbers attachments inside snapshots by design. C45_quote: a custom property name containing a quote can remove the history."
 },
 "C50": {
  "note": "Names in the search must contain no quote. C50_unnamed: groups without a name are left out of paths, which then lead nowhere."
 },
 "C51": {
  "note": "C51_interleaved: where a group stands between entries, reindex does not give the index asked for. C51_any: every group and number; C51_negative, C51_beyond: numbers that are no position."
 },
 "C52": {
  "note": "C52_root_deleted: delete_group on the root group is not prevented and leaves the database without one."
 },
 "C53": {
  "note": "C53_same, C53_equal: equality is equality of uuid (and mtime for history entries) unless hashes collide; C53_collision and C53_collision_case show that collisions exist. C53_set: the setter reads back. C53_stable, C53_created: over all histories of calls."
 },
 "C64": {
  "note": "C64_tidy: every sequence of calls keeps the elements writable; C64_kdbx4, C64_kdbx3: the file read back after any calls; C64_succeeds4, C64_succeeds3: saving succeeds. Assumes the opened tree is tidy: leaf elements such as Times children have no children, and no element that may get children has text of only blanks (such text is lost when lxml reads it back). Custom property keys contain no quote."
 },
 "C18": {
  "note": "The blank database that comes with the package is a hypothesis (a KDBX4 file that opens with its password); its bytes are not evaluated. C18_file, C18_stream: what is written; C18_exactly: other credentials would need the same keyed hash; C18_succeeds: it does return; C18_transformed_key: a transformed key raises TypeError and nothing is written."
 },
 "C54": {
  "note": "C54_ref: one more nested call, same result; C54_acyclic: terminates with the same result for every order of every set; C54_follow gives that result; C54_plain, C54_none, C54_unresolved. Limits shown by witnesses: C54_ref_empty (a field without text raises TypeError), C54_ref_uuid (references to a uuid always raise TypeError), C54_cycle and C54_cycle_case (a cycle never ends), C54_order_matters (references written inside one another: the result depends on the order of the set), C54_order_matters_error."
 },
 "C60": {
  "note": "Spec/Twofish.lean states the cipher as in the paper (it also yields the printed test vectors). C60_block and C60_encrypt: the table-driven code computes it for every key of 16, 24 or 32 bytes and every block; C60_decrypt: decrypt undoes it; C60_codebook: this is the block function the CBC mode calls; C60_injective."
 },
 "C61": {
  "note": "Spec/Kdbx.lean states the layout of whole files independently of reader and writer. C61_reads4/C61_reads3: every such file opens to what it encodes; C61_writes4/C61_writes3: what is saved is such a file; C61_determined: the relation fixes hidden and revealed values; C61_exists4/C61_exists3: such files exist for all settings. Hash functions, AES, ChaCha20, Salsa20, Argon2, gzip and XML are those of the libraries (Prims.Lawful). Not covered: inner stream 'none' and ArcFour (the code cannot read ArcFour), header fields that occur twice."
 },
 "C62": {
  "note": "C62_written, C62_one_content: what is in the stream; C62_new: an empty stream; C62_rewound: opening from the position saved at; C62_again: finding, saving back to the stream a database was read from does not replace it (KDBX4); C62_reload: finding, reload at the end of the stream raises. A stream given to save is taken to be another one than the stream the database was opened from."
 },
 "C63": {
  "note": "C63_added, C63_found, C63_succeeds, C63_refused. Destinations are elements of the open database."
 },
 "C65": {
  "note": "C65_entries, C65_groups, C65_uuid, C65_string, C65_path, C65_none; C65_path_text: finding. Values and flags without double quote; with regex, patterns the engine knows."
 },
 "C66": {
  "note": "C66_group, C66_root, C66_entry, C66_history, C66_attachment, C66_attachment_entry, C66_group_path; C66_detached, C66_in_deleted: findings, str() raises for deleted elements."
 },
 "C67": {
  "note": "C67_read, C67_write, C67_roundtrip, C67_independent; C67_none_loses: finding. An attribute is read and written where the element has at most one child of that name (Once); independence needs this only for string fields."
 },
 "C68": {
  "note": "C68_shape (every sequence of calls), C68_opened, C68_groups, C68_entries, C68_links, C68_has_group, C68_root, C68_history."
 },
 "C69": {
  "note": "C69_file, C69_crash, C69_reload, C69_copy, C69_password, C69_refused (KDBX4). Act.Ok: renaming works, the path is not named *.tmp, key-file streams can be rewound, other saves do not use the path as their temporary file. Started: opened from a path or made by create_database (C69_created: this is the object it returns)."
 },
 "C23": {
  "note": "C23_final_loses, C23_one_direction and C23_default_mode are findings: final never pads, the chain is shared by both directions, the default mode does not exist."
 },
 "C70": {
  "note": "C70_settled, C70_second, C70_detour, C70_file; C70_not_at_once is the witness that empty texts make the first save differ. Relies on the primitives being functions (xmlSer, gzip deterministic)."
 },
 "C57": {
  "note": "C57_uuid, C57_uuid_plus: the base64 text of a uuid is used as a pattern."
 },
 "C71": {
  "note": "C71_step and C71_run: refinement of the abstract machine Op.Step for twenty-six operations, with what each call raises or returns; C71_frame: what an operation cannot change; C71_reads, C71_files, C71_custom, C71_lists: getters and lists as functions of the vault; C71_opened: databases read from files. Not among the operations: binaries, recycle bin, reindex, append, settings of the database (these have their own properties). Arguments are texts XML allows, custom property keys and titles and user names without double quotes."
 },
 "C72": {
  "note": "C72_needed3 and C72_needed4: an opened database has every needed field; C72_missing3 and C72_missing4: which exception, field by field in the order of evaluation. That paths of construct raise KeyError and attributes of its containers AttributeError is part of the model of construct."
 },
 "C73": {
  "note": "C73_entries, C73_groups: result of a search as a condition on the vault of C71; C73_group_path, C73_entry_path: searches by path; C73_sharp: in exact searches the hypothesis Sharp excludes only lists of empty tags. C73_attachments: find_attachments with at least one argument (with none, the data of a KDBX3 database match as well and the cast raises), in databases whose attachments have at most one name and number (Filed); C73_all_attachments: kp.attachments, for engines in which `.*` matches everything."
 },
 "C74": {
  "note": "C74_loaded: the tree read back; C74_session: one session with its operations, saving and opening; C74_sessions: any number of sessions refine the machine of C71, with FromFile between them; C74_empty_key: the exception. Attached data is compared in KDBX4 (binaries are equal); in KDBX3 it is part of the tree, see C64. Setting of the database and binaries are not on cards."
 },
 "C75": {
  "note": "C75_desk: each of the six kinds of operations on the desk computes DeskOp.step; C75_apart: operations on cards leave the desk alone; C75_step, C75_run: refinement of the machine on offices; C75_frame: what an operation on the desk cannot change; C75_reads, C75_binary: getters as functions of the office. delete_binary and the recycle bin are not among the operations (C48, C43)."
 },
 "C76": {
  "note": "C76_session: one session, with the save under any credentials; C76_sessions: any number of sessions refine the machine; C76_data, C76_attachment: the data, and what each attachment yields, are the same after reopening; C76_packed: the library keeps the condition of C76_data, C76_not_packed: the condition is needed. Entries with an empty custom key are excluded between sessions as in C74."
 },
 "C77": {
  "note": "C77_step: one call; C77_run: any number of calls refine the machine; C77_filed, C77_opened: attachments and lists of data stay filed under all calls of C52, from any opened file in which they are. For reindex the machine says how many entries may stand before the entry and which order the others have; the exact place is C51. delete_binary asks that every attachment has a number. Refused calls are in the machine as Task.refuse; C82_covered says which calls are not."
 },
 "C78": {
  "note": "C78_session: one session, with the save under any credentials; C78_sessions: any number of sessions. Entries with an empty custom key are excluded between sessions as in C74."
 },
 "C79": {
  "note": "A finding: the English property a user would expect (an unsupported version is refused) does not hold; C79_opens, C79_nothing and C79_truncates state what happens instead."
 },
 "C80": {
  "note": "C80_cut needs no law of the primitives. For KDBX3 the blocks are inside the encrypted part, so C80_kdbx3 speaks of what the shortened part decrypts to."
 },
 "C81": {
  "note": "Wrong lists the malformed fields with their exceptions; C81_wrong is the theorem for all of them."
 },
 "C82": {
  "note": "C82_step: what a refused call does; C82_unchanged: those that write nothing first; C82_lost: standard fields. C82_covered, C82_call, C82_run: every call and every sequence of calls is one of the machine if Call.Met holds: attachments belong to an entry, titles and user names of new entries are plain, reindexed entries are in a group, bins can be made, numbers of data are not negative. Deleting an element that is in no list is said to raise AttributeError or to change nothing that can be seen."
 },
 "C83": {
  "note": "Spec/Query: parts of a path, their spelling and where they lead on the heap view. C83_absolute, C83_relative, C83_named: the three ways a path begins; C83_first, C83_cast: the options; C83_unique: the conditions determine the result. The reading and evaluation of paths is libxml2 as modelled in XPath/Syntax and XPath/Eval. Paths outside this form are not covered."
 },
 "C84": {
  "note": "Spec/Shipped copies the 253 bytes of the header of /repo/pykeepass/blank_database.kdbx; C84_layout says what they mean in terms of the layout of C27, and C84_blank that the hypothesis of C18 about the version holds. C84_bytes, C84_header: all files in FromPackage (made by create_database, then any number of cycles of C04). C84_key, C84_same_keys: the keys. That the encrypted rest of the file opens with its password stays a hypothesis (Shipped)."
 },
 "C85": {
  "note": "XPath/Given puts None before the search of Find. C85_values: without None it is that search. C85_ignored: attributes. C85_string, C85_uuid, C85_tags, C85_unknown: what raises what. C85_path: with a path."
 },
 "C86": {
  "note": "Session/Share: names, inodes and system calls. C86_complete, C86_undisturbed, C86_readers, C86_no_leftovers: for every interleaving in which saves with one temporary file take turns. C86_any_order, C86_in_turn: interleavings that qualify. C86_sessions: in terms of save. C86_alone: one program alone is the save of C11. Findings: C86_not_overlapping, C86_wrong_database."
 },
 "C87": {
  "note": "Tree/Pretty: libxml2 output with indentation, read back by the parser of Tree. C87_whole, C87_element: read back as the tree. C87_in_clear: every text literally in it. C87_dump, C87_other_files: dump_xml. Findings: C87_not_crash_safe, C87_refused, C87_header_only, C87_not_a_database."
 },
 "C88": {
  "note": "Spec/Crowd: acts of C69 done by any of several objects, opened at any time. C88_file, C88_crash: the file at every moment. C88_reload, C88_locked_out: reload. Findings: C88_last_save_wins, C88_lost_update. Acts are done one after the other; overlapping saves are in C86."
 },
 "C89": {
  "note": "Crypto/Aes, Sha2, Stream: the published algorithms, with their test vectors as examples. C89_aes, C89_lawful: the laws of Prims.Lawful. C89_roundtrip4, C89_roundtrip3: C01 and C02 for them. That the C libraries implement these algorithms is part of the trusted base. C89_constants, C89_padding, C89_sbox: constants, padding and S-box are those the standards define."
 },
 "C90": {
  "note": "The content of blank_database.kdbx is a literal (shippedTree), got by evaluating the model on the file (tools/realfiles); that the file opens to it is a hypothesis (Package). C90_shipped: the hypotheses of C18 and C84 follow. C90_content: the file that is written. C90_answers, C90_no_entries: what properties and searches give. C90_life: later sessions. The example makes a package with the toy algorithms and shows that create_database returns."
 },
 "C91": {
  "note": "C91_first: key derivation fails before verification. C91_argon2, C91_aes, C91_three: each fault with its exception, and the key that results from good parameters. C91_given: a transformed key. C91_inner: faults of the inner header (InnerWrong). Argon2 itself is a parameter of the model; what it refuses is its own."
 },
 "C92": {
  "note": "Session/Power lists the changes of a save in the order of the system calls; C92_alone ties them to the program of C86 and so to the save of C11. Ordered: what may have reached the medium. C92_ordered, C92_sessions: databases are complete. C92_seen: without a failure. C92_not_durable, C92_not_unordered: findings. Refusals of the operating system, and shutil.move copying instead of renaming, are in C11."
 },
 "C93": {
  "note": "C93_reads, C93_sound: the decoder is equivalent to the relation IsGzip; C93_one, C93_truncated follow. C93_lawful, C93_unconditional: the laws of Prims.Lawful; C93_writers4, C93_writers3: C01 and C02 between programs with different compressors. C93_lengths, C93_distances, C93_usable, C93_codes, C93_fixed, C93_order, C93_checksum: the tables and functions that IsGzip shares with the decoder, described without it. Examples: files written by zlib, tables of the RFCs."
 }
}
