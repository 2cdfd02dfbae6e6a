{
 "claims": [
  {
   "property": "C01",
   "status": "proved",
   "theorems": [
    "Verif.Props.C01_roundtrip",
    "Verif.Props.C01_save_succeeds",
    "Verif.Props.C01_same_credentials"
   ],
   "note": "Primitives (SHA, AES, ChaCha20, zlib, KDFs) are parameters with the laws in Kdbx/Prims.lean; Twofish is modelled in full."
  },
  {
   "property": "C02",
   "status": "proved",
   "theorems": [
    "Verif.Props.C02_roundtrip",
    "Verif.Props.C02_save_succeeds",
    "Verif.Props.C02_same_credentials"
   ],
   "note": "As C01."
  },
  {
   "property": "C03",
   "status": "proved",
   "theorems": [
    "Verif.Props.C03_encode",
    "Verif.Props.C03_dump",
    "Verif.Props.C03_same"
   ],
   "note": "The deep copy is a new tree beside the document (in lxml a new document); the protected elements are selected directly, not through the XPath model."
  },
  {
   "property": "C04",
   "status": "proved",
   "theorems": [
    "Verif.Props.C04_save",
    "Verif.Props.C04_cycles",
    "Verif.Props.C04_no_refresh",
    "Verif.Props.C04_two_time_pad"
   ],
   "note": "C04_no_refresh records that master seed, IV and stream key are never refreshed; C04_two_time_pad what that means for ChaCha20."
  },
  {
   "property": "C05",
   "status": "proved",
   "theorems": [
    "Verif.Props.C05_kdbx4",
    "Verif.Props.C05_kdbx4_opened",
    "Verif.Props.C05_kdbx3",
    "Verif.Props.C05_kdbx3_opened",
    "Verif.Props.C05_kdbx3_length"
   ],
   "note": "KDBX4: HMAC mismatch. KDBX3: stream start bytes mismatch; C05_kdbx3_length covers padding failures."
  },
  {
   "property": "C06",
   "status": "proved",
   "theorems": [
    "Verif.Props.C06_rejected",
    "Verif.Props.C06_opened"
   ],
   "note": ""
  },
  {
   "property": "C07",
   "status": "proved",
   "theorems": [
    "Verif.Props.C07_rejected",
    "Verif.Props.C07_never_opens",
    "Verif.Props.C07_keyfile_first",
    "Verif.Props.C07_corrupted",
    "Verif.Props.C07_opened",
    "Verif.Props.C07_opened_header_only"
   ],
   "note": "Errors of key derivation (for example a missing key file) come before the hash check in the code; the theorem assumes key derivation succeeds."
  },
  {
   "property": "C08",
   "status": "proved",
   "theorems": [
    "Verif.Props.C08_accepted_iff",
    "Verif.Props.C08_integrity",
    "Verif.Props.C08_written_unforged",
    "Verif.Props.C08_bad_mac"
   ],
   "note": "Integrity is relative to the hypothesis that only MACs the writer computed verify."
  },
  {
   "property": "C09",
   "status": "proved",
   "theorems": [
    "Verif.Props.C09_accepted_iff",
    "Verif.Props.C09_opened",
    "Verif.Props.C09_bad_hash",
    "Verif.Props.C09_bad_index"
   ],
   "note": ""
  },
  {
   "property": "C10",
   "status": "proved",
   "theorems": [
    "Verif.Props.C10_opens4",
    "Verif.Props.C10_opens3",
    "Verif.Props.C10_any_password",
    "Verif.Props.C10_cannot_build",
    "Verif.Props.C10_save_fails"
   ],
   "note": ""
  },
  {
   "property": "C11",
   "status": "proved",
   "theorems": [
    "Verif.Props.C11_recoverable",
    "Verif.Props.C11_copied",
    "Verif.Props.C11_crash_safe",
    "Verif.Props.C11_completed",
    "Verif.Props.C11_not_for_tmp",
    "Verif.Props.C11_not_without_rename",
    "Verif.Props.C11_destroys_tmp"
   ],
   "note": ""
  },
  {
   "property": "C12",
   "status": "proved",
   "theorems": [
    "Verif.Props.C12_build_fails",
    "Verif.Props.C12_target_kept",
    "Verif.Props.C12_write_fails",
    "Verif.Props.C12_open_fails",
    "Verif.Props.C12_not_for_tmp",
    "Verif.Props.C12_not_for_streams"
   ],
   "note": ""
  },
  {
   "property": "C13",
   "status": "proved",
   "theorems": [
    "Verif.Props.C13_content_kept",
    "Verif.Props.C13_saved_content",
    "Verif.Props.C13_credentials_changed",
    "Verif.Props.C13_success"
   ],
   "note": ""
  },
  {
   "property": "C14",
   "status": "proved",
   "theorems": [
    "Verif.Props.C14_open4",
    "Verif.Props.C14_open3",
    "Verif.Props.C14_cached",
    "Verif.Props.C14_save4",
    "Verif.Props.C14_save3",
    "Verif.Props.C14_save_without_key"
   ],
   "note": ""
  },
  {
   "property": "C15",
   "status": "proved",
   "theorems": [
    "Verif.Props.C15_formats",
    "Verif.Props.C15_composite",
    "Verif.Props.C15_other",
    "Verif.Props.C15_other_xml",
    "Verif.Props.C15_wrong_hash",
    "Verif.Props.C15_none_vs_empty",
    "Verif.Props.C15_password_is_keyfile",
    "Verif.Props.C15_hex_prefix_fails",
    "Verif.Props.C15_malformed_xml"
   ],
   "note": ""
  },
  {
   "property": "C16",
   "status": "proved",
   "theorems": [
    "Verif.Props.C16_position_irrelevant",
    "Verif.Props.C16_repeated",
    "Verif.Props.C16_not_seekable",
    "Verif.Props.C16_aeskdf_reads_twice"
   ],
   "note": "C16_aeskdf_reads_twice: with KDBX4 AES-KDF a non-seekable stream yields the key of an empty key file."
  },
  {
   "property": "C17",
   "status": "proved",
   "theorems": [
    "Verif.Props.C17_ignored",
    "Verif.Props.C17_ignored_header_only",
    "Verif.Props.C17_shorter_over_longer",
    "Verif.Props.C17_not_for_kdbx3"
   ],
   "note": "C17_not_for_kdbx3 shows the property fails for KDBX3, for which it is not claimed."
  },
  {
   "property": "C18",
   "status": "proved",
   "theorems": [
    "Verif.Props.C18_file",
    "Verif.Props.C18_stream",
    "Verif.Props.C18_transformed_key",
    "Verif.Props.C18_succeeds",
    "Verif.Props.C18_exactly"
   ],
   "note": "The blank database that comes with the package is a hypothesis (a KDBX4 file that opens with its password); its bytes are not evaluated. C18_file, C18_stream: what is written; C18_exactly: other credentials would need the same keyed hash; C18_succeeds: it does return; C18_transformed_key: a transformed key raises TypeError and nothing is written."
  },
  {
   "property": "C19",
   "status": "proved",
   "theorems": [
    "Verif.Props.C19_bytes",
    "Verif.Props.C19_format",
    "Verif.Props.C19_uuid",
    "Verif.Props.C19_binary"
   ],
   "note": ""
  },
  {
   "property": "C20",
   "status": "proved",
   "theorems": [
    "Verif.Props.C20_element",
    "Verif.Props.C20_calendar",
    "Verif.Props.C20_roundtrip",
    "Verif.Props.C20_whole_seconds",
    "Verif.Props.C20_whole_seconds_utc",
    "Verif.Props.C20_truncation",
    "Verif.Props.C20_not_truncated",
    "Verif.Props.C20_datetime_max",
    "Verif.Props.C20_before_year_one",
    "Verif.Props.C20_naive",
    "Verif.Props.C20_iso_z"
   ],
   "note": ""
  },
  {
   "property": "C21",
   "status": "proved",
   "theorems": [
    "Verif.Props.C21_element",
    "Verif.Props.C21_forms",
    "Verif.Props.C21_date",
    "Verif.Props.C21_roundtrip",
    "Verif.Props.C21_utc",
    "Verif.Props.C21_offset_dropped",
    "Verif.Props.C21_z"
   ],
   "note": ""
  },
  {
   "property": "C22",
   "status": "proved",
   "theorems": [
    "Verif.Props.C22_key_sizes",
    "Verif.Props.C22_decrypt_encrypt",
    "Verif.Props.C22_encrypt_decrypt",
    "Verif.Props.C22_bad_length"
   ],
   "note": ""
  },
  {
   "property": "C23",
   "status": "proved",
   "theorems": [
    "Verif.Props.C23_only_cbc",
    "Verif.Props.C23_default_mode",
    "Verif.Props.C23_not_made",
    "Verif.Props.C23_final",
    "Verif.Props.C23_object",
    "Verif.Props.C23_final_loses",
    "Verif.Props.C23_one_direction",
    "Verif.Props.C23_chunking_encrypt",
    "Verif.Props.C23_chunking_decrypt",
    "Verif.Props.C23_roundtrip",
    "Verif.Props.C23_roundtrip_whole",
    "Verif.Props.C23_matches_cbc",
    "Verif.Props.C23_refused"
   ],
   "note": "C23_final_loses, C23_one_direction and C23_default_mode are findings: final never pads, the chain is shared by both directions, the default mode does not exist."
  },
  {
   "property": "C24",
   "status": "proved",
   "theorems": [
    "Verif.Props.C24_pad",
    "Verif.Props.C24_unpad",
    "Verif.Props.C24_pad_roundtrip",
    "Verif.Props.C24_unpad_only_padding",
    "Verif.Props.C24_split_concat",
    "Verif.Props.C24_blocks"
   ],
   "note": ""
  },
  {
   "property": "C25",
   "status": "proved",
   "theorems": [
    "Verif.Props.C25_written",
    "Verif.Props.C25_read",
    "Verif.Props.C25_roundtrip",
    "Verif.Props.C25_file"
   ],
   "note": ""
  },
  {
   "property": "C26",
   "status": "proved",
   "theorems": [
    "Verif.Props.C26_read",
    "Verif.Props.C26_roundtrip",
    "Verif.Props.C26_edited"
   ],
   "note": ""
  },
  {
   "property": "C27",
   "status": "proved",
   "theorems": [
    "Verif.Props.C27_header",
    "Verif.Props.C27_lookup",
    "Verif.Props.C27_last_wins",
    "Verif.Props.C27_kdf"
   ],
   "note": ""
  },
  {
   "property": "C28",
   "status": "proved",
   "theorems": [
    "Verif.Props.C28_find_entries",
    "Verif.Props.C28_unknown_argument"
   ],
   "note": ""
  },
  {
   "property": "C29",
   "status": "proved",
   "theorems": [
    "Verif.Props.C29_find_groups"
   ],
   "note": ""
  },
  {
   "property": "C30",
   "status": "proved",
   "theorems": [
    "Verif.Props.C30_groups",
    "Verif.Props.C30_entries",
    "Verif.Props.C30_regex",
    "Verif.Props.C30_filters_ignored",
    "Verif.Props.C30_root_group",
    "Verif.Props.C30_attachments_return_group"
   ],
   "note": ""
  },
  {
   "property": "C31",
   "status": "proved",
   "theorems": [
    "Verif.Props.C31_below",
    "Verif.Props.C31_children",
    "Verif.Props.C31_groups_below",
    "Verif.Props.C31_groups_children",
    "Verif.Props.C31_nothing"
   ],
   "note": ""
  },
  {
   "property": "C32",
   "status": "proved",
   "theorems": [
    "Verif.Props.C32_hidden",
    "Verif.Props.C32_added",
    "Verif.Props.C32_path_hidden"
   ],
   "note": ""
  },
  {
   "property": "C33",
   "status": "proved",
   "theorems": [
    "Verif.Props.C33_first"
   ],
   "note": ""
  },
  {
   "property": "C34",
   "status": "proved",
   "theorems": [
    "Verif.Props.C34_values_are_data",
    "Verif.Props.C34_path_names_are_data",
    "Verif.Props.C34_quote_changes_query",
    "Verif.Props.C34_quote_fails",
    "Verif.Props.C34_no_tags",
    "Verif.Props.C34_not_xml"
   ],
   "note": ""
  },
  {
   "property": "C35",
   "status": "proved",
   "theorems": [
    "Verif.Props.C35_fields",
    "Verif.Props.C35_get",
    "Verif.Props.C35_set_get",
    "Verif.Props.C35_none_loses",
    "Verif.Props.C35_control_loses",
    "Verif.Props.C35_duplicate_keys",
    "Verif.Props.C35_quote"
   ],
   "note": ""
  },
  {
   "property": "C36",
   "status": "proved",
   "theorems": [
    "Verif.Props.C36_marks",
    "Verif.Props.C36_untouched",
    "Verif.Props.C36_stays_protected",
    "Verif.Props.C36_created_protected",
    "Verif.Props.C36_custom"
   ],
   "note": ""
  },
  {
   "property": "C37",
   "status": "proved",
   "theorems": [
    "Verif.Props.C37_dictionary",
    "Verif.Props.C37_standard",
    "Verif.Props.C37_listing"
   ],
   "note": ""
  },
  {
   "property": "C38",
   "status": "proved",
   "theorems": [
    "Verif.Props.C38_roundtrip",
    "Verif.Props.C38_search",
    "Verif.Props.C38_substring",
    "Verif.Props.C38_one_empty",
    "Verif.Props.C38_separator"
   ],
   "note": ""
  },
  {
   "property": "C39",
   "status": "proved",
   "theorems": [
    "Verif.Props.C39_added",
    "Verif.Props.C39_found",
    "Verif.Props.C39_succeeds",
    "Verif.Props.C39_none",
    "Verif.Props.C39_expiry"
   ],
   "note": ""
  },
  {
   "property": "C40",
   "status": "proved",
   "theorems": [
    "Verif.Props.C40_refused",
    "Verif.Props.C40_forced",
    "Verif.Props.C40_sequence",
    "Verif.Props.C40_quote_twice",
    "Verif.Props.C40_quote_refused"
   ],
   "note": ""
  },
  {
   "property": "C41",
   "status": "proved",
   "theorems": [
    "Verif.Props.C41_delete",
    "Verif.Props.C41_order",
    "Verif.Props.C41_reattach",
    "Verif.Props.C41_twice"
   ],
   "note": ""
  },
  {
   "property": "C42",
   "status": "proved",
   "theorems": [
    "Verif.Props.C42_move",
    "Verif.Props.C42_refused",
    "Verif.Props.C42_sequence"
   ],
   "note": ""
  },
  {
   "property": "C43",
   "status": "proved",
   "theorems": [
    "Verif.Props.C43_trash",
    "Verif.Props.C43_create",
    "Verif.Props.C43_refuse_root",
    "Verif.Props.C43_refuse_bin",
    "Verif.Props.C43_refuse_above",
    "Verif.Props.C43_history"
   ],
   "note": "C43_trash, C43_create, C43_refuse_root, C43_refuse_bin, C43_refuse_above for single calls; C43_history for any history of trash calls by induction. Hypotheses: one root group, the setting RecycleBinUUID holds a uuid that at most one group has, and the uuid source gives uuids that no group has yet."
  },
  {
   "property": "C44",
   "status": "proved",
   "theorems": [
    "Verif.Props.C44_empty_group"
   ],
   "note": ""
  },
  {
   "property": "C45",
   "status": "proved",
   "theorems": [
    "Verif.Props.C45_save",
    "Verif.Props.C45_frozen",
    "Verif.Props.C45_flat",
    "Verif.Props.C45_quote"
   ],
   "note": "C45_frozen covers every sequence of calls on entries, groups and attachments outside histories; database-wide methods (trash, binaries, credentials) are left out there, delete_binary renumbers attachments inside snapshots by design. C45_quote: a custom property name containing a quote can remove the history."
  },
  {
   "property": "C46",
   "status": "proved",
   "theorems": [
    "Verif.Props.C46_one",
    "Verif.Props.C46_all",
    "Verif.Props.C46_refused"
   ],
   "note": ""
  },
  {
   "property": "C47",
   "status": "proved",
   "theorems": [
    "Verif.Props.C47_four",
    "Verif.Props.C47_three",
    "Verif.Props.C47_sequence_four",
    "Verif.Props.C47_sequence_three",
    "Verif.Props.C47_disordered",
    "Verif.Props.C47_gap"
   ],
   "note": ""
  },
  {
   "property": "C48",
   "status": "proved",
   "theorems": [
    "Verif.Props.C48_four",
    "Verif.Props.C48_three",
    "Verif.Props.C48_refused",
    "Verif.Props.C48_history",
    "Verif.Props.C48_negative",
    "Verif.Props.C48_ids"
   ],
   "note": ""
  },
  {
   "property": "C49",
   "status": "proved",
   "theorems": [
    "Verif.Props.C49_added",
    "Verif.Props.C49_data",
    "Verif.Props.C49_delete",
    "Verif.Props.C49_history",
    "Verif.Props.C49_id_text"
   ],
   "note": ""
  },
  {
   "property": "C50",
   "status": "proved",
   "theorems": [
    "Verif.Props.C50_root_path",
    "Verif.Props.C50_group_path",
    "Verif.Props.C50_entry_path",
    "Verif.Props.C50_find_group",
    "Verif.Props.C50_find_entry",
    "Verif.Props.C50_unnamed"
   ],
   "note": "Names in the search must contain no quote. C50_unnamed: groups without a name are left out of paths, which then lead nowhere."
  },
  {
   "property": "C51",
   "status": "proved",
   "theorems": [
    "Verif.Props.C51_any",
    "Verif.Props.C51_negative",
    "Verif.Props.C51_beyond",
    "Verif.Props.C51_index",
    "Verif.Props.C51_reindex",
    "Verif.Props.C51_interleaved"
   ],
   "note": "C51_interleaved: where a group stands between entries, reindex does not give the index asked for. C51_any: every group and number; C51_negative, C51_beyond: numbers that are no position."
  },
  {
   "property": "C52",
   "status": "proved",
   "theorems": [
    "Verif.Props.C52_structure",
    "Verif.Props.C52_root_group",
    "Verif.Props.C52_root_deleted"
   ],
   "note": "C52_root_deleted: delete_group on the root group is not prevented and leaves the database without one."
  },
  {
   "property": "C53",
   "status": "proved",
   "theorems": [
    "Verif.Props.C53_same",
    "Verif.Props.C53_equal",
    "Verif.Props.C53_collision",
    "Verif.Props.C53_set",
    "Verif.Props.C53_stable",
    "Verif.Props.C53_created",
    "Verif.Props.C53_collision_case"
   ],
   "note": "C53_same, C53_equal: equality is equality of uuid (and mtime for history entries) unless hashes collide; C53_collision and C53_collision_case show that collisions exist. C53_set: the setter reads back. C53_stable, C53_created: over all histories of calls."
  },
  {
   "property": "C54",
   "status": "proved",
   "theorems": [
    "Verif.Props.C54_plain",
    "Verif.Props.C54_none",
    "Verif.Props.C54_ref",
    "Verif.Props.C54_ref_empty",
    "Verif.Props.C54_ref_uuid",
    "Verif.Props.C54_unresolved",
    "Verif.Props.C54_follow",
    "Verif.Props.C54_ends",
    "Verif.Props.C54_acyclic",
    "Verif.Props.C54_cycle",
    "Verif.Props.C54_cycle_case",
    "Verif.Props.C54_order_matters",
    "Verif.Props.C54_order_matters_error"
   ],
   "note": "C54_ref: one more nested call, same result; C54_acyclic: terminates with the same result for every order of every set; C54_follow gives that result; C54_plain, C54_none, C54_unresolved. Limits shown by witnesses: C54_ref_empty (a field without text raises TypeError), C54_ref_uuid (references to a uuid always raise TypeError), C54_cycle and C54_cycle_case (a cycle never ends), C54_order_matters (references written inside one another: the result depends on the order of the set), C54_order_matters_error."
  },
  {
   "property": "C55",
   "status": "proved",
   "theorems": [
    "Verif.Props.C55_unreadable",
    "Verif.Props.C55_empty_date",
    "Verif.Props.C55_expired",
    "Verif.Props.C55_never",
    "Verif.Props.C55_expired_iff",
    "Verif.Props.C55_credchange",
    "Verif.Props.C55_disabled",
    "Verif.Props.C55_no_date",
    "Verif.Props.C55_days",
    "Verif.Props.C55_no_days",
    "Verif.Props.C55_days_text"
   ],
   "note": ""
  },
  {
   "property": "C56",
   "status": "proved",
   "theorems": [
    "Verif.Props.C56_set",
    "Verif.Props.C56_error",
    "Verif.Props.C56_missing",
    "Verif.Props.C56_exact4",
    "Verif.Props.C56_exact3",
    "Verif.Props.C56_touch",
    "Verif.Props.C56_touch_modify",
    "Verif.Props.C56_expires"
   ],
   "note": ""
  },
  {
   "property": "C57",
   "status": "proved",
   "theorems": [
    "Verif.Props.C57_regex",
    "Verif.Props.C57_returns",
    "Verif.Props.C57_only_i",
    "Verif.Props.C57_no_flags",
    "Verif.Props.C57_uuid",
    "Verif.Props.C57_uuid_plus"
   ],
   "note": "C57_uuid, C57_uuid_plus: the base64 text of a uuid is used as a pattern."
  },
  {
   "property": "C58",
   "status": "proved",
   "theorems": [
    "Verif.Props.C58_version",
    "Verif.Props.C58_cipher",
    "Verif.Props.C58_kdbx3",
    "Verif.Props.C58_kdbx4",
    "Verif.Props.C58_other_version"
   ],
   "note": ""
  },
  {
   "property": "C59",
   "status": "proved",
   "theorems": [
    "Verif.Props.C59_text",
    "Verif.Props.C59_days",
    "Verif.Props.C59_credentials",
    "Verif.Props.C59_missing"
   ],
   "note": ""
  },
  {
   "property": "C60",
   "status": "proved",
   "theorems": [
    "Verif.Props.C60_block",
    "Verif.Props.C60_encrypt",
    "Verif.Props.C60_decrypt",
    "Verif.Props.C60_codebook",
    "Verif.Props.C60_injective"
   ],
   "note": "Spec/Twofish.lean states the cipher as in the paper (it also yields the printed test vectors). C60_block and C60_encrypt: the table-driven code computes it for every key of 16, 24 or 32 bytes and every block; C60_decrypt: decrypt undoes it; C60_codebook: this is the block function the CBC mode calls; C60_injective."
  },
  {
   "property": "C61",
   "status": "proved",
   "theorems": [
    "Verif.Props.C61_determined",
    "Verif.Props.C61_reads4",
    "Verif.Props.C61_writes4",
    "Verif.Props.C61_reads3",
    "Verif.Props.C61_writes3",
    "Verif.Props.C61_exists4",
    "Verif.Props.C61_exists3"
   ],
   "note": "Spec/Kdbx.lean states the layout of whole files independently of reader and writer. C61_reads4/C61_reads3: every such file opens to what it encodes; C61_writes4/C61_writes3: what is saved is such a file; C61_determined: the relation fixes hidden and revealed values; C61_exists4/C61_exists3: such files exist for all settings. Hash functions, AES, ChaCha20, Salsa20, Argon2, gzip and XML are those of the libraries (Prims.Lawful). Not covered: inner stream 'none' and ArcFour (the code cannot read ArcFour), header fields that occur twice."
  },
  {
   "property": "C62",
   "status": "proved",
   "theorems": [
    "Verif.Props.C62_one_content",
    "Verif.Props.C62_written",
    "Verif.Props.C62_new",
    "Verif.Props.C62_rewound",
    "Verif.Props.C62_again",
    "Verif.Props.C62_reload",
    "Verif.Props.C62_stays",
    "Verif.Props.C62_own_path",
    "Verif.Props.C62_reloaded"
   ],
   "note": "C62_written, C62_one_content: what is in the stream; C62_new: an empty stream; C62_rewound: opening from the position saved at; C62_again: finding, saving back to the stream a database was read from does not replace it (KDBX4); C62_reload: finding, reload at the end of the stream raises. A stream given to save is taken to be another one than the stream the database was opened from."
  },
  {
   "property": "C63",
   "status": "proved",
   "theorems": [
    "Verif.Props.C63_added",
    "Verif.Props.C63_found",
    "Verif.Props.C63_succeeds",
    "Verif.Props.C63_refused"
   ],
   "note": "C63_added, C63_found, C63_succeeds, C63_refused. Destinations are elements of the open database."
  },
  {
   "property": "C64",
   "status": "proved",
   "theorems": [
    "Verif.Props.C64_tidy",
    "Verif.Props.C64_kdbx4_suffix",
    "Verif.Props.C64_kdbx4",
    "Verif.Props.C64_kdbx3",
    "Verif.Props.C64_succeeds4",
    "Verif.Props.C64_succeeds3"
   ],
   "note": "C64_tidy: every sequence of calls keeps the elements writable; C64_kdbx4, C64_kdbx3: the file read back after any calls; C64_succeeds4, C64_succeeds3: saving succeeds. Assumes the opened tree is tidy: leaf elements such as Times children have no children, and no element that may get children has text of only blanks (such text is lost when lxml reads it back). Custom property keys contain no quote."
  },
  {
   "property": "C65",
   "status": "proved",
   "theorems": [
    "Verif.Props.C65_entries",
    "Verif.Props.C65_groups",
    "Verif.Props.C65_uuid",
    "Verif.Props.C65_string",
    "Verif.Props.C65_path",
    "Verif.Props.C65_none",
    "Verif.Props.C65_path_none",
    "Verif.Props.C65_path_text"
   ],
   "note": "C65_entries, C65_groups, C65_uuid, C65_string, C65_path, C65_none; C65_path_text: finding. Values and flags without double quote; with regex, patterns the engine knows."
  },
  {
   "property": "C66",
   "status": "proved",
   "theorems": [
    "Verif.Props.C66_group",
    "Verif.Props.C66_root",
    "Verif.Props.C66_entry",
    "Verif.Props.C66_history",
    "Verif.Props.C66_attachment",
    "Verif.Props.C66_attachment_entry",
    "Verif.Props.C66_attachment_deleted",
    "Verif.Props.C66_group_path",
    "Verif.Props.C66_detached",
    "Verif.Props.C66_in_deleted"
   ],
   "note": "C66_group, C66_root, C66_entry, C66_history, C66_attachment, C66_attachment_entry, C66_group_path; C66_detached, C66_in_deleted: findings, str() raises for deleted elements."
  },
  {
   "property": "C67",
   "status": "proved",
   "theorems": [
    "Verif.Props.C67_read",
    "Verif.Props.C67_write",
    "Verif.Props.C67_roundtrip",
    "Verif.Props.C67_independent",
    "Verif.Props.C67_none_loses"
   ],
   "note": "C67_read, C67_write, C67_roundtrip, C67_independent; C67_none_loses: finding. An attribute is read and written where the element has at most one child of that name (Once); independence needs this only for string fields."
  },
  {
   "property": "C68",
   "status": "proved",
   "theorems": [
    "Verif.Props.C68_shape",
    "Verif.Props.C68_opened",
    "Verif.Props.C68_groups",
    "Verif.Props.C68_entries",
    "Verif.Props.C68_links",
    "Verif.Props.C68_has_group",
    "Verif.Props.C68_root",
    "Verif.Props.C68_history"
   ],
   "note": "C68_shape (every sequence of calls), C68_opened, C68_groups, C68_entries, C68_links, C68_has_group, C68_root, C68_history."
  },
  {
   "property": "C69",
   "status": "proved",
   "theorems": [
    "Verif.Props.C69_created",
    "Verif.Props.C69_file",
    "Verif.Props.C69_crash",
    "Verif.Props.C69_reload",
    "Verif.Props.C69_copy",
    "Verif.Props.C69_password",
    "Verif.Props.C69_refused"
   ],
   "note": "C69_file, C69_crash, C69_reload, C69_copy, C69_password, C69_refused (KDBX4). Act.Ok: renaming works, the path is not named *.tmp, key-file streams can be rewound, other saves do not use the path as their temporary file. Started: opened from a path or made by create_database (C69_created: this is the object it returns)."
  },
  {
   "property": "C70",
   "status": "proved",
   "theorems": [
    "Verif.Props.C70_settled",
    "Verif.Props.C70_second",
    "Verif.Props.C70_detour",
    "Verif.Props.C70_file",
    "Verif.Props.C70_not_at_once"
   ],
   "note": "C70_settled, C70_second, C70_detour, C70_file; C70_not_at_once is the witness that empty texts make the first save differ. Relies on the primitives being functions (xmlSer, gzip deterministic)."
  },
  {
   "property": "C71",
   "status": "proved",
   "theorems": [
    "Verif.Props.C71_step",
    "Verif.Props.C71_run",
    "Verif.Props.C71_frame",
    "Verif.Props.C71_reads",
    "Verif.Props.C71_files",
    "Verif.Props.C71_custom",
    "Verif.Props.C71_lists",
    "Verif.Props.C71_opened"
   ],
   "note": "C71_step and C71_run: refinement of the abstract machine Op.Step for twenty-six operations, with what each call raises or returns; C71_frame: what an operation cannot change; C71_reads, C71_files, C71_custom, C71_lists: getters and lists as functions of the vault; C71_opened: databases read from files. Not among the operations: binaries, recycle bin, reindex, append, settings of the database (these have their own properties). Arguments are texts XML allows, custom property keys and titles and user names without double quotes."
  },
  {
   "property": "C72",
   "status": "proved",
   "theorems": [
    "Verif.Props.C72_needed3",
    "Verif.Props.C72_needed4",
    "Verif.Props.C72_missing3",
    "Verif.Props.C72_missing4"
   ],
   "note": "C72_needed3 and C72_needed4: an opened database has every needed field; C72_missing3 and C72_missing4: which exception, field by field in the order of evaluation. That paths of construct raise KeyError and attributes of its containers AttributeError is part of the model of construct."
  },
  {
   "property": "C73",
   "status": "proved",
   "theorems": [
    "Verif.Props.C73_attachments",
    "Verif.Props.C73_all_attachments",
    "Verif.Props.C73_entries",
    "Verif.Props.C73_groups",
    "Verif.Props.C73_sharp",
    "Verif.Props.C73_group_path",
    "Verif.Props.C73_entry_path"
   ],
   "note": "C73_entries, C73_groups: result of a search as a condition on the vault of C71; C73_group_path, C73_entry_path: searches by path; C73_sharp: in exact searches the hypothesis Sharp excludes only lists of empty tags. C73_attachments: find_attachments with at least one argument (with none, the data of a KDBX3 database match as well and the cast raises), in databases whose attachments have at most one name and number (Filed); C73_all_attachments: kp.attachments, for engines in which `.*` matches everything."
  },
  {
   "property": "C74",
   "status": "proved",
   "theorems": [
    "Verif.Props.C74_loaded",
    "Verif.Props.C74_session",
    "Verif.Props.C74_sessions",
    "Verif.Props.C74_empty_key"
   ],
   "note": "C74_loaded: the tree read back; C74_session: one session with its operations, saving and opening; C74_sessions: any number of sessions refine the machine of C71, with FromFile between them; C74_empty_key: the exception. Attached data is compared in KDBX4 (binaries are equal); in KDBX3 it is part of the tree, see C64. Setting of the database and binaries are not on cards."
  },
  {
   "property": "C75",
   "status": "proved",
   "theorems": [
    "Verif.Props.C75_apart",
    "Verif.Props.C75_desk",
    "Verif.Props.C75_step",
    "Verif.Props.C75_run",
    "Verif.Props.C75_frame",
    "Verif.Props.C75_reads",
    "Verif.Props.C75_binary"
   ],
   "note": "C75_desk: each of the six kinds of operations on the desk computes DeskOp.step; C75_apart: operations on cards leave the desk alone; C75_step, C75_run: refinement of the machine on offices; C75_frame: what an operation on the desk cannot change; C75_reads, C75_binary: getters as functions of the office. delete_binary and the recycle bin are not among the operations (C48, C43)."
  },
  {
   "property": "C76",
   "status": "proved",
   "theorems": [
    "Verif.Props.C76_session",
    "Verif.Props.C76_sessions",
    "Verif.Props.C76_data",
    "Verif.Props.C76_attachment",
    "Verif.Props.C76_packed",
    "Verif.Props.C76_not_packed"
   ],
   "note": "C76_session: one session, with the save under any credentials; C76_sessions: any number of sessions refine the machine; C76_data, C76_attachment: the data, and what each attachment yields, are the same after reopening; C76_packed: the library keeps the condition of C76_data, C76_not_packed: the condition is needed. Entries with an empty custom key are excluded between sessions as in C74."
  },
  {
   "property": "C77",
   "status": "proved",
   "theorems": [
    "Verif.Props.C77_filed",
    "Verif.Props.C77_opened",
    "Verif.Props.C77_step",
    "Verif.Props.C77_run"
   ],
   "note": "C77_step: one call; C77_run: any number of calls refine the machine; C77_filed, C77_opened: attachments and lists of data stay filed under all calls of C52, from any opened file in which they are. For reindex the machine says how many entries may stand before the entry and which order the others have; the exact place is C51. delete_binary asks that every attachment has a number. Refused calls are in the machine as Task.refuse; C82_covered says which calls are not."
  },
  {
   "property": "C78",
   "status": "proved",
   "theorems": [
    "Verif.Props.C78_session",
    "Verif.Props.C78_sessions"
   ],
   "note": "C78_session: one session, with the save under any credentials; C78_sessions: any number of sessions. Entries with an empty custom key are excluded between sessions as in C74."
  },
  {
   "property": "C79",
   "status": "proved",
   "theorems": [
    "Verif.Props.C79_opens",
    "Verif.Props.C79_nothing",
    "Verif.Props.C79_truncates"
   ],
   "note": "A finding: the English property a user would expect (an unsupported version is refused) does not hold; C79_opens, C79_nothing and C79_truncates state what happens instead."
  },
  {
   "property": "C80",
   "status": "proved",
   "theorems": [
    "Verif.Props.C80_header",
    "Verif.Props.C80_cut",
    "Verif.Props.C80_saved",
    "Verif.Props.C80_kdbx3"
   ],
   "note": "C80_cut needs no law of the primitives. For KDBX3 the blocks are inside the encrypted part, so C80_kdbx3 speaks of what the shortened part decrypts to."
  },
  {
   "property": "C81",
   "status": "proved",
   "theorems": [
    "Verif.Props.C81_wrong"
   ],
   "note": "Wrong lists the malformed fields with their exceptions; C81_wrong is the theorem for all of them."
  },
  {
   "property": "C82",
   "status": "proved",
   "theorems": [
    "Verif.Props.C82_step",
    "Verif.Props.C82_unchanged",
    "Verif.Props.C82_lost",
    "Verif.Props.C82_covered",
    "Verif.Props.C82_run",
    "Verif.Props.C82_call"
   ],
   "note": "C82_step: what a refused call does; C82_unchanged: those that write nothing first; C82_lost: standard fields. C82_covered, C82_call, C82_run: every call and every sequence of calls is one of the machine if Call.Met holds: attachments belong to an entry, titles and user names of new entries are plain, reindexed entries are in a group, bins can be made, numbers of data are not negative. Deleting an element that is in no list is said to raise AttributeError or to change nothing that can be seen."
  },
  {
   "property": "C83",
   "status": "proved",
   "theorems": [
    "Verif.Props.C83_absolute",
    "Verif.Props.C83_relative",
    "Verif.Props.C83_named",
    "Verif.Props.C83_first",
    "Verif.Props.C83_unique",
    "Verif.Props.C83_cast"
   ],
   "note": "Spec/Query: parts of a path, their spelling and where they lead on the heap view. C83_absolute, C83_relative, C83_named: the three ways a path begins; C83_first, C83_cast: the options; C83_unique: the conditions determine the result. The reading and evaluation of paths is libxml2 as modelled in XPath/Syntax and XPath/Eval. Paths outside this form are not covered."
  },
  {
   "property": "C84",
   "status": "proved",
   "theorems": [
    "Verif.Props.C84_layout",
    "Verif.Props.C84_blank",
    "Verif.Props.C84_bytes",
    "Verif.Props.C84_header",
    "Verif.Props.C84_key",
    "Verif.Props.C84_same_keys"
   ],
   "note": "Spec/Shipped copies the 253 bytes of the header of /repo/pykeepass/blank_database.kdbx; C84_layout says what they mean in terms of the layout of C27, and C84_blank that the hypothesis of C18 about the version holds. C84_bytes, C84_header: all files in FromPackage (made by create_database, then any number of cycles of C04). C84_key, C84_same_keys: the keys. That the encrypted rest of the file opens with its password stays a hypothesis (Shipped)."
  },
  {
   "property": "C85",
   "status": "proved",
   "theorems": [
    "Verif.Props.C85_ignored",
    "Verif.Props.C85_values",
    "Verif.Props.C85_path",
    "Verif.Props.C85_string",
    "Verif.Props.C85_uuid",
    "Verif.Props.C85_tags",
    "Verif.Props.C85_unknown"
   ],
   "note": "XPath/Given puts None before the search of Find. C85_values: without None it is that search. C85_ignored: attributes. C85_string, C85_uuid, C85_tags, C85_unknown: what raises what. C85_path: with a path."
  },
  {
   "property": "C86",
   "status": "proved",
   "theorems": [
    "Verif.Props.C86_complete",
    "Verif.Props.C86_undisturbed",
    "Verif.Props.C86_readers",
    "Verif.Props.C86_no_leftovers",
    "Verif.Props.C86_any_order",
    "Verif.Props.C86_sessions",
    "Verif.Props.C86_alone",
    "Verif.Props.C86_in_turn",
    "Verif.Props.C86_not_overlapping",
    "Verif.Props.C86_wrong_database"
   ],
   "note": "Session/Share: names, inodes and system calls. C86_complete, C86_undisturbed, C86_readers, C86_no_leftovers: for every interleaving in which saves with one temporary file take turns. C86_any_order, C86_in_turn: interleavings that qualify. C86_sessions: in terms of save. C86_alone: one program alone is the save of C11. Findings: C86_not_overlapping, C86_wrong_database."
  },
  {
   "property": "C87",
   "status": "proved",
   "theorems": [
    "Verif.Props.C87_ascii",
    "Verif.Props.C87_whole",
    "Verif.Props.C87_declared",
    "Verif.Props.C87_element",
    "Verif.Props.C87_in_clear",
    "Verif.Props.C87_dump",
    "Verif.Props.C87_other_files",
    "Verif.Props.C87_not_crash_safe",
    "Verif.Props.C87_refused",
    "Verif.Props.C87_header_only",
    "Verif.Props.C87_not_a_database"
   ],
   "note": "Tree/Pretty: libxml2 output with indentation, read back by the parser of Tree. C87_whole, C87_element: read back as the tree. C87_in_clear: every text literally in it. C87_dump, C87_other_files: dump_xml. Findings: C87_not_crash_safe, C87_refused, C87_header_only, C87_not_a_database."
  },
  {
   "property": "C88",
   "status": "proved",
   "theorems": [
    "Verif.Props.C88_file",
    "Verif.Props.C88_crash",
    "Verif.Props.C88_reload",
    "Verif.Props.C88_locked_out",
    "Verif.Props.C88_last_save_wins",
    "Verif.Props.C88_lost_update"
   ],
   "note": "Spec/Crowd: acts of C69 done by any of several objects, opened at any time. C88_file, C88_crash: the file at every moment. C88_reload, C88_locked_out: reload. Findings: C88_last_save_wins, C88_lost_update. Acts are done one after the other; overlapping saves are in C86."
  },
  {
   "property": "C89",
   "status": "proved",
   "theorems": [
    "Verif.Props.C89_constants",
    "Verif.Props.C89_padding",
    "Verif.Props.C89_sbox",
    "Verif.Props.C89_aes",
    "Verif.Props.C89_lawful",
    "Verif.Props.C89_roundtrip4",
    "Verif.Props.C89_roundtrip3"
   ],
   "note": "Crypto/Aes, Sha2, Stream: the published algorithms, with their test vectors as examples. C89_aes, C89_lawful: the laws of Prims.Lawful. C89_roundtrip4, C89_roundtrip3: C01 and C02 for them. That the C libraries implement these algorithms is part of the trusted base. C89_constants, C89_padding, C89_sbox: constants, padding and S-box are those the standards define."
  },
  {
   "property": "C90",
   "status": "proved",
   "theorems": [
    "Verif.Props.C90_shipped",
    "Verif.Props.C90_content",
    "Verif.Props.C90_no_entries",
    "Verif.Props.C90_answers",
    "Verif.Props.C90_life"
   ],
   "note": "The content of blank_database.kdbx is a literal (shippedTree), got by evaluating the model on the file (tools/realfiles); that the file opens to it is a hypothesis (Package). C90_shipped: the hypotheses of C18 and C84 follow. C90_content: the file that is written. C90_answers, C90_no_entries: what properties and searches give. C90_life: later sessions. The example makes a package with the toy algorithms and shows that create_database returns."
  },
  {
   "property": "C91",
   "status": "proved",
   "theorems": [
    "Verif.Props.C91_first",
    "Verif.Props.C91_three",
    "Verif.Props.C91_argon2",
    "Verif.Props.C91_aes",
    "Verif.Props.C91_given",
    "Verif.Props.C91_inner"
   ],
   "note": "C91_first: key derivation fails before verification. C91_argon2, C91_aes, C91_three: each fault with its exception, and the key that results from good parameters. C91_given: a transformed key. C91_inner: faults of the inner header (InnerWrong). Argon2 itself is a parameter of the model; what it refuses is its own."
  },
  {
   "property": "C92",
   "status": "proved",
   "theorems": [
    "Verif.Props.C92_ordered",
    "Verif.Props.C92_seen",
    "Verif.Props.C92_not_durable",
    "Verif.Props.C92_not_unordered",
    "Verif.Props.C92_alone",
    "Verif.Props.C92_sessions"
   ],
   "note": "Session/Power lists the changes of a save in the order of the system calls; C92_alone ties them to the program of C86 and so to the save of C11. Ordered: what may have reached the medium. C92_ordered, C92_sessions: databases are complete. C92_seen: without a failure. C92_not_durable, C92_not_unordered: findings. Refusals of the operating system, and shutil.move copying instead of renaming, are in C11."
  },
  {
   "property": "C93",
   "status": "proved",
   "theorems": [
    "Verif.Props.C93_reads",
    "Verif.Props.C93_sound",
    "Verif.Props.C93_one",
    "Verif.Props.C93_refused",
    "Verif.Props.C93_truncated",
    "Verif.Props.C93_stored",
    "Verif.Props.C93_lawful",
    "Verif.Props.C93_unconditional",
    "Verif.Props.C93_writers4",
    "Verif.Props.C93_writers3",
    "Verif.Props.C93_lengths",
    "Verif.Props.C93_distances",
    "Verif.Props.C93_all_lengths",
    "Verif.Props.C93_all_distances",
    "Verif.Props.C93_usable",
    "Verif.Props.C93_codes",
    "Verif.Props.C93_prefix_free",
    "Verif.Props.C93_fixed",
    "Verif.Props.C93_order",
    "Verif.Props.C93_checksum",
    "Verif.Props.C93_trailer"
   ],
   "note": "C93_reads, C93_sound: the decoder is equivalent to the relation IsGzip; C93_one, C93_truncated follow. C93_lawful, C93_unconditional: the laws of Prims.Lawful; C93_writers4, C93_writers3: C01 and C02 between programs with different compressors. C93_lengths, C93_distances, C93_usable, C93_codes, C93_fixed, C93_order, C93_checksum: the tables and functions that IsGzip shares with the decoder, described without it. Examples: files written by zlib, tables of the RFCs."
  }
 ]
}
