import Verif.Props.C01_Kdbx4RoundTrip
import Verif.Props.C02_Kdbx3RoundTrip
import Verif.Props.C03_Save
import Verif.Props.C04_HeaderVerbatim
import Verif.Props.C05_WrongCredentials
import Verif.Props.C06_Signature
import Verif.Props.C07_HeaderHash
import Verif.Props.C08_BlockIntegrity4
import Verif.Props.C09_BlockIntegrity3
import Verif.Props.C10_HeaderOnly
import Verif.Props.C11_Copy
import Verif.Props.C11_CrashSafeSave
import Verif.Props.C12_FailingSave
import Verif.Props.C13_FailingRead
import Verif.Props.C14_TransformedKey
import Verif.Props.C15_Keyfiles
import Verif.Props.C16_KeyfileStream
import Verif.Props.C17_TrailingBytes
import Verif.Props.C18_Create
import Verif.Props.C19_Base64
import Verif.Props.C20_Element
import Verif.Props.C20_Kdbx4Times
import Verif.Props.C21_Element
import Verif.Props.C21_Forms
import Verif.Props.C21_Kdbx3Times
import Verif.Props.C22_TwofishInverse
import Verif.Props.C23_Object
import Verif.Props.C23_TwofishCbc
import Verif.Props.C24_PaddingAndBlocks
import Verif.Props.C25_ProtectedValues
import Verif.Props.C26_InnerHeader
import Verif.Props.C27_HeaderFields
import Verif.Props.C28_FindEntries
import Verif.Props.C29_FindGroups
import Verif.Props.C30_Path
import Verif.Props.C31_Scope
import Verif.Props.C32_History
import Verif.Props.C33_First
import Verif.Props.C34_Data
import Verif.Props.C35_Fields
import Verif.Props.C36_Protection
import Verif.Props.C37_CustomProps
import Verif.Props.C38_Tags
import Verif.Props.C39_AddEntry
import Verif.Props.C39_Expiry
import Verif.Props.C40_Duplicates
import Verif.Props.C41_Delete
import Verif.Props.C42_Move
import Verif.Props.C43_Trash
import Verif.Props.C44_EmptyGroup
import Verif.Props.C45_History
import Verif.Props.C46_DeleteHistory
import Verif.Props.C47_AddBinary
import Verif.Props.C48_DeleteBinary
import Verif.Props.C49_Attachments
import Verif.Props.C50_Paths
import Verif.Props.C51_Any
import Verif.Props.C51_Reindex
import Verif.Props.C52_Structure
import Verif.Props.C53_Identity
import Verif.Props.C54_Deref
import Verif.Props.C55_Empty
import Verif.Props.C55_Expiry
import Verif.Props.C56_Times
import Verif.Props.C57_Regex
import Verif.Props.C58_ReportedAlgorithms
import Verif.Props.C59_Metadata
import Verif.Props.C60_TwofishSpec
import Verif.Props.C61_Format
import Verif.Props.C62_Streams
import Verif.Props.C63_AddGroup
import Verif.Props.C64_Calls
import Verif.Props.C65_Deprecated
import Verif.Props.C66_Printing
import Verif.Props.C67_Attributes
import Verif.Props.C68_Lists
import Verif.Props.C69_Life
import Verif.Props.C70_Resave
import Verif.Props.C71_Vault
import Verif.Props.C72_Missing
import Verif.Props.C73_Attachments
import Verif.Props.C73_SearchCards
import Verif.Props.C74_VaultFile
import Verif.Props.C75_Desk
import Verif.Props.C76_Office
import Verif.Props.C77_Whole
import Verif.Props.C78_WholeFile
import Verif.Props.C79_OtherVersions
import Verif.Props.C80_Cut
import Verif.Props.C81_Malformed
import Verif.Props.C82_Refused
import Verif.Props.C83_Queries
import Verif.Props.C84_Shipped
import Verif.Props.C85_None
import Verif.Props.C86_Together
import Verif.Props.C87_Ascii
import Verif.Props.C87_Export
import Verif.Props.C88_Crowd
import Verif.Props.C89_Constants
import Verif.Props.C89_Standard
import Verif.Props.C90_New
import Verif.Props.C91_Derivation
import Verif.Props.C92_Power
import Verif.Props.C93_Gzip
import Verif.Props.C93_Tables
/-!
# The axioms the property theorems depend on

Written by `tools/audit.py`. The build fails if a theorem named in `MANIFEST.json` does not exist or depends on other axioms
than stated here.
-/

/-- info: 'Verif.Props.C01_roundtrip' depends on axioms: [propext, Classical.choice, Quot.sound] -/
#guard_msgs (whitespace := lax) in #print axioms Verif.Props.C01_roundtrip

/-- info: 'Verif.Props.C01_save_succeeds' depends on axioms: [propext, Classical.choice, Quot.sound] -/
#guard_msgs (whitespace := lax) in #print axioms Verif.Props.C01_save_succeeds

/-- info: 'Verif.Props.C01_same_credentials' depends on axioms: [propext, Classical.choice, Quot.sound] -/
#guard_msgs (whitespace := lax) in #print axioms Verif.Props.C01_same_credentials

/-- info: 'Verif.Props.C02_roundtrip' depends on axioms: [propext, Classical.choice, Quot.sound] -/
#guard_msgs (whitespace := lax) in #print axioms Verif.Props.C02_roundtrip

/-- info: 'Verif.Props.C02_save_succeeds' depends on axioms: [propext, Classical.choice, Quot.sound] -/
#guard_msgs (whitespace := lax) in #print axioms Verif.Props.C02_save_succeeds

/-- info: 'Verif.Props.C02_same_credentials' depends on axioms: [propext, Classical.choice, Quot.sound] -/
#guard_msgs (whitespace := lax) in #print axioms Verif.Props.C02_same_credentials

/-- info: 'Verif.Props.C03_encode' depends on axioms: [propext, Classical.choice, Quot.sound] -/
#guard_msgs (whitespace := lax) in #print axioms Verif.Props.C03_encode

/-- info: 'Verif.Props.C03_dump' depends on axioms: [propext, Classical.choice, Quot.sound] -/
#guard_msgs (whitespace := lax) in #print axioms Verif.Props.C03_dump

/-- info: 'Verif.Props.C03_same' depends on axioms: [propext, Classical.choice, Quot.sound] -/
#guard_msgs (whitespace := lax) in #print axioms Verif.Props.C03_same

/-- info: 'Verif.Props.C04_save' depends on axioms: [propext, Classical.choice, Quot.sound] -/
#guard_msgs (whitespace := lax) in #print axioms Verif.Props.C04_save

/-- info: 'Verif.Props.C04_cycles' depends on axioms: [propext, Classical.choice, Quot.sound] -/
#guard_msgs (whitespace := lax) in #print axioms Verif.Props.C04_cycles

/-- info: 'Verif.Props.C04_no_refresh' depends on axioms: [propext, Classical.choice, Quot.sound] -/
#guard_msgs (whitespace := lax) in #print axioms Verif.Props.C04_no_refresh

/-- info: 'Verif.Props.C04_two_time_pad' depends on axioms: [propext, Classical.choice, Quot.sound] -/
#guard_msgs (whitespace := lax) in #print axioms Verif.Props.C04_two_time_pad

/-- info: 'Verif.Props.C05_kdbx4' depends on axioms: [propext, Classical.choice, Quot.sound] -/
#guard_msgs (whitespace := lax) in #print axioms Verif.Props.C05_kdbx4

/-- info: 'Verif.Props.C05_kdbx4_opened' depends on axioms: [propext, Classical.choice, Quot.sound] -/
#guard_msgs (whitespace := lax) in #print axioms Verif.Props.C05_kdbx4_opened

/-- info: 'Verif.Props.C05_kdbx3' depends on axioms: [propext, Classical.choice, Quot.sound] -/
#guard_msgs (whitespace := lax) in #print axioms Verif.Props.C05_kdbx3

/-- info: 'Verif.Props.C05_kdbx3_opened' depends on axioms: [propext, Classical.choice, Quot.sound] -/
#guard_msgs (whitespace := lax) in #print axioms Verif.Props.C05_kdbx3_opened

/-- info: 'Verif.Props.C05_kdbx3_length' depends on axioms: [propext, Classical.choice, Quot.sound] -/
#guard_msgs (whitespace := lax) in #print axioms Verif.Props.C05_kdbx3_length

/-- info: 'Verif.Props.C06_rejected' depends on axioms: [propext, Classical.choice, Quot.sound] -/
#guard_msgs (whitespace := lax) in #print axioms Verif.Props.C06_rejected

/-- info: 'Verif.Props.C06_opened' depends on axioms: [propext, Classical.choice, Quot.sound] -/
#guard_msgs (whitespace := lax) in #print axioms Verif.Props.C06_opened

/-- info: 'Verif.Props.C07_rejected' depends on axioms: [propext, Classical.choice, Quot.sound] -/
#guard_msgs (whitespace := lax) in #print axioms Verif.Props.C07_rejected

/-- info: 'Verif.Props.C07_never_opens' depends on axioms: [propext, Classical.choice, Quot.sound] -/
#guard_msgs (whitespace := lax) in #print axioms Verif.Props.C07_never_opens

/-- info: 'Verif.Props.C07_keyfile_first' depends on axioms: [propext, Classical.choice, Quot.sound] -/
#guard_msgs (whitespace := lax) in #print axioms Verif.Props.C07_keyfile_first

/-- info: 'Verif.Props.C07_corrupted' depends on axioms: [propext, Classical.choice, Quot.sound] -/
#guard_msgs (whitespace := lax) in #print axioms Verif.Props.C07_corrupted

/-- info: 'Verif.Props.C07_opened' depends on axioms: [propext, Classical.choice, Quot.sound] -/
#guard_msgs (whitespace := lax) in #print axioms Verif.Props.C07_opened

/-- info: 'Verif.Props.C07_opened_header_only' depends on axioms: [propext, Classical.choice, Quot.sound] -/
#guard_msgs (whitespace := lax) in #print axioms Verif.Props.C07_opened_header_only

/-- info: 'Verif.Props.C08_accepted_iff' depends on axioms: [propext, Quot.sound] -/
#guard_msgs (whitespace := lax) in #print axioms Verif.Props.C08_accepted_iff

/-- info: 'Verif.Props.C08_integrity' depends on axioms: [propext, Quot.sound] -/
#guard_msgs (whitespace := lax) in #print axioms Verif.Props.C08_integrity

/-- info: 'Verif.Props.C08_written_unforged' depends on axioms: [propext, Quot.sound] -/
#guard_msgs (whitespace := lax) in #print axioms Verif.Props.C08_written_unforged

/-- info: 'Verif.Props.C08_bad_mac' depends on axioms: [propext, Classical.choice, Quot.sound] -/
#guard_msgs (whitespace := lax) in #print axioms Verif.Props.C08_bad_mac

/-- info: 'Verif.Props.C09_accepted_iff' depends on axioms: [propext, Quot.sound] -/
#guard_msgs (whitespace := lax) in #print axioms Verif.Props.C09_accepted_iff

/-- info: 'Verif.Props.C09_opened' depends on axioms: [propext, Classical.choice, Quot.sound] -/
#guard_msgs (whitespace := lax) in #print axioms Verif.Props.C09_opened

/-- info: 'Verif.Props.C09_bad_hash' depends on axioms: [propext, Classical.choice, Quot.sound] -/
#guard_msgs (whitespace := lax) in #print axioms Verif.Props.C09_bad_hash

/-- info: 'Verif.Props.C09_bad_index' depends on axioms: [propext, Classical.choice, Quot.sound] -/
#guard_msgs (whitespace := lax) in #print axioms Verif.Props.C09_bad_index

/-- info: 'Verif.Props.C10_opens4' depends on axioms: [propext, Classical.choice, Quot.sound] -/
#guard_msgs (whitespace := lax) in #print axioms Verif.Props.C10_opens4

/-- info: 'Verif.Props.C10_opens3' depends on axioms: [propext, Classical.choice, Quot.sound] -/
#guard_msgs (whitespace := lax) in #print axioms Verif.Props.C10_opens3

/-- info: 'Verif.Props.C10_any_password' depends on axioms: [propext, Classical.choice, Quot.sound] -/
#guard_msgs (whitespace := lax) in #print axioms Verif.Props.C10_any_password

/-- info: 'Verif.Props.C10_cannot_build' depends on axioms: [propext, Classical.choice, Quot.sound] -/
#guard_msgs (whitespace := lax) in #print axioms Verif.Props.C10_cannot_build

/-- info: 'Verif.Props.C10_save_fails' depends on axioms: [propext, Classical.choice, Quot.sound] -/
#guard_msgs (whitespace := lax) in #print axioms Verif.Props.C10_save_fails

/-- info: 'Verif.Props.C11_recoverable' depends on axioms: [propext, Classical.choice, Quot.sound] -/
#guard_msgs (whitespace := lax) in #print axioms Verif.Props.C11_recoverable

/-- info: 'Verif.Props.C11_copied' depends on axioms: [propext, Classical.choice, Quot.sound] -/
#guard_msgs (whitespace := lax) in #print axioms Verif.Props.C11_copied

/-- info: 'Verif.Props.C11_crash_safe' depends on axioms: [propext, Classical.choice, Quot.sound] -/
#guard_msgs (whitespace := lax) in #print axioms Verif.Props.C11_crash_safe

/-- info: 'Verif.Props.C11_completed' depends on axioms: [propext, Classical.choice, Quot.sound] -/
#guard_msgs (whitespace := lax) in #print axioms Verif.Props.C11_completed

/-- info: 'Verif.Props.C11_not_for_tmp' depends on axioms: [propext, Classical.choice, Quot.sound] -/
#guard_msgs (whitespace := lax) in #print axioms Verif.Props.C11_not_for_tmp

/-- info: 'Verif.Props.C11_not_without_rename' depends on axioms: [propext, Classical.choice, Quot.sound] -/
#guard_msgs (whitespace := lax) in #print axioms Verif.Props.C11_not_without_rename

/-- info: 'Verif.Props.C11_destroys_tmp' depends on axioms: [propext, Classical.choice, Quot.sound] -/
#guard_msgs (whitespace := lax) in #print axioms Verif.Props.C11_destroys_tmp

/-- info: 'Verif.Props.C12_build_fails' depends on axioms: [propext, Classical.choice, Quot.sound] -/
#guard_msgs (whitespace := lax) in #print axioms Verif.Props.C12_build_fails

/-- info: 'Verif.Props.C12_target_kept' depends on axioms: [propext, Classical.choice, Quot.sound] -/
#guard_msgs (whitespace := lax) in #print axioms Verif.Props.C12_target_kept

/-- info: 'Verif.Props.C12_write_fails' depends on axioms: [propext, Classical.choice, Quot.sound] -/
#guard_msgs (whitespace := lax) in #print axioms Verif.Props.C12_write_fails

/-- info: 'Verif.Props.C12_open_fails' depends on axioms: [propext, Classical.choice, Quot.sound] -/
#guard_msgs (whitespace := lax) in #print axioms Verif.Props.C12_open_fails

/-- info: 'Verif.Props.C12_not_for_tmp' depends on axioms: [propext, Classical.choice, Quot.sound] -/
#guard_msgs (whitespace := lax) in #print axioms Verif.Props.C12_not_for_tmp

/-- info: 'Verif.Props.C12_not_for_streams' depends on axioms: [propext, Classical.choice, Quot.sound] -/
#guard_msgs (whitespace := lax) in #print axioms Verif.Props.C12_not_for_streams

/-- info: 'Verif.Props.C13_content_kept' depends on axioms: [propext, Classical.choice, Quot.sound] -/
#guard_msgs (whitespace := lax) in #print axioms Verif.Props.C13_content_kept

/-- info: 'Verif.Props.C13_saved_content' depends on axioms: [propext, Classical.choice, Quot.sound] -/
#guard_msgs (whitespace := lax) in #print axioms Verif.Props.C13_saved_content

/-- info: 'Verif.Props.C13_credentials_changed' depends on axioms: [propext, Classical.choice, Quot.sound] -/
#guard_msgs (whitespace := lax) in #print axioms Verif.Props.C13_credentials_changed

/-- info: 'Verif.Props.C13_success' depends on axioms: [propext, Classical.choice, Quot.sound] -/
#guard_msgs (whitespace := lax) in #print axioms Verif.Props.C13_success

/-- info: 'Verif.Props.C14_open4' depends on axioms: [propext, Classical.choice, Quot.sound] -/
#guard_msgs (whitespace := lax) in #print axioms Verif.Props.C14_open4

/-- info: 'Verif.Props.C14_open3' depends on axioms: [propext, Classical.choice, Quot.sound] -/
#guard_msgs (whitespace := lax) in #print axioms Verif.Props.C14_open3

/-- info: 'Verif.Props.C14_cached' depends on axioms: [propext, Classical.choice, Quot.sound] -/
#guard_msgs (whitespace := lax) in #print axioms Verif.Props.C14_cached

/-- info: 'Verif.Props.C14_save4' depends on axioms: [propext, Classical.choice, Quot.sound] -/
#guard_msgs (whitespace := lax) in #print axioms Verif.Props.C14_save4

/-- info: 'Verif.Props.C14_save3' depends on axioms: [propext, Classical.choice, Quot.sound] -/
#guard_msgs (whitespace := lax) in #print axioms Verif.Props.C14_save3

/-- info: 'Verif.Props.C14_save_without_key' depends on axioms: [propext, Classical.choice, Quot.sound] -/
#guard_msgs (whitespace := lax) in #print axioms Verif.Props.C14_save_without_key

/-- info: 'Verif.Props.C15_formats' depends on axioms: [propext, Classical.choice, Quot.sound] -/
#guard_msgs (whitespace := lax) in #print axioms Verif.Props.C15_formats

/-- info: 'Verif.Props.C15_composite' depends on axioms: [propext, Classical.choice, Quot.sound] -/
#guard_msgs (whitespace := lax) in #print axioms Verif.Props.C15_composite

/-- info: 'Verif.Props.C15_other' depends on axioms: [propext, Classical.choice, Quot.sound] -/
#guard_msgs (whitespace := lax) in #print axioms Verif.Props.C15_other

/-- info: 'Verif.Props.C15_other_xml' depends on axioms: [propext, Classical.choice, Quot.sound] -/
#guard_msgs (whitespace := lax) in #print axioms Verif.Props.C15_other_xml

/-- info: 'Verif.Props.C15_wrong_hash' depends on axioms: [propext, Classical.choice, Quot.sound] -/
#guard_msgs (whitespace := lax) in #print axioms Verif.Props.C15_wrong_hash

/-- info: 'Verif.Props.C15_none_vs_empty' depends on axioms: [propext, Quot.sound] -/
#guard_msgs (whitespace := lax) in #print axioms Verif.Props.C15_none_vs_empty

/-- info: 'Verif.Props.C15_password_is_keyfile' depends on axioms: [propext, Classical.choice, Quot.sound] -/
#guard_msgs (whitespace := lax) in #print axioms Verif.Props.C15_password_is_keyfile

/-- info: 'Verif.Props.C15_hex_prefix_fails' depends on axioms: [propext, Classical.choice, Quot.sound] -/
#guard_msgs (whitespace := lax) in #print axioms Verif.Props.C15_hex_prefix_fails

/-- info: 'Verif.Props.C15_malformed_xml' depends on axioms: [propext, Classical.choice, Quot.sound] -/
#guard_msgs (whitespace := lax) in #print axioms Verif.Props.C15_malformed_xml

/-- info: 'Verif.Props.C16_position_irrelevant' depends on axioms: [propext, Classical.choice, Quot.sound] -/
#guard_msgs (whitespace := lax) in #print axioms Verif.Props.C16_position_irrelevant

/-- info: 'Verif.Props.C16_repeated' depends on axioms: [propext, Classical.choice, Quot.sound] -/
#guard_msgs (whitespace := lax) in #print axioms Verif.Props.C16_repeated

/-- info: 'Verif.Props.C16_not_seekable' depends on axioms: [propext, Classical.choice, Quot.sound] -/
#guard_msgs (whitespace := lax) in #print axioms Verif.Props.C16_not_seekable

/-- info: 'Verif.Props.C16_aeskdf_reads_twice' depends on axioms: [propext, Classical.choice, Quot.sound] -/
#guard_msgs (whitespace := lax) in #print axioms Verif.Props.C16_aeskdf_reads_twice

/-- info: 'Verif.Props.C17_ignored' depends on axioms: [propext, Classical.choice, Quot.sound] -/
#guard_msgs (whitespace := lax) in #print axioms Verif.Props.C17_ignored

/-- info: 'Verif.Props.C17_ignored_header_only' depends on axioms: [propext, Classical.choice, Quot.sound] -/
#guard_msgs (whitespace := lax) in #print axioms Verif.Props.C17_ignored_header_only

/-- info: 'Verif.Props.C17_shorter_over_longer' depends on axioms: [propext, Classical.choice, Quot.sound] -/
#guard_msgs (whitespace := lax) in #print axioms Verif.Props.C17_shorter_over_longer

/-- info: 'Verif.Props.C17_not_for_kdbx3' depends on axioms: [propext, Classical.choice, Quot.sound] -/
#guard_msgs (whitespace := lax) in #print axioms Verif.Props.C17_not_for_kdbx3

/-- info: 'Verif.Props.C18_file' depends on axioms: [propext, Classical.choice, Quot.sound] -/
#guard_msgs (whitespace := lax) in #print axioms Verif.Props.C18_file

/-- info: 'Verif.Props.C18_stream' depends on axioms: [propext, Classical.choice, Quot.sound] -/
#guard_msgs (whitespace := lax) in #print axioms Verif.Props.C18_stream

/-- info: 'Verif.Props.C18_transformed_key' depends on axioms: [propext, Classical.choice, Quot.sound] -/
#guard_msgs (whitespace := lax) in #print axioms Verif.Props.C18_transformed_key

/-- info: 'Verif.Props.C18_succeeds' depends on axioms: [propext, Classical.choice, Quot.sound] -/
#guard_msgs (whitespace := lax) in #print axioms Verif.Props.C18_succeeds

/-- info: 'Verif.Props.C18_exactly' depends on axioms: [propext, Classical.choice, Quot.sound] -/
#guard_msgs (whitespace := lax) in #print axioms Verif.Props.C18_exactly

/-- info: 'Verif.Props.C19_bytes' depends on axioms: [propext, Quot.sound] -/
#guard_msgs (whitespace := lax) in #print axioms Verif.Props.C19_bytes

/-- info: 'Verif.Props.C19_format' depends on axioms: [propext, Classical.choice, Quot.sound] -/
#guard_msgs (whitespace := lax) in #print axioms Verif.Props.C19_format

/-- info: 'Verif.Props.C19_uuid' depends on axioms: [propext, Classical.choice, Quot.sound] -/
#guard_msgs (whitespace := lax) in #print axioms Verif.Props.C19_uuid

/-- info: 'Verif.Props.C19_binary' depends on axioms: [propext, Classical.choice, Quot.sound] -/
#guard_msgs (whitespace := lax) in #print axioms Verif.Props.C19_binary

/-- info: 'Verif.Props.C20_element' depends on axioms: [propext, Classical.choice, Quot.sound] -/
#guard_msgs (whitespace := lax) in #print axioms Verif.Props.C20_element

/-- info: 'Verif.Props.C20_calendar' depends on axioms: [propext, Quot.sound] -/
#guard_msgs (whitespace := lax) in #print axioms Verif.Props.C20_calendar

/-- info: 'Verif.Props.C20_roundtrip' depends on axioms: [propext, Classical.choice, Quot.sound] -/
#guard_msgs (whitespace := lax) in #print axioms Verif.Props.C20_roundtrip

/-- info: 'Verif.Props.C20_whole_seconds' depends on axioms: [propext, Classical.choice, Quot.sound] -/
#guard_msgs (whitespace := lax) in #print axioms Verif.Props.C20_whole_seconds

/-- info: 'Verif.Props.C20_whole_seconds_utc' depends on axioms: [propext, Classical.choice, Quot.sound] -/
#guard_msgs (whitespace := lax) in #print axioms Verif.Props.C20_whole_seconds_utc

/-- info: 'Verif.Props.C20_truncation' depends on axioms: [propext, Classical.choice, Quot.sound] -/
#guard_msgs (whitespace := lax) in #print axioms Verif.Props.C20_truncation

/-- info: 'Verif.Props.C20_not_truncated' depends on axioms: [propext, Classical.choice, Quot.sound] -/
#guard_msgs (whitespace := lax) in #print axioms Verif.Props.C20_not_truncated

/-- info: 'Verif.Props.C20_datetime_max' depends on axioms: [propext, Classical.choice, Quot.sound] -/
#guard_msgs (whitespace := lax) in #print axioms Verif.Props.C20_datetime_max

/-- info: 'Verif.Props.C20_before_year_one' depends on axioms: [propext, Classical.choice, Quot.sound] -/
#guard_msgs (whitespace := lax) in #print axioms Verif.Props.C20_before_year_one

/-- info: 'Verif.Props.C20_naive' depends on axioms: [propext, Classical.choice, Quot.sound] -/
#guard_msgs (whitespace := lax) in #print axioms Verif.Props.C20_naive

/-- info: 'Verif.Props.C20_iso_z' depends on axioms: [propext, Classical.choice, Quot.sound] -/
#guard_msgs (whitespace := lax) in #print axioms Verif.Props.C20_iso_z

/-- info: 'Verif.Props.C21_element' depends on axioms: [propext, Classical.choice, Quot.sound] -/
#guard_msgs (whitespace := lax) in #print axioms Verif.Props.C21_element

/-- info: 'Verif.Props.C21_forms' depends on axioms: [propext, Classical.choice, Quot.sound] -/
#guard_msgs (whitespace := lax) in #print axioms Verif.Props.C21_forms

/-- info: 'Verif.Props.C21_date' depends on axioms: [propext, Classical.choice, Quot.sound] -/
#guard_msgs (whitespace := lax) in #print axioms Verif.Props.C21_date

/-- info: 'Verif.Props.C21_roundtrip' depends on axioms: [propext, Classical.choice, Quot.sound] -/
#guard_msgs (whitespace := lax) in #print axioms Verif.Props.C21_roundtrip

/-- info: 'Verif.Props.C21_utc' depends on axioms: [propext, Classical.choice, Quot.sound] -/
#guard_msgs (whitespace := lax) in #print axioms Verif.Props.C21_utc

/-- info: 'Verif.Props.C21_offset_dropped' depends on axioms: [propext, Classical.choice, Quot.sound] -/
#guard_msgs (whitespace := lax) in #print axioms Verif.Props.C21_offset_dropped

/-- info: 'Verif.Props.C21_z' depends on axioms: [propext, Classical.choice, Quot.sound] -/
#guard_msgs (whitespace := lax) in #print axioms Verif.Props.C21_z

/-- info: 'Verif.Props.C22_key_sizes' depends on axioms: [propext] -/
#guard_msgs (whitespace := lax) in #print axioms Verif.Props.C22_key_sizes

/-- info: 'Verif.Props.C22_decrypt_encrypt' depends on axioms: [propext, Classical.choice, Quot.sound] -/
#guard_msgs (whitespace := lax) in #print axioms Verif.Props.C22_decrypt_encrypt

/-- info: 'Verif.Props.C22_encrypt_decrypt' depends on axioms: [propext, Classical.choice, Quot.sound] -/
#guard_msgs (whitespace := lax) in #print axioms Verif.Props.C22_encrypt_decrypt

/-- info: 'Verif.Props.C22_bad_length' depends on axioms: [propext, Quot.sound] -/
#guard_msgs (whitespace := lax) in #print axioms Verif.Props.C22_bad_length

/-- info: 'Verif.Props.C23_only_cbc' depends on axioms: [propext] -/
#guard_msgs (whitespace := lax) in #print axioms Verif.Props.C23_only_cbc

/-- info: 'Verif.Props.C23_default_mode' depends on axioms: [propext] -/
#guard_msgs (whitespace := lax) in #print axioms Verif.Props.C23_default_mode

/-- info: 'Verif.Props.C23_not_made' depends on axioms: [propext, Quot.sound] -/
#guard_msgs (whitespace := lax) in #print axioms Verif.Props.C23_not_made

/-- info: 'Verif.Props.C23_final' depends on axioms: [propext, Classical.choice, Quot.sound] -/
#guard_msgs (whitespace := lax) in #print axioms Verif.Props.C23_final

/-- info: 'Verif.Props.C23_object' depends on axioms: [propext, Classical.choice, Quot.sound] -/
#guard_msgs (whitespace := lax) in #print axioms Verif.Props.C23_object

/-- info: 'Verif.Props.C23_final_loses' depends on axioms: [propext, Classical.choice, Quot.sound] -/
#guard_msgs (whitespace := lax) in #print axioms Verif.Props.C23_final_loses

/-- info: 'Verif.Props.C23_one_direction' depends on axioms: [propext, Classical.choice, Quot.sound] -/
#guard_msgs (whitespace := lax) in #print axioms Verif.Props.C23_one_direction

/-- info: 'Verif.Props.C23_chunking_encrypt' depends on axioms: [propext, Quot.sound] -/
#guard_msgs (whitespace := lax) in #print axioms Verif.Props.C23_chunking_encrypt

/-- info: 'Verif.Props.C23_chunking_decrypt' depends on axioms: [propext, Quot.sound] -/
#guard_msgs (whitespace := lax) in #print axioms Verif.Props.C23_chunking_decrypt

/-- info: 'Verif.Props.C23_roundtrip' depends on axioms: [propext, Classical.choice, Quot.sound] -/
#guard_msgs (whitespace := lax) in #print axioms Verif.Props.C23_roundtrip

/-- info: 'Verif.Props.C23_roundtrip_whole' depends on axioms: [propext, Classical.choice, Quot.sound] -/
#guard_msgs (whitespace := lax) in #print axioms Verif.Props.C23_roundtrip_whole

/-- info: 'Verif.Props.C23_matches_cbc' depends on axioms: [propext, Quot.sound] -/
#guard_msgs (whitespace := lax) in #print axioms Verif.Props.C23_matches_cbc

/-- info: 'Verif.Props.C23_refused' depends on axioms: [propext, Quot.sound] -/
#guard_msgs (whitespace := lax) in #print axioms Verif.Props.C23_refused

/-- info: 'Verif.Props.C24_pad' depends on axioms: [propext, Quot.sound] -/
#guard_msgs (whitespace := lax) in #print axioms Verif.Props.C24_pad

/-- info: 'Verif.Props.C24_unpad' depends on axioms: [propext, Quot.sound] -/
#guard_msgs (whitespace := lax) in #print axioms Verif.Props.C24_unpad

/-- info: 'Verif.Props.C24_pad_roundtrip' depends on axioms: [propext, Quot.sound] -/
#guard_msgs (whitespace := lax) in #print axioms Verif.Props.C24_pad_roundtrip

/-- info: 'Verif.Props.C24_unpad_only_padding' depends on axioms: [propext, Classical.choice, Quot.sound] -/
#guard_msgs (whitespace := lax) in #print axioms Verif.Props.C24_unpad_only_padding

/-- info: 'Verif.Props.C24_split_concat' depends on axioms: [propext, Quot.sound] -/
#guard_msgs (whitespace := lax) in #print axioms Verif.Props.C24_split_concat

/-- info: 'Verif.Props.C24_blocks' depends on axioms: [propext, Quot.sound] -/
#guard_msgs (whitespace := lax) in #print axioms Verif.Props.C24_blocks

/-- info: 'Verif.Props.C25_written' depends on axioms: [propext, Classical.choice, Quot.sound] -/
#guard_msgs (whitespace := lax) in #print axioms Verif.Props.C25_written

/-- info: 'Verif.Props.C25_read' depends on axioms: [propext, Classical.choice, Quot.sound] -/
#guard_msgs (whitespace := lax) in #print axioms Verif.Props.C25_read

/-- info: 'Verif.Props.C25_roundtrip' depends on axioms: [propext, Classical.choice, Quot.sound] -/
#guard_msgs (whitespace := lax) in #print axioms Verif.Props.C25_roundtrip

/-- info: 'Verif.Props.C25_file' depends on axioms: [propext, Classical.choice, Quot.sound] -/
#guard_msgs (whitespace := lax) in #print axioms Verif.Props.C25_file

/-- info: 'Verif.Props.C26_read' depends on axioms: [propext, Classical.choice, Quot.sound] -/
#guard_msgs (whitespace := lax) in #print axioms Verif.Props.C26_read

/-- info: 'Verif.Props.C26_roundtrip' depends on axioms: [propext, Classical.choice, Quot.sound] -/
#guard_msgs (whitespace := lax) in #print axioms Verif.Props.C26_roundtrip

/-- info: 'Verif.Props.C26_edited' depends on axioms: [propext, Classical.choice, Quot.sound] -/
#guard_msgs (whitespace := lax) in #print axioms Verif.Props.C26_edited

/-- info: 'Verif.Props.C27_header' depends on axioms: [propext, Classical.choice, Quot.sound] -/
#guard_msgs (whitespace := lax) in #print axioms Verif.Props.C27_header

/-- info: 'Verif.Props.C27_lookup' depends on axioms: [propext, Quot.sound] -/
#guard_msgs (whitespace := lax) in #print axioms Verif.Props.C27_lookup

/-- info: 'Verif.Props.C27_last_wins' depends on axioms: [propext, Quot.sound] -/
#guard_msgs (whitespace := lax) in #print axioms Verif.Props.C27_last_wins

/-- info: 'Verif.Props.C27_kdf' depends on axioms: [propext, Classical.choice, Quot.sound] -/
#guard_msgs (whitespace := lax) in #print axioms Verif.Props.C27_kdf

/-- info: 'Verif.Props.C28_find_entries' depends on axioms: [propext, Classical.choice, Quot.sound] -/
#guard_msgs (whitespace := lax) in #print axioms Verif.Props.C28_find_entries

/-- info: 'Verif.Props.C28_unknown_argument' depends on axioms: [propext, Classical.choice, Quot.sound] -/
#guard_msgs (whitespace := lax) in #print axioms Verif.Props.C28_unknown_argument

/-- info: 'Verif.Props.C29_find_groups' depends on axioms: [propext, Classical.choice, Quot.sound] -/
#guard_msgs (whitespace := lax) in #print axioms Verif.Props.C29_find_groups

/-- info: 'Verif.Props.C30_groups' depends on axioms: [propext, Classical.choice, Quot.sound] -/
#guard_msgs (whitespace := lax) in #print axioms Verif.Props.C30_groups

/-- info: 'Verif.Props.C30_entries' depends on axioms: [propext, Classical.choice, Quot.sound] -/
#guard_msgs (whitespace := lax) in #print axioms Verif.Props.C30_entries

/-- info: 'Verif.Props.C30_regex' depends on axioms: [propext, Classical.choice, Quot.sound] -/
#guard_msgs (whitespace := lax) in #print axioms Verif.Props.C30_regex

/-- info: 'Verif.Props.C30_filters_ignored' depends on axioms: [propext, Classical.choice, Quot.sound] -/
#guard_msgs (whitespace := lax) in #print axioms Verif.Props.C30_filters_ignored

/-- info: 'Verif.Props.C30_root_group' depends on axioms: [propext, Classical.choice, Quot.sound] -/
#guard_msgs (whitespace := lax) in #print axioms Verif.Props.C30_root_group

/-- info: 'Verif.Props.C30_attachments_return_group' depends on axioms: [propext, Classical.choice, Quot.sound] -/
#guard_msgs (whitespace := lax) in #print axioms Verif.Props.C30_attachments_return_group

/-- info: 'Verif.Props.C31_below' depends on axioms: [propext, Classical.choice, Quot.sound] -/
#guard_msgs (whitespace := lax) in #print axioms Verif.Props.C31_below

/-- info: 'Verif.Props.C31_children' depends on axioms: [propext, Classical.choice, Quot.sound] -/
#guard_msgs (whitespace := lax) in #print axioms Verif.Props.C31_children

/-- info: 'Verif.Props.C31_groups_below' depends on axioms: [propext, Classical.choice, Quot.sound] -/
#guard_msgs (whitespace := lax) in #print axioms Verif.Props.C31_groups_below

/-- info: 'Verif.Props.C31_groups_children' depends on axioms: [propext, Classical.choice, Quot.sound] -/
#guard_msgs (whitespace := lax) in #print axioms Verif.Props.C31_groups_children

/-- info: 'Verif.Props.C31_nothing' depends on axioms: [propext, Classical.choice, Quot.sound] -/
#guard_msgs (whitespace := lax) in #print axioms Verif.Props.C31_nothing

/-- info: 'Verif.Props.C32_hidden' depends on axioms: [propext, Classical.choice, Quot.sound] -/
#guard_msgs (whitespace := lax) in #print axioms Verif.Props.C32_hidden

/-- info: 'Verif.Props.C32_added' depends on axioms: [propext, Classical.choice, Quot.sound] -/
#guard_msgs (whitespace := lax) in #print axioms Verif.Props.C32_added

/-- info: 'Verif.Props.C32_path_hidden' depends on axioms: [propext, Classical.choice, Quot.sound] -/
#guard_msgs (whitespace := lax) in #print axioms Verif.Props.C32_path_hidden

/-- info: 'Verif.Props.C33_first' depends on axioms: [propext, Classical.choice, Quot.sound] -/
#guard_msgs (whitespace := lax) in #print axioms Verif.Props.C33_first

/-- info: 'Verif.Props.C34_values_are_data' depends on axioms: [propext, Classical.choice, Quot.sound] -/
#guard_msgs (whitespace := lax) in #print axioms Verif.Props.C34_values_are_data

/-- info: 'Verif.Props.C34_path_names_are_data' depends on axioms: [propext, Classical.choice, Quot.sound] -/
#guard_msgs (whitespace := lax) in #print axioms Verif.Props.C34_path_names_are_data

/-- info: 'Verif.Props.C34_quote_changes_query' depends on axioms: [propext, Classical.choice, Quot.sound] -/
#guard_msgs (whitespace := lax) in #print axioms Verif.Props.C34_quote_changes_query

/-- info: 'Verif.Props.C34_quote_fails' depends on axioms: [propext, Classical.choice, Quot.sound] -/
#guard_msgs (whitespace := lax) in #print axioms Verif.Props.C34_quote_fails

/-- info: 'Verif.Props.C34_no_tags' depends on axioms: [propext, Classical.choice, Quot.sound] -/
#guard_msgs (whitespace := lax) in #print axioms Verif.Props.C34_no_tags

/-- info: 'Verif.Props.C34_not_xml' depends on axioms: [propext, Classical.choice, Quot.sound] -/
#guard_msgs (whitespace := lax) in #print axioms Verif.Props.C34_not_xml

/-- info: 'Verif.Props.C35_fields' depends on axioms: [propext, Classical.choice, Quot.sound] -/
#guard_msgs (whitespace := lax) in #print axioms Verif.Props.C35_fields

/-- info: 'Verif.Props.C35_get' depends on axioms: [propext, Classical.choice, Quot.sound] -/
#guard_msgs (whitespace := lax) in #print axioms Verif.Props.C35_get

/-- info: 'Verif.Props.C35_set_get' depends on axioms: [propext, Classical.choice, Quot.sound] -/
#guard_msgs (whitespace := lax) in #print axioms Verif.Props.C35_set_get

/-- info: 'Verif.Props.C35_none_loses' depends on axioms: [propext, Classical.choice, Quot.sound] -/
#guard_msgs (whitespace := lax) in #print axioms Verif.Props.C35_none_loses

/-- info: 'Verif.Props.C35_control_loses' depends on axioms: [propext, Classical.choice, Quot.sound] -/
#guard_msgs (whitespace := lax) in #print axioms Verif.Props.C35_control_loses

/-- info: 'Verif.Props.C35_duplicate_keys' depends on axioms: [propext, Classical.choice, Quot.sound] -/
#guard_msgs (whitespace := lax) in #print axioms Verif.Props.C35_duplicate_keys

/-- info: 'Verif.Props.C35_quote' depends on axioms: [propext, Classical.choice, Quot.sound] -/
#guard_msgs (whitespace := lax) in #print axioms Verif.Props.C35_quote

/-- info: 'Verif.Props.C36_marks' depends on axioms: [propext, Classical.choice, Quot.sound] -/
#guard_msgs (whitespace := lax) in #print axioms Verif.Props.C36_marks

/-- info: 'Verif.Props.C36_untouched' depends on axioms: [propext, Classical.choice, Quot.sound] -/
#guard_msgs (whitespace := lax) in #print axioms Verif.Props.C36_untouched

/-- info: 'Verif.Props.C36_stays_protected' depends on axioms: [propext, Classical.choice, Quot.sound] -/
#guard_msgs (whitespace := lax) in #print axioms Verif.Props.C36_stays_protected

/-- info: 'Verif.Props.C36_created_protected' depends on axioms: [propext, Classical.choice, Quot.sound] -/
#guard_msgs (whitespace := lax) in #print axioms Verif.Props.C36_created_protected

/-- info: 'Verif.Props.C36_custom' depends on axioms: [propext, Classical.choice, Quot.sound] -/
#guard_msgs (whitespace := lax) in #print axioms Verif.Props.C36_custom

/-- info: 'Verif.Props.C37_dictionary' depends on axioms: [propext, Classical.choice, Quot.sound] -/
#guard_msgs (whitespace := lax) in #print axioms Verif.Props.C37_dictionary

/-- info: 'Verif.Props.C37_standard' depends on axioms: [propext, Classical.choice, Quot.sound] -/
#guard_msgs (whitespace := lax) in #print axioms Verif.Props.C37_standard

/-- info: 'Verif.Props.C37_listing' depends on axioms: [propext, Classical.choice, Quot.sound] -/
#guard_msgs (whitespace := lax) in #print axioms Verif.Props.C37_listing

/-- info: 'Verif.Props.C38_roundtrip' depends on axioms: [propext, Classical.choice, Quot.sound] -/
#guard_msgs (whitespace := lax) in #print axioms Verif.Props.C38_roundtrip

/-- info: 'Verif.Props.C38_search' depends on axioms: [propext, Classical.choice, Quot.sound] -/
#guard_msgs (whitespace := lax) in #print axioms Verif.Props.C38_search

/-- info: 'Verif.Props.C38_substring' depends on axioms: [propext, Classical.choice, Quot.sound] -/
#guard_msgs (whitespace := lax) in #print axioms Verif.Props.C38_substring

/-- info: 'Verif.Props.C38_one_empty' depends on axioms: [propext, Classical.choice, Quot.sound] -/
#guard_msgs (whitespace := lax) in #print axioms Verif.Props.C38_one_empty

/-- info: 'Verif.Props.C38_separator' depends on axioms: [propext, Classical.choice, Quot.sound] -/
#guard_msgs (whitespace := lax) in #print axioms Verif.Props.C38_separator

/-- info: 'Verif.Props.C39_added' depends on axioms: [propext, Classical.choice, Quot.sound] -/
#guard_msgs (whitespace := lax) in #print axioms Verif.Props.C39_added

/-- info: 'Verif.Props.C39_found' depends on axioms: [propext, Classical.choice, Quot.sound] -/
#guard_msgs (whitespace := lax) in #print axioms Verif.Props.C39_found

/-- info: 'Verif.Props.C39_succeeds' depends on axioms: [propext, Classical.choice, Quot.sound] -/
#guard_msgs (whitespace := lax) in #print axioms Verif.Props.C39_succeeds

/-- info: 'Verif.Props.C39_none' depends on axioms: [propext, Classical.choice, Quot.sound] -/
#guard_msgs (whitespace := lax) in #print axioms Verif.Props.C39_none

/-- info: 'Verif.Props.C39_expiry' depends on axioms: [propext, Classical.choice, Quot.sound] -/
#guard_msgs (whitespace := lax) in #print axioms Verif.Props.C39_expiry

/-- info: 'Verif.Props.C40_refused' depends on axioms: [propext, Classical.choice, Quot.sound] -/
#guard_msgs (whitespace := lax) in #print axioms Verif.Props.C40_refused

/-- info: 'Verif.Props.C40_forced' depends on axioms: [propext, Classical.choice, Quot.sound] -/
#guard_msgs (whitespace := lax) in #print axioms Verif.Props.C40_forced

/-- info: 'Verif.Props.C40_sequence' depends on axioms: [propext, Classical.choice, Quot.sound] -/
#guard_msgs (whitespace := lax) in #print axioms Verif.Props.C40_sequence

/-- info: 'Verif.Props.C40_quote_twice' depends on axioms: [propext, Classical.choice, Quot.sound] -/
#guard_msgs (whitespace := lax) in #print axioms Verif.Props.C40_quote_twice

/-- info: 'Verif.Props.C40_quote_refused' depends on axioms: [propext, Classical.choice, Quot.sound] -/
#guard_msgs (whitespace := lax) in #print axioms Verif.Props.C40_quote_refused

/-- info: 'Verif.Props.C41_delete' depends on axioms: [propext, Classical.choice, Quot.sound] -/
#guard_msgs (whitespace := lax) in #print axioms Verif.Props.C41_delete

/-- info: 'Verif.Props.C41_order' depends on axioms: [propext, Classical.choice, Quot.sound] -/
#guard_msgs (whitespace := lax) in #print axioms Verif.Props.C41_order

/-- info: 'Verif.Props.C41_reattach' depends on axioms: [propext, Classical.choice, Quot.sound] -/
#guard_msgs (whitespace := lax) in #print axioms Verif.Props.C41_reattach

/-- info: 'Verif.Props.C41_twice' depends on axioms: [propext, Classical.choice, Quot.sound] -/
#guard_msgs (whitespace := lax) in #print axioms Verif.Props.C41_twice

/-- info: 'Verif.Props.C42_move' depends on axioms: [propext, Classical.choice, Quot.sound] -/
#guard_msgs (whitespace := lax) in #print axioms Verif.Props.C42_move

/-- info: 'Verif.Props.C42_refused' depends on axioms: [propext, Classical.choice, Quot.sound] -/
#guard_msgs (whitespace := lax) in #print axioms Verif.Props.C42_refused

/-- info: 'Verif.Props.C42_sequence' depends on axioms: [propext, Classical.choice, Quot.sound] -/
#guard_msgs (whitespace := lax) in #print axioms Verif.Props.C42_sequence

/-- info: 'Verif.Props.C43_trash' depends on axioms: [propext, Classical.choice, Quot.sound] -/
#guard_msgs (whitespace := lax) in #print axioms Verif.Props.C43_trash

/-- info: 'Verif.Props.C43_create' depends on axioms: [propext, Classical.choice, Quot.sound] -/
#guard_msgs (whitespace := lax) in #print axioms Verif.Props.C43_create

/-- info: 'Verif.Props.C43_refuse_root' depends on axioms: [propext, Classical.choice, Quot.sound] -/
#guard_msgs (whitespace := lax) in #print axioms Verif.Props.C43_refuse_root

/-- info: 'Verif.Props.C43_refuse_bin' depends on axioms: [propext, Classical.choice, Quot.sound] -/
#guard_msgs (whitespace := lax) in #print axioms Verif.Props.C43_refuse_bin

/-- info: 'Verif.Props.C43_refuse_above' depends on axioms: [propext, Classical.choice, Quot.sound] -/
#guard_msgs (whitespace := lax) in #print axioms Verif.Props.C43_refuse_above

/-- info: 'Verif.Props.C43_history' depends on axioms: [propext, Classical.choice, Quot.sound] -/
#guard_msgs (whitespace := lax) in #print axioms Verif.Props.C43_history

/-- info: 'Verif.Props.C44_empty_group' depends on axioms: [propext, Classical.choice, Quot.sound] -/
#guard_msgs (whitespace := lax) in #print axioms Verif.Props.C44_empty_group

/-- info: 'Verif.Props.C45_save' depends on axioms: [propext, Classical.choice, Quot.sound] -/
#guard_msgs (whitespace := lax) in #print axioms Verif.Props.C45_save

/-- info: 'Verif.Props.C45_frozen' depends on axioms: [propext, Classical.choice, Quot.sound] -/
#guard_msgs (whitespace := lax) in #print axioms Verif.Props.C45_frozen

/-- info: 'Verif.Props.C45_flat' depends on axioms: [propext, Classical.choice, Quot.sound] -/
#guard_msgs (whitespace := lax) in #print axioms Verif.Props.C45_flat

/-- info: 'Verif.Props.C45_quote' depends on axioms: [propext, Classical.choice, Quot.sound] -/
#guard_msgs (whitespace := lax) in #print axioms Verif.Props.C45_quote

/-- info: 'Verif.Props.C46_one' depends on axioms: [propext, Classical.choice, Quot.sound] -/
#guard_msgs (whitespace := lax) in #print axioms Verif.Props.C46_one

/-- info: 'Verif.Props.C46_all' depends on axioms: [propext, Classical.choice, Quot.sound] -/
#guard_msgs (whitespace := lax) in #print axioms Verif.Props.C46_all

/-- info: 'Verif.Props.C46_refused' depends on axioms: [propext, Classical.choice, Quot.sound] -/
#guard_msgs (whitespace := lax) in #print axioms Verif.Props.C46_refused

/-- info: 'Verif.Props.C47_four' depends on axioms: [propext, Classical.choice, Quot.sound] -/
#guard_msgs (whitespace := lax) in #print axioms Verif.Props.C47_four

/-- info: 'Verif.Props.C47_three' depends on axioms: [propext, Classical.choice, Quot.sound] -/
#guard_msgs (whitespace := lax) in #print axioms Verif.Props.C47_three

/-- info: 'Verif.Props.C47_sequence_four' depends on axioms: [propext, Classical.choice, Quot.sound] -/
#guard_msgs (whitespace := lax) in #print axioms Verif.Props.C47_sequence_four

/-- info: 'Verif.Props.C47_sequence_three' depends on axioms: [propext, Classical.choice, Quot.sound] -/
#guard_msgs (whitespace := lax) in #print axioms Verif.Props.C47_sequence_three

/-- info: 'Verif.Props.C47_disordered' depends on axioms: [propext, Classical.choice, Quot.sound] -/
#guard_msgs (whitespace := lax) in #print axioms Verif.Props.C47_disordered

/-- info: 'Verif.Props.C47_gap' depends on axioms: [propext, Classical.choice, Quot.sound] -/
#guard_msgs (whitespace := lax) in #print axioms Verif.Props.C47_gap

/-- info: 'Verif.Props.C48_four' depends on axioms: [propext, Classical.choice, Quot.sound] -/
#guard_msgs (whitespace := lax) in #print axioms Verif.Props.C48_four

/-- info: 'Verif.Props.C48_three' depends on axioms: [propext, Classical.choice, Quot.sound] -/
#guard_msgs (whitespace := lax) in #print axioms Verif.Props.C48_three

/-- info: 'Verif.Props.C48_refused' depends on axioms: [propext, Classical.choice, Quot.sound] -/
#guard_msgs (whitespace := lax) in #print axioms Verif.Props.C48_refused

/-- info: 'Verif.Props.C48_history' depends on axioms: [propext, Classical.choice, Quot.sound] -/
#guard_msgs (whitespace := lax) in #print axioms Verif.Props.C48_history

/-- info: 'Verif.Props.C48_negative' depends on axioms: [propext, Classical.choice, Quot.sound] -/
#guard_msgs (whitespace := lax) in #print axioms Verif.Props.C48_negative

/-- info: 'Verif.Props.C48_ids' depends on axioms: [propext, Classical.choice, Quot.sound] -/
#guard_msgs (whitespace := lax) in #print axioms Verif.Props.C48_ids

/-- info: 'Verif.Props.C49_added' depends on axioms: [propext, Classical.choice, Quot.sound] -/
#guard_msgs (whitespace := lax) in #print axioms Verif.Props.C49_added

/-- info: 'Verif.Props.C49_data' depends on axioms: [propext, Classical.choice, Quot.sound] -/
#guard_msgs (whitespace := lax) in #print axioms Verif.Props.C49_data

/-- info: 'Verif.Props.C49_delete' depends on axioms: [propext, Classical.choice, Quot.sound] -/
#guard_msgs (whitespace := lax) in #print axioms Verif.Props.C49_delete

/-- info: 'Verif.Props.C49_history' depends on axioms: [propext, Classical.choice, Quot.sound] -/
#guard_msgs (whitespace := lax) in #print axioms Verif.Props.C49_history

/-- info: 'Verif.Props.C49_id_text' depends on axioms: [propext, Classical.choice, Quot.sound] -/
#guard_msgs (whitespace := lax) in #print axioms Verif.Props.C49_id_text

/-- info: 'Verif.Props.C50_root_path' depends on axioms: [propext, Classical.choice, Quot.sound] -/
#guard_msgs (whitespace := lax) in #print axioms Verif.Props.C50_root_path

/-- info: 'Verif.Props.C50_group_path' depends on axioms: [propext, Classical.choice, Quot.sound] -/
#guard_msgs (whitespace := lax) in #print axioms Verif.Props.C50_group_path

/-- info: 'Verif.Props.C50_entry_path' depends on axioms: [propext, Classical.choice, Quot.sound] -/
#guard_msgs (whitespace := lax) in #print axioms Verif.Props.C50_entry_path

/-- info: 'Verif.Props.C50_find_group' depends on axioms: [propext, Classical.choice, Quot.sound] -/
#guard_msgs (whitespace := lax) in #print axioms Verif.Props.C50_find_group

/-- info: 'Verif.Props.C50_find_entry' depends on axioms: [propext, Classical.choice, Quot.sound] -/
#guard_msgs (whitespace := lax) in #print axioms Verif.Props.C50_find_entry

/-- info: 'Verif.Props.C50_unnamed' depends on axioms: [propext, Classical.choice, Quot.sound] -/
#guard_msgs (whitespace := lax) in #print axioms Verif.Props.C50_unnamed

/-- info: 'Verif.Props.C51_any' depends on axioms: [propext, Classical.choice, Quot.sound] -/
#guard_msgs (whitespace := lax) in #print axioms Verif.Props.C51_any

/-- info: 'Verif.Props.C51_negative' depends on axioms: [propext, Classical.choice, Quot.sound] -/
#guard_msgs (whitespace := lax) in #print axioms Verif.Props.C51_negative

/-- info: 'Verif.Props.C51_beyond' depends on axioms: [propext, Classical.choice, Quot.sound] -/
#guard_msgs (whitespace := lax) in #print axioms Verif.Props.C51_beyond

/-- info: 'Verif.Props.C51_index' depends on axioms: [propext, Classical.choice, Quot.sound] -/
#guard_msgs (whitespace := lax) in #print axioms Verif.Props.C51_index

/-- info: 'Verif.Props.C51_reindex' depends on axioms: [propext, Classical.choice, Quot.sound] -/
#guard_msgs (whitespace := lax) in #print axioms Verif.Props.C51_reindex

/-- info: 'Verif.Props.C51_interleaved' depends on axioms: [propext, Classical.choice, Quot.sound] -/
#guard_msgs (whitespace := lax) in #print axioms Verif.Props.C51_interleaved

/-- info: 'Verif.Props.C52_structure' depends on axioms: [propext, Classical.choice, Quot.sound] -/
#guard_msgs (whitespace := lax) in #print axioms Verif.Props.C52_structure

/-- info: 'Verif.Props.C52_root_group' depends on axioms: [propext, Classical.choice, Quot.sound] -/
#guard_msgs (whitespace := lax) in #print axioms Verif.Props.C52_root_group

/-- info: 'Verif.Props.C52_root_deleted' depends on axioms: [propext, Classical.choice, Quot.sound] -/
#guard_msgs (whitespace := lax) in #print axioms Verif.Props.C52_root_deleted

/-- info: 'Verif.Props.C53_same' depends on axioms: [propext, Classical.choice, Quot.sound] -/
#guard_msgs (whitespace := lax) in #print axioms Verif.Props.C53_same

/-- info: 'Verif.Props.C53_equal' depends on axioms: [propext, Classical.choice, Quot.sound] -/
#guard_msgs (whitespace := lax) in #print axioms Verif.Props.C53_equal

/-- info: 'Verif.Props.C53_collision' depends on axioms: [propext, Classical.choice, Quot.sound] -/
#guard_msgs (whitespace := lax) in #print axioms Verif.Props.C53_collision

/-- info: 'Verif.Props.C53_set' depends on axioms: [propext, Classical.choice, Quot.sound] -/
#guard_msgs (whitespace := lax) in #print axioms Verif.Props.C53_set

/-- info: 'Verif.Props.C53_stable' depends on axioms: [propext, Classical.choice, Quot.sound] -/
#guard_msgs (whitespace := lax) in #print axioms Verif.Props.C53_stable

/-- info: 'Verif.Props.C53_created' depends on axioms: [propext, Classical.choice, Quot.sound] -/
#guard_msgs (whitespace := lax) in #print axioms Verif.Props.C53_created

/-- info: 'Verif.Props.C53_collision_case' depends on axioms: [propext, Classical.choice, Quot.sound] -/
#guard_msgs (whitespace := lax) in #print axioms Verif.Props.C53_collision_case

/-- info: 'Verif.Props.C54_plain' depends on axioms: [propext, Classical.choice, Quot.sound] -/
#guard_msgs (whitespace := lax) in #print axioms Verif.Props.C54_plain

/-- info: 'Verif.Props.C54_none' depends on axioms: [propext, Classical.choice, Quot.sound] -/
#guard_msgs (whitespace := lax) in #print axioms Verif.Props.C54_none

/-- info: 'Verif.Props.C54_ref' depends on axioms: [propext, Classical.choice, Quot.sound] -/
#guard_msgs (whitespace := lax) in #print axioms Verif.Props.C54_ref

/-- info: 'Verif.Props.C54_ref_empty' depends on axioms: [propext, Classical.choice, Quot.sound] -/
#guard_msgs (whitespace := lax) in #print axioms Verif.Props.C54_ref_empty

/-- info: 'Verif.Props.C54_ref_uuid' depends on axioms: [propext, Classical.choice, Quot.sound] -/
#guard_msgs (whitespace := lax) in #print axioms Verif.Props.C54_ref_uuid

/-- info: 'Verif.Props.C54_unresolved' depends on axioms: [propext, Classical.choice, Quot.sound] -/
#guard_msgs (whitespace := lax) in #print axioms Verif.Props.C54_unresolved

/-- info: 'Verif.Props.C54_follow' depends on axioms: [propext, Classical.choice, Quot.sound] -/
#guard_msgs (whitespace := lax) in #print axioms Verif.Props.C54_follow

/-- info: 'Verif.Props.C54_ends' depends on axioms: [propext, Classical.choice, Quot.sound] -/
#guard_msgs (whitespace := lax) in #print axioms Verif.Props.C54_ends

/-- info: 'Verif.Props.C54_acyclic' depends on axioms: [propext, Classical.choice, Quot.sound] -/
#guard_msgs (whitespace := lax) in #print axioms Verif.Props.C54_acyclic

/-- info: 'Verif.Props.C54_cycle' depends on axioms: [propext, Classical.choice, Quot.sound] -/
#guard_msgs (whitespace := lax) in #print axioms Verif.Props.C54_cycle

/-- info: 'Verif.Props.C54_cycle_case' depends on axioms: [propext, Classical.choice, Quot.sound] -/
#guard_msgs (whitespace := lax) in #print axioms Verif.Props.C54_cycle_case

/-- info: 'Verif.Props.C54_order_matters' depends on axioms: [propext, Classical.choice, Quot.sound] -/
#guard_msgs (whitespace := lax) in #print axioms Verif.Props.C54_order_matters

/-- info: 'Verif.Props.C54_order_matters_error' depends on axioms: [propext, Classical.choice, Quot.sound] -/
#guard_msgs (whitespace := lax) in #print axioms Verif.Props.C54_order_matters_error

/-- info: 'Verif.Props.C55_unreadable' depends on axioms: [propext, Classical.choice, Quot.sound] -/
#guard_msgs (whitespace := lax) in #print axioms Verif.Props.C55_unreadable

/-- info: 'Verif.Props.C55_empty_date' depends on axioms: [propext, Classical.choice, Quot.sound] -/
#guard_msgs (whitespace := lax) in #print axioms Verif.Props.C55_empty_date

/-- info: 'Verif.Props.C55_expired' depends on axioms: [propext, Classical.choice, Quot.sound] -/
#guard_msgs (whitespace := lax) in #print axioms Verif.Props.C55_expired

/-- info: 'Verif.Props.C55_never' depends on axioms: [propext, Classical.choice, Quot.sound] -/
#guard_msgs (whitespace := lax) in #print axioms Verif.Props.C55_never

/-- info: 'Verif.Props.C55_expired_iff' depends on axioms: [propext, Classical.choice, Quot.sound] -/
#guard_msgs (whitespace := lax) in #print axioms Verif.Props.C55_expired_iff

/-- info: 'Verif.Props.C55_credchange' depends on axioms: [propext, Classical.choice, Quot.sound] -/
#guard_msgs (whitespace := lax) in #print axioms Verif.Props.C55_credchange

/-- info: 'Verif.Props.C55_disabled' depends on axioms: [propext, Classical.choice, Quot.sound] -/
#guard_msgs (whitespace := lax) in #print axioms Verif.Props.C55_disabled

/-- info: 'Verif.Props.C55_no_date' depends on axioms: [propext, Classical.choice, Quot.sound] -/
#guard_msgs (whitespace := lax) in #print axioms Verif.Props.C55_no_date

/-- info: 'Verif.Props.C55_days' depends on axioms: [propext, Classical.choice, Quot.sound] -/
#guard_msgs (whitespace := lax) in #print axioms Verif.Props.C55_days

/-- info: 'Verif.Props.C55_no_days' depends on axioms: [propext, Classical.choice, Quot.sound] -/
#guard_msgs (whitespace := lax) in #print axioms Verif.Props.C55_no_days

/-- info: 'Verif.Props.C55_days_text' depends on axioms: [propext, Classical.choice, Quot.sound] -/
#guard_msgs (whitespace := lax) in #print axioms Verif.Props.C55_days_text

/-- info: 'Verif.Props.C56_set' depends on axioms: [propext, Classical.choice, Quot.sound] -/
#guard_msgs (whitespace := lax) in #print axioms Verif.Props.C56_set

/-- info: 'Verif.Props.C56_error' depends on axioms: [propext, Classical.choice, Quot.sound] -/
#guard_msgs (whitespace := lax) in #print axioms Verif.Props.C56_error

/-- info: 'Verif.Props.C56_missing' depends on axioms: [propext, Classical.choice, Quot.sound] -/
#guard_msgs (whitespace := lax) in #print axioms Verif.Props.C56_missing

/-- info: 'Verif.Props.C56_exact4' depends on axioms: [propext, Classical.choice, Quot.sound] -/
#guard_msgs (whitespace := lax) in #print axioms Verif.Props.C56_exact4

/-- info: 'Verif.Props.C56_exact3' depends on axioms: [propext, Classical.choice, Quot.sound] -/
#guard_msgs (whitespace := lax) in #print axioms Verif.Props.C56_exact3

/-- info: 'Verif.Props.C56_touch' depends on axioms: [propext, Classical.choice, Quot.sound] -/
#guard_msgs (whitespace := lax) in #print axioms Verif.Props.C56_touch

/-- info: 'Verif.Props.C56_touch_modify' depends on axioms: [propext, Classical.choice, Quot.sound] -/
#guard_msgs (whitespace := lax) in #print axioms Verif.Props.C56_touch_modify

/-- info: 'Verif.Props.C56_expires' depends on axioms: [propext, Classical.choice, Quot.sound] -/
#guard_msgs (whitespace := lax) in #print axioms Verif.Props.C56_expires

/-- info: 'Verif.Props.C57_regex' depends on axioms: [propext, Classical.choice, Quot.sound] -/
#guard_msgs (whitespace := lax) in #print axioms Verif.Props.C57_regex

/-- info: 'Verif.Props.C57_returns' depends on axioms: [propext, Classical.choice, Quot.sound] -/
#guard_msgs (whitespace := lax) in #print axioms Verif.Props.C57_returns

/-- info: 'Verif.Props.C57_only_i' depends on axioms: [propext, Classical.choice, Quot.sound] -/
#guard_msgs (whitespace := lax) in #print axioms Verif.Props.C57_only_i

/-- info: 'Verif.Props.C57_no_flags' depends on axioms: [propext, Classical.choice, Quot.sound] -/
#guard_msgs (whitespace := lax) in #print axioms Verif.Props.C57_no_flags

/-- info: 'Verif.Props.C57_uuid' depends on axioms: [propext, Classical.choice, Quot.sound] -/
#guard_msgs (whitespace := lax) in #print axioms Verif.Props.C57_uuid

/-- info: 'Verif.Props.C57_uuid_plus' depends on axioms: [propext, Classical.choice, Quot.sound] -/
#guard_msgs (whitespace := lax) in #print axioms Verif.Props.C57_uuid_plus

/-- info: 'Verif.Props.C58_version' depends on axioms: [propext, Classical.choice, Quot.sound] -/
#guard_msgs (whitespace := lax) in #print axioms Verif.Props.C58_version

/-- info: 'Verif.Props.C58_cipher' depends on axioms: [propext, Classical.choice, Quot.sound] -/
#guard_msgs (whitespace := lax) in #print axioms Verif.Props.C58_cipher

/-- info: 'Verif.Props.C58_kdbx3' depends on axioms: [propext, Classical.choice, Quot.sound] -/
#guard_msgs (whitespace := lax) in #print axioms Verif.Props.C58_kdbx3

/-- info: 'Verif.Props.C58_kdbx4' depends on axioms: [propext, Classical.choice, Quot.sound] -/
#guard_msgs (whitespace := lax) in #print axioms Verif.Props.C58_kdbx4

/-- info: 'Verif.Props.C58_other_version' depends on axioms: [propext, Classical.choice, Quot.sound] -/
#guard_msgs (whitespace := lax) in #print axioms Verif.Props.C58_other_version

/-- info: 'Verif.Props.C59_text' depends on axioms: [propext, Classical.choice, Quot.sound] -/
#guard_msgs (whitespace := lax) in #print axioms Verif.Props.C59_text

/-- info: 'Verif.Props.C59_days' depends on axioms: [propext, Classical.choice, Quot.sound] -/
#guard_msgs (whitespace := lax) in #print axioms Verif.Props.C59_days

/-- info: 'Verif.Props.C59_credentials' depends on axioms: [propext, Classical.choice, Quot.sound] -/
#guard_msgs (whitespace := lax) in #print axioms Verif.Props.C59_credentials

/-- info: 'Verif.Props.C59_missing' depends on axioms: [propext, Classical.choice, Quot.sound] -/
#guard_msgs (whitespace := lax) in #print axioms Verif.Props.C59_missing

/-- info: 'Verif.Props.C60_block' depends on axioms: [propext, Classical.choice, Quot.sound] -/
#guard_msgs (whitespace := lax) in #print axioms Verif.Props.C60_block

/-- info: 'Verif.Props.C60_encrypt' depends on axioms: [propext, Classical.choice, Quot.sound] -/
#guard_msgs (whitespace := lax) in #print axioms Verif.Props.C60_encrypt

/-- info: 'Verif.Props.C60_decrypt' depends on axioms: [propext, Classical.choice, Quot.sound] -/
#guard_msgs (whitespace := lax) in #print axioms Verif.Props.C60_decrypt

/-- info: 'Verif.Props.C60_codebook' depends on axioms: [propext, Classical.choice, Quot.sound] -/
#guard_msgs (whitespace := lax) in #print axioms Verif.Props.C60_codebook

/-- info: 'Verif.Props.C60_injective' depends on axioms: [propext, Classical.choice, Quot.sound] -/
#guard_msgs (whitespace := lax) in #print axioms Verif.Props.C60_injective

/-- info: 'Verif.Props.C61_determined' depends on axioms: [propext, Classical.choice, Quot.sound] -/
#guard_msgs (whitespace := lax) in #print axioms Verif.Props.C61_determined

/-- info: 'Verif.Props.C61_reads4' depends on axioms: [propext, Classical.choice, Quot.sound] -/
#guard_msgs (whitespace := lax) in #print axioms Verif.Props.C61_reads4

/-- info: 'Verif.Props.C61_writes4' depends on axioms: [propext, Classical.choice, Quot.sound] -/
#guard_msgs (whitespace := lax) in #print axioms Verif.Props.C61_writes4

/-- info: 'Verif.Props.C61_reads3' depends on axioms: [propext, Classical.choice, Quot.sound] -/
#guard_msgs (whitespace := lax) in #print axioms Verif.Props.C61_reads3

/-- info: 'Verif.Props.C61_writes3' depends on axioms: [propext, Classical.choice, Quot.sound] -/
#guard_msgs (whitespace := lax) in #print axioms Verif.Props.C61_writes3

/-- info: 'Verif.Props.C61_exists4' depends on axioms: [propext, Classical.choice, Quot.sound] -/
#guard_msgs (whitespace := lax) in #print axioms Verif.Props.C61_exists4

/-- info: 'Verif.Props.C61_exists3' depends on axioms: [propext, Classical.choice, Quot.sound] -/
#guard_msgs (whitespace := lax) in #print axioms Verif.Props.C61_exists3

/-- info: 'Verif.Props.C62_one_content' depends on axioms: [propext] -/
#guard_msgs (whitespace := lax) in #print axioms Verif.Props.C62_one_content

/-- info: 'Verif.Props.C62_written' depends on axioms: [propext, Classical.choice, Quot.sound] -/
#guard_msgs (whitespace := lax) in #print axioms Verif.Props.C62_written

/-- info: 'Verif.Props.C62_new' depends on axioms: [propext, Classical.choice, Quot.sound] -/
#guard_msgs (whitespace := lax) in #print axioms Verif.Props.C62_new

/-- info: 'Verif.Props.C62_rewound' depends on axioms: [propext, Classical.choice, Quot.sound] -/
#guard_msgs (whitespace := lax) in #print axioms Verif.Props.C62_rewound

/-- info: 'Verif.Props.C62_again' depends on axioms: [propext, Classical.choice, Quot.sound] -/
#guard_msgs (whitespace := lax) in #print axioms Verif.Props.C62_again

/-- info: 'Verif.Props.C62_reload' depends on axioms: [propext, Classical.choice, Quot.sound] -/
#guard_msgs (whitespace := lax) in #print axioms Verif.Props.C62_reload

/-- info: 'Verif.Props.C62_stays' depends on axioms: [propext, Classical.choice, Quot.sound] -/
#guard_msgs (whitespace := lax) in #print axioms Verif.Props.C62_stays

/-- info: 'Verif.Props.C62_own_path' depends on axioms: [propext, Classical.choice, Quot.sound] -/
#guard_msgs (whitespace := lax) in #print axioms Verif.Props.C62_own_path

/-- info: 'Verif.Props.C62_reloaded' depends on axioms: [propext, Classical.choice, Quot.sound] -/
#guard_msgs (whitespace := lax) in #print axioms Verif.Props.C62_reloaded

/-- info: 'Verif.Props.C63_added' depends on axioms: [propext, Classical.choice, Quot.sound] -/
#guard_msgs (whitespace := lax) in #print axioms Verif.Props.C63_added

/-- info: 'Verif.Props.C63_found' depends on axioms: [propext, Classical.choice, Quot.sound] -/
#guard_msgs (whitespace := lax) in #print axioms Verif.Props.C63_found

/-- info: 'Verif.Props.C63_succeeds' depends on axioms: [propext, Classical.choice, Quot.sound] -/
#guard_msgs (whitespace := lax) in #print axioms Verif.Props.C63_succeeds

/-- info: 'Verif.Props.C63_refused' depends on axioms: [propext, Classical.choice, Quot.sound] -/
#guard_msgs (whitespace := lax) in #print axioms Verif.Props.C63_refused

/-- info: 'Verif.Props.C64_tidy' depends on axioms: [propext, Classical.choice, Quot.sound] -/
#guard_msgs (whitespace := lax) in #print axioms Verif.Props.C64_tidy

/-- info: 'Verif.Props.C64_kdbx4_suffix' depends on axioms: [propext, Classical.choice, Quot.sound] -/
#guard_msgs (whitespace := lax) in #print axioms Verif.Props.C64_kdbx4_suffix

/-- info: 'Verif.Props.C64_kdbx4' depends on axioms: [propext, Classical.choice, Quot.sound] -/
#guard_msgs (whitespace := lax) in #print axioms Verif.Props.C64_kdbx4

/-- info: 'Verif.Props.C64_kdbx3' depends on axioms: [propext, Classical.choice, Quot.sound] -/
#guard_msgs (whitespace := lax) in #print axioms Verif.Props.C64_kdbx3

/-- info: 'Verif.Props.C64_succeeds4' depends on axioms: [propext, Classical.choice, Quot.sound] -/
#guard_msgs (whitespace := lax) in #print axioms Verif.Props.C64_succeeds4

/-- info: 'Verif.Props.C64_succeeds3' depends on axioms: [propext, Classical.choice, Quot.sound] -/
#guard_msgs (whitespace := lax) in #print axioms Verif.Props.C64_succeeds3

/-- info: 'Verif.Props.C65_entries' depends on axioms: [propext, Classical.choice, Quot.sound] -/
#guard_msgs (whitespace := lax) in #print axioms Verif.Props.C65_entries

/-- info: 'Verif.Props.C65_groups' depends on axioms: [propext, Classical.choice, Quot.sound] -/
#guard_msgs (whitespace := lax) in #print axioms Verif.Props.C65_groups

/-- info: 'Verif.Props.C65_uuid' depends on axioms: [propext, Classical.choice, Quot.sound] -/
#guard_msgs (whitespace := lax) in #print axioms Verif.Props.C65_uuid

/-- info: 'Verif.Props.C65_string' depends on axioms: [propext, Classical.choice, Quot.sound] -/
#guard_msgs (whitespace := lax) in #print axioms Verif.Props.C65_string

/-- info: 'Verif.Props.C65_path' depends on axioms: [propext, Classical.choice, Quot.sound] -/
#guard_msgs (whitespace := lax) in #print axioms Verif.Props.C65_path

/-- info: 'Verif.Props.C65_none' depends on axioms: [propext, Classical.choice, Quot.sound] -/
#guard_msgs (whitespace := lax) in #print axioms Verif.Props.C65_none

/-- info: 'Verif.Props.C65_path_none' depends on axioms: [propext, Classical.choice, Quot.sound] -/
#guard_msgs (whitespace := lax) in #print axioms Verif.Props.C65_path_none

/-- info: 'Verif.Props.C65_path_text' depends on axioms: [propext, Classical.choice, Quot.sound] -/
#guard_msgs (whitespace := lax) in #print axioms Verif.Props.C65_path_text

/-- info: 'Verif.Props.C66_group' depends on axioms: [propext, Classical.choice, Quot.sound] -/
#guard_msgs (whitespace := lax) in #print axioms Verif.Props.C66_group

/-- info: 'Verif.Props.C66_root' depends on axioms: [propext, Classical.choice, Quot.sound] -/
#guard_msgs (whitespace := lax) in #print axioms Verif.Props.C66_root

/-- info: 'Verif.Props.C66_entry' depends on axioms: [propext, Classical.choice, Quot.sound] -/
#guard_msgs (whitespace := lax) in #print axioms Verif.Props.C66_entry

/-- info: 'Verif.Props.C66_history' depends on axioms: [propext, Classical.choice, Quot.sound] -/
#guard_msgs (whitespace := lax) in #print axioms Verif.Props.C66_history

/-- info: 'Verif.Props.C66_attachment' depends on axioms: [propext, Classical.choice, Quot.sound] -/
#guard_msgs (whitespace := lax) in #print axioms Verif.Props.C66_attachment

/-- info: 'Verif.Props.C66_attachment_entry' depends on axioms: [propext, Classical.choice, Quot.sound] -/
#guard_msgs (whitespace := lax) in #print axioms Verif.Props.C66_attachment_entry

/-- info: 'Verif.Props.C66_attachment_deleted' depends on axioms: [propext, Classical.choice, Quot.sound] -/
#guard_msgs (whitespace := lax) in #print axioms Verif.Props.C66_attachment_deleted

/-- info: 'Verif.Props.C66_group_path' depends on axioms: [propext, Classical.choice, Quot.sound] -/
#guard_msgs (whitespace := lax) in #print axioms Verif.Props.C66_group_path

/-- info: 'Verif.Props.C66_detached' depends on axioms: [propext, Classical.choice, Quot.sound] -/
#guard_msgs (whitespace := lax) in #print axioms Verif.Props.C66_detached

/-- info: 'Verif.Props.C66_in_deleted' depends on axioms: [propext, Classical.choice, Quot.sound] -/
#guard_msgs (whitespace := lax) in #print axioms Verif.Props.C66_in_deleted

/-- info: 'Verif.Props.C67_read' depends on axioms: [propext, Classical.choice, Quot.sound] -/
#guard_msgs (whitespace := lax) in #print axioms Verif.Props.C67_read

/-- info: 'Verif.Props.C67_write' depends on axioms: [propext, Classical.choice, Quot.sound] -/
#guard_msgs (whitespace := lax) in #print axioms Verif.Props.C67_write

/-- info: 'Verif.Props.C67_roundtrip' depends on axioms: [propext, Classical.choice, Quot.sound] -/
#guard_msgs (whitespace := lax) in #print axioms Verif.Props.C67_roundtrip

/-- info: 'Verif.Props.C67_independent' depends on axioms: [propext, Classical.choice, Quot.sound] -/
#guard_msgs (whitespace := lax) in #print axioms Verif.Props.C67_independent

/-- info: 'Verif.Props.C67_none_loses' depends on axioms: [propext, Classical.choice, Quot.sound] -/
#guard_msgs (whitespace := lax) in #print axioms Verif.Props.C67_none_loses

/-- info: 'Verif.Props.C68_shape' depends on axioms: [propext, Classical.choice, Quot.sound] -/
#guard_msgs (whitespace := lax) in #print axioms Verif.Props.C68_shape

/-- info: 'Verif.Props.C68_opened' depends on axioms: [propext, Classical.choice, Quot.sound] -/
#guard_msgs (whitespace := lax) in #print axioms Verif.Props.C68_opened

/-- info: 'Verif.Props.C68_groups' depends on axioms: [propext, Classical.choice, Quot.sound] -/
#guard_msgs (whitespace := lax) in #print axioms Verif.Props.C68_groups

/-- info: 'Verif.Props.C68_entries' depends on axioms: [propext, Classical.choice, Quot.sound] -/
#guard_msgs (whitespace := lax) in #print axioms Verif.Props.C68_entries

/-- info: 'Verif.Props.C68_links' depends on axioms: [propext, Classical.choice, Quot.sound] -/
#guard_msgs (whitespace := lax) in #print axioms Verif.Props.C68_links

/-- info: 'Verif.Props.C68_has_group' depends on axioms: [propext, Classical.choice, Quot.sound] -/
#guard_msgs (whitespace := lax) in #print axioms Verif.Props.C68_has_group

/-- info: 'Verif.Props.C68_root' depends on axioms: [propext, Classical.choice, Quot.sound] -/
#guard_msgs (whitespace := lax) in #print axioms Verif.Props.C68_root

/-- info: 'Verif.Props.C68_history' depends on axioms: [propext, Classical.choice, Quot.sound] -/
#guard_msgs (whitespace := lax) in #print axioms Verif.Props.C68_history

/-- info: 'Verif.Props.C69_created' depends on axioms: [propext, Classical.choice, Quot.sound] -/
#guard_msgs (whitespace := lax) in #print axioms Verif.Props.C69_created

/-- info: 'Verif.Props.C69_file' depends on axioms: [propext, Classical.choice, Quot.sound] -/
#guard_msgs (whitespace := lax) in #print axioms Verif.Props.C69_file

/-- info: 'Verif.Props.C69_crash' depends on axioms: [propext, Classical.choice, Quot.sound] -/
#guard_msgs (whitespace := lax) in #print axioms Verif.Props.C69_crash

/-- info: 'Verif.Props.C69_reload' depends on axioms: [propext, Classical.choice, Quot.sound] -/
#guard_msgs (whitespace := lax) in #print axioms Verif.Props.C69_reload

/-- info: 'Verif.Props.C69_copy' depends on axioms: [propext, Classical.choice, Quot.sound] -/
#guard_msgs (whitespace := lax) in #print axioms Verif.Props.C69_copy

/-- info: 'Verif.Props.C69_password' depends on axioms: [propext, Classical.choice, Quot.sound] -/
#guard_msgs (whitespace := lax) in #print axioms Verif.Props.C69_password

/-- info: 'Verif.Props.C69_refused' depends on axioms: [propext, Classical.choice, Quot.sound] -/
#guard_msgs (whitespace := lax) in #print axioms Verif.Props.C69_refused

/-- info: 'Verif.Props.C70_settled' depends on axioms: [propext, Classical.choice, Quot.sound] -/
#guard_msgs (whitespace := lax) in #print axioms Verif.Props.C70_settled

/-- info: 'Verif.Props.C70_second' depends on axioms: [propext, Classical.choice, Quot.sound] -/
#guard_msgs (whitespace := lax) in #print axioms Verif.Props.C70_second

/-- info: 'Verif.Props.C70_detour' depends on axioms: [propext, Classical.choice, Quot.sound] -/
#guard_msgs (whitespace := lax) in #print axioms Verif.Props.C70_detour

/-- info: 'Verif.Props.C70_file' depends on axioms: [propext, Classical.choice, Quot.sound] -/
#guard_msgs (whitespace := lax) in #print axioms Verif.Props.C70_file

/-- info: 'Verif.Props.C70_not_at_once' depends on axioms: [propext, Classical.choice, Quot.sound] -/
#guard_msgs (whitespace := lax) in #print axioms Verif.Props.C70_not_at_once

/-- info: 'Verif.Props.C71_step' depends on axioms: [propext, Classical.choice, Quot.sound] -/
#guard_msgs (whitespace := lax) in #print axioms Verif.Props.C71_step

/-- info: 'Verif.Props.C71_run' depends on axioms: [propext, Classical.choice, Quot.sound] -/
#guard_msgs (whitespace := lax) in #print axioms Verif.Props.C71_run

/-- info: 'Verif.Props.C71_frame' depends on axioms: [propext, Classical.choice, Quot.sound] -/
#guard_msgs (whitespace := lax) in #print axioms Verif.Props.C71_frame

/-- info: 'Verif.Props.C71_reads' depends on axioms: [propext, Classical.choice, Quot.sound] -/
#guard_msgs (whitespace := lax) in #print axioms Verif.Props.C71_reads

/-- info: 'Verif.Props.C71_files' depends on axioms: [propext, Classical.choice, Quot.sound] -/
#guard_msgs (whitespace := lax) in #print axioms Verif.Props.C71_files

/-- info: 'Verif.Props.C71_custom' depends on axioms: [propext, Classical.choice, Quot.sound] -/
#guard_msgs (whitespace := lax) in #print axioms Verif.Props.C71_custom

/-- info: 'Verif.Props.C71_lists' depends on axioms: [propext, Classical.choice, Quot.sound] -/
#guard_msgs (whitespace := lax) in #print axioms Verif.Props.C71_lists

/-- info: 'Verif.Props.C71_opened' depends on axioms: [propext, Classical.choice, Quot.sound] -/
#guard_msgs (whitespace := lax) in #print axioms Verif.Props.C71_opened

/-- info: 'Verif.Props.C72_needed3' depends on axioms: [propext, Classical.choice, Quot.sound] -/
#guard_msgs (whitespace := lax) in #print axioms Verif.Props.C72_needed3

/-- info: 'Verif.Props.C72_needed4' depends on axioms: [propext, Classical.choice, Quot.sound] -/
#guard_msgs (whitespace := lax) in #print axioms Verif.Props.C72_needed4

/-- info: 'Verif.Props.C72_missing3' depends on axioms: [propext, Classical.choice, Quot.sound] -/
#guard_msgs (whitespace := lax) in #print axioms Verif.Props.C72_missing3

/-- info: 'Verif.Props.C72_missing4' depends on axioms: [propext, Classical.choice, Quot.sound] -/
#guard_msgs (whitespace := lax) in #print axioms Verif.Props.C72_missing4

/-- info: 'Verif.Props.C73_attachments' depends on axioms: [propext, Classical.choice, Quot.sound] -/
#guard_msgs (whitespace := lax) in #print axioms Verif.Props.C73_attachments

/-- info: 'Verif.Props.C73_all_attachments' depends on axioms: [propext, Classical.choice, Quot.sound] -/
#guard_msgs (whitespace := lax) in #print axioms Verif.Props.C73_all_attachments

/-- info: 'Verif.Props.C73_entries' depends on axioms: [propext, Classical.choice, Quot.sound] -/
#guard_msgs (whitespace := lax) in #print axioms Verif.Props.C73_entries

/-- info: 'Verif.Props.C73_groups' depends on axioms: [propext, Classical.choice, Quot.sound] -/
#guard_msgs (whitespace := lax) in #print axioms Verif.Props.C73_groups

/-- info: 'Verif.Props.C73_sharp' depends on axioms: [propext, Classical.choice, Quot.sound] -/
#guard_msgs (whitespace := lax) in #print axioms Verif.Props.C73_sharp

/-- info: 'Verif.Props.C73_group_path' depends on axioms: [propext, Classical.choice, Quot.sound] -/
#guard_msgs (whitespace := lax) in #print axioms Verif.Props.C73_group_path

/-- info: 'Verif.Props.C73_entry_path' depends on axioms: [propext, Classical.choice, Quot.sound] -/
#guard_msgs (whitespace := lax) in #print axioms Verif.Props.C73_entry_path

/-- info: 'Verif.Props.C74_loaded' depends on axioms: [propext, Classical.choice, Quot.sound] -/
#guard_msgs (whitespace := lax) in #print axioms Verif.Props.C74_loaded

/-- info: 'Verif.Props.C74_session' depends on axioms: [propext, Classical.choice, Quot.sound] -/
#guard_msgs (whitespace := lax) in #print axioms Verif.Props.C74_session

/-- info: 'Verif.Props.C74_sessions' depends on axioms: [propext, Classical.choice, Quot.sound] -/
#guard_msgs (whitespace := lax) in #print axioms Verif.Props.C74_sessions

/-- info: 'Verif.Props.C74_empty_key' depends on axioms: [propext, Classical.choice, Quot.sound] -/
#guard_msgs (whitespace := lax) in #print axioms Verif.Props.C74_empty_key

/-- info: 'Verif.Props.C75_apart' depends on axioms: [propext, Classical.choice, Quot.sound] -/
#guard_msgs (whitespace := lax) in #print axioms Verif.Props.C75_apart

/-- info: 'Verif.Props.C75_desk' depends on axioms: [propext, Classical.choice, Quot.sound] -/
#guard_msgs (whitespace := lax) in #print axioms Verif.Props.C75_desk

/-- info: 'Verif.Props.C75_step' depends on axioms: [propext, Classical.choice, Quot.sound] -/
#guard_msgs (whitespace := lax) in #print axioms Verif.Props.C75_step

/-- info: 'Verif.Props.C75_run' depends on axioms: [propext, Classical.choice, Quot.sound] -/
#guard_msgs (whitespace := lax) in #print axioms Verif.Props.C75_run

/-- info: 'Verif.Props.C75_frame' depends on axioms: [propext, Classical.choice, Quot.sound] -/
#guard_msgs (whitespace := lax) in #print axioms Verif.Props.C75_frame

/-- info: 'Verif.Props.C75_reads' depends on axioms: [propext, Classical.choice, Quot.sound] -/
#guard_msgs (whitespace := lax) in #print axioms Verif.Props.C75_reads

/-- info: 'Verif.Props.C75_binary' depends on axioms: [propext, Classical.choice, Quot.sound] -/
#guard_msgs (whitespace := lax) in #print axioms Verif.Props.C75_binary

/-- info: 'Verif.Props.C76_session' depends on axioms: [propext, Classical.choice, Quot.sound] -/
#guard_msgs (whitespace := lax) in #print axioms Verif.Props.C76_session

/-- info: 'Verif.Props.C76_sessions' depends on axioms: [propext, Classical.choice, Quot.sound] -/
#guard_msgs (whitespace := lax) in #print axioms Verif.Props.C76_sessions

/-- info: 'Verif.Props.C76_data' depends on axioms: [propext, Classical.choice, Quot.sound] -/
#guard_msgs (whitespace := lax) in #print axioms Verif.Props.C76_data

/-- info: 'Verif.Props.C76_attachment' depends on axioms: [propext, Classical.choice, Quot.sound] -/
#guard_msgs (whitespace := lax) in #print axioms Verif.Props.C76_attachment

/-- info: 'Verif.Props.C76_packed' depends on axioms: [propext, Classical.choice, Quot.sound] -/
#guard_msgs (whitespace := lax) in #print axioms Verif.Props.C76_packed

/-- info: 'Verif.Props.C76_not_packed' depends on axioms: [propext, Classical.choice, Quot.sound] -/
#guard_msgs (whitespace := lax) in #print axioms Verif.Props.C76_not_packed

/-- info: 'Verif.Props.C77_filed' depends on axioms: [propext, Classical.choice, Quot.sound] -/
#guard_msgs (whitespace := lax) in #print axioms Verif.Props.C77_filed

/-- info: 'Verif.Props.C77_opened' depends on axioms: [propext, Classical.choice, Quot.sound] -/
#guard_msgs (whitespace := lax) in #print axioms Verif.Props.C77_opened

/-- info: 'Verif.Props.C77_step' depends on axioms: [propext, Classical.choice, Quot.sound] -/
#guard_msgs (whitespace := lax) in #print axioms Verif.Props.C77_step

/-- info: 'Verif.Props.C77_run' depends on axioms: [propext, Classical.choice, Quot.sound] -/
#guard_msgs (whitespace := lax) in #print axioms Verif.Props.C77_run

/-- info: 'Verif.Props.C78_session' depends on axioms: [propext, Classical.choice, Quot.sound] -/
#guard_msgs (whitespace := lax) in #print axioms Verif.Props.C78_session

/-- info: 'Verif.Props.C78_sessions' depends on axioms: [propext, Classical.choice, Quot.sound] -/
#guard_msgs (whitespace := lax) in #print axioms Verif.Props.C78_sessions

/-- info: 'Verif.Props.C79_opens' depends on axioms: [propext, Classical.choice, Quot.sound] -/
#guard_msgs (whitespace := lax) in #print axioms Verif.Props.C79_opens

/-- info: 'Verif.Props.C79_nothing' depends on axioms: [propext, Classical.choice, Quot.sound] -/
#guard_msgs (whitespace := lax) in #print axioms Verif.Props.C79_nothing

/-- info: 'Verif.Props.C79_truncates' depends on axioms: [propext, Classical.choice, Quot.sound] -/
#guard_msgs (whitespace := lax) in #print axioms Verif.Props.C79_truncates

/-- info: 'Verif.Props.C80_header' depends on axioms: [propext, Classical.choice, Quot.sound] -/
#guard_msgs (whitespace := lax) in #print axioms Verif.Props.C80_header

/-- info: 'Verif.Props.C80_cut' depends on axioms: [propext, Classical.choice, Quot.sound] -/
#guard_msgs (whitespace := lax) in #print axioms Verif.Props.C80_cut

/-- info: 'Verif.Props.C80_saved' depends on axioms: [propext, Classical.choice, Quot.sound] -/
#guard_msgs (whitespace := lax) in #print axioms Verif.Props.C80_saved

/-- info: 'Verif.Props.C80_kdbx3' depends on axioms: [propext, Classical.choice, Quot.sound] -/
#guard_msgs (whitespace := lax) in #print axioms Verif.Props.C80_kdbx3

/-- info: 'Verif.Props.C81_wrong' depends on axioms: [propext, Classical.choice, Quot.sound] -/
#guard_msgs (whitespace := lax) in #print axioms Verif.Props.C81_wrong

/-- info: 'Verif.Props.C82_step' depends on axioms: [propext, Classical.choice, Quot.sound] -/
#guard_msgs (whitespace := lax) in #print axioms Verif.Props.C82_step

/-- info: 'Verif.Props.C82_unchanged' depends on axioms: [propext, Classical.choice, Quot.sound] -/
#guard_msgs (whitespace := lax) in #print axioms Verif.Props.C82_unchanged

/-- info: 'Verif.Props.C82_lost' depends on axioms: [propext, Classical.choice, Quot.sound] -/
#guard_msgs (whitespace := lax) in #print axioms Verif.Props.C82_lost

/-- info: 'Verif.Props.C82_covered' depends on axioms: [propext, Classical.choice, Quot.sound] -/
#guard_msgs (whitespace := lax) in #print axioms Verif.Props.C82_covered

/-- info: 'Verif.Props.C82_run' depends on axioms: [propext, Classical.choice, Quot.sound] -/
#guard_msgs (whitespace := lax) in #print axioms Verif.Props.C82_run

/-- info: 'Verif.Props.C82_call' depends on axioms: [propext, Classical.choice, Quot.sound] -/
#guard_msgs (whitespace := lax) in #print axioms Verif.Props.C82_call

/-- info: 'Verif.Props.C83_absolute' depends on axioms: [propext, Classical.choice, Quot.sound] -/
#guard_msgs (whitespace := lax) in #print axioms Verif.Props.C83_absolute

/-- info: 'Verif.Props.C83_relative' depends on axioms: [propext, Classical.choice, Quot.sound] -/
#guard_msgs (whitespace := lax) in #print axioms Verif.Props.C83_relative

/-- info: 'Verif.Props.C83_named' depends on axioms: [propext, Classical.choice, Quot.sound] -/
#guard_msgs (whitespace := lax) in #print axioms Verif.Props.C83_named

/-- info: 'Verif.Props.C83_first' depends on axioms: [propext, Classical.choice, Quot.sound] -/
#guard_msgs (whitespace := lax) in #print axioms Verif.Props.C83_first

/-- info: 'Verif.Props.C83_unique' depends on axioms: [propext, Quot.sound] -/
#guard_msgs (whitespace := lax) in #print axioms Verif.Props.C83_unique

/-- info: 'Verif.Props.C83_cast' depends on axioms: [propext, Classical.choice, Quot.sound] -/
#guard_msgs (whitespace := lax) in #print axioms Verif.Props.C83_cast

/-- info: 'Verif.Props.C84_layout' depends on axioms: [propext, Classical.choice, Quot.sound] -/
#guard_msgs (whitespace := lax) in #print axioms Verif.Props.C84_layout

/-- info: 'Verif.Props.C84_blank' depends on axioms: [propext, Classical.choice, Quot.sound] -/
#guard_msgs (whitespace := lax) in #print axioms Verif.Props.C84_blank

/-- info: 'Verif.Props.C84_bytes' depends on axioms: [propext, Classical.choice, Quot.sound] -/
#guard_msgs (whitespace := lax) in #print axioms Verif.Props.C84_bytes

/-- info: 'Verif.Props.C84_header' depends on axioms: [propext, Classical.choice, Quot.sound] -/
#guard_msgs (whitespace := lax) in #print axioms Verif.Props.C84_header

/-- info: 'Verif.Props.C84_key' depends on axioms: [propext, Classical.choice, Quot.sound] -/
#guard_msgs (whitespace := lax) in #print axioms Verif.Props.C84_key

/-- info: 'Verif.Props.C84_same_keys' depends on axioms: [propext, Classical.choice, Quot.sound] -/
#guard_msgs (whitespace := lax) in #print axioms Verif.Props.C84_same_keys

/-- info: 'Verif.Props.C85_ignored' depends on axioms: [propext, Classical.choice, Quot.sound] -/
#guard_msgs (whitespace := lax) in #print axioms Verif.Props.C85_ignored

/-- info: 'Verif.Props.C85_values' depends on axioms: [propext, Classical.choice, Quot.sound] -/
#guard_msgs (whitespace := lax) in #print axioms Verif.Props.C85_values

/-- info: 'Verif.Props.C85_path' depends on axioms: [propext, Classical.choice, Quot.sound] -/
#guard_msgs (whitespace := lax) in #print axioms Verif.Props.C85_path

/-- info: 'Verif.Props.C85_string' depends on axioms: [propext, Classical.choice, Quot.sound] -/
#guard_msgs (whitespace := lax) in #print axioms Verif.Props.C85_string

/-- info: 'Verif.Props.C85_uuid' depends on axioms: [propext, Classical.choice, Quot.sound] -/
#guard_msgs (whitespace := lax) in #print axioms Verif.Props.C85_uuid

/-- info: 'Verif.Props.C85_tags' depends on axioms: [propext, Classical.choice, Quot.sound] -/
#guard_msgs (whitespace := lax) in #print axioms Verif.Props.C85_tags

/-- info: 'Verif.Props.C85_unknown' depends on axioms: [propext, Classical.choice, Quot.sound] -/
#guard_msgs (whitespace := lax) in #print axioms Verif.Props.C85_unknown

/-- info: 'Verif.Props.C86_complete' depends on axioms: [propext, Classical.choice, Quot.sound] -/
#guard_msgs (whitespace := lax) in #print axioms Verif.Props.C86_complete

/-- info: 'Verif.Props.C86_undisturbed' depends on axioms: [propext, Classical.choice, Quot.sound] -/
#guard_msgs (whitespace := lax) in #print axioms Verif.Props.C86_undisturbed

/-- info: 'Verif.Props.C86_readers' depends on axioms: [propext, Classical.choice, Quot.sound] -/
#guard_msgs (whitespace := lax) in #print axioms Verif.Props.C86_readers

/-- info: 'Verif.Props.C86_no_leftovers' depends on axioms: [propext, Classical.choice, Quot.sound] -/
#guard_msgs (whitespace := lax) in #print axioms Verif.Props.C86_no_leftovers

/-- info: 'Verif.Props.C86_any_order' depends on axioms: [propext] -/
#guard_msgs (whitespace := lax) in #print axioms Verif.Props.C86_any_order

/-- info: 'Verif.Props.C86_sessions' depends on axioms: [propext, Classical.choice, Quot.sound] -/
#guard_msgs (whitespace := lax) in #print axioms Verif.Props.C86_sessions

/-- info: 'Verif.Props.C86_alone' depends on axioms: [propext, Classical.choice, Quot.sound] -/
#guard_msgs (whitespace := lax) in #print axioms Verif.Props.C86_alone

/-- info: 'Verif.Props.C86_in_turn' depends on axioms: [propext, Quot.sound] -/
#guard_msgs (whitespace := lax) in #print axioms Verif.Props.C86_in_turn

/-- info: 'Verif.Props.C86_not_overlapping' depends on axioms: [propext, Quot.sound] -/
#guard_msgs (whitespace := lax) in #print axioms Verif.Props.C86_not_overlapping

/-- info: 'Verif.Props.C86_wrong_database' depends on axioms: [propext, Quot.sound] -/
#guard_msgs (whitespace := lax) in #print axioms Verif.Props.C86_wrong_database

/-- info: 'Verif.Props.C87_ascii' depends on axioms: [propext, Classical.choice, Quot.sound] -/
#guard_msgs (whitespace := lax) in #print axioms Verif.Props.C87_ascii

/-- info: 'Verif.Props.C87_whole' depends on axioms: [propext, Classical.choice, Quot.sound] -/
#guard_msgs (whitespace := lax) in #print axioms Verif.Props.C87_whole

/-- info: 'Verif.Props.C87_declared' depends on axioms: [propext, Classical.choice, Quot.sound] -/
#guard_msgs (whitespace := lax) in #print axioms Verif.Props.C87_declared

/-- info: 'Verif.Props.C87_element' depends on axioms: [propext, Classical.choice, Quot.sound] -/
#guard_msgs (whitespace := lax) in #print axioms Verif.Props.C87_element

/-- info: 'Verif.Props.C87_in_clear' depends on axioms: [propext, Classical.choice, Quot.sound] -/
#guard_msgs (whitespace := lax) in #print axioms Verif.Props.C87_in_clear

/-- info: 'Verif.Props.C87_dump' depends on axioms: [propext, Classical.choice, Quot.sound] -/
#guard_msgs (whitespace := lax) in #print axioms Verif.Props.C87_dump

/-- info: 'Verif.Props.C87_other_files' depends on axioms: [propext, Classical.choice, Quot.sound] -/
#guard_msgs (whitespace := lax) in #print axioms Verif.Props.C87_other_files

/-- info: 'Verif.Props.C87_not_crash_safe' depends on axioms: [propext, Classical.choice, Quot.sound] -/
#guard_msgs (whitespace := lax) in #print axioms Verif.Props.C87_not_crash_safe

/-- info: 'Verif.Props.C87_refused' depends on axioms: [propext, Classical.choice, Quot.sound] -/
#guard_msgs (whitespace := lax) in #print axioms Verif.Props.C87_refused

/-- info: 'Verif.Props.C87_header_only' depends on axioms: [propext, Classical.choice, Quot.sound] -/
#guard_msgs (whitespace := lax) in #print axioms Verif.Props.C87_header_only

/-- info: 'Verif.Props.C87_not_a_database' depends on axioms: [propext, Classical.choice, Quot.sound] -/
#guard_msgs (whitespace := lax) in #print axioms Verif.Props.C87_not_a_database

/-- info: 'Verif.Props.C88_file' depends on axioms: [propext, Classical.choice, Quot.sound] -/
#guard_msgs (whitespace := lax) in #print axioms Verif.Props.C88_file

/-- info: 'Verif.Props.C88_crash' depends on axioms: [propext, Classical.choice, Quot.sound] -/
#guard_msgs (whitespace := lax) in #print axioms Verif.Props.C88_crash

/-- info: 'Verif.Props.C88_reload' depends on axioms: [propext, Classical.choice, Quot.sound] -/
#guard_msgs (whitespace := lax) in #print axioms Verif.Props.C88_reload

/-- info: 'Verif.Props.C88_locked_out' depends on axioms: [propext, Classical.choice, Quot.sound] -/
#guard_msgs (whitespace := lax) in #print axioms Verif.Props.C88_locked_out

/-- info: 'Verif.Props.C88_last_save_wins' depends on axioms: [propext, Classical.choice, Quot.sound] -/
#guard_msgs (whitespace := lax) in #print axioms Verif.Props.C88_last_save_wins

/-- info: 'Verif.Props.C88_lost_update' depends on axioms: [propext, Classical.choice, Quot.sound] -/
#guard_msgs (whitespace := lax) in #print axioms Verif.Props.C88_lost_update

/-- info: 'Verif.Props.C89_constants' depends on axioms: [propext, Quot.sound] -/
#guard_msgs (whitespace := lax) in #print axioms Verif.Props.C89_constants

/-- info: 'Verif.Props.C89_padding' depends on axioms: [propext, Quot.sound] -/
#guard_msgs (whitespace := lax) in #print axioms Verif.Props.C89_padding

/-- info: 'Verif.Props.C89_sbox' depends on axioms: [propext] -/
#guard_msgs (whitespace := lax) in #print axioms Verif.Props.C89_sbox

/-- info: 'Verif.Props.C89_aes' depends on axioms: [propext, Classical.choice, Quot.sound] -/
#guard_msgs (whitespace := lax) in #print axioms Verif.Props.C89_aes

/-- info: 'Verif.Props.C89_lawful' depends on axioms: [propext, Classical.choice, Quot.sound] -/
#guard_msgs (whitespace := lax) in #print axioms Verif.Props.C89_lawful

/-- info: 'Verif.Props.C89_roundtrip4' depends on axioms: [propext, Classical.choice, Quot.sound] -/
#guard_msgs (whitespace := lax) in #print axioms Verif.Props.C89_roundtrip4

/-- info: 'Verif.Props.C89_roundtrip3' depends on axioms: [propext, Classical.choice, Quot.sound] -/
#guard_msgs (whitespace := lax) in #print axioms Verif.Props.C89_roundtrip3

/-- info: 'Verif.Props.C90_shipped' depends on axioms: [propext, Classical.choice, Quot.sound] -/
#guard_msgs (whitespace := lax) in #print axioms Verif.Props.C90_shipped

/-- info: 'Verif.Props.C90_content' depends on axioms: [propext, Classical.choice, Quot.sound] -/
#guard_msgs (whitespace := lax) in #print axioms Verif.Props.C90_content

/-- info: 'Verif.Props.C90_no_entries' depends on axioms: [propext, Classical.choice, Quot.sound] -/
#guard_msgs (whitespace := lax) in #print axioms Verif.Props.C90_no_entries

/-- info: 'Verif.Props.C90_answers' depends on axioms: [propext, Classical.choice, Quot.sound] -/
#guard_msgs (whitespace := lax) in #print axioms Verif.Props.C90_answers

/-- info: 'Verif.Props.C90_life' depends on axioms: [propext, Classical.choice, Quot.sound] -/
#guard_msgs (whitespace := lax) in #print axioms Verif.Props.C90_life

/-- info: 'Verif.Props.C91_first' depends on axioms: [propext, Classical.choice, Quot.sound] -/
#guard_msgs (whitespace := lax) in #print axioms Verif.Props.C91_first

/-- info: 'Verif.Props.C91_three' depends on axioms: [propext, Classical.choice, Quot.sound] -/
#guard_msgs (whitespace := lax) in #print axioms Verif.Props.C91_three

/-- info: 'Verif.Props.C91_argon2' depends on axioms: [propext, Classical.choice, Quot.sound] -/
#guard_msgs (whitespace := lax) in #print axioms Verif.Props.C91_argon2

/-- info: 'Verif.Props.C91_aes' depends on axioms: [propext, Classical.choice, Quot.sound] -/
#guard_msgs (whitespace := lax) in #print axioms Verif.Props.C91_aes

/-- info: 'Verif.Props.C91_given' depends on axioms: [propext, Classical.choice, Quot.sound] -/
#guard_msgs (whitespace := lax) in #print axioms Verif.Props.C91_given

/-- info: 'Verif.Props.C91_inner' depends on axioms: [propext, Classical.choice, Quot.sound] -/
#guard_msgs (whitespace := lax) in #print axioms Verif.Props.C91_inner

/-- info: 'Verif.Props.C92_ordered' depends on axioms: [propext, Classical.choice, Quot.sound] -/
#guard_msgs (whitespace := lax) in #print axioms Verif.Props.C92_ordered

/-- info: 'Verif.Props.C92_seen' depends on axioms: [propext, Classical.choice, Quot.sound] -/
#guard_msgs (whitespace := lax) in #print axioms Verif.Props.C92_seen

/-- info: 'Verif.Props.C92_not_durable' depends on axioms: [propext] -/
#guard_msgs (whitespace := lax) in #print axioms Verif.Props.C92_not_durable

/-- info: 'Verif.Props.C92_not_unordered' depends on axioms: [propext] -/
#guard_msgs (whitespace := lax) in #print axioms Verif.Props.C92_not_unordered

/-- info: 'Verif.Props.C92_alone' depends on axioms: [propext, Quot.sound] -/
#guard_msgs (whitespace := lax) in #print axioms Verif.Props.C92_alone

/-- info: 'Verif.Props.C92_sessions' depends on axioms: [propext, Classical.choice, Quot.sound] -/
#guard_msgs (whitespace := lax) in #print axioms Verif.Props.C92_sessions

/-- info: 'Verif.Props.C93_reads' depends on axioms: [propext, Classical.choice, Quot.sound] -/
#guard_msgs (whitespace := lax) in #print axioms Verif.Props.C93_reads

/-- info: 'Verif.Props.C93_sound' depends on axioms: [propext, Classical.choice, Quot.sound] -/
#guard_msgs (whitespace := lax) in #print axioms Verif.Props.C93_sound

/-- info: 'Verif.Props.C93_one' depends on axioms: [propext, Classical.choice, Quot.sound] -/
#guard_msgs (whitespace := lax) in #print axioms Verif.Props.C93_one

/-- info: 'Verif.Props.C93_refused' depends on axioms: [propext, Classical.choice, Quot.sound] -/
#guard_msgs (whitespace := lax) in #print axioms Verif.Props.C93_refused

/-- info: 'Verif.Props.C93_truncated' depends on axioms: [propext, Classical.choice, Quot.sound] -/
#guard_msgs (whitespace := lax) in #print axioms Verif.Props.C93_truncated

/-- info: 'Verif.Props.C93_stored' depends on axioms: [propext, Quot.sound] -/
#guard_msgs (whitespace := lax) in #print axioms Verif.Props.C93_stored

/-- info: 'Verif.Props.C93_lawful' depends on axioms: [propext, Classical.choice, Quot.sound] -/
#guard_msgs (whitespace := lax) in #print axioms Verif.Props.C93_lawful

/-- info: 'Verif.Props.C93_unconditional' depends on axioms: [propext, Classical.choice, Quot.sound] -/
#guard_msgs (whitespace := lax) in #print axioms Verif.Props.C93_unconditional

/-- info: 'Verif.Props.C93_writers4' depends on axioms: [propext, Classical.choice, Quot.sound] -/
#guard_msgs (whitespace := lax) in #print axioms Verif.Props.C93_writers4

/-- info: 'Verif.Props.C93_writers3' depends on axioms: [propext, Classical.choice, Quot.sound] -/
#guard_msgs (whitespace := lax) in #print axioms Verif.Props.C93_writers3

/-- info: 'Verif.Props.C93_lengths' depends on axioms: [propext, Quot.sound] -/
#guard_msgs (whitespace := lax) in #print axioms Verif.Props.C93_lengths

/-- info: 'Verif.Props.C93_distances' depends on axioms: [propext, Quot.sound] -/
#guard_msgs (whitespace := lax) in #print axioms Verif.Props.C93_distances

/-- info: 'Verif.Props.C93_all_lengths' depends on axioms: [propext, Quot.sound] -/
#guard_msgs (whitespace := lax) in #print axioms Verif.Props.C93_all_lengths

/-- info: 'Verif.Props.C93_all_distances' depends on axioms: [propext, Classical.choice, Quot.sound] -/
#guard_msgs (whitespace := lax) in #print axioms Verif.Props.C93_all_distances

/-- info: 'Verif.Props.C93_usable' depends on axioms: [propext, Classical.choice, Quot.sound] -/
#guard_msgs (whitespace := lax) in #print axioms Verif.Props.C93_usable

/-- info: 'Verif.Props.C93_codes' depends on axioms: [propext, Classical.choice, Quot.sound] -/
#guard_msgs (whitespace := lax) in #print axioms Verif.Props.C93_codes

/-- info: 'Verif.Props.C93_prefix_free' depends on axioms: [propext, Quot.sound] -/
#guard_msgs (whitespace := lax) in #print axioms Verif.Props.C93_prefix_free

/-- info: 'Verif.Props.C93_fixed' depends on axioms: [propext] -/
#guard_msgs (whitespace := lax) in #print axioms Verif.Props.C93_fixed

/-- info: 'Verif.Props.C93_order' depends on axioms: [propext] -/
#guard_msgs (whitespace := lax) in #print axioms Verif.Props.C93_order

/-- info: 'Verif.Props.C93_checksum' depends on axioms: [propext, Classical.choice, Quot.sound] -/
#guard_msgs (whitespace := lax) in #print axioms Verif.Props.C93_checksum

/-- info: 'Verif.Props.C93_trailer' depends on axioms: [propext] -/
#guard_msgs (whitespace := lax) in #print axioms Verif.Props.C93_trailer
