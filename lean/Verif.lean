import Verif.Api.AddGroupLemmas
import Verif.Api.AddLemmas
import Verif.Api.AttachLemmas
import Verif.Api.AttrEffects
import Verif.Api.AttrLemmas
import Verif.Api.Attributes
import Verif.Api.BinLemmas
import Verif.Api.BinaryLemmas
import Verif.Api.ContentLemmas
import Verif.Api.Db
import Verif.Api.Deref
import Verif.Api.DerefLemmas
import Verif.Api.DeskLemmas
import Verif.Api.DeskOps
import Verif.Api.Element
import Verif.Api.Entry
import Verif.Api.FieldLemmas
import Verif.Api.FiledLemmas
import Verif.Api.HistoryLemmas
import Verif.Api.HopLemmas
import Verif.Api.Identity
import Verif.Api.KeePass
import Verif.Api.Keep
import Verif.Api.KeepDb
import Verif.Api.KeepOps
import Verif.Api.Lemmas
import Verif.Api.ListLemmas
import Verif.Api.Lists
import Verif.Api.MoveLemmas
import Verif.Api.NamedLemmas
import Verif.Api.NewLemmas
import Verif.Api.NumeralLemmas
import Verif.Api.PlaceLemmas
import Verif.Api.Queries
import Verif.Api.ReachLemmas
import Verif.Api.RefLemmas
import Verif.Api.RefuseDesk
import Verif.Api.RefuseSteps
import Verif.Api.Replace
import Verif.Api.RootLemmas
import Verif.Api.Sample
import Verif.Api.Save
import Verif.Api.SaveLemmas
import Verif.Api.SearchApi
import Verif.Api.SetLemmas
import Verif.Api.ShapeLemmas
import Verif.Api.Show
import Verif.Api.SubLemmas
import Verif.Api.TextLemmas
import Verif.Api.TidyLemmas
import Verif.Api.TimeLemmas
import Verif.Api.TrashLemmas
import Verif.Api.VaultFileLemmas
import Verif.Api.VaultFind
import Verif.Api.VaultLemmas
import Verif.Api.VaultMore
import Verif.Api.VaultNew
import Verif.Api.VaultOps
import Verif.Api.VaultPast
import Verif.Api.VaultSteps
import Verif.Api.WholeData
import Verif.Api.WholeSteps
import Verif.Audit
import Verif.Base.Base64
import Verif.Base.Bytes
import Verif.Base.Num
import Verif.Base.Py
import Verif.Base.Text
import Verif.Crypto.Aes
import Verif.Crypto.Gzip
import Verif.Crypto.GzipLemmas
import Verif.Crypto.GzipTables
import Verif.Crypto.Sha2
import Verif.Crypto.Standard
import Verif.Crypto.Stream
import Verif.Kdbx.BlockLemmas
import Verif.Kdbx.Compressor
import Verif.Kdbx.Construct
import Verif.Kdbx.CutLemmas
import Verif.Kdbx.File
import Verif.Kdbx.FileLemmas
import Verif.Kdbx.FormatLemmas
import Verif.Kdbx.Header
import Verif.Kdbx.Info
import Verif.Kdbx.Inner
import Verif.Kdbx.Key
import Verif.Kdbx.KeyLemmas
import Verif.Kdbx.Payload
import Verif.Kdbx.Prims
import Verif.Kdbx.Protect
import Verif.Kdbx.RoundTrip
import Verif.Kdbx.SpecLemmas
import Verif.Kdbx.Toy
import Verif.Props.C01_Kdbx4RoundTrip
import Verif.Props.C02_Kdbx3RoundTrip
import Verif.Props.C03_Save
import Verif.Props.C04_HeaderVerbatim
import Verif.Props.C05_WrongCredentials
import Verif.Props.C06_Signature
import Verif.Props.C07_HeaderHash
import Verif.Props.C08_BlockIntegrity4
import Verif.Props.C09_BlockIntegrity3
import Verif.Props.C10_HeaderOnly
import Verif.Props.C11_Copy
import Verif.Props.C11_CrashSafeSave
import Verif.Props.C12_FailingSave
import Verif.Props.C13_FailingRead
import Verif.Props.C14_TransformedKey
import Verif.Props.C15_Keyfiles
import Verif.Props.C16_KeyfileStream
import Verif.Props.C17_TrailingBytes
import Verif.Props.C18_Create
import Verif.Props.C19_Base64
import Verif.Props.C20_Element
import Verif.Props.C20_Kdbx4Times
import Verif.Props.C21_Element
import Verif.Props.C21_Forms
import Verif.Props.C21_Kdbx3Times
import Verif.Props.C22_TwofishInverse
import Verif.Props.C23_Object
import Verif.Props.C23_TwofishCbc
import Verif.Props.C24_PaddingAndBlocks
import Verif.Props.C25_ProtectedValues
import Verif.Props.C26_InnerHeader
import Verif.Props.C27_HeaderFields
import Verif.Props.C28_FindEntries
import Verif.Props.C29_FindGroups
import Verif.Props.C30_Path
import Verif.Props.C31_Scope
import Verif.Props.C32_History
import Verif.Props.C33_First
import Verif.Props.C34_Data
import Verif.Props.C35_Fields
import Verif.Props.C36_Protection
import Verif.Props.C37_CustomProps
import Verif.Props.C38_Tags
import Verif.Props.C39_AddEntry
import Verif.Props.C39_Expiry
import Verif.Props.C40_Duplicates
import Verif.Props.C41_Delete
import Verif.Props.C42_Move
import Verif.Props.C43_Trash
import Verif.Props.C44_EmptyGroup
import Verif.Props.C45_History
import Verif.Props.C46_DeleteHistory
import Verif.Props.C47_AddBinary
import Verif.Props.C48_DeleteBinary
import Verif.Props.C49_Attachments
import Verif.Props.C50_Paths
import Verif.Props.C51_Any
import Verif.Props.C51_Reindex
import Verif.Props.C52_Structure
import Verif.Props.C53_Identity
import Verif.Props.C54_Deref
import Verif.Props.C55_Empty
import Verif.Props.C55_Expiry
import Verif.Props.C56_Times
import Verif.Props.C57_Regex
import Verif.Props.C58_ReportedAlgorithms
import Verif.Props.C59_Metadata
import Verif.Props.C60_TwofishSpec
import Verif.Props.C61_Format
import Verif.Props.C62_Streams
import Verif.Props.C63_AddGroup
import Verif.Props.C64_Calls
import Verif.Props.C65_Deprecated
import Verif.Props.C66_Printing
import Verif.Props.C67_Attributes
import Verif.Props.C68_Lists
import Verif.Props.C69_Life
import Verif.Props.C70_Resave
import Verif.Props.C71_Vault
import Verif.Props.C72_Missing
import Verif.Props.C73_Attachments
import Verif.Props.C73_SearchCards
import Verif.Props.C74_VaultFile
import Verif.Props.C75_Desk
import Verif.Props.C76_Office
import Verif.Props.C77_Whole
import Verif.Props.C78_WholeFile
import Verif.Props.C79_OtherVersions
import Verif.Props.C80_Cut
import Verif.Props.C81_Malformed
import Verif.Props.C82_Refused
import Verif.Props.C83_Queries
import Verif.Props.C84_Shipped
import Verif.Props.C85_None
import Verif.Props.C86_Together
import Verif.Props.C87_Ascii
import Verif.Props.C87_Export
import Verif.Props.C88_Crowd
import Verif.Props.C89_Constants
import Verif.Props.C89_Standard
import Verif.Props.C90_New
import Verif.Props.C91_Derivation
import Verif.Props.C92_Power
import Verif.Props.C93_Gzip
import Verif.Props.C93_Tables
import Verif.Session.Bridge
import Verif.Session.BridgeLemmas
import Verif.Session.Create
import Verif.Session.Dump
import Verif.Session.Fs
import Verif.Session.Lemmas
import Verif.Session.Life
import Verif.Session.LifeLemmas
import Verif.Session.Power
import Verif.Session.Session
import Verif.Session.Share
import Verif.Session.ShareLemmas
import Verif.Spec.Attributes
import Verif.Spec.Bin
import Verif.Spec.Blocks
import Verif.Spec.Calls
import Verif.Spec.Content
import Verif.Spec.Cover
import Verif.Spec.Created
import Verif.Spec.Crowd
import Verif.Spec.Deref
import Verif.Spec.Desk
import Verif.Spec.DeskFile
import Verif.Spec.Fields
import Verif.Spec.Format
import Verif.Spec.Gzip
import Verif.Spec.History
import Verif.Spec.Identity
import Verif.Spec.Kdbx
import Verif.Spec.Life
import Verif.Spec.New
import Verif.Spec.NewEntry
import Verif.Spec.NewGroup
import Verif.Spec.Numeral
import Verif.Spec.Path
import Verif.Spec.Power
import Verif.Spec.Query
import Verif.Spec.Reach
import Verif.Spec.Refuse
import Verif.Spec.Saved
import Verif.Spec.Search
import Verif.Spec.Shape
import Verif.Spec.Shipped
import Verif.Spec.Structure
import Verif.Spec.Tidy
import Verif.Spec.Together
import Verif.Spec.Twofish
import Verif.Spec.Vault
import Verif.Spec.VaultFile
import Verif.Spec.VaultSearch
import Verif.Spec.Whole
import Verif.Time.Calendar
import Verif.Time.Clock
import Verif.Time.Lemmas
import Verif.Tree.Edit
import Verif.Tree.Node
import Verif.Tree.Pretty
import Verif.Tree.Xml
import Verif.Tree.XmlText
import Verif.Twofish.Cbc
import Verif.Twofish.Cipher
import Verif.Twofish.Inverse
import Verif.Twofish.Object
import Verif.Twofish.Refine
import Verif.Twofish.RefineKey
import Verif.XPath.Deprecated
import Verif.XPath.Eval
import Verif.XPath.EvalLemmas
import Verif.XPath.Find
import Verif.XPath.FindLemmas
import Verif.XPath.Given
import Verif.XPath.PathLemmas
import Verif.XPath.Pieces
import Verif.XPath.Sample
import Verif.XPath.SearchLemmas
import Verif.XPath.Syntax
import Verif.XPath.SyntaxLemmas
import Verif.XPath.Uses
