import Verif.Spec.Shipped
import Verif.Spec.Desk
/-!
# A new database

What is in the blank database of the package, and what a database made from it is.
-/
namespace Verif.Spec
open Verif Api

/-- An element with a text. -/
def shipText (t s : String) : Xml := .mk t.toList [] (some s.toList) []

/-- An element with children, or with nothing. -/
def shipNode (t : String) (ks : List Xml) : Xml := .mk t.toList [] none ks

/-- The tree in `/repo/pykeepass/blank_database.kdbx`: the file decrypted with the password `password`, which `pykeepass.py:1053` gives,
copied. -/
def shippedTree : Xml :=
  shipNode "KeePassFile" [
    shipNode "Meta" [
      shipText "Generator" "KeePassXC",
      shipText "DatabaseName" "Passwords",
      shipText "DatabaseNameChanged" "246s1Q4AAAA=",
      shipNode "DatabaseDescription" [],
      shipText "DatabaseDescriptionChanged" "0o6s1Q4AAAA=",
      shipNode "DefaultUserName" [],
      shipText "DefaultUserNameChanged" "0o6s1Q4AAAA=",
      shipText "MaintenanceHistoryDays" "365",
      shipNode "Color" [],
      shipText "MasterKeyChanged" "N4+s1Q4AAAA=",
      shipText "MasterKeyChangeRec" "-1",
      shipText "MasterKeyChangeForce" "-1",
      shipNode "MemoryProtection" [
        shipText "ProtectTitle" "False",
        shipText "ProtectUserName" "False",
        shipText "ProtectPassword" "True",
        shipText "ProtectURL" "False",
        shipText "ProtectNotes" "False"],
      shipNode "CustomIcons" [],
      shipText "RecycleBinEnabled" "True",
      shipText "RecycleBinUUID" "AAAAAAAAAAAAAAAAAAAAAA==",
      shipText "RecycleBinChanged" "0o6s1Q4AAAA=",
      shipText "EntryTemplatesGroup" "AAAAAAAAAAAAAAAAAAAAAA==",
      shipText "EntryTemplatesGroupChanged" "0o6s1Q4AAAA=",
      shipText "LastSelectedGroup" "AAAAAAAAAAAAAAAAAAAAAA==",
      shipText "LastTopVisibleGroup" "AAAAAAAAAAAAAAAAAAAAAA==",
      shipText "HistoryMaxItems" "10",
      shipText "HistoryMaxSize" "6291456",
      shipText "SettingsChanged" "0o6s1Q4AAAA=",
      shipNode "CustomData" [
        shipNode "Item" [
          shipText "Key" "KPXC_DECRYPTION_TIME_PREFERENCE",
          shipText "Value" "1000"],
        shipNode "Item" [
          shipText "Key" "_LAST_MODIFIED",
          shipText "Value" "Sun Jan 12 03:51:58 2020 GMT"]]],
    shipNode "Root" [
      shipNode "Group" [
        shipText "UUID" "F69os494TDK6douojK65vQ==",
        shipText "Name" "Root",
        shipNode "Notes" [],
        shipText "IconID" "48",
        shipNode "Times" [
          shipText "LastModificationTime" "0o6s1Q4AAAA=",
          shipText "CreationTime" "0o6s1Q4AAAA=",
          shipText "LastAccessTime" "0o6s1Q4AAAA=",
          shipText "ExpiryTime" "0o6s1Q4AAAA=",
          shipText "Expires" "False",
          shipText "UsageCount" "0",
          shipText "LocationChanged" "0o6s1Q4AAAA="],
        shipText "IsExpanded" "True",
        shipNode "DefaultAutoTypeSequence" [],
        shipText "EnableAutoType" "null",
        shipText "EnableSearching" "null",
        shipText "LastTopVisibleEntry" "AAAAAAAAAAAAAAAAAAAAAA=="],
      shipNode "DeletedObjects" []]]

/-- The uuid of its only group. -/
def shippedRoot : Bytes :=
  [0x17, 0xaf, 0x68, 0xb3, 0x8f, 0x78, 0x4c, 0x32, 0xba, 0x76, 0x8b, 0xa8, 0x8c, 0xae, 0xb9, 0xbd]

/-- The blank database of the package is in its place and opens as `k`, with the tree above and no data for attachments. -/
structure Package (P : Prims) (fs : Fs) (blank : Str) (k : Kdbx) : Prop where
  named : blank ≠ []
  file : ∃ r, fs (PPath.ofStr blank) = some (shippedHeader ++ r) ∧ openBytes P blankCreds true (shippedHeader ++ r) = .ok k
  tree : k.tree = .ok shippedTree
  data : k.innerBinaries = []

/-- A vault with nothing but one empty group `r`. -/
structure NewVault (v : Vault) (r : Nat) : Prop where
  roots : v.roots = [r]
  only : ∀ x c, v.card x = some c → x = r
  card : ∃ c, v.card r = some c ∧ c.kind = "Group".toList ∧ c.text .name = some "Root".toList ∧ c.text .uuid = some (b64encode shippedRoot) ∧
    c.text .notes = none ∧ c.text .icon = some "48".toList ∧ c.time .expires = some (some "False".toList) ∧
    c.entries = [] ∧ c.groups = [] ∧ c.keys = [] ∧ c.files = [] ∧ c.past = none
  version : v.version = (4, 0)

/-- The settings of a new database, whose credentials were set at `w`. -/
structure NewDesk (d : Desk) (w : Str) : Prop where
  name : d.texts Setting.name.tag = [some "Passwords".toList]
  description : d.texts Setting.description.tag = [none]
  username : d.texts Setting.username.tag = [none]
  date : d.texts changeDate = [some w]
  days : ∀ q, d.texts (changeDays q) = [some "-1".toList]
  /-- No group has this uuid. -/
  bin : d.texts "RecycleBinUUID".toList = [some (b64encode (List.replicate 16 0))]
  stock : d.stock = []
  shelves : d.shelves = []

end Verif.Spec
