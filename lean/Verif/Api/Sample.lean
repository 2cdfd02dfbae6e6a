import Verif.Api.KeePass
import Verif.Api.Lemmas
import Verif.XPath.Sample
/-!
# A small open database

Used to show that the hypotheses of the theorems can be met, and for concrete cases in which the code
does not do what one would expect.
-/
namespace Verif.Api.Sample
open Verif XPath Verif.Sample

/-- A 16-byte uuid ending in the given byte. -/
def uid (n : Nat) : Xml := .mk "UUID".toList [] (some (b64encode (List.replicate 15 0 ++ [UInt8.ofNat n]))) []

def zeroTime : Str := "AAAAAAAAAAA=".toList

def times : Xml := el "Times" [.mk "CreationTime".toList [] (some zeroTime) [],
  .mk "LastModificationTime".toList [] (some zeroTime) [], .mk "LastAccessTime".toList [] (some zeroTime) [],
  .mk "ExpiryTime".toList [] (some zeroTime) [], leaf "Expires" "True"]

def oldMail : Xml := el "Entry" [uid 1, times, str "Title" "mail", str "UserName" "ann", secret "Password" "old",
  file "o.txt" "1"]

def mail : Xml := el "Entry" [uid 1, times, str "Title" "mail", str "UserName" "ann", secret "Password" "s3",
  str "URL" "u", leaf "Tags" "home;net", str "pin" "12", file "a.txt" "0", el "AutoType" [leaf "Enabled" "True",
  leaf "DefaultSequence" "x", el "Association" [leaf "Window" "w"]], el "History" [oldMail]]

def bank : Xml := el "Entry" [uid 2, times, str "Title" "bank", str "UserName" "ann", secret "Password" "s4",
  file "b.txt" "2"]

def shop : Xml := el "Entry" [uid 3, times, str "Title" "shop", str "UserName" "bob", secret "Password" "s5"]

def doc : Xml := el "KeePassFile" [
  el "Meta" [leaf "DatabaseName" "n", leaf "DatabaseDescription" "d", leaf "DefaultUserName" "u",
    .mk "MasterKeyChanged".toList [] (some zeroTime) [], leaf "MasterKeyChangeRec" "-1", leaf "MasterKeyChangeForce" "30",
    leaf "RecycleBinUUID" "AAAAAAAAAAAAAAAAAAAAAA==",
    el "Binaries" [.mk "Binary".toList [("ID".toList, ['0'])] (some "AQ==".toList) [],
      .mk "Binary".toList [("ID".toList, ['1'])] (some "Ag==".toList) []]],
  el "Root" [
    el "Group" [uid 16, leaf "Name" "Root", times, mail, shop,
      el "Group" [uid 17, leaf "Name" "Work", times, bank, el "Group" [uid 18, leaf "Name" "Deep", times]]]]]

def first : Node × Nat := Node.ofXml 1 doc

/-- The database as opened from a KDBX 4.0 file with three attachments, and the deleted entry somebody holds. -/
def db : Db :=
  { world := .mk 0 [] [] none [first.1, (Node.ofXml first.2 shop).1]
    next := (Node.ofXml first.2 shop).2
    version := (4, 0)
    binaries := [[0, 10], [0, 11], [0, 12]]
    password := some "pw".toList
    keyfile := none
    ticks := 0
    uuids := 0 }

/-- The same elements opened from a KDBX 3.1 file. -/
def db3 : Db := { db with version := (3, 1), binaries := [] }

theorem db_inv : Inv db :=
  ⟨⟨by decide +kernel, by decide +kernel, by unfold Node.Uniq; decide +kernel, by decide +kernel⟩, by
    have : (db.world.ids.all fun i => decide (i < db.next)) = true := by decide +kernel
    intro i hi
    simpa using List.all_eq_true.mp this i hi⟩

theorem inv_version {s : Db} (h : Inv s) (v : Nat × Nat) (b : List Bytes) :
    Inv { s with version := v, binaries := b } := ⟨h.world, h.bound⟩

theorem db3_inv : Inv db3 := inv_version db_inv _ _

/-- A clock that advances by a day, uuids that repeat only after 256, gzip that changes nothing. -/
def env : Env :=
  { re := engine
    now := fun n => ⟨⟨2024, 1, n % 28 + 1⟩, 0, 0, 0, 0, some 0⟩
    uuid1 := fun n => List.replicate 15 1 ++ [UInt8.ofNat n]
    localOff := fun _ => 0
    gzip := id
    gunzip := .ok }

end Verif.Api.Sample
