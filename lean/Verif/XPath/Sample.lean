import Verif.XPath.EvalLemmas
/-!
# A small database

Used to show that the hypotheses of the theorems can be met by a database with groups, entries,
history, attachments and a deleted entry somebody still holds.
-/
namespace Verif.Sample
open Verif XPath

def leaf (tag text : String) : Xml := .mk tag.toList [] (some text.toList) []
def el (tag : String) (kids : List Xml) : Xml := .mk tag.toList [] none kids
def str (k v : String) : Xml := el "String" [leaf "Key" k, leaf "Value" v]
def secret (k v : String) : Xml :=
  el "String" [leaf "Key" k, .mk "Value".toList [("Protected".toList, "True".toList)] (some v.toList) []]
def file (name ref : String) : Xml :=
  el "Binary" [leaf "Key" name, .mk "Value".toList [("Ref".toList, ref.toList)] none []]

def oldMail : Xml := el "Entry" [leaf "UUID" "AQ==", str "Title" "mail", str "UserName" "ann", secret "Password" "old"]

def mail : Xml := el "Entry" [leaf "UUID" "AQ==", str "Title" "mail", str "UserName" "ann", secret "Password" "s3",
  leaf "Tags" "home;net", file "a.txt" "0", el "History" [oldMail]]

def bank : Xml := el "Entry" [leaf "UUID" "Ag==", str "Title" "bank", str "UserName" "ann", secret "Password" "s4",
  str "pin" "12", el "AutoType" [leaf "Enabled" "True", leaf "DefaultSequence" "x", el "Association" [leaf "Window" "w"]]]

def mail2 : Xml := el "Entry" [leaf "UUID" "Aw==", str "Title" "mail", str "UserName" "bob", secret "Password" "s5"]

def doc : Xml := el "KeePassFile" [
  el "Meta" [leaf "Generator" "g", leaf "DatabaseName" "n"],
  el "Root" [
    el "Group" [leaf "UUID" "EA==", leaf "Name" "Root", mail,
      el "Group" [leaf "UUID" "EQ==", leaf "Name" "Work", bank, mail2]]]]

/-- The database, and behind it an entry taken out of it. -/
def world : Node :=
  let r := Node.ofXml 1 doc
  .mk 0 [] [] none [r.1, (Node.ofXml r.2 mail2).1]

theorem world_ok : World world := ⟨rfl, rfl, by unfold Node.Uniq; decide +kernel, by decide +kernel⟩

/-- An engine that knows the pattern `.*` and literal prefixes. -/
def engine : Regex := fun p _ => if p = ".*".toList then some fun _ => true else if p = "(".toList then none else some fun s => p.isPrefixOf s

end Verif.Sample
