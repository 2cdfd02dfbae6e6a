import Verif.Crypto.Standard
import Verif.Crypto.GzipLemmas
import Verif.Kdbx.File
import Verif.Session.Session
import Verif.Session.Bridge
import Verif.Session.Dump
import Verif.XPath.Deprecated
import Verif.XPath.Given
import Verif.Api.Deref
import Verif.Api.Show
import Verif.Api.Identity
import Verif.Api.Save
import Verif.Api.Attributes
open Verif

def gunzip : Bytes → Except PyErr Bytes := Gzip.gunzip

def gz : Bytes → Bytes := Gzip.stored

def argon (tab : List (Bytes × Bytes)) (id : Bool) (secret salt : Bytes) (t m p v : Int) : Except PyErr Bytes :=
  match tab.lookup salt with
  | some r => .ok r
  | none => dbg_trace s!"ARGON {id} {secret} {salt} {t} {m} {p} {v}"; .error .unmodelled

def P (tab : List (Bytes × Bytes)) : Prims := standard (argon tab) gz gunzip

def str (s : Str) : String := String.ofList s


open Verif.Api Verif.XPath

def lower (s : Str) : Str := s.map Char.toLower
partial def containsS (p s : Str) : Bool := p.isPrefixOf s || (match s with | [] => false | _ :: t => containsS p t)
def eng : Regex := fun p i =>
  let dropStar : Str → Str := fun p => if ".*".toList.isPrefixOf p then p.drop 2 else p
  let p := (dropStar p)
  let p := if ".*".toList.isSuffixOf p then p.take (p.length - 2) else p
  some fun s => if i then containsS (lower p) (lower s) else containsS p s

def nowDt : DateTime := { date := ⟨2026, 11, 16⟩, hour := 12, minute := 30, second := 15, micro := 123456, tz := some 0 }
def dtAt (day h : Nat) (tz : Int) (us : Nat := 0) : DateTime := { date := ⟨2026, 11, day⟩, hour := h, minute := 30, second := 15, micro := us, tz := some tz }
def envv : Env := { re := eng, now := fun _ => nowDt, uuid1 := fun n => (List.range 16).map (fun k => (n * 16 + k).toUInt8), localOff := fun _ => 0, gzip := gz, gunzip := gunzip }
abbrev S (s : String) : Option Str := some s.toList
def kw (k v : String) : Kw := .attr k.toList (S v)
def fe (l : List (String × String)) : M (List Nat) := findEntryList envv true { kwargs := l.map fun p => kw p.1 p.2 }
def fer (l : List (String × String)) (fl : Option String := none) : M (List Nat) := findEntryList envv true { kwargs := l.map (fun p => kw p.1 p.2), regex := true, flags := fl.map String.toList }
def fe1 (l : List (String × String)) : M (Option Nat) := findEntry envv true { kwargs := l.map (fun p => kw p.1 p.2), first := true }
def fg (l : List (String × String)) : M (List Nat) := findGroupList envv true { kwargs := l.map fun p => kw p.1 p.2 }
def fg1 (l : List (String × String)) : M (Option Nat) := findGroup envv true { kwargs := l.map (fun p => kw p.1 p.2), first := true }
def fpe (p : List String) (rg := false) (fl : Option String := none) : M (Option Nat) := findEntry envv true { path := some (p.map String.toList), regex := rg, flags := fl.map String.toList, first := rg }
def fpg (p : List String) : M (Option Nat) := findGroup envv true { path := some (p.map String.toList), first := true }
def ex (o : M (Option Nat)) : M Nat := do match ← o with | some x => pure x | none => fail .index
def std (e : Nat) (f : Field) : M (Option Str) := getStd envv e f
def allE : M (List Nat) := fe []
def allG : M (List Nat) := fg []
def hexv (c : Char) : Nat := if c.isDigit then c.toNat - 48 else c.toLower.toNat - 87
partial def unhex : List Char → Bytes
  | a :: b :: r => (hexv a * 16 + hexv b).toUInt8 :: unhex r
  | _ => []
def uu (s : String) : Bytes := unhex (s.toList.filter (· != '-'))
def ents : EntryArgs := { title := S "title", username := S "user", password := S "pass" }
def mk (dest : Nat) (t u p : String) : M Nat := addEntry envv dest { title := S t, username := S u, password := S p } false
def root : M Nat := ex (rootGroup envv)
def dep (r : Node → Except PyErr Found) : M Found := fun s => (r s.world, s)
def lenF : Found → Nat | .list l => l.length | .one (some _) => 1000 | .one none => 2000
def allM (l : List Nat) (f : Nat → M Bool) : M Bool := l.foldlM (fun b x => do pure (b && (← f x))) true
def refuses (m : M Unit) (p : PyErr → Bool) : M Bool := fun s => match m s with | (.error e, s') => (.ok (p e), s') | (.ok _, s') => (.ok false, s')
def lt (a b : Option DateTime) : Bool := match a, b with | some x, some y => (match y.gt x with | .ok r => r | _ => false) | _, _ => false

def tests : List (String × M Bool) := [
 ("title", do pure ((← fe [("title","root_entry")]).length == 1)),
 ("title i", do let l ← fer [("title","Root_entry")] (some "i"); pure ((← std l.head! .title) == S "root_entry")),
 ("title no i", do pure ((← fer [("title","Root_entry")]).length == 0)),
 ("user", do pure ((← fe [("username","foobar_user")]).length == 2)),
 ("user i", do let l ← fer [("username","Foobar_user")] (some "i"); pure ((← std l.head! .username) == S "foobar_user")),
 ("pass", do pure ((← fe [("password","passw0rd")]).length == 2)),
 ("url", do pure ((← fe [("url","http://example.com")]).length == 2)),
 ("notes", do pure ((← fe [("notes","entry notes")]).length == 1)),
 ("notes re", do pure ((← fer [("notes","entry notes")]).length == 2)),
 ("notes i first", do let l ← fer [("notes","Entry notes")] (some "i"); pure ((← std l.head! .notes) == S "root entry notes")),
 ("path", do pure ((← fpe ["foobar_group","group_entry"]).isSome)),
 ("path none", do pure ((← fpe ["foobar_group"]).isNone)),
 ("path re", do let e ← ex (fpe ["foobar_group","Group_entry"] true (some "i")); pure ((← std e .title) == S "group_entry")),
 ("uuid", do
   let u := uu "cc5f7ecd-2a00-48ca-9621-c222a347b0bb"
   let l ← findEntryList envv true { kwargs := [.uuid u] }
   pure ((← getUuid l.head!) == u && (← std l.head! .username) == S "foobar_user")),
 ("dep uuid", do pure (lenF (← dep fun w => Deprecated.findEntriesByUuid eng w (uu "cc5f7ecd-2a00-48ca-9621-c222a347b0bb") {}) == 1)),
 ("dep title", do pure (lenF (← dep fun w => Deprecated.findEntriesByTitle eng w (S "root_entry") {}) == 1)),
 ("dep user", do pure (lenF (← dep fun w => Deprecated.findEntriesByUsername eng w (S "foobar_user") {}) == 2)),
 ("dep gname", do pure (lenF (← dep fun w => Deprecated.findGroupsByName eng w (S "subgroup") {}) == 1)),
 ("dep gpath", do pure (lenF (← dep fun w => Deprecated.findGroupsByPath eng w (some ["foobar_group".toList, "subgroup".toList]) {}) == 1000)),
 ("tags", do let l ← findEntryList envv true { kwargs := [.tags ["tag1".toList, "tag2".toList]] }; pure ((← std l.head! .title) == S "foobar_entry")),
 ("string", do
   let l ← findEntryList envv true { kwargs := [.string [("custom_field".toList, "custom field value".toList)]] }
   pure ((← getCustom envv l.head! "custom_field".toList) == S "custom field value" && (← getUuid l.head!) == uu "1e73786c-7495-8c4c-9b3d-ff273aad5b54")),
 ("autotype seq", do let l ← fer [("autotype_sequence","{TAB}")]; pure (l.length == 1 && (← getAuto l.head! false) == S "{USERNAME}{TAB}{PASSWORD}{ENTER}")),
 ("autotype win", do let l ← fer [("autotype_window","test")] (some "i"); pure (l.length == 1 && (← getAuto l.head! true) == S "TEST")),
 ("autotype enabled", do pure ((← fe [("autotype_enabled","True")]).length == (← allE).length - 1)),
 ("otp none", do pure ((← fer [("otp","nonmatch")] (some "i")).length == 0)),
 ("otp", do let l ← fer [("otp","OTPSECRETT")]; pure (l.length == 1 && (← std l.head! .title) == S "foobar_entry")),
 ("notes+url", do let l ← fe [("notes","entry notes"),("url","http://example.com")]; let g ← ex (fe1 [("title","group_entry")]); pure (l.length == 1 && l.contains g)),
 ("group none", do pure ((← fe [("title","foobar_entry")]).length == 3)),
 ("group arg", do
   let g ← ex (fg1 [("name","foobar_group")])
   pure ((← findEntryList envv true { tree := some g, kwargs := [kw "title" "foobar_entry"] }).length == 2)),
 ("is_a_history_entry", do
   let mut r := true
   for t in ["root_entry", "subentry"] do
     let l1 ← fe [("title", t)]
     let l2 ← findEntryList envv true { kwargs := [kw "title" t], history := true }
     let a ← allM l1 (fun e => do pure (!(← isHistoryEntry e)))
     let b ← allM (l2.filter fun x => !l1.contains x) isHistoryEntry
     r := r && a && b && l2.length > l1.length
   pure r),
 ("history", do
   let e ← ex (fe1 [("title","subentry2")])
   let f ← ex (fe1 [("title","subentry")])
   pure ((← history e).length == 0 && (← history f).length == 4)),
 ("history path/group", do
   let mut r := true
   for t in ["root_entry", "subentry"] do
     let e ← ex (fe1 [("title",t)])
     let h ← history e
     let p ← entryPath envv e
     let g ← groupOf e
     let a ← allM h (fun x => do pure ((← entryPath envv x) == p && (← groupOf x) == g))
     r := r && a && h.length > 0
   pure r),
 ("add/move/delete", do
   let r ← root
   let e ← addEntry envv r { title := S "t", username := S "u", password := S "p", url := S "l", notes := S "n", tags := some (["tag1", "tag2", "tag3;tag4", "tag5,tag6"].map String.toList), expiry := some nowDt, icon := S "0" } false
   let a := (← fe [("title","t")]).length == 1
   let vals := [← std e .title, ← std e .username, ← std e .password, ← std e .url, ← std e .notes] == [S "t", S "u", S "p", S "l", S "n"]
   let tg := (← getTags e).length == 6
   let at' ← getAuto e false
   let ic ← getIcon e
   let sg ← addGroup envv r (S "sub_group") none none
   moveEntry e sg
   let f ← ex (fpe ["sub_group","t"])
   deleteEntry e
   let gone := (← fe1 [("title","t")]).isNone
   let s2 ← ex (fg1 [("name","subgroup2")])
   let _ ← mk s2 "foobar_entry" "foobar" "foobar"
   let _ ← mk s2 "foobar_entry2" "foobar" "foobar"
   let _ ← mk r "foobar_entry2" "foobar" "foobar"
   let again ← refuses (do let _ ← mk r "foobar_entry2" "foobar" "foobar"; pure ()) (fun _ => true)
   pure (a && vals && tg && at' == none && ic == S "0" && f == e && gone && again)),
 ("tz", do
   let r ← root
   let e1 ← addEntry envv r { title := S "a", username := S "u", password := S "p", expiry := some (dtAt 16 18 (6*3600*1000000)) } false
   let e3 ← addEntry envv r { title := S "c", username := S "u", password := S "p", expiry := some (dtAt 16 12 (-6*3600*1000000)) } false
   let t1 ← getTime e1 "ExpiryTime".toList
   let t3 ← getTime e3 "ExpiryTime".toList
   pure ((← expired envv e1) && !(← expired envv e3) && t1 == some (dtAt 16 12 0) && t3 == some (dtAt 16 18 0))),
 ("repr", do
   let l ← allE
   let e ← ex (fe1 [("title","Тест")])
   saveHistory e
   let _ ← entryStr envv e
   for h in ← history e do let _ ← historyStr envv h
   let b ← ex (fe1 [("username","blank_title")])
   let _ ← entryStr envv b
   for x in l do let _ ← entryStr envv x
   for x in ← allG do let _ ← groupStr x
   pure true),
 ("group name", do pure ((← fg [("name","subgroup")]).length == 1)),
 ("group tree re", do
   let g ← ex (fg1 [("name","foobar_group")])
   let a ← findGroupList envv true { tree := some g, kwargs := [kw "name" ".*group.*"], regex := true }
   let b ← findGroupList envv false { tree := some g, kwargs := [kw "name" ".*group.*"], regex := true }
   pure (a.length == 2 && b.length == 1)),
 ("group path", do let g ← ex (fpg ["foobar_group","subgroup"]); pure ((← getName g) == S "subgroup" && (← fpg ["foobar_group","group_entry"]).isNone)),
 ("group uuid", do
   let u := uu "95155a32-5317-a10f-d4e4-d0c2030264b6"
   pure ((← findGroupList envv true { kwargs := [.uuid u], regex := true }).length == 1 && (← findGroupList envv true { kwargs := [.uuid u] }).length == 1)),
 ("group notes", do let l ← fg [("notes","group notes")]; pure (l.length == 1 && (← getUuid l.head!) == uu "95155a32-5317-a10f-d4e4-d0c2030264b6")),
 ("groups", do pure ((← allG).length == 7)),
 ("add/move/delete group", do
   let r ← root
   let b ← addGroup envv r (S "base_group") none (S "note!")
   let s ← addGroup envv b (S "sub_group") none none
   let s2 ← addGroup envv b (S "sub_group2") none none
   let n1 ← getGroupNotes b
   setGroupNotes b (S "")
   let n2 ← getGroupNotes b
   let f1 ← fpg ["base_group","sub_group"]
   moveGroup s2 s
   let f2 ← fpg ["base_group","sub_group","sub_group2"]
   deleteGroup s
   let f3 ← fpg ["base_group","sub_group"]
   pure (n1 == S "note!" && n2 == S "" && f1 == some s && f2 == some s2 && f3 == none)),
 ("bin", do
   let r ← root
   let before ← recycleBin envv
   let e ← mk r "RecycleBinTest1" "login" "password"
   let u ← getUuid e
   trash envv e
   let b ← ex (recycleBin envv)
   let inRoot ← findEntryList envv false { tree := some r, kwargs := [.uuid u] }
   let inBin ← findEntryList envv false { tree := some b, kwargs := [.uuid u] }
   let g ← addGroup envv r (S "g3") none none
   let ge ← mk g "x" "login" "password"
   let gu ← getUuid g
   trash envv g
   let gRoot ← findGroupList envv false { tree := some r, kwargs := [.uuid gu] }
   let gBin ← findGroupList envv false { tree := some b, kwargs := [.uuid gu] }
   let ges ← groupEntries gBin.head!
   let n1 := ((← groupSubgroups b).length, (← groupEntries b).length)
   emptyGroup b
   let n2 := ((← groupSubgroups b).length, (← groupEntries b).length)
   pure (before == none && inRoot == [] && inBin == [e] && gRoot == [] && gBin == [g] && ges == [ge] && n1 == (1,1) && n2 == (0,0))),
 ("entry path", do
   let e ← ex (fe1 [("title","subentry")])
   let f ← ex (fe1 [("title","root_entry")])
   let h ← history f
   pure ((← entryPath envv e) == some [S "foobar_group", S "subgroup", S "subentry"] && (← groupOf h.head!) == (← rootGroup envv))),
 ("refs", do
   let o ← ex (fe1 [("title","foobar_entry")])
   let c1 ← ex (fe1 [("title","foobar_entry - Clone")])
   let c2 ← ex (fe1 [("title","foobar_entry - Clone of clone")])
   let p ← ex (fe1 [("title","foobar_entry - Clone with prefix and suffix")])
   let d e f := entryDeref envv (fun _ l => l) 100 e f
   let ou ← std o .username
   let op ← std o .password
   pure ((← d c2 .username) == ou && (← d c2 .password) == op && some (← ref o "username".toList) == (← std c1 .username)
     && (← d p .username) == some ("domain\\".toList ++ ou.get! ++ ['2']) && (← d p .password) == some ("A".toList ++ op.get! ++ "BC".toList))),
 ("broken ref", do
   let r ← root
   let e ← mk r "broken reference" "{REF:U@I:AAAAAAAAAAAAAAAAAAAAAAAAAAAAAAAA}" "{REF:P@I:AAAAAAAAAAAAAAAAAAAAAAAAAAAAAAAA}"
   pure ((← entryDeref envv (fun _ l => l) 100 e .username) == none && (← entryDeref envv (fun _ l => l) 100 e .password) == none)),
 ("set/get", do
   let e ← mk (← root) "ti" "us" "pa"
   setStd envv e .title (S "x1"); setStd envv e .url (S "x2"); setStd envv e .notes (S "x3"); setStd envv e .otp (S "os")
   setExpires e false; setTime e "ExpiryTime".toList (dtAt 17 3 0); setIcon e (S "1")
   setCustom envv e "foo".toList (S "bar") false
   setCustom envv e "multiline".toList (S "hello\nworld") false
   let a := [← std e .title, ← std e .url, ← std e .notes, ← std e .otp, ← getIcon e, ← getCustom envv e "foo".toList, ← getCustom envv e "multiline".toList]
   let cp ← customProps envv e
   deleteCustom envv e "foo".toList
   let f ← getCustom envv e "foo".toList
   let x ← getExpires e
   let t ← getTime e "ExpiryTime".toList
   setTags e ["changed_tags".toList]; let t1 ← getTags e
   setTags e ["changed;tags".toList]; let t2 ← getTags e
   setTags e ["changed".toList, "again".toList, "tags".toList]; let t3 ← getTags e
   setTags e []; let t4 ← getTags e
   pure (a == [S "x1", S "x2", S "x3", S "os", S "1", S "bar", S "hello\nworld"] && cp.any (·.1 == S "foo") && f == none && x == some false && t == some (dtAt 17 3 0)
     && t1 == ["changed_tags".toList] && t2 == ["changed".toList, "tags".toList] && t3.length == 3 && t4 == [])),
 ("touch", do
   let e ← ex (fe1 [("title","root_entry")])
   let g ← ex (fg1 [("name","foobar_group")])
   let tm x := do pure (← getTime x "LastAccessTime".toList, ← getTime x "LastModificationTime".toList, ← getTime x "CreationTime".toList)
   let a ← tm e
   touch envv e false
   let b ← tm e
   let c ← tm g
   touch envv g true
   let d ← tm g
   pure (lt a.1 b.1 && a.2 == b.2 && lt c.1 d.1 && lt c.2.1 d.2.1 && c.2.2 == d.2.2)),
 ("attachments", do
   let e ← mk (← root) "title" "username" "password"
   let n := (← entryAttachments envv e).length
   let _ ← addAttachment e 0 (S "foobar.txt")
   let _ ← addAttachment e 0 (S "foobar2.txt")
   let m := (← entryAttachments envv e).length
   let a := (← findAttachmentList envv true { kwargs := [kw "id" "0", kw "filename" "foobar.txt"] }).head!
   let nm ← attName a
   let i ← attId a
   delete a
   let l ← entryAttachments envv e
   pure (m == n + 2 && nm == S "foobar.txt" && i == 0 && l.length == n + 1 && (← attName l.head!) == S "foobar2.txt")),
 ("protected", do
   let e ← mk (← root) "test-protect" "some-user" "pass"
   setCustom envv e "protected".toList (S "something") true
   setCustom envv e "eu".toList (S "other") false
   pure ((← isCustomProtected envv e "protected".toList) && !(← isCustomProtected envv e "eu".toList) && !(← isCustomProtected envv e "nope".toList))),
 ("reindex", do
   let r ← root
   let e1 ← mk r "i1" "user-index" "pass"
   let e2 ← mk r "i2" "user-index" "pass"
   let e3 ← mk r "i3" "user-index" "pass"
   let e4 ← mk r "i4" "user-index" "pass"
   reindex e2 0; reindex e3 0; reindex e4 0
   pure ((← fe [("username","user-index")]) == [e4,e3,e2,e1])),
 ("find history", do
   let r ← root
   let e1 ← mk r "TFE" "u" "p"
   let g1 ← addGroup envv r (S "TFEg") none none
   let _ ← mk g1 "TFE" "u" "p"
   let g2 ← addGroup envv g1 (S "TFEs") none none
   let _ ← mk g2 "TFE" "u" "p"
   let l ← fe [("title","TFE")]
   let h0 ← findEntryList envv true { kwargs := [kw "title" "TFE"], history := true }
   for e in l do saveHistory e
   let l1 ← fe [("title","TFE")]
   let h1 ← findEntryList envv true { kwargs := [kw "title" "TFE"], history := true }
   let ok ← allM l1 (fun e => do let h ← history e; let g ← groupOf e; pure (h.length == 1 && (← isHistoryEntry h.head!) && (← groupOf h.head!) == g && "HistoryEntry:".toList.isPrefixOf (← historyStr envv h.head!)))
   for e in l do setStd envv e .title (S "chg"); setTime e "LastModificationTime".toList nowDt
   let l2 ← fe [("title","TFE")]
   let h2 ← findEntryList envv true { kwargs := [kw "title" "TFE"], history := true }
   for e in l do saveHistory e
   let h3 ← findEntryList envv true { kwargs := [kw "title" "chg"], history := true }
   let hh ← history e1
   deleteHistory e1 (some hh.head!) false
   let hh2 ← history e1
   deleteHistory e1 none true
   let hh3 ← history e1
   pure (l.length == 3 && h0.length == 3 && l1 == l && h1.length == 6 && ok && l2 == [] && h2.length == 3 && h3.length == 6 && hh.length == 2 && hh2.length == 1 && hh2 == hh.tail && hh3 == [])),
 ("group path 2", do let g ← ex (fg1 [("name","subgroup2")]); pure ((← groupPath g) == [S "foobar_group", S "subgroup", S "subgroup2"])),
 ("binary", do
   let a ← refuses (deleteBinary envv 999) (fun e => toString (repr e) == "Verif.PyErr.binary")
   let e := (← allE).head!
   let at1 ← addAttachment e 123 (S "foo.txt")
   let b ← refuses (do let _ ← attBinary envv at1; pure ()) (fun e => toString (repr e) == "Verif.PyErr.binary")
   delete at1
   let i ← addBinary envv "Ronald".toUTF8.data.toList true true
   let bs ← binaries envv
   let n := bs.length
   deleteBinary envv i
   let bs2 ← binaries envv
   let l ← findAttachmentList envv true { kwargs := [kw "filename" "foo.txt"] }
   let d ← attBinary envv l.head!
   pure (a && b && bs[i.toNat]? == some "Ronald".toUTF8.data.toList && bs2.length == n - 1 && d == [])),
 ("decrement", do
   let e := (← allE).head!
   let i1 ← addBinary envv "foobar".toUTF8.data.toList true true
   let i2 ← addBinary envv "foobar2".toUTF8.data.toList true true
   let _ ← addAttachment e i1 (S "foo.txt")
   let a2 ← addAttachment e i2 (S "foo.txt")
   deleteBinary envv i1
   pure ((← attId a2) == i2 - 1)),
 ("attachment data", do
   let e := (← allE).head!
   let i ← addBinary envv "foobar".toUTF8.data.toList true true
   let a ← addAttachment e i (S "test.txt")
   pure ((← attBinary envv a) == "foobar".toUTF8.data.toList && (← attName a) == S "test.txt")),
 ("credchange", do
   setCredDays envv true 5; setCredDays envv false 5
   setCredDate envv (dtAt 15 12 0)
   let a := (← credChange envv true, ← credChange envv false)
   setCredDate envv (dtAt 6 12 0)
   let b := (← credChange envv true, ← credChange envv false)
   setCredDays envv true (-1); setCredDays envv false (-1)
   let c := (← credChange envv true, ← credChange envv false)
   setCredDays envv true 5; setCredDays envv false 5
   setKeyfile envv (S "foo")
   let d := (← credChange envv true, ← credChange envv false)
   pure (a == (false,false) && b == (true,true) && c == (false,false) && d == (false,false))),
 ("issue129", do let e ← ex (fe1 [("title","foobar_entry")]); pure ((← getCustom envv e "multiline".toList) == S "hello\nworld" && (← std e .password) == S "foobar")),
 ("issue308", do
   let a ← fe [("title","foobar_entry")]
   let b ← findEntryList envv true { kwargs := [kw "title" "foobar_entry", .attr "username".toList none] }
   pure (a == b)),
 ("issue344", do
   let e ← ex (fe1 [("title","none_date")])
   let t ← ex (findDeep e ["Times".toList, "ExpiryTime".toList])
   setText t none
   pure ((← getTime e "ExpiryTime".toList) == none)),
 ("issue376", do
   let e ← mk (← root) "banana_entry" "user" "pass"
   let p k := isProtected envv e (String.toList k)
   let a := [← p "Password", ← p "Title", ← p "otp"]
   let o ← std e .otp
   setStd envv e .title (S "pineapple"); setStd envv e .password (S "pizza"); setStd envv e .otp (S "aa")
   let b := [← p "Password", ← p "Title", ← p "otp"]
   let f (x : Option Bool) := setField envv e "XYZ".toList (S "1") x
   f none; let c1 ← p "XYZ"
   f (some true); let c2 ← p "XYZ"
   f none; let c3 ← p "XYZ"
   f (some false); let c4 ← p "XYZ"
   pure (a == [true,false,false] && o == none && b == [true,false,true] && [c1,c2,c3,c4] == [false,true,true,false])),
 ("info", do
   let a := [← getMeta envv "DatabaseName".toList, ← getMeta envv "DatabaseDescription".toList, ← getMeta envv "DefaultUserName".toList]
   setMeta envv "DatabaseName".toList "Test Name".toList
   pure (a == [none,none,none] && (← getMeta envv "DatabaseName".toList) == S "Test Name"))
]

def main (args : List String) : IO Unit := do
  match args with
  | file :: pw :: kf :: tk :: rest =>
    let rd (f : String) : IO Bytes := do return (← IO.FS.readBinFile f).data.toList
    let b ← rd file
    let kfc ← if kf = "-" then pure Keyfile.none else do pure (Keyfile.path (some (← rd kf)))
    let tkc ← if tk = "-" then pure none else do pure (some (← rd tk))
    let c : Creds := { password := if pw = "-" then none else some (if pw = "_" then [] else pw.toList), keyfile := kfc, transformedKey := tkc }
    let tab ← match rest with
      | [s, k] => do pure [(← rd s, ← rd k)]
      | _ => pure []
    match openBytes (P tab) c true b with
    | .error e => IO.println s!"ERROR {repr e}"
    | .ok k =>
      match k.load 0 0 with
      | .error e => IO.println s!"load {repr e}"
      | .ok db =>
        for (n, t) in tests do
          match t db with
          | (.ok true, _) => IO.println s!"ok {n}"
          | (.ok false, _) => IO.println s!"FALSE {n}"
          | (.error e, _) => IO.println s!"RAISED {n} {repr e}"
        let edit : M Unit := do
          let e ← mk (← root) "protect_test" "user" "pass"
          setMeta envv "DatabaseName".toList "Test Name".toList
          let _ ← addBinary envv "Ronald".toUTF8.data.toList true true
          let _ ← addAttachment e 0 (S "a.txt")
        let s1 := (edit db).2
        let k1 := k.store s1
        match (buildKdbx (P tab) c k1).1 with
        | .error e => IO.println s!"save {repr e}"
        | .ok bs => match openBytes (P tab) c true bs with
          | .error e => IO.println s!"reopen {repr e}"
          | .ok k2 => match k2.load 0 0 with
            | .error e => IO.println s!"load2 {repr e}"
            | .ok db2 =>
              let chk : M Bool := do
                let e ← ex (fe1 [("title","protect_test")])
                pure ((← std e .password) == S "pass" && (← getMeta envv "DatabaseName".toList) == S "Test Name" && (← binaries envv).contains "Ronald".toUTF8.data.toList)
              IO.println s!"saved {bs.length} bytes: {match (chk db2).1 with | .ok b => toString b | .error e => toString (repr e)}"
              IO.println s!"same tree {decide (k2.tree.toOption = k1.tree.toOption.map Xml.norm)}"
  | _ => IO.println "args"
