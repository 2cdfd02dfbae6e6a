import Verif.Spec.Vault
import Verif.Api.Queries
/-!
# The desk: what a database holds beside its cards

The settings, the data of attachments and the credentials. Cards and desk together are an office.
-/
namespace Verif.Spec
open Verif Api XPath

/-- The data of an attachment as a KDBX3 database keeps it: its number, whether it is compressed, and the text. -/
structure Stored where
  id : Option Str
  compressed : Option Str
  text : Option Str
  deriving DecidableEq, Repr

@[ext] structure Desk where
  /-- The texts of a setting; the first one counts. -/
  texts : Str → List (Option Str)
  /-- The lists of data of a KDBX3 database; usually there is one. -/
  shelves : List (List Stored)
  /-- The data of a KDBX4 database, each with its flag in front. -/
  stock : List Bytes
  password : Option Str
  keyfile : Option Str

@[ext] structure Office where
  vault : Vault
  desk : Desk

/-! ## The database as an office -/

def storedOf (h : Heap) (b : Nat) : Stored := ⟨h.attr b "ID".toList, h.attr b "Compressed".toList, h.text b⟩

def deskOf (s : Db) : Desk where
  texts n := (metaEls s.heap n).map s.heap.text
  shelves := (metaEls s.heap "Binaries".toList).map fun l => (s.heap.all l "Binary".toList).map (storedOf s.heap)
  stock := s.binaries
  password := s.password
  keyfile := s.keyfile

def officeOf (s : Db) : Office := ⟨vaultOf s, deskOf s⟩

/-! ## What the data are -/

/-- The bytes behind a stored text. -/
def Stored.data (env : Env) (b : Stored) : Except PyErr Bytes :=
  match b.text with
  | none => .ok []
  | some t => if b.compressed = some "True".toList then (b64decode t).bind env.gunzip else b64decode t

/-- The number. -/
def Stored.number (b : Stored) : Except PyErr Int :=
  match b.id with
  | none => .error .key
  | some t => pyInt t

/-- One after the other, each at the place its number says. -/
def readStored (env : Env) : List Stored → List Bytes → Except PyErr (List Bytes)
  | [], acc => .ok acc
  | b :: l, acc =>
    match b.data env with
    | .error e => .error e
    | .ok d =>
      match b.number with
      | .error e => .error e
      | .ok n => readStored env l (listInsert acc n d)

/-- The number an attachment has for its data. -/
def File.index (f : File) : Except PyErr Int :=
  match f.number with
  | none => .error .attribute
  | some none => .error .key
  | some (some t) => pyInt t

/-- All data by their numbers. -/
def Office.data (env : Env) (o : Office) : Except PyErr (List Bytes) :=
  if versionGe4 o.vault.version then .ok (o.desk.stock.map (List.drop 1)) else readStored env o.desk.shelves.flatten []

/-! ## What can be done -/

/-- The settings with a property of their own. -/
inductive Setting where
  | name | description | username
  deriving DecidableEq, Repr

def Setting.tag : Setting → Str
  | .name => "DatabaseName".toList
  | .description => "DatabaseDescription".toList
  | .username => "DefaultUserName".toList

def changeDate : Str := "MasterKeyChanged".toList

def changeDays : Bool → Str
  | true => "MasterKeyChangeForce".toList
  | false => "MasterKeyChangeRec".toList

/-- The methods of the database that change the desk. -/
inductive DeskOp where
  | set (p : Setting) (v : Str)
  | setDate (d : DateTime)
  | setDays (required : Bool) (n : Int)
  | setPassword (p : Option Str)
  | setKeyfile (p : Option Str)
  | addData (data : Bytes) (compressed prot : Bool)

/-- The call of the library. -/
def DeskOp.call : DeskOp → Call
  | .set p v => .setMeta p.tag v
  | .setDate d => .setCredDate d
  | .setDays r n => .setCredDays r n
  | .setPassword p => .setPassword p
  | .setKeyfile p => .setKeyfile p
  | .addData d c p => .addBinary d c p

/-- The same, with the number that `add_binary` returns. -/
def DeskOp.run (env : Env) : DeskOp → M (Option Int)
  | .addData d c p => do let n ← Api.addBinary env d c p; pure (some n)
  | o => do o.call.run env; pure none

/-- The text of a setting is replaced, if there is such a setting. -/
def Desk.put (k : Desk) (n : Str) (v : Str) : Except PyErr (Option Int) × Desk :=
  match k.texts n with
  | [] => (.error .attribute, k)
  | _ :: l => if XmlText v then (.ok none, { k with texts := fun m => if m = n then some v :: l else k.texts m }) else (.error .value, k)

/-- The date of the last change of credentials is written. -/
def Desk.putDate (k : Desk) (version : Nat × Nat) (d : DateTime) : Except PyErr (Option Int) × Desk :=
  match encodeTime version d with
  | .error e => (.error e, k)
  | .ok w => k.put changeDate w

/-- A datum is added at the end of the first list. -/
def Desk.add (k : Desk) (b : Stored) : Option Desk :=
  match k.shelves with
  | [] => none
  | l :: ls => some { k with shelves := (l ++ [b]) :: ls }

/-- The last number of the data there are. -/
def Office.last (env : Env) (o : Office) : Except PyErr (Option Int) :=
  match o.data env with
  | .error e => .error e
  | .ok bs => .ok (some ((bs.length : Int) - 1))

/-- The machine: what the operation gives and the office after it. -/
def DeskOp.step (env : Env) (o : Office) : DeskOp → Except PyErr (Option Int) × Office
  | .set p v => ((o.desk.put p.tag v).1, { o with desk := (o.desk.put p.tag v).2 })
  | .setDate d => ((o.desk.putDate o.vault.version d).1, { o with desk := (o.desk.putDate o.vault.version d).2 })
  | .setDays r n => ((o.desk.put (changeDays r) (intStr n)).1, { o with desk := (o.desk.put (changeDays r) (intStr n)).2 })
  | .setPassword p =>
    let r := { o.desk with password := p }.putDate o.vault.version (env.now o.vault.ticks)
    (r.1, ⟨{ o.vault with ticks := o.vault.ticks + 1 }, r.2⟩)
  | .setKeyfile p =>
    let r := { o.desk with keyfile := p }.putDate o.vault.version (env.now o.vault.ticks)
    (r.1, ⟨{ o.vault with ticks := o.vault.ticks + 1 }, r.2⟩)
  | .addData d c p =>
    if versionGe4 o.vault.version then
      let o' := { o with desk := { o.desk with stock := o.desk.stock ++ [(if p then 1 else 0) :: d] } }
      (o'.last env, o')
    else
      match o.data env with
      | .error e => (.error e, o)
      | .ok bs =>
        match o.desk.add ⟨some (natStr bs.length), some (pyBool c), some (b64encode (if c then env.gzip d else d))⟩ with
        | none => (.error .attribute, o)
        | some k => (({ o with desk := k } : Office).last env, { o with desk := k })

/-- An operation on the cards or on the desk, and what it can give: the handle of a new card or attachment, the number of new data. -/
inductive Deed where
  | cards (o : Op)
  | desk (o : DeskOp)

abbrev Answer := Option Nat ⊕ Option Int

def Deed.run (env : Env) : Deed → M Answer
  | .cards o => do let r ← o.run env; pure (.inl r)
  | .desk o => do let r ← o.run env; pure (.inr r)

def Deed.Ask (env : Env) (o : Office) : Deed → Prop
  | .cards a => a.Ask env o.vault
  | .desk _ => True

/-- The machine on offices: operations on cards leave the desk alone. -/
def Deed.Step (env : Env) (o : Office) (r : Except PyErr Answer) (o' : Office) : Deed → Prop
  | .cards a => ∃ x, r = x.map .inl ∧ a.Step env o.vault x o'.vault ∧ o'.desk = o.desk
  | .desk a => r = (a.step env o).1.map .inr ∧ o' = (a.step env o).2

/-- Operations on the database one after the other, each with what it gave; exceptions do not end the sequence. -/
inductive Acted (env : Env) : Db → List (Deed × Except PyErr Answer) → Db → Prop where
  | nil (s : Db) : Acted env s [] s
  | cons {s t : Db} {a : Deed} {l : List (Deed × Except PyErr Answer)} : a.Ask env (officeOf s) → Acted env (a.run env s).2 l t →
      Acted env s ((a, (a.run env s).1) :: l) t

/-- The same on the machine. -/
inductive Works (env : Env) : Office → List (Deed × Except PyErr Answer) → Office → Prop where
  | nil (o : Office) : Works env o [] o
  | cons {o u w : Office} {a : Deed} {r : Except PyErr Answer} {l : List (Deed × Except PyErr Answer)} :
      a.Ask env o → a.Step env o r u → Works env u l w → Works env o ((a, r) :: l) w

end Verif.Spec
