import Verif.Session.Session
/-!
# Several programs at one disk

`Os.saveFile` (pykeepass.py:169-182) is one program alone on the file system.  Here several programs
save and open databases at the same time: their system calls are interleaved in any order.  A name
leads to a file (an inode), and an open file descriptor stays with its file when the name is moved
or removed, as on POSIX.  The operating system refuses nothing here (C11 has the refusals of a
single save); hard links are excluded at the start by `Disk.Ok`.
-/
namespace Verif

/-- Names, files and the first number not used for a file. -/
structure Disk where
  name : PPath → Option Nat
  data : Nat → Bytes
  next : Nat

/-- What the names hold. -/
def Disk.content (d : Disk) : Fs := fun p => (d.name p).map d.data

/-- No two names for one file. -/
structure Disk.Ok (d : Disk) : Prop where
  bound : ∀ p i, d.name p = some i → i < d.next
  inj : ∀ p q i, d.name p = some i → d.name q = some i → p = q

/-- Names changed in one place. -/
def Disk.setName (d : Disk) (p : PPath) (i : Option Nat) : Disk :=
  { d with name := fun q => if q = p then i else d.name q }

/-- A file with other content. -/
def Disk.setData (d : Disk) (i : Nat) (b : Bytes) : Disk :=
  { d with data := fun j => if j = i then b else d.data j }

/-- `open(p, 'wb')` (in `KDBX.build_file`, pykeepass.py:171): an existing file is emptied, otherwise
a new one is made. -/
def Disk.create (d : Disk) (p : PPath) : Disk × Nat :=
  match d.name p with
  | some i => (d.setData i [], i)
  | none => ({ (d.setName p (some d.next)).setData d.next [] with next := d.next + 1 }, d.next)

/-- A program at the disk. -/
inductive Prog where
  /-- `save` to `target`, pykeepass.py:167-182: the pieces written to `tmp`, and the exception after
  them, if any -/
  | save (target tmp : PPath) (pieces : List Bytes) (fails : Option PyErr)
  /-- opening a database, pykeepass.py:107-112 (`KDBX.parse_file`): the file is read from its
  beginning in pieces of any size -/
  | load (path : PPath)

/-- How far a program is. -/
inductive Phase where
  | idle
  /-- the temporary file is open: its number, the position in it and the pieces to be written -/
  | writing (ino pos : Nat) (left : List Bytes)
  /-- the temporary file is closed -/
  | closed
  /-- the database is open: its number and what has been read -/
  | reading (ino : Nat) (got : Bytes)
  | done (r : Except PyErr Bytes)

/-- In the middle of a save. -/
def Phase.saving : Phase → Bool
  | .writing _ _ _ => true
  | .closed => true
  | _ => false

/-- The end of `save`: `shutil.move(tmp, target)`, pykeepass.py:182, or `os.remove(tmp)` and the
exception, pykeepass.py:179-181.  When `tmp` is no longer there, `os.rename` and the copy
`shutil.move` then tries raise, and so does `os.remove`.  The last component says whether the target
was replaced. -/
def Disk.finish (d : Disk) (target tmp : PPath) : Option PyErr → Disk × Phase × Bool
  | none =>
    match d.name tmp with
    | some i =>
      (if tmp = target then d else (d.setName target (some i)).setName tmp none, .done (.ok []), true)
    | none => (d, .done (.error .os), false)
  | some e =>
    match d.name tmp with
    | some _ => (d.setName tmp none, .done (.error e), false)
    | none => (d, .done (.error .os), false)

/-- The next system call of a program; `n + 1` is the size of the piece read next. -/
def Prog.step (d : Disk) (n : Nat) : Prog → Phase → Disk × Phase × Bool
  | .save _ tmp pieces _, .idle => ((d.create tmp).1, .writing (d.create tmp).2 0 pieces, false)
  | .save _ _ _ _, .writing i pos (b :: bs) =>
    (d.setData i (writeAt (d.data i) pos b), .writing i (pos + b.length) bs, false)
  | .save _ _ _ _, .writing _ _ [] => (d, .closed, false)
  | .save target tmp _ fails, .closed => d.finish target tmp fails
  | .load p, .idle =>
    match d.name p with
    | some i => (d, .reading i [], false)
    | none => (d, .done (.error .os), false)
  | .load _, .reading i got =>
    if (d.data i).length ≤ got.length then (d, .done (.ok got), false)
    else (d, .reading i (got ++ ((d.data i).drop got.length).take (n + 1)), false)
  | _, ph => (d, ph, false)

/-- The disk, the programs, and which of them have replaced their target, the latest first. -/
structure Scene where
  disk : Disk
  phase : Nat → Phase
  log : List Nat

/-- Program `i` makes one system call. -/
def Scene.step (ps : List Prog) (c : Scene) (i n : Nat) : Scene :=
  match ps[i]? with
  | none => c
  | some p =>
    { disk := (p.step c.disk n (c.phase i)).1,
      phase := fun j => if j = i then (p.step c.disk n (c.phase i)).2.1 else c.phase j,
      log := if (p.step c.disk n (c.phase i)).2.2 then i :: c.log else c.log }

/-- Programs not started yet. -/
def Scene.start (d : Disk) : Scene := ⟨d, fun _ => .idle, []⟩

/-- A schedule: who makes the next system call. -/
def Scene.run (ps : List Prog) (c : Scene) (sched : List (Nat × Nat)) : Scene :=
  sched.foldl (fun c x => c.step ps x.1 x.2) c

/-- The file branch of `save`, pykeepass.py:169-182, as such a program. -/
def Prog.ofSave (o : Os) (target : PPath) (res : Except PyErr Bytes) : Except PyErr Prog :=
  match target.withTmp with
  | .error e => .error e
  | .ok tmp =>
    match o.writes res with
    | (ps, .error e) => .ok (.save target tmp ps (some e))
    | (ps, .ok _) => .ok (.save target tmp ps none)

end Verif
