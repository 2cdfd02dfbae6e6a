import Verif.Session.Share
/-!
# What is written to the medium

`save` (pykeepass.py:169-182) calls neither `flush` nor `fsync`, and neither do construct's `build_file` and `shutil.move`. What the system
calls change is seen by all programs at once but reaches the medium later. Here the changes are listed one by one, in the order of the system
calls, for any number of saves one after the other. The operating system refuses nothing (C11 has the refusals); a save may raise while
building.
-/
namespace Verif

/-- One change the file system has to bring to the medium. -/
inductive Io where
  /-- a new empty file and its name -/
  | make (p : PPath) (i : Nat)
  /-- an existing file is emptied -/
  | empty (i : Nat)
  | write (i pos : Nat) (b : Bytes)
  | rename (src dst : PPath)
  | remove (p : PPath)

/-- The change on a disk. Bytes before a piece that is not there are zero. -/
def Io.apply (d : Disk) : Io → Disk
  | .make p i => { (d.setName p (some i)).setData i [] with next := i + 1 }
  | .empty i => d.setData i []
  | .write i pos b => d.setData i (writeAt (d.data i) pos b)
  | .rename src dst =>
    match d.name src with
    | some i => (d.setName dst (some i)).setName src none
    | none => d
  | .remove p => d.setName p none

/-- Changes one after the other. -/
def play (d : Disk) (cs : List Io) : Disk := cs.foldl Io.apply d

/-- One save to a path: where to, through which temporary file, the pieces written and the exception after them, if any (as in
`Prog.save`). -/
structure Saving where
  target : PPath
  tmp : PPath
  pieces : List Bytes
  fails : Option PyErr

/-- The pieces in the order they are written to file `i`. -/
def writesFrom (i : Nat) : Nat → List Bytes → List Io
  | _, [] => []
  | pos, b :: bs => .write i pos b :: writesFrom i (pos + b.length) bs

/-- `open(tmp, 'wb')` in `KDBX.build_file`, pykeepass.py:171. -/
def Saving.opens (d : Disk) (s : Saving) : Io :=
  match d.name s.tmp with
  | some i => .empty i
  | none => .make s.tmp d.next

/-- `KDBX.build_file`, pykeepass.py:171-178: opening and the writes. -/
def Saving.builds (d : Disk) (s : Saving) : List Io := s.opens d :: writesFrom (d.create s.tmp).2 0 s.pieces

/-- `shutil.move(tmp, target)`, pykeepass.py:182, or `os.remove(tmp)`, pykeepass.py:180. -/
def Saving.ends (s : Saving) : Io :=
  match s.fails with
  | none => .rename s.tmp s.target
  | some _ => .remove s.tmp

/-- All changes a save makes. -/
def Saving.calls (d : Disk) (s : Saving) : List Io := s.builds d ++ [s.ends]

/-- All changes of saves that run one after the other. -/
def callsOf (d : Disk) : List Saving → List Io
  | [] => []
  | s :: r => s.calls d ++ callsOf (play d (s.calls d)) r

/-- The file branch of `save`, pykeepass.py:169-182, as such a save. -/
def Saving.ofSave (o : Os) (target : PPath) (res : Except PyErr Bytes) : Except PyErr Saving :=
  match target.withTmp with
  | .error e => .error e
  | .ok tmp =>
    match o.writes res with
    | (ps, .error e) => .ok ⟨target, tmp, ps, some e⟩
    | (ps, .ok _) => .ok ⟨target, tmp, ps, none⟩

end Verif
