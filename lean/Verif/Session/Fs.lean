import Verif.Kdbx.File
/-!
# Paths and files: what `PyKeePass.save` (pykeepass.py:143-182) does to the file system

Files are regular files named by lexically normalised POSIX paths; symbolic links, hard links,
directories and permissions are not modelled.  What the operating system may do (refuse an
operation, let data reach the disk in pieces) is a parameter.  A run is the list of all states the
file system goes through, so a crash is any element of that list.
-/
namespace Verif

/-- A `pathlib.PurePosixPath`: root (`""`, `"/"`) and components. -/
structure PPath where
  absolute : Bool
  parts : List Str
  deriving DecidableEq, Repr

/-- Splitting at `/`. -/
def splitSlash : Str → Str → List Str
  | [], cur => [cur.reverse]
  | '/' :: cs, cur => cur.reverse :: splitSlash cs []
  | c :: cs, cur => splitSlash cs (c :: cur)

/-- `Path(s)` on POSIX: empty and `.` components are dropped (the special root `//` is treated as
`/`).  Also used for the file a string names, so a trailing slash is ignored. -/
def PPath.ofStr (s : Str) : PPath :=
  { absolute := s.head? = some '/',
    parts := (splitSlash s []).filter fun c => c ≠ [] ∧ c ≠ ['.'] }

/-- `PurePath.suffix` and what is before it (CPython 3.8 to 3.13): the last dot counts only when it
is neither the first nor the last character. -/
def splitSuffix (name : Str) : Str × Str :=
  let ext := (name.reverse.takeWhile (· ≠ '.')).reverse
  let stem := (name.reverse.dropWhile (· ≠ '.')).reverse.dropLast
  if stem = [] ∨ ext = [] then (name, []) else (stem, '.' :: ext)

/-- `Path.with_suffix('.tmp')`: `ValueError` for a path without a name. -/
def PPath.withTmp (p : PPath) : Except PyErr PPath :=
  match p.parts.getLast? with
  | none => .error .value
  | some name => .ok { p with parts := p.parts.dropLast ++ [(splitSuffix name).1 ++ ".tmp".toList] }

/-- Regular files and their content. -/
abbrev Fs := PPath → Option Bytes

/-- Changing one file. -/
def Fs.set (fs : Fs) (p : PPath) (c : Option Bytes) : Fs := fun q => if q = p then c else fs q

/-- What the operating system does during one `save`. -/
structure Os where
  /-- opening the temporary file for writing succeeds -/
  openOk : Bool
  /-- the pieces in which a complete output reaches the file -/
  pieces : Bytes → List Bytes
  /-- the pieces written before the build raises -/
  before : List Bytes
  /-- an I/O error after that many pieces -/
  ioError : Option Nat
  /-- `os.remove` succeeds on an existing file -/
  removeOk : Bool
  /-- `os.rename` succeeds; otherwise `shutil.move` copies and unlinks -/
  renameOk : Bool
  /-- the copy fails after that many pieces -/
  copyError : Option Nat

/-- The pieces of an output are the output. -/
def Os.Faithful (o : Os) : Prop := ∀ b, (o.pieces b).flatten = b

/-- Every state and the outcome of a run. -/
structure Run where
  states : List Fs
  final : Fs
  result : Except PyErr Unit

/-- States while `open(p, 'wb')` and the writes happen: `acc` is already in the file. -/
def appendStates (fs : Fs) (p : PPath) : Bytes → List Bytes → List Fs
  | acc, [] => [fs.set p (some acc)]
  | acc, b :: bs => fs.set p (some acc) :: appendStates fs p (acc ++ b) bs

/-- The writes of `KDBX.build_file` (construct's `build_file` opens with mode `wb`): the pieces
that reach the file and the outcome. -/
def Os.writes (o : Os) : Except PyErr Bytes → List Bytes × Except PyErr Unit
  | .error e => (o.before, .error e)
  | .ok out =>
    match o.ioError with
    | some n => ((o.pieces out).take n, .error .os)
    | none => (o.pieces out, .ok ())

/-- `os.remove(p)`. -/
def Os.remove (o : Os) (fs : Fs) (p : PPath) : Fs × Except PyErr Unit :=
  match fs p with
  | none => (fs, .error .os)
  | some _ => if o.removeOk then (fs.set p none, .ok ()) else (fs, .error .os)

/-- The `except` branch, pykeepass.py:179-181: remove the temporary file and re-raise `e`; an error
of `os.remove` replaces it. -/
def Os.cleanup (o : Os) (fs : Fs) (tmp : PPath) (e : PyErr) : Run :=
  match o.remove fs tmp with
  | (fs', .ok _) => ⟨[fs, fs'], fs', .error e⟩
  | (fs', .error e') => ⟨[fs, fs'], fs', .error e'⟩

/-- `shutil.move(tmp, target)`, pykeepass.py:182: rename, or copy and unlink when that fails.
`c` is the content of `tmp`. -/
def Os.move (o : Os) (fs : Fs) (tmp target : PPath) (c : Bytes) : Run :=
  if o.renameOk then
    let fs' := if tmp = target then fs else (fs.set target (some c)).set tmp none
    ⟨[fs, fs'], fs', .ok ()⟩
  else
    match o.copyError with
    | some n =>
      let ps := (o.pieces c).take n
      let fs' := fs.set target (some ps.flatten)
      ⟨fs :: appendStates fs target [] ps, fs', .error .os⟩
    | none =>
      let fs' := fs.set target (some (o.pieces c).flatten)
      match o.remove fs' tmp with
      | (fs'', r) => ⟨fs :: appendStates fs target [] (o.pieces c) ++ [fs''], fs'', r⟩

/-- The file branch of `save`, pykeepass.py:169-182, given the outcome of building the bytes. -/
def Os.saveFile (o : Os) (fs : Fs) (target : PPath) (res : Except PyErr Bytes) : Run :=
  match target.withTmp with
  | .error e => ⟨[fs], fs, .error e⟩
  | .ok tmp =>
    if o.openOk then
      match o.writes res with
      | (ps, .error e) =>
        let fs1 := fs.set tmp (some ps.flatten)
        let r := o.cleanup fs1 tmp e
        ⟨fs :: appendStates fs tmp [] ps ++ r.states, r.final, r.result⟩
      | (ps, .ok _) =>
        let fs1 := fs.set tmp (some ps.flatten)
        let r := o.move fs1 tmp target ps.flatten
        ⟨fs :: appendStates fs tmp [] ps ++ r.states, r.final, r.result⟩
    else
      let r := o.cleanup fs tmp .os
      ⟨fs :: r.states, r.final, r.result⟩

/-! ## Lemmas -/

@[simp] theorem Fs.set_same (fs : Fs) (p : PPath) (c : Option Bytes) : fs.set p c p = c := by
  simp [Fs.set]

theorem Fs.set_ne (fs : Fs) {p q : PPath} (c : Option Bytes) (h : q ≠ p) : fs.set p c q = fs q := by
  simp [Fs.set, h]

theorem appendStates_mem {fs x : Fs} {p : PPath} {acc : Bytes} {bs : List Bytes}
    (h : x ∈ appendStates fs p acc bs) : ∃ n, x = fs.set p (some (acc ++ (bs.take n).flatten)) := by
  induction bs generalizing acc with
  | nil =>
    simp only [appendStates, List.mem_singleton] at h
    exact ⟨0, by simp [h]⟩
  | cons b bs ih =>
    simp only [appendStates, List.mem_cons] at h
    rcases h with h | h
    · exact ⟨0, by simp [h]⟩
    · obtain ⟨n, hn⟩ := ih h
      exact ⟨n + 1, by simp [hn]⟩

end Verif
