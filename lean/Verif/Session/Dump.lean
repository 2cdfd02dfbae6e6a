import Verif.Session.Session
import Verif.Tree.Pretty
/-!
# Export as XML text
-/
namespace Verif

/-- `xml`, pykeepass.py:303-314: the tree as it is in memory, protected values decrypted. -/
def Session.xml (s : Session) : Except PyErr Bytes := s.tree.map Xml.exportDoc

/-- `dump_xml`, pykeepass.py:316-323: the file is opened (and emptied) before the text is made. -/
def Session.dumpXml (o : Os) (fs : Fs) (s : Session) (p : Str) : Run :=
  if o.openOk = true ∧ (PPath.ofStr p).parts ≠ [] then
    match s.xml with
    | .error e => ⟨[fs, fs.set (PPath.ofStr p) (some [])], fs.set (PPath.ofStr p) (some []), .error e⟩
    | .ok b =>
      ⟨fs :: appendStates fs (PPath.ofStr p) [] (o.writes (.ok b)).1,
        fs.set (PPath.ofStr p) (some (o.writes (.ok b)).1.flatten), (o.writes (.ok b)).2⟩
  else ⟨[fs], fs, .error .os⟩

end Verif
