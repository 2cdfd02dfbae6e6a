import Verif.Crypto.Standard
import Verif.Crypto.GzipLemmas
import Verif.Kdbx.File
open Verif

def gunzip : Bytes → Except PyErr Bytes := Gzip.gunzip

def argon (tab : List (Bytes × Bytes)) (id : Bool) (secret salt : Bytes) (t m p v : Int) : Except PyErr Bytes :=
  match tab.lookup salt with
  | some r => .ok r
  | none => dbg_trace s!"ARGON {id} {secret} {salt} {t} {m} {p} {v}"; .error .unmodelled

def P (tab : List (Bytes × Bytes)) : Prims := standard (argon tab) id gunzip

def str (s : Str) : String := String.ofList s

partial def main (args : List String) : IO Unit := do
  match args with
  | file :: pw :: kf :: tk :: rest =>
    let rd (f : String) : IO Bytes := do return (← IO.FS.readBinFile f).data.toList
    let b ← rd file
    let kfc ← if kf = "-" then pure Keyfile.none else do pure (Keyfile.path (some (← rd kf)))
    let tkc ← if tk = "-" then pure none else do pure (some (← rd tk))
    let c : Creds := { password := if pw = "-" then none else some (if pw = "_" then [] else pw.toList), keyfile := kfc, transformedKey := tkc }
    let tab ← match rest with
      | [s, k] => do pure [(← rd s, ← rd k)]
      | _ => pure []
    match openBytes (P tab) c true b with
    | .error e => IO.println s!"ERROR {repr e}"
    | .ok k =>
      IO.println s!"header {repr k.header}"
      match k.body with
      | none => IO.println "no body"
      | some bd => match bd.payload with
        | none => IO.println "no payload"
        | some p => do
          IO.println s!"inner {repr p.inner}"
          IO.println (String.fromUTF8! ⟨(Xml.serDoc p.xml).toArray⟩)
  | _ => IO.println "args"
