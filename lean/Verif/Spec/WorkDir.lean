import Verif.Model.WorkDir

/-!
# Working in another directory: what the documentation says

"A directory to which the working directory will be changed on entering the context manager. If the directory does not exist, it will be created. The
working directory is changed back on exiting the context manager."
-/

namespace Glompo.WorkDir.Spec

open Glompo
open Glompo.WorkDir
open Glompo.Checkpoint (Name)

/-- No file is in the place of the directory or of one above it. -/
def Free (s : State) (d : Dir) : Prop := ∀ f ∈ s.files, ¬ (f.1 ++ [f.2] <+: d)

/-- `s'` is `s` with the working directory changed to `d` and the missing directories made, and nothing else. -/
structure Moved (s : State) (d : Dir) (s' : State) : Prop where
  cwd : s'.cwd = d
  dirs : ∀ x, x ∈ s'.dirs ↔ x ∈ s.dirs ∨ x <+: d
  files : s'.files = s.files
  vars : s'.vars = s.vars

/-- Programs which use the context manager as documented, `with WorkInDirectory(p): ...`, and do not change or remove directories themselves. `isFile`
says which names they use for files; directories have other names. -/
def Plain (isFile : Name → Bool) : Prog → Prop
  | .skip | .raise _ => True
  | .seq a b => Plain isFile a ∧ Plain isFile b
  | .write n => isFile n = true
  | .attempt b => Plain isFile b
  | .within p b => (∀ n, Part.down n ∈ p.parts → isFile n = false) ∧ Plain isFile b
  | .chdir _ | .remove _ | .make _ _ | .enter _ _ => False

/-- The exception a plain program ends with. -/
def ending : Prog → Option Err
  | .seq a b => match ending a with | some e => some e | none => ending b
  | .raise e => some e
  | .within _ b => ending b
  | _ => none

/-- Where a plain program, started in a directory, puts files: each of them in the directory of the innermost context manager around it, paths being
relative to the directory of the next one outside. What follows an exception is not executed. -/
def puts (d : Dir) : Prog → List (Dir × Name)
  | .seq a b => puts d a ++ match ending a with | some _ => [] | none => puts d b
  | .write n => [(d, n)]
  | .attempt b => puts d b
  | .within p b => puts (resolve d p) b
  | _ => []

/-- The names of directories and files of a state are told apart by `isFile`. -/
structure Named (isFile : Name → Bool) (s : State) : Prop where
  dirs : ∀ d ∈ s.dirs, ∀ n ∈ d, isFile n = false
  files : ∀ f ∈ s.files, isFile f.2 = true

end Glompo.WorkDir.Spec
