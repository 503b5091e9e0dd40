import Mathlib.Data.List.Infix
import Verif.Model.Logger
import Verif.Model.Checkpoint

/-!
# `WorkInDirectory`

The context manager of `glompo/common/helpers.py:520-540`, in programs which write files, change directories themselves, raise exceptions and keep the
context manager in a variable. Simplifications: a file system without symbolic links and permissions; one thread.
-/

namespace Glompo.WorkDir

open Glompo
open Glompo.Checkpoint (Name)

/-- Component of a path. Belongs to the model of `helpers.py:531`. -/
inductive Part where
  | up
  | down (n : Name)
  deriving DecidableEq, Repr

/-- A path as the user writes it. Belongs to the model of `helpers.py:531`. -/
structure Path where
  absolute : Bool
  parts : List Part
  deriving DecidableEq, Repr

/-- A directory by its names from the root on. Belongs to the model of `helpers.py:531`. -/
abbrev Dir := List Name

/-- One component (`..` of the root is the root). Belongs to the model of `helpers.py:531`. -/
def follow (d : Dir) : Part → Dir
  | .up => d.dropLast
  | .down n => d ++ [n]

/-- `Path(path).resolve()` (helpers.py:531). -/
def resolve (cwd : Dir) (p : Path) : Dir := p.parts.foldl follow (if p.absolute then [] else cwd)

/-- The process and what it can see: working directory, directories and files which exist, and the directories to go back to of the context
managers in variables (`orig_dir`). Belongs to the model of `helpers.py:533`. -/
structure State where
  cwd : Dir
  dirs : List Dir
  files : List (Dir × Name)
  vars : List (Nat × Dir)
  deriving DecidableEq, Repr

/-- `os.chdir` to a directory. Belongs to the model of `helpers.py:530-534`. -/
def chdir (s : State) (d : Dir) : State × Option Err := if d ∈ s.dirs then ({ s with cwd := d }, none) else (s, some .osError)

/-- Whether there is a file with this path. Belongs to the model of `helpers.py:533`. -/
def isFile (s : State) (d : Dir) : Bool := s.files.any fun f => f.1 ++ [f.2] == d

/-- `path.mkdir(parents=True, exist_ok=True)` (helpers.py:533). A file in the place of the directory or of one above it raises before anything
is made. -/
def mkdir (s : State) (d : Dir) : State × Option Err :=
  if d.inits.any (isFile s) then (s, some (if isFile s d then .fileExists else .osError))
  else ({ s with dirs := s.dirs ++ d.inits.filter fun p => p ∉ s.dirs }, none)

/-- `WorkInDirectory.__init__` (helpers.py:530-534): the directory to go back to, or the exception. -/
def init (s : State) (p : Path) : State × Except Err Dir :=
  if s.cwd ∉ s.dirs then (s, .error .osError)
  else
    let d := resolve s.cwd p
    match mkdir s d with
    | (s', some e) => (s', .error e)
    | (s', none) =>
      match chdir s' d with
      | (s'', some e) => (s'', .error e)
      | (s'', none) => (s'', .ok s.cwd)

/-- `__exit__` (helpers.py:539-540) after the body: an exception of the body goes on, unless leaving raises one itself. -/
def leave (orig : Dir) (r : State × Option Err) : State × Option Err :=
  match chdir r.1 orig with
  | (s, some e) => (s, some e)
  | (s, none) => (s, r.2)

/-- Programs. `within`: `with WorkInDirectory(p): body`; `make`: `v = WorkInDirectory(p)`; `enter`: `with v: body`; `attempt`: `try: body` with an
`except` for all exceptions which does nothing. Belongs to the model of `helpers.py:531`, `helpers.py:530-534`. -/
inductive Prog where
  | skip
  | seq (a b : Prog)
  | write (n : Name)
  | chdir (p : Path)
  | remove (p : Path)
  | raise (e : Err)
  | attempt (body : Prog)
  | within (p : Path) (body : Prog)
  | make (v : Nat) (p : Path)
  | enter (v : Nat) (body : Prog)
  deriving DecidableEq, Repr

/-- `open(n, 'w')`. Belongs to the model of `helpers.py:531`. -/
def write (s : State) (n : Name) : State × Option Err :=
  if s.cwd ∉ s.dirs ∨ s.cwd ++ [n] ∈ s.dirs then (s, some .osError)
  else ({ s with files := if (s.cwd, n) ∈ s.files then s.files else s.files ++ [(s.cwd, n)] }, none)

/-- `shutil.rmtree(p)`. The process may be in the directory. Belongs to the model of `helpers.py:531`. -/
def remove (s : State) (p : Path) : State × Option Err :=
  let d := resolve s.cwd p
  if d = [] ∨ d ∉ s.dirs then (s, some .osError)
  else ({ s with dirs := s.dirs.filter fun x => ¬ d <+: x, files := s.files.filter fun f => ¬ d <+: f.1 }, none)

/-- Running a program. Belongs to the model of `helpers.py:531`, `helpers.py:533`, `helpers.py:530-534`, `helpers.py:539-540`. -/
def exec : Prog → State → State × Option Err
  | .skip, s => (s, none)
  | .seq a b, s =>
    match exec a s with
    | (s', some e) => (s', some e)
    | (s', none) => exec b s'
  | .write n, s => write s n
  | .chdir p, s => chdir s (resolve s.cwd p)
  | .remove p, s => remove s p
  | .raise e, s => (s, some e)
  | .attempt body, s => ((exec body s).1, none)
  | .within p body, s =>
    match init s p with
    | (s', .error e) => (s', some e)
    | (s', .ok orig) => leave orig (exec body s')
  | .make v p, s =>
    match init s p with
    | (s', .error e) => (s', some e)
    | (s', .ok orig) => ({ s' with vars := dictSet s'.vars v orig }, none)
  | .enter v body, s =>
    match dictGet s.vars v with
    | none => (s, some .other)
    | some orig => leave orig (exec body s)

end Glompo.WorkDir
