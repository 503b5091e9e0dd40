import Verif.Model.Checkpoint

/-!
# Where the recording of a plot goes

`GloMPOScope` with `record_movie=True` writes a movie; the name is an item of the dictionary `movie_kwargs`, which is the user's own object and may
be shared by several scopes. Models the treatment of this dictionary and of the path in `/repo/glompo/core/scope.py` during a Python session. What
`matplotlib` does with the frames is the subject of `Model/Scope` and of no model.
-/

namespace Glompo.Movie

open Checkpoint (Name)

/-- A `pathlib.Path`: absolute or relative, and its components. Belongs to the model of `scope.py:379-381`. -/
structure Path where
  abs : Bool
  parts : List Name
  deriving DecidableEq, Repr

/-- `p / q` (scope.py:380): an absolute path on the right wins. -/
def join (p q : Path) : Path := if q.abs then q else ⟨p.abs, p.parts ++ q.parts⟩

/-- A name without its suffix, as `with_suffix` finds it (scope.py:380): from the last dot on, unless the dot is the first or the last character. -/
def stem (n : Name) : Name :=
  let ext := n.reverse.takeWhile (· ≠ '.')
  let rest := n.reverse.drop (ext.length + 1)
  if ext ≠ [] ∧ rest ≠ [] then rest.reverse else n

/-- `p.with_suffix('.mp4')` (scope.py:380); `none` is `ValueError`, for a path without a name. -/
def mp4 (p : Path) : Option Path :=
  match p.parts.getLast? with
  | none => none
  | some n => some ⟨p.abs, p.parts.dropLast ++ [stem n ++ ".mp4".toList]⟩

/-- A dictionary `movie_kwargs`: its item `outfile`, and whether there are others (scope.py:205-210). -/
structure Dict where
  outfile : Option Path := none
  other : Bool := false
  deriving DecidableEq, Repr

/-- `Path('glomporecording.mp4')` (scope.py:208). -/
def dflt : Path := ⟨false, ["glomporecording.mp4".toList]⟩

/-- A Python session: the dictionaries by their identities, those of the user first; the dictionary of each scope, in the order in which they were
made; which scope recorded into which file, the earliest first. Belongs to the model of `scope.py:200-210`, `scope.py:379-381`. -/
structure Session where
  heap : List Dict
  scopes : List Nat := []
  movies : List (Nat × Path) := []
  deriving DecidableEq, Repr

/-- A new dictionary. Belongs to the model of `scope.py:205-206`. -/
def alloc (s : Session) (d : Dict) : Session × Nat := ({ s with heap := s.heap ++ [d] }, s.heap.length)

/-- The dictionary which a scope uses (scope.py:205-206): a new one if none or an empty one is given. -/
def own (s : Session) : Option Nat → Session × Nat
  | none => alloc s {}
  | some r => if s.heap[r]? = some {} then alloc s {} else (s, r)

/-- `d['outfile'] = p`. Belongs to the model of `scope.py:208`, `scope.py:381`. -/
def setOut (s : Session) (r : Nat) (p : Path) : Session :=
  { s with heap := s.heap.modify r fun d => { d with outfile := some p } }

/-- The end of `GloMPOScope.__init__` with `record_movie=True` (scope.py:201-210). -/
def construct (s : Session) (arg : Option Nat) : Session :=
  let (s, r) := own s arg
  match s.heap[r]? with
  | none => s
  | some d =>
    let s := if d.outfile = none then setOut s r dflt else s
    { s with scopes := s.scopes ++ [r] }

/-- The file of a scope's dictionary. Belongs to the model of `scope.py:379-384`. -/
def fileOf (s : Session) (m : Nat) : Option (Nat × Path) :=
  match s.scopes[m]? with
  | none => none
  | some r => match s.heap[r]? with
    | some ⟨some p, _⟩ => some (r, p)
    | _ => none

/-- `setup_moviemaker(path)` at the start of a run with working directory `wd` (scope.py:379-386, manager.py:961-962). Simplification: the writer
accepts the arguments. -/
def start (s : Session) (m : Nat) (wd : Path) : Session :=
  match fileOf s m with
  | none => s
  | some (r, p) => match mp4 (join wd p) with
    | none => s
    | some q => { setOut s r q with movies := s.movies ++ [(m, q)] }

/-- `load_state` of what scope `m` saved (scope.py:447-459): its dictionary is a new object, and `setup_moviemaker()` is called without a directory. -/
def resume (s : Session) (m : Nat) : Session :=
  match fileOf s m with
  | none => s
  | some (_, p) =>
    { s with heap := s.heap ++ [⟨some p, false⟩], scopes := s.scopes ++ [s.heap.length],
             movies := s.movies ++ [(s.scopes.length, p)] }

/-- What happens in a session. Belongs to the model of `scope.py:200-210`, `scope.py:379-386`, `scope.py:447-459`. -/
inductive Op where
  | construct (arg : Option Nat)
  | start (m : Nat) (wd : Path)
  | resume (m : Nat)
  deriving DecidableEq, Repr

/-- One of them. Belongs to the model of `scope.py:200-210`, `scope.py:379-386`, `scope.py:447-459`. -/
def step (s : Session) : Op → Session
  | .construct a => construct s a
  | .start m wd => start s m wd
  | .resume m => resume s m

/-- A session with the user's dictionaries `ds`. Belongs to the model of `scope.py:200-210`. -/
def run (ds : List Dict) (l : List Op) : Session := l.foldl step { heap := ds }

end Glompo.Movie
