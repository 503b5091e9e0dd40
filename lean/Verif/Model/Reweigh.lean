import Verif.Model.Params

/-!
# Weights of residuals, and saving and loading of ParAMS error functions

`glompo/interfaces/params.py`. ParAMS is outside the repository: a data set is the ordered list of its entries, with subscripts by position or
key; a job collection is the list of its jobs.
-/

namespace Glompo.Reweigh

open Glompo Glompo.Params

/-- An entry of the data set: its key, weight and sigma (`scm.params.core.dataset.DataSetEntry`). Belongs to the model of `params.py:627`. -/
structure Entry where
  key : String
  weight : Rat
  sigma : Rat
  deriving DecidableEq, Repr

/-- `dat_set`. Belongs to the model of `params.py:627`. -/
abbrev DSet := List Entry

/-- What `Model/Params` needs of the entries (params.py:627). -/
def DSet.plain (d : DSet) : Params.DataSet := d.map fun e => (e.weight, e.sigma)

/-- `dat_set[r]` (`params.py:602`): the position of the entry. -/
def find (d : DSet) : Key → Except Err Nat
  | .idx i =>
    match pyIdx d.length i with
    | some n => .ok n
    | none => .error .indexError
  | .str s =>
    match d.findIdx? (fun e => decide (e.key = s)) with
    | some n => .ok n
    | none => .error .keyError

/-- `dat_set[r].weight = w` (`params.py:602`). -/
def setWeight (d : DSet) (n : Nat) (w : Rat) : DSet := d.modify n fun e => { e with weight := w }

/-- The loop of `params.py:601-602`: the data set afterwards and the exception which ended the loop. Each pair is a reference and its new weight. -/
def loop : DSet → List (Key × Rat) → DSet × Option Err
  | d, [] => (d, none)
  | d, (k, w) :: l =>
    match find d k with
    | .error r => (d, some r)
    | .ok n => loop (setWeight d n w) l

/-- The argument `resids` (`params.py:575`): a sequence of references, or a dictionary of new weights. -/
inductive Resids where
  | seq (l : List Key)
  | dict (l : List (Key × Rat))

/-- `reweigh_residuals` (`params.py:575-602`). -/
def reweigh (d : DSet) : Resids → Option Rat → DSet × Option Err
  | .dict l, _ => loop d l
  | .seq _, none => (d, some .valueError)
  | .seq l, some w => loop d (l.map fun k => (k, w))

/-! ## Saving and loading -/

/-- `job_col`: the names of its jobs. Belongs to the model of `params.py:200-211`. -/
abbrev Jobs := List String

/-- An error function (`params.py:200-211`). `loss` and `parLevels` stand for the objects in `self.loss` (0 is `SSE()`) and `self.par_levels`. -/
structure ErrFn where
  dat : DSet
  jobs : Jobs
  eng : Eng
  val : Option DSet
  scale : Bool
  loss : Nat
  parLevels : Nat
  deriving DecidableEq, Repr

/-- Keyword arguments of the constructor (`params.py:200-202`). -/
structure Kwargs where
  val : Option DSet := none
  scale : Bool := false

/-- `BaseParamsError.__init__` (`params.py:200-211`). -/
def init (d : DSet) (j : Jobs) (e : Eng) (k : Kwargs) : ErrFn :=
  { dat := d, jobs := j, eng := e, val := k.val, scale := k.scale, loss := 0, parLevels := 1 }

/-- Files in a directory which ParAMS has written. `xtb`: names and values of the parameters, all there is in classic parameter files of
xTB and in the force field file `ffield` of ReaxFF. Each file is recorded under its default name; other files are left out. Belongs to the model of `params.py:711-718`. -/
structure Dir where
  datPkl : Option DSet := none
  datYml : Option DSet := none
  jobsPkl : Option Jobs := none
  jobsYml : Option Jobs := none
  reax : Option Eng := none
  xtb : Option (List (String × Rat)) := none
  ffield : Option (List (String × Rat)) := none

/-- What classic parameter files say of an engine. Belongs to the model of `params.py:737-744`. -/
def values (e : Eng) : List (String × Rat) := e.map fun p => (p.name, p.value)

/-- `ReaxFFError.checkpoint_save` (`params.py:711-718`). -/
def saveReax (f : ErrFn) (d : Dir) : Dir := { d with datPkl := some f.dat, jobsPkl := some f.jobs, reax := some f.eng }

/-- `XTBError.checkpoint_save` (`params.py:737-744`). -/
def saveXtb (f : ErrFn) (d : Dir) : Dir := { d with datPkl := some f.dat, jobsPkl := some f.jobs, xtb := some (values f.eng) }

/-- `save` (`params.py:337-367`) with the default names and without `parameters`. -/
def save (f : ErrFn) (d : Dir) : Dir := { d with datYml := some f.dat, jobsYml := some f.jobs, ffield := some (values f.eng) }

/-- One turn of the outer loop of `params.py:876-884` for an object of kind `α`, made empty before: the pickle is loaded first, then the YAML file.
`upd` is what `load` of a YAML file makes of an object which already has contents. -/
def loadOne (empty : α) (upd : α → α → α) (pkl yml : Option α) : Except Err α :=
  match pkl, yml with
  | none, none => .error .osError
  | some a, none => .ok a
  | none, some b => .ok (upd empty b)
  | some a, some b => .ok (upd a b)

/-- What `load` of a YAML file does to data sets and job collections: outside the repository, so a parameter. Belongs to the model of `params.py:855-886`. -/
structure Loaders where
  dat : DSet → DSet → DSet
  jobs : Jobs → Jobs → Jobs
  xtb : List (String × Rat) → Eng

/-- `_setup_collections_from_params` (`params.py:855-886`). -/
def collections (L : Loaders) (d : Dir) : Except Err (DSet × Jobs) :=
  match loadOne [] L.dat d.datPkl d.datYml with
  | .error r => .error r
  | .ok a =>
    match loadOne [] L.jobs d.jobsPkl d.jobsYml with
    | .error r => .error r
    | .ok b => .ok (a, b)

/-- `ReaxFFError.from_params_files` (`params.py:659-669, 889-913`). -/
def loadReax (L : Loaders) (d : Dir) (k : Kwargs) : Except Err ErrFn :=
  match collections L d with
  | .error r => .error r
  | .ok (a, b) =>
    match d.reax with
    | none => .error .osError
    | some e => .ok (init a b e k)

/-- `XTBError.from_params_files` (`params.py:725-735, 916-939`); `L.xtb` makes the engine of the classic files. -/
def loadXtb (L : Loaders) (d : Dir) (k : Kwargs) : Except Err ErrFn :=
  match collections L d with
  | .error r => .error r
  | .ok (a, b) =>
    match d.xtb with
    | none => .error .osError
    | some v => .ok (init a b (L.xtb v) k)

/-- `headers` (`params.py:313-324`) of an error function. -/
def ErrFn.headers (f : ErrFn) : List Col := Params.headers f.dat.plain (f.val.map DSet.plain)

/-- `detailed_call` (`params.py:280-311`) of an error function, for what ParAMS gives for training and validation set. -/
def ErrFn.detailed (f : ErrFn) (engine : Bool) (ts vs : Outcome) : Except Err (List Datum) :=
  detailedCall f.scale f.dat.plain engine ts (f.val.map fun v => (v.plain, vs))

/-- `__call__` (`params.py:269-278`). -/
def ErrFn.call (f : ErrFn) (engine : Bool) (ts vs : Outcome) : PyF := Params.call engine ts (f.val.map fun _ => vs)

end Glompo.Reweigh
