import Verif.Model.Spawn
import Verif.Model.Setup
import Verif.Model.CMA
import Verif.Model.Nevergrad

/-!
# Arguments of resumed optimizers: `GloMPOManager.load_checkpoint` (`glompo/core/manager.py:823-878`)

`Model/Spawn` has the arguments of new optimizers, `Model/Attributes` the attributes a checkpoint keeps of them. Here is with which arguments an optimizer is
built again and called, and what CMA and Nevergrad do with these arguments.
-/

namespace Glompo.Restart

open Glompo Glompo.Spawn

/-- Values of arguments. Belongs to the model of `manager.py:1350`. -/
inductive Val where
  | int (n : Int)
  | float (v : PyF)
  | text (s : String)
  | function (id : Nat)
  | several (n : Nat)
  deriving DecidableEq, Repr

/-- `OptimizerCheckpoint(selected, init_kwargs['workers'])` (manager.py:1350, namedtuples.py:76): what the manager keeps of an optimizer. Simplification:
`workers` which is no integer is an exception here already. -/
def keep (o : Created Val) : Except Err (String × Int) :=
  match dictGet o.init "workers" with
  | some (.int n) => .ok (o.cls, n)
  | some _ => .error .typeError
  | none => .error .keyError

/-- The same for all optimizers which are alive when the checkpoint is made. Belongs to the model of `manager.py:823-878`. -/
def keepAll : List (Nat × Created Val) → Except Err (List (Nat × String × Int))
  | [] => .ok []
  | (i, o) :: t =>
    match keep o with
    | .error e => .error e
    | .ok k =>
      match keepAll t with
      | .error e => .error e
      | .ok l => .ok ((i, k) :: l)

/-- One optimizer is built again (manager.py:846-878): the backend is the manager's (841), the arguments of the call are only the task, an origin and the bounds
(868-871). Attributes restored from the checkpoint are in `Model/Attributes`. -/
def again (m : Mode Val) (cls : String) (slots : Int) : Created Val := ⟨cls, m.default, [("workers", .int slots)], []⟩

/-- Classes and slots are joined by the ids (manager.py:842, 847). -/
def rejoin (m : Mode Val) (kept : List (Nat × String × Int)) : List (Nat × Int) → List (Nat × Created Val)
  | [] => []
  | (i, s) :: t =>
    match dictGet kept i with
    | some (c, _) => (i, again m c s) :: rejoin m kept t
    | none => rejoin m kept t

/-- A checkpoint of the optimizers `alive` is made and loaded by a manager with `maxJobs` (manager.py:823-878). Simplification: every optimizer can be loaded;
`Model/Setup` has those which cannot. -/
def resume (m : Mode Val) (maxJobs : Int) (alive : List (Nat × Created Val)) : Except Err (List (Nat × Created Val)) :=
  match keepAll alive with
  | .error e => .error e
  | .ok kept =>
    match Init.apportion maxJobs (kept.map fun k => (k.1, k.2.2)) with
    | .error e => .error e
    | .ok slots => .ok (rejoin m kept slots)

/-! ### CMA -/

/-- `sigma0 <= 0` (cmawrapper.py:139). -/
def notPositive : Val → Except Err Bool
  | .int n => .ok (decide (n ≤ 0))
  | .float v => .ok (PyF.le v (.fin 0))
  | _ => .error .typeError

/-- `CMAOptimizer.minimize` with the arguments of the call (cmawrapper.py:107-141); from 156 on it is `CMA.minimize`. `restart` is `is_restart`: it is
looked at in 156, after `sigma0`. -/
def cmaMinimize (call : Dict Val) (c : CMA.Cfg) (restart : Option CMA.Opt) (env : List CMA.Gen) :
    Except Err (Option (Except Err CMA.Opt × CMA.Run)) :=
  match notPositive ((dictGet call "sigma0").getD (.int 0)) with
  | .error e => .error e
  | .ok true => .error .valueError
  | .ok false => .ok (CMA.minimize c (restart.getD CMA.fresh) env)

/-! ### Nevergrad -/

/-- The argument `callbacks` (nevergrad.py:52). Simplification: what is neither a function nor a sequence counts as `None`. -/
def ngArg (call : Dict Val) : Nevergrad.Arg :=
  match dictGet call "callbacks" with
  | some (.function _) => .one
  | some (.several n) => .several n
  | _ => .none

/-- `Nevergrad.minimize` with the arguments of the call, as far as values are told (nevergrad.py:52-69, 128-157). -/
def ngMinimize (call : Dict Val) (restart : Bool) (zero : PyF) (ts : List Nevergrad.Tell) : Except Err Nevergrad.W :=
  Nevergrad.run zero true ts (Nevergrad.begin restart (ngArg call))

end Glompo.Restart
