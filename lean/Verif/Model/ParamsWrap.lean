import Verif.Model.Setup
import Verif.Model.Manager

/-!
# `glompo/interfaces/params.py`: `_FunctionWrapper` (39-55) and `GlompoParamsWrapper` (58-140)

The ParAMS optimizer which runs a GloMPO manager. The manager is described by the models of `setup` (`Model/Setup`) and
`start_manager` (`Model/Manager`).
-/

namespace Glompo.ParamsWrap

open Glompo

/-- The wrapper (params.py:78-85): its manager, `manager_kwargs['max_jobs']` (`none`: no such key), what the manager's
`start_manager` left (`none`: not called yet). The other `manager_kwargs` do not change; they are a parameter below. -/
structure Wrapper where
  mgr : Init.Mgr
  jobs : Option Init.Jobs
  run : Option Manager.State

/-- `__init__` (params.py:78-85). `task` and `bounds` among the keywords are removed. -/
def new (jobs : Option Init.Jobs) : Wrapper := ⟨default, jobs, none⟩

/-- The keywords: arguments of `setup` (of which `task`, `bounds`, `maxJobs` do not count), settings of the manager which `Init.Args` does not have. Belongs to the model of `params.py:87-140`. -/
structure Kwargs where
  args : Init.Args
  other : Manager.Cfg

/-- Arguments of `minimize` (params.py:87-91); `x0` is ignored. Left out: that callbacks of the function are dropped with a
warning (`_FunctionWrapper.__init__`, 45-52) and that it is silenced (126-127). -/
structure Call where
  function : Init.Task
  bounds : List (PyF × PyF)
  workers : Int

/-- Lines 123-124. -/
def jobsOf (w : Wrapper) (c : Call) : Init.Jobs := w.jobs.getD (.int c.workers)

/-- Lines 129-130: the arguments of `setup`. An instance of `_FunctionWrapper` is callable and true. -/
def setupArgs (k : Kwargs) (w : Wrapper) (c : Call) : Init.Args :=
  { k.args with task := ⟨c.function.name, true, true⟩, bounds := c.bounds, maxJobs := jobsOf w c }

/-- The settings of the running manager. Belongs to the model of `params.py:87-140`. -/
def cfgOf (k : Kwargs) (m : Init.Mgr) : Manager.Cfg :=
  { k.other with
    maxJobs := m.maxJobs, hunting := decide (m.hunter = .given), forced := m.allowForced, procs := m.procBackend
    checkpointing := m.checkpointing, traj := m.trajectories }

/-- `MinimizeResult` (params.py:135-138). -/
structure Min where
  x : Option Vec
  fx : Option PyF
  success : Bool
  deriving DecidableEq, Repr

/-- `list(self.result.x) if self.result.x else None` (manager.py:1086): an empty solution becomes `None`. -/
def tidy (r : Manager.Res) : Manager.Res := { r with x := r.x.bind fun x => if x.isEmpty then none else some x }

/-- The manager when `start_manager` is over: its `finally` clause makes an empty solution `None`; the two ways out before the
`try` statement (manager.py:913-917, and Ctrl-C) do not. -/
def closed (r : Manager.Reason) (s : Manager.State) : Manager.State :=
  match r with
  | .metBefore => s
  | .escaped => s
  | _ => { s with result := tidy s.result }

/-- `len(x)`. Used in `params.py:138`. -/
def len? : Option Vec → Except Err Nat
  | none => .error .typeError
  | some x => .ok x.length

/-- Lines 135-138: `converged and len(result.x) > 0`; `len(None)` raises, but is only evaluated if `converged` is true. -/
def report (s : Manager.State) : Except Err Min :=
  if s.converged = true then
    match len? s.result.x with
    | .error e => .error e
    | .ok n => .ok ⟨s.result.x, s.result.fx, decide (0 < n)⟩
  else .ok ⟨s.result.x, s.result.fx, false⟩

/-- Lines 132-140 for a manager which has been set up: the result, `none` while it is still running. -/
def launch (k : Kwargs) (w : Wrapper) (fuel : Nat) (e : Manager.Env) : Wrapper × Option (Except Err Min) :=
  let cfg := cfgOf k w.mgr
  match Manager.startManager cfg fuel (w.run.getD (Manager.init cfg)) e with
  | (none, s, _) => ({ w with run := some s }, none)
  | (some .escaped, s, _) => ({ w with run := some s }, some (.error .keyboardInterrupt))
  | (some r, s, _) => ({ w with run := some (closed r s) }, some (report (closed r s)))

/-- `minimize` (params.py:87-140). `setup` may raise; otherwise the manager is started. Left out: warnings, and that a second
`start_manager` opens the log file again. Simplification: an initial checkpoint (`checkpoint_at_init`) counts only by its outcome. -/
def minimize (k : Kwargs) (w : Wrapper) (c : Call) (fuel : Nat) (e : Manager.Env) : Wrapper × Option (Except Err Min) :=
  let w1 := { w with jobs := some (jobsOf w c) }
  match Init.setup (setupArgs k w c) w1.mgr with
  | (m, some err) => ({ w1 with mgr := m }, some (.error err))
  | (m, none) => launch k { w1 with mgr := m } fuel e

/-- Calls of `minimize` one after the other, whatever becomes of them. Belongs to the model of `params.py:78-85`, `params.py:87-140`, `params.py:87-91`. -/
def calls (k : Kwargs) (w : Wrapper) : List (Call × Nat × Manager.Env) → Wrapper
  | [] => w
  | (c, fuel, e) :: t => calls k (minimize k w c fuel e).1 t

end Glompo.ParamsWrap
