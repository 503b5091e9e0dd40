import Verif.Model.Helpers

/-!
# `glompo/core/manager.py`: `setup` (319-624) and `load_checkpoint` (626-893)

Only the attributes the properties are about are kept. Exceptions leave what was assigned before.
-/

namespace Glompo.Init

open Glompo

/-- A task as far as the code looks at it: its truth value and whether it is callable (`none` is Python's `None`). Belongs to the model of `manager.py:232-317`. -/
structure Task where
  name : String
  truthy : Bool
  callable : Bool
  deriving DecidableEq, Repr, Inhabited

/-- A value given for `max_jobs`. `other` is anything which is neither `None` nor a number, with its truth value. Belongs to the model of `manager.py:319-624`. -/
inductive Jobs where
  | none
  | int (n : Int)
  | float (f : PyF)
  | other (truthy : Bool)
  deriving DecidableEq, Repr, Inhabited

/-- Python truth value. Belongs to the model of `manager.py:319-624`. -/
def Jobs.truthy : Jobs → Bool
  | .none => false
  | .int n => decide (n ≠ 0)
  | .float f => f.truthy
  | .other b => b

/-- A value given for an optional plug-in (convergence checker, generator, hunter): an instance of the right class, or something
else with its truth value (`None` is `other false`). Belongs to the model of `manager.py:319-624`. -/
inductive Plug where
  | instance_
  | other (truthy : Bool)
  deriving DecidableEq, Repr, Inhabited

/-- What is used for a plug-in: nothing, GloMPO's default, or the object given. Belongs to the model of `manager.py:232-317`. -/
inductive Used where
  | nothing
  | default
  | given
  deriving DecidableEq, Repr, Inhabited

/-- Arguments of `setup` and what is found outside: number of processors, whether dill is installed, and the outcome of the
initial checkpoint. Belongs to the model of `manager.py:319-624`. -/
structure Args where
  task : Task
  selector : Bool
  bounds : List (PyF × PyF)
  maxJobs : Jobs
  checker : Plug
  generator : Plug
  hunter : Plug
  forceAfter : Rat
  summaryFiles : Int
  checkpointControl : Bool
  checkpointAtInit : Bool
  backend : String
  endTimeout : Option Rat
  cpus : Int
  dill : Bool
  initialCheckpoint : Option Err
  deriving Repr

/-- The manager (manager.py:232-317). -/
structure Mgr where
  isRestart : Option Bool := none
  task : Option Task := none
  selector : Bool := false
  bounds : Option (List (PyF × PyF)) := none
  maxJobs : Int := 0
  checker : Used := .nothing
  generator : Used := .nothing
  hunter : Used := .nothing
  allowForced : Bool := false
  tooLong : Rat := 0
  checkpointing : Bool := false
  fileLog : Bool := false
  trajectories : Bool := false
  procBackend : Bool := false
  daemonic : Bool := false
  endTimeout : Option Rat := none
  checkpoints : Nat := 0
  starts : List Rat := []
  ends : List Rat := []
  tUsed : Rat := 0
  slots : List (Nat × Int) := []
  packs : List (Nat × Int) := []
  deriving DecidableEq, Repr, Inhabited

/-- `is_initialised` (manager.py:210-215). -/
def Mgr.isInitialised (m : Mgr) : Bool := m.isRestart.isSome

/-- A piece of a method: the manager afterwards and the exception raised, if any. Belongs to the model of `manager.py:319-624`. -/
abbrev Step := Mgr → Mgr × Option Err

/-- One after the other, unless the first raises. Belongs to the model of `manager.py:319-624`. -/
def Step.andThen (a b : Step) : Step := fun m =>
  match a m with
  | (m', some e) => (m', some e)
  | (m', none) => b m'

/-- Lines 496-498. -/
def setTask (a : Args) : Step := fun m =>
  if a.task.callable then ({ m with task := some a.task }, none) else (m, some .typeError)

/-- Lines 501-505. -/
def setSelector (a : Args) : Step := fun m =>
  if a.selector then ({ m with selector := true }, none) else (m, some .typeError)

/-- Lines 508-510. -/
def setBounds (a : Args) : Step := fun m =>
  match Helpers.isBoundsValid a.bounds true with
  | .error e => (m, some e)
  | .ok _ => ({ m with bounds := some a.bounds }, none)

/-- Lines 513-523. -/
def setJobs (a : Args) : Step := fun m =>
  if a.maxJobs.truthy then
    match a.maxJobs with
    | .int n => if 0 < n then ({ m with maxJobs := n }, none) else (m, some .valueError)
    | _ => (m, some .typeError)
  else ({ m with maxJobs := a.cpus - 1 }, none)

/-- Lines 526-533: an instance is used, a truthy object of another class refused, anything falsy counts as absent. -/
def setChecker (a : Args) : Step := fun m =>
  match a.checker with
  | .instance_ => ({ m with checker := .given }, none)
  | .other true => (m, some .typeError)
  | .other false => ({ m with checker := .default }, none)

/-- Lines 536-543. -/
def setGenerator (a : Args) : Step := fun m =>
  match a.generator with
  | .instance_ => ({ m with generator := .given }, none)
  | .other true => (m, some .typeError)
  | .other false => ({ m with generator := .default }, none)

/-- Lines 546-553. -/
def setHunter (a : Args) : Step := fun m =>
  match a.hunter with
  | .instance_ => ({ m with hunter := .given }, none)
  | .other true => (m, some .typeError)
  | .other false => ({ m with hunter := .nothing }, none)

/-- Lines 556-558, 568-579, 593-596. -/
def setBehaviour (a : Args) : Step := fun m =>
  ({ m with
     allowForced := decide (0 < a.forceAfter)
     tooLong := a.forceAfter
     checkpointing := a.checkpointControl && a.dill
     fileLog := decide (2 < a.summaryFiles)
     trajectories := decide (1 < a.summaryFiles) }, none)

/-- Lines 599-609. -/
def setBackend (a : Args) : Step := fun m =>
  if a.backend = "processes" ∨ a.backend = "threads" ∨ a.backend = "processes_forced" then
    ({ m with
       procBackend := a.backend = "processes" || a.backend = "processes_forced"
       daemonic := a.backend ≠ "processes_forced" }, none)
  else ({ m with procBackend := true, daemonic := true }, none)

/-- Lines 611-617; a timeout of 0 is falsy. -/
def setTimeout (a : Args) : Step := fun m =>
  match a.endTimeout with
  | some t => if t ≠ 0 then ({ m with endTimeout := some t }, none)
    else ({ m with endTimeout := if m.procBackend then some 10 else none }, none)
  | none => ({ m with endTimeout := if m.procBackend then some 10 else none }, none)

/-- Line 619. -/
def markNew : Step := fun m => ({ m with isRestart := some false }, none)

/-- Lines 621-622. -/
def initialCheckpoint (a : Args) : Step := fun m =>
  if m.checkpointing && a.checkpointAtInit then ({ m with checkpoints := m.checkpoints + 1 }, a.initialCheckpoint)
  else (m, none)

/-- `setup` (manager.py:319-624). Not modelled: the working directory, settings which are only stored, visualisation, the
conversion of `status_frequency`. -/
def setup (a : Args) : Step := fun m =>
  if m.isInitialised then (m, none)
  else
    (setTask a |>.andThen (setSelector a) |>.andThen (setBounds a) |>.andThen (setJobs a) |>.andThen (setChecker a)
      |>.andThen (setGenerator a) |>.andThen (setHunter a) |>.andThen (setBehaviour a) |>.andThen (setBackend a)
      |>.andThen (setTimeout a) |>.andThen markNew |>.andThen (initialCheckpoint a)) m

/-! ### `load_checkpoint` -/

/-- The file `task` of a checkpoint (manager.py:725-734): absent, restored to a task, or it cannot be read. `None` can be restored
too. -/
inductive TaskFile where
  | absent
  | holds (t : Option Task)
  | broken
  deriving DecidableEq, Repr, Inhabited

/-- Content of a checkpoint: whether the archive can be unpacked, the pickled manager (`none` if unreadable), the task, whether the log
can be restored, and for each optimizer with a restart file whether it can be rebuilt. Belongs to the model of `manager.py:626-893`. -/
structure Chkpt where
  archive : Bool
  manager : Option Mgr
  task : TaskFile
  log : Bool
  restarts : List (Nat × Bool)
  deriving Repr

/-- Arguments of `load_checkpoint`: what the loader returns (`error` if it raises), the task, a new `max_jobs`. Belongs to the model of `manager.py:626-893`. -/
structure LoadArgs where
  loader : Option (Except Err (Option Task))
  task : Option Task
  maxJobs : Option Int
  deriving Repr

/-- `not self.task`. Belongs to the model of `manager.py:232-317`, `manager.py:319-624`. -/
def missing : Option Task → Bool
  | none => true
  | some t => !t.truthy

/-- `assert callable(self.task)`. Belongs to the model of `manager.py:232-317`. -/
def assertCallable (t : Option Task) : Option Err :=
  match t with
  | none => some .assertionError
  | some u => if u.callable then none else some .assertionError

/-- Lines 738-739. An object which is not callable fails the assertion, after it was assigned. -/
def callLoader (t : Option Task) : Except Err (Option Task) → Option Task × Option Err
  | .error e => (t, some e)
  | .ok u => (u, assertCallable u)

/-- Lines 736-743: the task after the loader had its chance. -/
def useLoader (t : Option Task) (loader : Option (Except Err (Option Task))) : Option Task × Option Err :=
  match loader with
  | none => (t, none)
  | some l => if missing t then callLoader t l else (t, none)

/-- Lines 745-751; a given task which is falsy is not looked at. -/
def useGiven (t : Option Task) (given : Option Task) : Option Task × Option Err :=
  match given with
  | none => (t, none)
  | some u =>
    if missing t && u.truthy then (some u, assertCallable (some u))
    else (t, none)

/-- The assertion in line 753. -/
def assertSome (t : Option Task) : Option Task × Option Err :=
  match t with
  | none => (none, some .checkpointingError)
  | some t => (some t, none)

/-- Lines 736-756, from the task in the checkpoint. -/
def chooseTask (t0 : Option Task) (a : LoadArgs) : Option Task × Option Err :=
  match useLoader t0 a.loader with
  | (t, some _) => (t, some .checkpointingError)
  | (t1, none) =>
    match useGiven t1 a.task with
    | (t, some _) => (t, some .checkpointingError)
    | (t2, none) => assertSome t2

/-- Lines 722-756: the task, and whether building it failed (everything becomes a `CheckpointingError`). -/
def buildTask (f : TaskFile) (a : LoadArgs) : Option Task × Option Err :=
  match f with
  | .broken => (none, some .checkpointingError)
  | .absent => chooseTask none a
  | .holds t => chooseTask t a

/-- The slots of the optimizers to be restarted (manager.py:824-825); an id the manager does not know raises `KeyError`. -/
def demand (known : List (Nat × Int)) : List (Nat × Bool) → Except Err (List (Nat × Int))
  | [] => .ok []
  | (i, _) :: t =>
    match dictGet known i with
    | none => .error .keyError
    | some s =>
      match demand known t with
      | .error e => .error e
      | .ok r => .ok ((i, s) :: r)

/-- `int(a / b)`: towards zero. Used in `manager.py:826-838`. -/
def intDiv (a : Int) (b : Nat) : Int := Int.tdiv a b

/-- Lines 826-838. -/
def apportion (maxJobs : Int) (want : List (Nat × Int)) : Except Err (List (Nat × Int)) :=
  if maxJobs < (want.map (·.2)).sum then
    if want.length = 0 then .error .zeroDivision
    else if intDiv maxJobs want.length < 1 then .error .checkpointingError
    else .ok (want.map fun p => (p.1, intDiv maxJobs want.length))
  else .ok want

/-- Lines 842-885: optimizers which cannot be rebuilt are skipped with a warning. -/
def rebuild (ok : List (Nat × Bool)) (slots : List (Nat × Int)) : List (Nat × Int) :=
  slots.filter fun p => ok.any fun q => q.1 == p.1 && q.2

/-- Lines 711-720: attributes from the file replace those of the manager (`_is_restart` among them); the task, the log and the
optimizers are not in this file (manager.py:1893-1897). -/
def setAttributes (saved : Mgr) : Mgr := { saved with task := none, packs := [] }

/-- Lines 798-810: `sum([(end - start)...])`. -/
def usedTime (starts ends : List Rat) : Rat := (List.zipWith (fun s e => e - s) starts ends).sum

/-- Lines 887-890, after the optimizers were rebuilt. -/
def finishLoad (wanted : Nat) (m : Mgr) : Mgr × Option Err :=
  if m.packs.length = 0 ∧ 0 < wanted then (m, some .checkpointingError) else ({ m with isRestart := some true }, none)

/-- Lines 824-890. -/
def restartOptimizers (c : Chkpt) (m : Mgr) : Mgr × Option Err :=
  match demand m.slots c.restarts with
  | .error e => (m, some e)
  | .ok want =>
    match apportion m.maxJobs want with
    | .error e => (m, some e)
    | .ok slots => finishLoad slots.length { m with packs := rebuild c.restarts slots }

/-- Lines 758-776, for `max_jobs` only; it is not checked. -/
def override (a : LoadArgs) (m : Mgr) : Mgr := { m with maxJobs := a.maxJobs.getD m.maxJobs }

/-- Lines 794-890. -/
def loadRest (c : Chkpt) (m : Mgr) : Mgr × Option Err :=
  if c.log = false then (m, some .other)
  else if m.starts.length ≠ m.ends.length then (m, some .assertionError)
  else restartOptimizers c { m with tUsed := usedTime m.starts m.ends }

/-- Lines 722-890. -/
def loadTask (c : Chkpt) (a : LoadArgs) (m : Mgr) : Mgr × Option Err :=
  match buildTask c.task a with
  | (t, some e) => ({ m with task := t }, some e)
  | (t, none) => loadRest c (override a { m with task := t })

/-- `load_checkpoint` (manager.py:626-893). Of the settings that can be overridden only `max_jobs` is modelled. Scope,
histories of resources, the convergence check (a warning) are left out. -/
def load (c : Chkpt) (a : LoadArgs) : Step := fun m =>
  if m.isInitialised then (m, none)
  else if c.archive = false then (m, some .tarError)
  else
    match c.manager with
    | none => (m, some .checkpointingError)
    | some saved => loadTask c a (setAttributes saved)

end Glompo.Init
