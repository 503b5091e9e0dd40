import Verif.Model.Basic

/-!
# `glompo/optimizers/baseoptimizer.py`: an optimizer under the manager

As in `Model/Manager`: an observation is a look outside (the task, the pipe, the queue, the file system), the environment
is the list of what will be seen, a run whose list is used up is pending. `ev` records what happened.

The `minimize` method is user code, hence an arbitrary state machine (`Routine`) which may evaluate the task, check
messages, send messages and wait, in any order, catch any exception, and run for ever.
-/

namespace Glompo.Optimizer

open Glompo

/-- Exceptions, as far as `_minimize` (baseoptimizer.py:454-462) tells them apart. `exit`: any other exception which is
not an `Exception` (`SystemExit`). -/
inductive Exc where
  | keyboard
  | brokenPipe
  | exit
  | error (e : Err)
  deriving DecidableEq, Repr

/-- An argument of an instruction. Belongs to the model of `baseoptimizer.py:319-329`. -/
inductive Arg where
  | str (s : String)
  | vec (x : Vec)
  | num (v : PyF)
  deriving DecidableEq, Repr

/-- A message in the pipe from the manager (baseoptimizer.py:319-329). `other`: anything else. -/
inductive Msg where
  | int (k : Int)
  | tuple (k : Int) (args : List Arg)
  | emptyTuple
  | other
  deriving DecidableEq, Repr

/-- What an observation shows. `value` answers `__call__`, `values` answers `detailed_call`. Belongs to the model of `baseoptimizer.py:316-317`. -/
inductive Obs where
  | unit
  | value (v : PyF)
  | values (vs : List PyF)
  | quiet
  | msg (m : Msg)
  | raise (e : Exc)
  deriving DecidableEq, Repr

/-- The record of what happened. Belongs to the model of `baseoptimizer.py:361-395`. -/
inductive Ev where
  | evaluated (x : Vec) (vals : List PyF)
  | queued (r : IterRes)
  | lost (x : Vec)
  | queuedEnd (i : Nat)
  | lostEnd
  | sent (key : Int)
  | saved (path : Arg)
  | stopped (reason : Option Arg)
  | passed
  | injected (x fx : Arg)
  | ignored
  | held
  | resumed
  deriving DecidableEq, Repr

/-- Belongs to the model of `baseoptimizer.py:316-317`. -/
structure W where
  env : List Obs
  ev : List Ev
  deriving DecidableEq, Repr

/-- Belongs to the model of `baseoptimizer.py:316-317`. -/
inductive Out (α : Type) where
  | ok (a : α)
  | err (e : Exc)
  | pending
  deriving DecidableEq, Repr

/-- Programs. Belongs to the model of `baseoptimizer.py:316-317`. -/
def M (α : Type) := W → Out α × W

namespace M

protected def pure (a : α) : M α := fun w => (.ok a, w)

protected def bind (m : M α) (f : α → M β) : M β := fun w =>
  match m w with
  | (.ok a, w') => f a w'
  | (.err e, w') => (.err e, w')
  | (.pending, w') => (.pending, w')

instance : Monad M where
  pure := M.pure
  bind := M.bind

protected def throw (e : Exc) : M α := fun w => (.err e, w)

protected def pending : M α := fun w => (.pending, w)

/-- `try: m except: ...`: the exception becomes a value. Belongs to the model of `baseoptimizer.py:100`. -/
def attempt (m : M α) : M (Except Exc α) := fun w =>
  match m w with
  | (.ok a, w') => (.ok (.ok a), w')
  | (.err e, w') => (.ok (.error e), w')
  | (.pending, w') => (.pending, w')

/-- Belongs to the model of `baseoptimizer.py:361-395`. -/
def emit (e : Ev) : M Unit := fun w => (.ok (), { w with ev := w.ev ++ [e] })

/-- An observation; a wrong kind of answer counts as none. Belongs to the model of `baseoptimizer.py:316-317`. -/
def ask (f : Obs → Option α) : M α := fun w =>
  match w.env with
  | [] => (.pending, w)
  | .raise e :: t => (.err e, { w with env := t })
  | o :: t => match f o with
    | some a => (.ok a, { w with env := t })
    | none => (.pending, w)

end M

open M

/-- Something which may take time or raise, without an answer. Belongs to the model of `baseoptimizer.py:361-395`. -/
def askUnit : M Unit := ask fun o => if o = .unit then some () else none

/-- `poll()` followed by `recv()` (baseoptimizer.py:316-317). -/
def poll : M (Option Msg) := ask fun o => match o with
  | .quiet => some none
  | .msg m => some (some m)
  | _ => none

/-- What is known of an optimizer: its number, `is_log_detailed`, whether the task has a `detailed_call`, and whether the
argument of its `callstop` has a default (as in random.py:87). -/
structure Cfg where
  optId : Nat
  logDetailed : Bool
  hasDetailed : Bool
  stopDefault : Bool
  deriving DecidableEq, Repr

/-- The keys of `_from_manager_signal_dict` (baseoptimizer.py:268-272). -/
def keys : List Int := [0, 1, 2, 3, 4]

/-- `poll(timeout=None)` (baseoptimizer.py:422): waits until there is something to read, reads nothing. -/
def waitMsg : M Unit := fun w =>
  match w.env.dropWhile (· = .quiet) with
  | [] => (.pending, { w with env := [] })
  | .raise e :: t => (.err e, { w with env := t })
  | o :: t => (.ok (), { w with env := o :: t })

/-- `checkpoint_save` (baseoptimizer.py:361-395). Simplification: the argument `force`, which the manager never sends, is
left out. -/
def save : List Arg → M Unit
  | [p] => do askUnit; emit (.saved p)
  | _ => M.throw (.error .typeError)

/-- `callstop` (baseoptimizer.py:357-358, random.py:87). -/
def callStop (cfg : Cfg) : List Arg → M Unit
  | [r] => do emit (.stopped (some r)); askUnit
  | [] => if cfg.stopDefault then do emit (.stopped none); askUnit else M.throw (.error .typeError)
  | _ => M.throw (.error .typeError)

/-- `_checkpoint_pass` (baseoptimizer.py:401-407). -/
def pass : List Arg → M Unit
  | [] => emit .passed
  | _ => M.throw (.error .typeError)

/-- `inject` (baseoptimizer.py:397-399). -/
def inject : List Arg → M Unit
  | [x, fx] => emit (.injected x fx)
  | _ => M.throw (.error .typeError)

mutual

/-- The loop of `check_messages` (baseoptimizer.py:316-331). `fuel` bounds the length of the run considered; a run which
exceeds it is pending. -/
def checkLoop (cfg : Cfg) : Nat → List Int → M (List Int)
  | 0, _ => M.pending
  | n + 1, acc => do
    match ← poll with
    | none => pure acc
    | some (.int k) =>
      if k ∈ keys then
        execute cfg n k []
        checkLoop cfg n (acc ++ [k])
      else
        emit .ignored
        checkLoop cfg n acc
    | some (.tuple k args) =>
      if k ∈ keys then
        execute cfg n k args
        checkLoop cfg n (acc ++ [k])
      else
        emit .ignored
        checkLoop cfg n acc
    | some .emptyTuple => M.throw (.error .indexError)
    | some .other =>
      emit .ignored
      checkLoop cfg n acc

/-- The methods in `_from_manager_signal_dict` (baseoptimizer.py:268-272, 322, 326): `checkpoint_save`, `callstop`,
`_prepare_checkpoint`, `_checkpoint_pass`, `inject`. A wrong number of arguments is a `TypeError`. -/
def execute (cfg : Cfg) : Nat → Int → List Arg → M Unit
  | 0, _, _ => M.pending
  | n + 1, k, args =>
    if k = 0 then save args
    else if k = 1 then callStop cfg args
    else if k = 2 then (if args = [] then prepare cfg n else M.throw (.error .typeError))
    else if k = 3 then pass args
    else inject args

/-- `_prepare_checkpoint` (baseoptimizer.py:409-428). -/
def prepare (cfg : Cfg) : Nat → M Unit
  | 0 => M.pending
  | n + 1 => do
    askUnit
    emit (.sent 1)
    waitLoop cfg n
    emit .held
    askUnit
    emit .resumed

/-- The loop of `_prepare_checkpoint` (baseoptimizer.py:421-424). -/
def waitLoop (cfg : Cfg) : Nat → M Unit
  | 0 => M.pending
  | n + 1 => do
    waitMsg
    let got ← checkLoop cfg n []
    if 0 ∈ got ∨ 3 ∈ got then pure () else waitLoop cfg n

end

/-- `check_messages` (baseoptimizer.py:302-331). -/
def checkMessages (cfg : Cfg) (fuel : Nat) : M (List Int) := checkLoop cfg fuel []

/-- `message_manager` (baseoptimizer.py:333-354). -/
def messageManager (key : Int) : M Unit := do
  askUnit
  emit (.sent key)

/-- baseoptimizer.py:91-94: the task is evaluated. -/
def evaluate (detailed : Bool) (x : Vec) : M (List PyF) := do
  let vals ← ask fun o => match detailed, o with
    | true, .values vs => some vs
    | false, .value v => some [v]
    | _, _ => none
  emit (.evaluated x vals)
  return vals

/-- baseoptimizer.py:100: `put_nowait`. -/
def putResult (r : IterRes) : M Unit := do
  match ← attempt askUnit with
  | .ok _ => emit (.queued r)
  | .error e => do emit (.lost r.x); M.throw e

/-- `_MessagingWrapper._calculate` (baseoptimizer.py:89-104); the result of `__call__` is the first entry. -/
def calculate (cfg : Cfg) (callDetailed : Bool) (x : Vec) : M (List PyF) := do
  let vals ← evaluate (cfg.logDetailed || callDetailed) x
  match vals with
  | [] => M.throw (.error .indexError)
  | fx :: extras => do
    putResult { optId := cfg.optId, x := x, fx := fx, extras := extras }
    return if callDetailed then vals else [fx]

/-- What user code does next. Belongs to the model of `baseoptimizer.py:277-300`. -/
inductive Req (σ : Type) where
  | ret
  | throw (e : Exc)
  | call (detailed : Bool) (x : Vec) (k : Except Exc (List PyF) → σ)
  | check (k : Except Exc (List Int) → σ)
  | send (key : Int) (k : Except Exc Unit → σ)
  | wait (k : Except Exc Unit → σ)

/-- A `minimize` method (baseoptimizer.py:277-300). -/
structure Routine where
  σ : Type
  init : σ
  next : σ → Req σ

/-- A run of the user code; `wait` is `_pause_signal.wait()` or anything else which takes time. Belongs to the model of `baseoptimizer.py:450-462`. -/
def runRoutine (cfg : Cfg) (r : Routine) : Nat → r.σ → M Unit
  | 0, _ => M.pending
  | n + 1, s =>
    match r.next s with
    | .ret => pure ()
    | .throw e => M.throw e
    | .call d x k => do runRoutine cfg r n (k (← attempt (calculate cfg d x)))
    | .check k => do runRoutine cfg r n (k (← attempt (checkMessages cfg n)))
    | .send key k => do runRoutine cfg r n (k (← attempt (messageManager key)))
    | .wait k => do runRoutine cfg r n (k (← attempt askUnit))

/-- The `try` block of `_minimize` with its `except` clauses (baseoptimizer.py:450-462); the constructor of the wrapper
(baseoptimizer.py:80-81) raises if the task cannot do what is asked. -/
def guarded (cfg : Cfg) (r : Routine) (fuel : Nat) : M Unit := do
  let res ← attempt (do
    if cfg.logDetailed = true ∧ cfg.hasDetailed = false then M.throw (.error .other)
    runRoutine cfg r fuel r.init)
  match res with
  | .ok _ => pure ()
  | .error .keyboard => pure ()
  | .error .brokenPipe => pure ()
  | .error .exit => M.throw .exit
  | .error (.error e) => do
    messageManager 9
    M.throw (.error e)

/-- The `finally` clause (baseoptimizer.py:465): `put`. -/
def putEnd (i : Nat) : M Unit := do
  match ← attempt askUnit with
  | .ok _ => emit (.queuedEnd i)
  | .error e => do emit .lostEnd; M.throw e

/-- `_minimize` (baseoptimizer.py:430-465). -/
def minimize (cfg : Cfg) (r : Routine) (fuel : Nat) : M Unit := do
  let res ← attempt (guarded cfg r fuel)
  putEnd cfg.optId
  match res with
  | .ok _ => pure ()
  | .error e => M.throw e

end Glompo.Optimizer
