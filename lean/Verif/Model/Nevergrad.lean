import Verif.Model.Basic

/-!
# `glompo/optimizers/nevergrad.py`, `glompo/optimizers/scipy.py`

The algorithms of the packages are components. Nevergrad calls the registered wrapper after every value it is told, also for evaluations
which were running when it was asked to stop.
-/

namespace Glompo.Nevergrad

open Glompo

/-- What a user may pass as `callbacks`. Belongs to the model of `nevergrad.py:123-126`. -/
inductive Arg where
  | none
  | one
  | several (n : Nat)
  deriving DecidableEq, Repr

/-- The attribute `callbacks` of the wrapper: not set, `None`, a function, or a list. Belongs to the model of `nevergrad.py:123-126`. -/
inductive Attr where
  | unset
  | none
  | function
  | list (n : Nat)
  deriving DecidableEq, Repr

/-- `_NevergradCallbacksWrapper.__init__` (nevergrad.py:123-126). -/
def initCallbacks : Arg → Attr
  | .one => .list 1
  | .none => .list 0
  | .several _ => .unset

/-- After a restart (nevergrad.py:59): what was passed, as it is. -/
def restartCallbacks : Arg → Attr
  | .one => .function
  | .none => .none
  | .several n => .list n

/-- A message from the manager: `callstop` or anything else. Belongs to the model of `nevergrad.py:141`. -/
inductive Msg where
  | stop
  | other
  deriving DecidableEq, Repr

/-- What is met in one call: the value told, the answers of the user's callbacks (as many as there are) and the messages. Belongs to the model of `nevergrad.py:141`. -/
structure Tell where
  fx : PyF
  answers : Nat → Bool
  msgs : List Msg

/-- The wrapper and its parent (nevergrad.py:48-50, 120-126): `stop`, whether `_num_ask` has been set to the end of the budget (nevergrad.py:156), and
the texts of the messages 0 sent. -/
structure W where
  callbacks : Attr
  stop : Bool
  exhausted : Bool
  sent : List String
  deriving DecidableEq, Repr

/-- A new wrapper (nevergrad.py:49, 65, 120-126), or a loaded one (nevergrad.py:58-60). -/
def begin (restart : Bool) (a : Arg) : W :=
  { callbacks := if restart then restartCallbacks a else initCallbacks a, stop := false, exhausted := false, sent := [] }

/-- The normal termination condition (nevergrad.py:134). -/
def converged (zero fx : PyF) : Bool := PyF.le (.fin (10 ^ 30)) fx || PyF.le fx zero

/-- `any([cb(opt, x, fx) for cb in self.callbacks])` (nevergrad.py:141). -/
def userStop (a : Attr) (t : Tell) : Except Err Bool :=
  match a with
  | .unset => .error .other
  | .none => .error .typeError
  | .function => .error .typeError
  | .list n => .ok ((List.range n).any t.answers)

/-- nevergrad.py:131-142: the reason to stop, empty for none. Simplification: the text of the termination condition is shortened. -/
def reason (zero : PyF) (t : Tell) (w : W) : Except Err String :=
  if converged zero t.fx then .ok "Nevergrad termination conditions"
  else
    match userStop w.callbacks t with
    | .error e => .error e
    | .ok b => .ok (if b then "Direct user callbacks" else "")

/-- nevergrad.py:146-157: messages of the manager, and the end. -/
def glompo (t : Tell) (w : W) (s : String) : W :=
  let stop := w.stop || t.msgs.contains .stop
  let s := if s = "" ∧ stop then "GloMPO termination signal." else s
  if s = "" then { w with stop := stop } else { w with stop := true, exhausted := true, sent := w.sent ++ [s] }

/-- `__call__` (nevergrad.py:128-157). -/
def call (zero : PyF) (managed : Bool) (t : Tell) (w : W) : Except Err W :=
  if w.stop then .ok w
  else
    match reason zero t w with
    | .error e => .error e
    | .ok s => .ok (if managed then glompo t w s else w)

/-- A sequence of values told. Belongs to the model of `nevergrad.py:141`, `nevergrad.py:48-50`, `nevergrad.py:128-157`. -/
def run (zero : PyF) (managed : Bool) : List Tell → W → Except Err W
  | [], w => .ok w
  | t :: ts, w =>
    match call zero managed t w with
    | .error e => .error e
    | .ok w => run zero managed ts w

/-- The result (nevergrad.py:84-90): the recommended vector, the function evaluated there once more. -/
def result (function : Vec → PyF) (x : Vec) : Vec × PyF × Bool := (x, function x, PyF.lt (function x) .pinf)

/-- The callback of the SciPy wrapper (scipy.py:68-75): `none` for Python's `None`. -/
def scipyCallback : List (Option Bool) → Option Bool
  | l => l.foldl (fun ret r => if r.isSome then r else ret) none

/-- The result of the SciPy wrapper and the number of messages 0 sent (scipy.py:87-101). `sp` is what SciPy returns: vector, value, success. -/
def scipyResult (managed : Bool) (sp : Vec × PyF × Bool) : (Vec × PyF × Bool) × Nat :=
  let general := false
  ((sp.1, sp.2.1, if general then sp.2.2 else false), if managed then 1 else 0)

end Glompo.Nevergrad
