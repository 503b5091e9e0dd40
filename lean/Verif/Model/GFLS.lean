import Verif.Model.Basic

/-!
# `glompo/optimizers/gfls.py`

The algorithm of the `optsam` package is a component: what it asks for, and what the function answers, is arbitrary. Evaluations are
numbered in the order in which they are asked for (`gfls.state["ncall"]` before the request).
-/

namespace Glompo.GFLS

open Glompo

/-- What an evaluation answers (`_function_pack`, gfls.py:14-17): vector, constrained or not, error, residuals. -/
structure Answer where
  x : Vec
  constrained : Bool
  fx : PyF
  resids : List Rat
  deriving DecidableEq, Repr

/-- A manager message carried out by `check_messages`: `callstop`, `checkpoint_save`. Belongs to the model of `gfls.py:164-166`. -/
inductive Msg where
  | stop (reason : String)
  | save
  deriving DecidableEq, Repr

/-- What happens in an iteration: which of the running evaluations is the one taken from the completed ones (gfls.py:164-166); the answers of the
hooks and of the callback (the empty text if they do not wish to stop); the messages. -/
structure Iter where
  pick : Nat
  hooks : List String
  callback : String
  msgs : List Msg
  deriving DecidableEq, Repr

/-- The attributes (gfls.py:75-93), as far as they matter: `stopcond` (empty for `None`), the outstanding evaluations `_futures`, the number of
requests `gfls.state["ncall"]`, what the algorithm was told, and `result`. -/
structure Opt where
  stopcond : String
  futures : List Nat
  ncall : Nat
  told : List (Nat × Answer)
  x : Option Vec
  fx : PyF
  success : Bool
  deriving DecidableEq, Repr

/-- A new optimizer (gfls.py:76-78, 92, 105-106; baseoptimizer.py:45-49). -/
def fresh : Opt := { stopcond := "", futures := [], ncall := 0, told := [], x := none, fx := .pinf, success := false }

/-- `callstop` (gfls.py:174-177). -/
def callStop (reason : String) (o : Opt) : Opt :=
  { o with stopcond := reason, success := !(reason = "GloMPO Crash" || reason = "Manager termination signal") }

/-- `check_messages` (baseoptimizer.py:302-331): the state after it and the states saved. -/
def messages : List Msg → Opt → Opt × List Opt
  | [], o => (o, [])
  | .stop r :: t, o => messages t (callStop r o)
  | .save :: t, o => ((messages t o).1, o :: (messages t o).2)

/-- gfls.py:159-162: requests until there are as many evaluations as workers. The first argument is the number of requests. -/
def fill : Nat → Opt → Opt
  | 0, o => o
  | n + 1, o => fill n { o with futures := o.futures ++ [o.ncall], ncall := o.ncall + 1 }

/-- `get_evaluation` (gfls.py:152-172): the number of the evaluation returned, if there is one. -/
def getEvaluation (workers : Nat) (it : Iter) (o : Opt) : Option (Nat × Opt) :=
  if 1 < workers then
    let o := fill (workers - o.futures.length) o
    (o.futures[it.pick % o.futures.length]?).map fun n => (n, { o with futures := o.futures.erase n })
  else some (o.ncall, { o with ncall := o.ncall + 1 })

/-- A new stop condition replaces the old one if it is not empty (gfls.py:124-127, 129-132). -/
def newStop (s : String) (o : Opt) : Opt := if s = "" then o else { o with stopcond := s }

/-- The body of the loop (gfls.py:121-136). Nothing happens if there is no evaluation to wait for (it cannot happen). -/
def body (workers : Nat) (managed : Bool) (eval : Nat → Answer) (it : Iter) (o : Opt) : Opt × List Opt :=
  match getEvaluation workers it o with
  | none => (o, [])
  | some (n, o) =>
    let o := { o with told := o.told ++ [(n, eval n)] }
    let o := newStop it.callback (it.hooks.foldl (fun o s => newStop s o) o)
    if managed then messages it.msgs o else (o, [])

/-- The loop (gfls.py:120-136): the state, the states saved, and whether it has ended. -/
def loop (workers : Nat) (managed : Bool) (eval : Nat → Answer) : List Iter → Opt → Opt × List Opt × Bool
  | [], o => (o, [], decide (o.stopcond ≠ ""))
  | it :: t, o =>
    if o.stopcond ≠ "" then (o, [], true)
    else
      let b := body workers managed eval it o
      let l := loop workers managed eval t b.1
      (l.1, b.2 ++ l.2.1, l.2.2)

/-- `minimize` (gfls.py:95-150); after a restart the outstanding evaluations are gone (gfls.py:109-111; they are not saved either). The state when the
list of iterations is used up, the states saved, and whether it has returned. -/
def minimize (workers : Nat) (managed restart : Bool) (eval : Nat → Answer) (o : Opt) (env : List Iter) : Opt × List Opt × Bool :=
  loop workers managed eval env (if restart then { o with futures := [] } else o)

end Glompo.GFLS
