import Verif.Model.Basic

/-! # `glompo/optimizers/random.py` -/

namespace Glompo.RandomOpt

open Glompo

/-- The attributes which matter (random.py:34-37, baseoptimizer.py:45-50): `max_iters`, `used_iters`, `result.x`, `result.fx`,
`result.success`, `stop_called`. -/
structure Opt where
  maxIters : Int
  used : Int
  x : Option Vec
  fx : PyF
  success : Bool
  stop : Bool
  deriving DecidableEq, Repr

/-- `RandomOptimizer.__init__` (random.py:24-38). -/
def init (iters : Int) : Opt := { maxIters := iters, used := 0, x := none, fx := .pinf, success := false, stop := false }

/-- An instruction carried out by `check_messages` which matters here: `callstop` (random.py:87-88), `checkpoint_save`
(baseoptimizer.py:361-395: all of `Opt` is saved, `is_restart` is not). -/
inductive Act where
  | stop
  | save
  deriving DecidableEq, Repr

/-- What an iteration meets outside: a draw from [0, 1) for every parameter, the value of the task, the answer of the
callbacks (`false` if there are none), and the instructions which arrived. Belongs to the model of `random.py:52-75`. -/
structure Iter where
  draws : List Rat
  value : PyF
  callback : Bool
  acts : List Act
  deriving DecidableEq, Repr

/-- random.py:53-56 with `numpy.random.uniform(lo, hi) = lo + (hi - lo) * draw`. -/
def vector (bounds : List (Rat × Rat)) (draws : List Rat) : Vec :=
  List.zipWith (fun b u => b.1 + (b.2 - b.1) * u) bounds draws

/-- `check_messages` (random.py:68): the state after it and the states saved. -/
def messages : List Act → Opt → Opt × List Opt
  | [], o => (o, [])
  | .stop :: t, o => messages t { o with stop := true }
  | .save :: t, o => let r := messages t o; (r.1, o :: r.2)

/-- State of a run: the optimizer, the local variable `best_f`, and the record of evaluations and saved states. Belongs to the model of `random.py:52-75`. -/
structure Run where
  o : Opt
  best : PyF
  evals : List (Vec × PyF)
  saved : List Opt
  deriving DecidableEq, Repr

/-- The body of the loop (random.py:52-75). -/
def body (bounds : List (Rat × Rat)) (it : Iter) (r : Run) : Run :=
  let v := vector bounds it.draws
  let o := { r.o with used := r.o.used + 1 }
  let o := if it.callback then { o with stop := true } else o
  let (o, saved) := messages it.acts o
  let evals := r.evals ++ [(v, it.value)]
  if PyF.lt it.value r.best = true then
    { o := { o with x := some v, fx := it.value }, best := it.value, evals := evals, saved := r.saved ++ saved }
  else { o := o, best := r.best, evals := evals, saved := r.saved ++ saved }

/-- The condition of the loop (random.py:48-50). -/
def goesOn (o : Opt) : Bool := decide (o.used < o.maxIters) && !o.stop

/-- The loop (random.py:48-75). The flag tells that it ended; otherwise the run is still going when the list is used up. -/
def loop (bounds : List (Rat × Rat)) : List Iter → Run → Run × Bool
  | [], r => (r, !goesOn r.o)
  | it :: t, r => if goesOn r.o then loop bounds t (body bounds it r) else (r, true)

/-- `minimize` (random.py:40-85) up to the end of the loop; `restart` is `is_restart`. -/
def minimize (bounds : List (Rat × Rat)) (restart : Bool) (o : Opt) (env : List Iter) : Run × Bool :=
  let r := loop bounds env { o := o, best := if restart then o.fx else .pinf, evals := [], saved := [] }
  if r.2 then ({ r.1 with o := { r.1.o with success := true } }, true) else r

end Glompo.RandomOpt
