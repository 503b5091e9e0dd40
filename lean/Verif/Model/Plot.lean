import Verif.Model.Logger

/-!
# The plot of trajectories

`BaseLogger.plot_trajectory` (`/repo/glompo/core/optimizerlogger.py:214-282`) as the curves and markers drawn, and the choice
of the scale in `_save_log` (`/repo/glompo/core/manager.py:1767-1777`). Drawing itself (matplotlib) is not modelled.
-/

namespace Glompo.Plot

/-- Python's `part in text`. Belongs to the model of `optimizerlogger.py:260-267`. -/
def within (part : List Char) : List Char → Bool
  | [] => part.isEmpty
  | c :: t => part.isPrefixOf (c :: t) || within part t

/-- Belongs to the model of `optimizerlogger.py:260-267`. -/
inductive Marker where
  | killed      -- 'x'
  | converged   -- '*'
  | crashed     -- 's'
  | blank       -- ''
deriving Repr, DecidableEq

/-- optimizerlogger.py:260-267: the marker at the end of a curve. -/
def marker (endCond : List Char) : Marker :=
  if within "GloMPO Termination".toList endCond then .killed
  else if within "Optimizer convergence".toList endCond || within "Normal termination".toList endCond then .converged
  else if within "Error termination".toList endCond || within "Traceback".toList endCond then .crashed
  else .blank

/-- What is drawn for one optimizer: points (evaluation number, value), the name in the legend and the marker on the last point. Belongs to the model of `optimizerlogger.py:244-269`. -/
structure Curve where
  opt : Nat
  points : List (Cell × Cell)
  type : String
  mark : Option Marker
deriving Repr, DecidableEq

/-- optimizerlogger.py:244-269 for one optimizer, with `best_fx = False` (the only use in the package). No marker is drawn if the
end is not known (`KeyError`) or there is no point (`IndexError`). The scale is applied by `shown`. `ax.plot` refuses columns of
different lengths. -/
def curve (s : Logger) (opt : Nat) : Except Err Curve :=
  match s.getHistory opt "call_id" with
  | .error e => .error e
  | .ok calls =>
    match s.getHistory opt "fx" with
    | .error e => .error e
    | .ok traj =>
      if calls.length ≠ traj.length then .error .valueError
      else
        match s.getMetadata opt "opt_type" with
        | .error e => .error e
        | .ok type =>
          .ok { opt := opt, points := calls.zip traj, type := type,
                mark := match s.getMetadata opt "end_cond" with
                  | .error _ => none
                  | .ok cond => if traj = [] then none else some (marker cond.toList) }

/-- The optimizers from `opt` on, until an exception. Belongs to the model of `optimizerlogger.py:244`. -/
def curvesFrom (s : Logger) : Nat → Nat → Except Err (List Curve)
  | 0, _ => .ok []
  | n + 1, opt =>
    match curve s opt with
    | .error e => .error e
    | .ok c =>
      match curvesFrom s n (opt + 1) with
      | .error e => .error e
      | .ok cs => .ok (c :: cs)

/-- optimizerlogger.py:244: `range(1, self.n_optimizers + 1)`. -/
def curves (s : Logger) : Except Err (List Curve) := curvesFrom s s.nOptimizers 1

/-- `a * b > 0` for floats. Belongs to the model of `manager.py:1769-1771`. -/
def sameSign (a b : PyF) : Bool :=
  (PyF.lt (.fin 0) a && PyF.lt (.fin 0) b) || (PyF.lt a (.fin 0) && PyF.lt b (.fin 0))

/-- `a - b > 1e5` for floats. Belongs to the model of `manager.py:1769-1771`. -/
def farAbove (a b : PyF) : Bool :=
  match a, b with
  | .fin x, .fin y => decide (x - y > 100000)
  | .fin _, .ninf => true
  | .pinf, .fin _ => true
  | .pinf, .ninf => true
  | _, _ => false

/-- manager.py:1769-1771: whether the logarithmic scale is used. -/
def logScale (s : Logger) : Bool := sameSign s.maxEval s.best.fx && farAbove s.maxEval s.best.fx

end Glompo.Plot
