import Mathlib.Analysis.SpecialFunctions.Log.Basic
import Mathlib.Analysis.Real.Sqrt
import Verif.Model.Hunters

/-!
# `glompo/common/helpers.py:distance` and the hunters which need roots and exponentials

Computed over the real numbers (no rounding). Coordinates are finite rationals.
-/

namespace Glompo

open Classical in
/-- Truth value of a comparison of real numbers. Belongs to the model of `parameterdistance.py:67-92`. -/
noncomputable def rle (a b : ℝ) : Bool := decide (a ≤ b)

open Classical in
/-- Truth value of a comparison of real numbers. Belongs to the model of `valueannealing.py:37-57`. -/
noncomputable def rlt (a b : ℝ) : Bool := decide (a < b)

/-- The sum of squared differences. Belongs to the model of `helpers.py:232-240`. -/
def sqDist (a b : Vec) : Rat := (List.zipWith (fun x y => (x - y) ^ 2) a b).sum

/-- `distance` (helpers.py:232-240) for points of equal length (numpy raises or broadcasts otherwise, not
modelled). -/
noncomputable def distance (a b : Vec) : ℝ := Real.sqrt (sqDist a b : ℝ)

/-- `self.trans_space_dist` (parameterdistance.py:52-54, stepsize.py:40-42). -/
noncomputable def transSpaceDist (bounds : List (Rat × Rat)) : ℝ :=
  distance (bounds.map (·.1)) (bounds.map (·.2))

/-- The vectors in a history column. Belongs to the model of `parameterdistance.py:67-92`. -/
def cellX : Cell → Vec
  | .vec x => x
  | _ => []

/-- `log.get_history(opt_id, 'x')`. Belongs to the model of `parameterdistance.py:67-92`. -/
def xHist (log : Logger) (optId : Nat) : Except Err (List Vec) :=
  match log.getHistory optId "x" with
  | .error e => .error e
  | .ok cs => .ok (cs.map cellX)

/-- The loop of `ParameterDistance.__call__` (parameterdistance.py:67-92). -/
noncomputable def paramDistLoop (trans : ℝ) (rel : Rat) (log : Logger) (victim : Nat) : List Nat → Except Err Bool
  | [] => .ok false
  | j :: js =>
    if j = victim then paramDistLoop trans rel log victim js
    else
      match xHist log j with
      | .error e => .error e
      | .ok hs =>
        match hs.getLast? with
        | none => paramDistLoop trans rel log victim js
        | some h1 =>
          match xHist log victim with
          | .error e => .error e
          | .ok vs =>
            match vs.getLast? with
            | none => .error .indexError
            | some v1 =>
              if rle (distance h1 v1 / trans) rel then .ok true else paramDistLoop trans rel log victim js

/-- `ParameterDistance.__call__` (parameterdistance.py:58-92). -/
noncomputable def parameterDistance (bounds : List (Rat × Rat)) (rel : Rat) (testAll : Bool) (log : Logger)
    (hunter victim : Nat) : Except Err Bool :=
  paramDistLoop (transSpaceDist bounds) rel log victim
    (if testAll then List.range' 1 log.nOptimizers else [hunter])

/-- `map(distance, trials[1:], trials[:-1])` (stepsize.py:52). -/
noncomputable def stepLengths : List Vec → List ℝ
  | a :: b :: t => distance b a :: stepLengths (b :: t)
  | _ => []

/-- `StepSize.__call__` (stepsize.py:44-61); the mean of no numbers is `nan` and the comparison false. -/
noncomputable def stepSize (bounds : List (Rat × Rat)) (calls : Nat) (tol : Rat) (log : Logger) (victim : Nat) :
    Except Err Bool :=
  match xHist log victim with
  | .error e => .error e
  | .ok xs =>
    let trials := lastN xs calls
    if trials.length ≥ calls then
      let ds := stepLengths trials
      if ds.length = 0 then .ok false
      else .ok (rle (ds.sum / ds.length) (tol * transSpaceDist bounds))
    else .ok false

/-- All values of a list of floats, if they are finite. Belongs to the model of `evalsunmoving.py:34-53`. -/
def allFin : List PyF → Option (List Rat)
  | [] => some []
  | .fin q :: t => match allFin t with
    | some r => some (q :: r)
    | none => none
  | _ :: _ => none

/-- Mean of a list of numbers. Belongs to the model of `evalsunmoving.py:34-53`. -/
def mean (l : List Rat) : Rat := l.sum / (l.length : Rat)

/-- `np.std` of a non-empty list of finite numbers. Belongs to the model of `evalsunmoving.py:34-53`. -/
noncomputable def std (l : List Rat) : ℝ := Real.sqrt ((mean (l.map fun x => (x - mean l) ^ 2) : Rat) : ℝ)

/-- `EvaluationsUnmoving.__call__` (evalsunmoving.py:34-53) with numpy's default error handling, under which the standard
deviation of values which are not all finite is `nan` and the comparison false. -/
noncomputable def evaluationsUnmoving (calls : Nat) (tol : Rat) (log : Logger) (victim : Nat) : Except Err Bool :=
  match fxHist log victim with
  | .error e => .error e
  | .ok vals =>
    if log.lenOpt victim < calls then .ok false
    else
      match vals.getLast? with
      | none => .error .indexError
      | some _ =>
        match allFin (lastN vals calls) with
        | none => .ok false
        | some w =>
          match w.getLast? with
          | none => .ok false
          | some last => .ok (rle (std w) |((last * tol : Rat) : ℝ)|)

/-- Lines 49-52 of valueannealing.py: the survival probability; `none` is `nan`. The factor is
`self.strictness = log(med_kill_chance)` (line 35). A victim without finite value gives `exp(-inf) = 0`. -/
noncomputable def survivalProb (med : ℝ) : PyF → PyF → Option ℝ
  | .fin h, .fin v => some (Real.exp (|(((h : ℝ) - v) / h)| * Real.log med))
  | .fin _, .pinf => some 0
  | _, _ => none

/-- `ValueAnnealing.__call__` (valueannealing.py:37-57); `u` is the random number `test_num`. -/
noncomputable def valueAnnealing (med u : ℝ) (log : Logger) (hunter victim : Nat) : Except Err Bool :=
  match log.getBestIter (some hunter), log.getBestIter (some victim) with
  | .error e, _ => .error e
  | _, .error e => .error e
  | .ok bh, .ok bv =>
    if PyF.eq bh.fx (.fin 0) || PyF.le bv.fx bh.fx then .ok false
    else
      match survivalProb med bh.fx bv.fx with
      | none => .ok false
      | some p => .ok (rlt p u)

end Glompo
