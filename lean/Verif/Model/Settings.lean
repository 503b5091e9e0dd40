import Verif.Model.Helpers
import Verif.Model.Float

/-!
# Constructors of the bundled hunters, criteria, generators and of the chain selector: which settings they accept

Only what decides whether an exception is raised is modelled; what is stored is the argument itself.
-/

namespace Glompo.Settings

/-- A Python object given as a setting. `float` includes `numpy.float64`, which is a subclass of `float`; `numpy` stands for the other numbers of
numpy (`int64`, `float32`), which are instances neither of `int` nor of `float`; `text` is a string, told whether it is empty; `cls` a class, told
whether it is derived from `BaseOptimizer`. Belongs to the model of `min_fcalls.py:21-26`. -/
inductive Arg where
  | none
  | bool (b : Bool)
  | int (n : Int)
  | float (f : PyF)
  | numpy (f : PyF)
  | text (empty : Bool)
  | cls (optimizer : Bool)
  deriving DecidableEq, Repr

/-- The number an object is in comparisons; `none` for objects which cannot be compared with numbers. Belongs to the model of `min_fcalls.py:21-26`. -/
def Arg.num : Arg → Option PyF
  | .bool b => some (.fin (if b then 1 else 0))
  | .int n => some (.fin n)
  | .float f => some f
  | .numpy f => some f
  | _ => Option.none

/-- `isinstance(a, int)`. Belongs to the model of `min_fcalls.py:21-26`. -/
def Arg.isInt : Arg → Bool
  | .bool _ => true
  | .int _ => true
  | _ => false

/-- `isinstance(a, (float, int))`. Belongs to the model of `timeannealing.py:36-41`. -/
def Arg.isNumber : Arg → Bool
  | .bool _ => true
  | .int _ => true
  | .float _ => true
  | _ => false

/-- `a > q`. Belongs to the model of `min_fcalls.py:21-26`. -/
def Arg.gt (a : Arg) (q : PyF) : Except Err Bool :=
  match a.num with
  | some f => .ok (PyF.lt q f)
  | Option.none => .error .typeError

/-- `a < q`. Belongs to the model of `valueannealing.py:31-35`. -/
def Arg.lt (a : Arg) (q : PyF) : Except Err Bool :=
  match a.num with
  | some f => .ok (PyF.lt f q)
  | Option.none => .error .typeError

/-- `a <= q`. Belongs to the model of `exploit_explore.py:39-54`. -/
def Arg.le (a : Arg) (q : PyF) : Except Err Bool :=
  match a.num with
  | some f => .ok (PyF.le f q)
  | Option.none => .error .typeError

/-- `bool(a)`. Belongs to the model of `tmax.py:29-33`. -/
def Arg.truth : Arg → Bool
  | .none => false
  | .bool b => b
  | .int n => decide (n ≠ 0)
  | .float f => !PyF.eq f (.fin 0)
  | .numpy f => !PyF.eq f (.fin 0)
  | .text empty => !empty
  | .cls _ => true

/-- `MinFuncCalls.__init__` (min_fcalls.py:21-26). -/
def minFuncCalls (minPts : Arg) : Except Err Unit :=
  match minPts.gt (.fin 0) with
  | .error e => .error e
  | .ok b => if b && minPts.isInt then .ok () else .error .valueError

/-- `TimeAnnealing.__init__` (timeannealing.py:36-41). -/
def timeAnnealing (critRatio : Arg) : Except Err Unit :=
  if critRatio.isNumber then
    match critRatio.gt (.fin 0) with
    | .error e => .error e
    | .ok b => if b then .ok () else .error .valueError
  else .error .valueError

/-- `lower_pt, upper_pt = tuple(np.transpose(bounds))` after the check of the bounds (parameterdistance.py:52-54, stepsize.py:40-42): there is nothing to
take apart if there are no bounds. -/
def span (bounds : List (PyF × PyF)) : Except Err Unit :=
  match Helpers.isBoundsValid bounds true with
  | .error e => .error e
  | .ok _ => if bounds = [] then .error .valueError else .ok ()

/-- `ParameterDistance.__init__` (parameterdistance.py:45-56). -/
def parameterDistance (bounds : List (PyF × PyF)) (rel : Arg) : Except Err Unit :=
  if rel.isNumber then
    match rel.gt (.fin 0) with
    | .error e => .error e
    | .ok b => if b then span bounds else .error .valueError
  else .error .valueError

/-- `StepSize.__init__` (stepsize.py:35-42): neither of the numbers is looked at. -/
def stepSize (bounds : List (PyF × PyF)) (_calls _tol : Arg) : Except Err Unit := span bounds

/-- `ValueAnnealing.__init__` (valueannealing.py:31-35): the assertion is a chain of two comparisons, the second only made if the first holds. The
logarithm of a number which passes it exists. -/
def valueAnnealing (chance : Arg) : Except Err Unit :=
  match chance.gt (.fin 0) with
  | .error e => .error e
  | .ok false => .error .assertionError
  | .ok true =>
    match chance.lt (.fin 1) with
    | .error e => .error e
    | .ok b => if b then .ok () else .error .assertionError

/-- `TypeHunter.__init__` (type.py:31-36): `issubclass` itself raises for anything but a class. -/
def typeHunter : Arg → Except Err Unit
  | .cls true => .ok ()
  | _ => .error .typeError

/-- `BestUnmoving.__init__`, `EvaluationsUnmoving.__init__` (bestunmoving.py:26-29, evalsunmoving.py:29-32): everything is taken. -/
def unmoving (_calls _tol : Arg) : Except Err Unit := .ok ()

/-- `LastPointsInvalid.__init__` (lastptsinvalid.py:26-28). -/
def lastPointsInvalid (_nIters : Arg) : Except Err Unit := .ok ()

/-- `MaxFuncCalls.__init__`, `MaxOptsStarted.__init__`, `NOptConverged.__init__`, `MaxKills.__init__` (fmax.py:9-11, omax.py:9-11, nconv.py:12-14,
nkills.py:9-11). -/
def limit (_n : Arg) : Except Err Unit := .ok ()

/-- `MaxSeconds.__init__` (tmax.py:29-33). -/
def maxSeconds (session overall : Arg) : Except Err Unit :=
  if session.truth ^^ overall.truth then .ok () else .error .assertionError

/-- `ExploitExploreGenerator.__init__` (exploit_explore.py:39-54). -/
def exploitExplore (bounds : List (PyF × PyF)) (maxCalls focus : Arg) : Except Err Unit :=
  if !maxCalls.isInt then .error .typeError
  else
    match maxCalls.lt (.fin 2) with
    | .error e => .error e
    | .ok true => .error .valueError
    | .ok false =>
      match focus.le (.fin 0) with
      | .error e => .error e
      | .ok true => .error .valueError
      | .ok false =>
        match Helpers.isBoundsValid bounds true with
        | .error e => .error e
        | .ok _ => .ok ()

/-- `PerturbationGenerator.__init__` (peterbation.py:29-42); `scale` are the standard deviations, which are not looked at. Without bounds `bnds[:, 0]`
fails. -/
def perturbation (x0 : List PyF) (bounds : List (PyF × PyF)) (_scale : List PyF) : Except Err Unit :=
  if bounds.length ≠ x0.length then .error .valueError
  else
    match Helpers.isBoundsValid bounds true with
    | .error e => .error e
    | .ok _ => if bounds = [] then .error .indexError else .ok ()

/-- `RandomGenerator.__init__`, `IncumbentGenerator.__init__` (random.py:16-20, best.py:17-22). -/
def boxed (bounds : List (PyF × PyF)) : Except Err Unit :=
  match Helpers.isBoundsValid bounds true with
  | .error e => .error e
  | .ok _ => .ok ()

/-- `SinglePointGenerator.__init__` (single.py:16-25): a point given is not looked at; without one, `bounds[:, 1]` fails for no bounds. -/
def singlePoint (bounds : List (PyF × PyF)) (x : Option (List PyF)) : Except Err Unit :=
  match Helpers.isBoundsValid bounds true with
  | .error e => .error e
  | .ok _ => if x.isNone ∧ bounds = [] then .error .indexError else .ok ()

/-- `ChainSelector.__init__` (chain.py:42-51) after the optimizers have been accepted. -/
def chain (optimizers : Nat) (thresholds : List Arg) : Except Err Unit :=
  if (optimizers : Int) - 1 ≤ thresholds.length ∧ thresholds.length ≤ optimizers then .ok () else .error .assertionError

/-- A constructor with its arguments. Belongs to the model of `min_fcalls.py:21-26`, `timeannealing.py:36-41`, `parameterdistance.py:45-56`, `stepsize.py:35-42`. -/
inductive Call where
  | minFuncCalls (minPts : Arg)
  | timeAnnealing (critRatio : Arg)
  | parameterDistance (bounds : List (PyF × PyF)) (rel : Arg)
  | stepSize (bounds : List (PyF × PyF)) (calls tol : Arg)
  | valueAnnealing (chance : Arg)
  | typeHunter (target : Arg)
  | unmoving (calls tol : Arg)
  | lastPointsInvalid (nIters : Arg)
  | limit (n : Arg)
  | maxSeconds (session overall : Arg)
  | exploitExplore (bounds : List (PyF × PyF)) (maxCalls focus : Arg)
  | perturbation (x0 : List PyF) (bounds : List (PyF × PyF)) (scale : List PyF)
  | boxed (bounds : List (PyF × PyF))
  | singlePoint (bounds : List (PyF × PyF)) (x : Option (List PyF))
  | chain (optimizers : Nat) (thresholds : List Arg)

/-- The constructor is called: it succeeds or raises. Belongs to the model of `min_fcalls.py:21-26`, `timeannealing.py:36-41`, `parameterdistance.py:45-56`, `stepsize.py:35-42`. -/
def Call.make : Call → Except Err Unit
  | .minFuncCalls a => Settings.minFuncCalls a
  | .timeAnnealing a => Settings.timeAnnealing a
  | .parameterDistance b a => Settings.parameterDistance b a
  | .stepSize b c t => Settings.stepSize b c t
  | .valueAnnealing a => Settings.valueAnnealing a
  | .typeHunter a => Settings.typeHunter a
  | .unmoving c t => Settings.unmoving c t
  | .lastPointsInvalid a => Settings.lastPointsInvalid a
  | .limit a => Settings.limit a
  | .maxSeconds s o => Settings.maxSeconds s o
  | .exploitExplore b m f => Settings.exploitExplore b m f
  | .perturbation x b s => Settings.perturbation x b s
  | .boxed b => Settings.boxed b
  | .singlePoint b x => Settings.singlePoint b x
  | .chain n t => Settings.chain n t

end Glompo.Settings
