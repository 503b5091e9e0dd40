import Mathlib.Analysis.SpecialFunctions.Pow.Real
import Verif.Model.Generators

/-!
# `glompo/generators`: powers and exponentials

`ExploitExploreGenerator` and `BasinHoppingGenerator`, computed over the real numbers.
-/

namespace Glompo.Gen

open Glompo

/-! ### `glompo/generators/exploit_explore.py` -/

/-- The attributes of `ExploitExploreGenerator` (exploit_explore.py:42-54). -/
structure EE where
  bounds : List (Rat × Rat)
  maxCalls : Int
  focus : Rat

/-- `ExploitExploreGenerator.__init__` (exploit_explore.py:39-54) for an integer `max_func_calls` (`TypeError` otherwise) and
valid bounds. -/
def mkEE (bounds : List (Rat × Rat)) (maxCalls : Int) (focus : Rat) : Except Err EE :=
  if maxCalls < 2 then .error .valueError
  else if focus ≤ 0 then .error .valueError
  else .ok ⟨bounds, maxCalls, focus⟩

/-- `numpy.clip(f_counter / max_func_calls, 0, 1) ** focus` (exploit_explore.py:78-79). -/
noncomputable def EE.alpha (g : EE) (fCounter : Nat) : ℝ :=
  (max 0 (min 1 ((fCounter : ℝ) / (g.maxCalls : ℝ)))) ^ (g.focus : ℝ)

/-- `alpha * incumbent + (1 - alpha) * random` (exploit_explore.py:83) for vectors of equal length; numpy raises `ValueError`
for an incumbent of another length (broadcasting of a single number is not modelled). -/
noncomputable def blend (alpha : ℝ) (inc rnd : Vec) : Except Err (List ℝ) :=
  if inc.length = rnd.length then
    .ok (List.zipWith (fun (a b : Rat) => alpha * (a : ℝ) + (1 - alpha) * (b : ℝ)) inc rnd)
  else .error .valueError

/-- `ExploitExploreGenerator.generate` (exploit_explore.py:56-86). -/
noncomputable def EE.generate (g : EE) (log : Logger) (fCounter : Nat) (draws : List Rat) (u : Rat) :
    Except Err (List ℝ) :=
  match incumbent log u with
  | .error e => .error e
  | .ok none => .ok ((uniform g.bounds draws).map fun (q : Rat) => (q : ℝ))
  | .ok (some v) => blend (g.alpha fCounter) v (uniform g.bounds draws)

/-! ### `glompo/generators/basinhopping.py` -/

/-- The attributes of `BasinHoppingGenerator` (basinhopping.py:66-75); `beta` is `1 / temperature`, `none` for the infinity
used at temperature 0. -/
structure Basin where
  beta : Option Rat
  nAccept : Int
  stateId : Nat
  stateFx : PyF
  maxStep : Rat
  step : Rat
  target : Rat
  interval : Int
  factor : Rat
  deriving DecidableEq

/-- `BasinHoppingGenerator.__init__` (basinhopping.py:59-75). -/
def mkBasin (temperature maxStep target : Rat) (interval : Int) (factor : Rat) : Basin :=
  { beta := if temperature ≠ 0 then some (1 / temperature) else none
    nAccept := -1
    stateId := 0
    stateFx := .pinf
    maxStep := maxStep
    step := maxStep
    target := target
    interval := interval
    factor := factor }

/-- Lines 87-91 of basinhopping.py: a new best optimizer is noticed. -/
def Basin.notice (g : Basin) (best : BestIter) : Basin :=
  if PyF.le best.fx g.stateFx && best.optId != g.stateId then
    { g with nAccept := g.nAccept + 1, stateId := best.optId, stateFx := best.fx }
  else g

/-- `-(other - best) * beta` (basinhopping.py:99) as a float; `none` for beta is an infinity. -/
def exponent (beta : Option Rat) (other best : PyF) : PyF :=
  PyF.mul (PyF.neg (PyF.sub other best)) (match beta with | some b => .fin b | none => .pinf)

open Classical in
/-- `numpy.exp(numpy.min([0, e])) >= rand` (basinhopping.py:99-101). -/
noncomputable def metropolis (e : PyF) (rand : Rat) : Bool :=
  match min2 (.fin 0) e with
  | .fin q => decide ((rand : ℝ) ≤ Real.exp (q : ℝ))
  | .ninf => decide (rand ≤ 0)
  | .pinf => true
  | .nan => false

/-- Keys of `_best_iters` without 0 and the best optimizer (basinhopping.py:94-98). Python's set has no order: `pick` is the
position of the chosen one in an arbitrary order, here that of insertion. -/
def others (log : Logger) (best : Nat) : List Nat :=
  (log.bestIters.map (·.1)).filter fun i => i != 0 && i != best

/-- What `generate` draws: the position among the other optimizers, the number it is accepted with, and the displacement of
every coordinate as a number in [-1, 1) (times the step size). Belongs to the model of `basinhopping.py:77-123`. -/
structure Draws where
  pick : Nat
  rand : Rat
  disp : List Rat
  start : List Rat

/-- Lines 94-104 of basinhopping.py: the optimizer whose best point is perturbed, and the counter. -/
noncomputable def Basin.centre (g : Basin) (log : Logger) (best : BestIter) (d : Draws) : BestIter × Basin :=
  match (others log best.optId)[d.pick]? with
  | none => (best, g)
  | some j =>
    match dictGet log.bestIters j with
    | none => (best, g)
    | some other =>
      if metropolis (exponent g.beta other.fx best.fx) d.rand then (other, { g with nAccept := g.nAccept + 1 })
      else (best, g)

/-- Lines 107-117 of basinhopping.py (`factor` is not 0). `interval = 0` and `o_counter = 0` raise `ZeroDivisionError`. -/
def Basin.adjust (g : Basin) (oCounter : Nat) : Except Err Basin :=
  if g.interval = 0 then .error .zeroDivision
  else if (oCounter : Int) % g.interval = 0 then
    if oCounter = 0 then .error .zeroDivision
    else
      let rate : Rat := (g.nAccept : Rat) / (oCounter : Rat)
      if g.target < rate then .ok { g with step := g.step / g.factor }
      else if rate < g.target then .ok { g with step := g.step * g.factor }
      else .ok g
  else .ok g

/-- Lines 120-121 of basinhopping.py. `best['x']` is a list, without `size`, as long as the optimizer has no evaluation
(optimizerlogger.py:85): `AttributeError` (`Err.other`). -/
def displace (step : Rat) (x : Vec) (disp : List Rat) : Except Err Vec :=
  if x = [] then .error .other
  else .ok (List.zipWith (fun a u => a + step * u) x disp)

/-- `BasinHoppingGenerator.generate` (basinhopping.py:77-123). -/
noncomputable def Basin.generate (g : Basin) (bounds : List (Rat × Rat)) (log : Logger) (oCounter : Nat) (d : Draws) :
    Basin × Except Err Vec :=
  let best := log.best
  if PyF.eq best.fx .pinf then (g, .ok (uniform bounds d.start))
  else
    let (c, g2) := (g.notice best).centre log best d
    match g2.adjust oCounter with
    | .error e => (g2, .error e)
    | .ok g3 => (g3, displace g3.step c.x d.disp)

end Glompo.Gen
