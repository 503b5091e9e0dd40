import Verif.Model.Logger
import Verif.Model.Float

/-!
# `glompo/generators`: the parts without powers and exponentials

Random numbers are arguments (`draws`, `u`): `numpy.random.random` returns a number in [0, 1). Exact arithmetic. The bounds
are those accepted by `is_bounds_valid` (finite, lower below upper; C49 is about that function), so they are rationals here.
-/

namespace Glompo.Gen

open Glompo

/-- `(bounds[:, 1] - bounds[:, 0]) * numpy.random.random(n) + bounds[:, 0]` (random.py:23, single.py:25, best.py:27,
exploit_explore.py:58). -/
def uniform (bounds : List (Rat × Rat)) (draws : List Rat) : Vec :=
  List.zipWith (fun b u => (b.2 - b.1) * u + b.1) bounds draws

/-- `SinglePointGenerator.__init__` (single.py:16-25): the stored vector. The draws are only made without `x`. -/
def singleInit (bounds : List (Rat × Rat)) (x : Option Vec) (draws : List Rat) : Vec :=
  match x with
  | some v => v
  | none => uniform bounds draws

/-- `SinglePointGenerator.generate` (single.py:27-28). -/
def singleGenerate (vector : Vec) : Vec := vector

/-- `IncumbentGenerator.generate` (best.py:24-29); `resultX` is `manager.result.x`. -/
def incumbentGenerate (bounds : List (Rat × Rat)) (resultX : Option Vec) (draws : List Rat) : Vec :=
  match resultX with
  | none => uniform bounds draws
  | some v => v

/-- The limits given to the standard truncated normal distribution (peterbation.py:47-48). -/
def limits (b : Rat × Rat) (loc scale : Rat) : Rat × Rat := ((b.1 - loc) / scale, (b.2 - loc) / scale)

/-- `truncnorm.rvs(a, b, mu, sigma)` = `mu + sigma * z` with `z` the number drawn between `a` and `b`
(peterbation.py:49-51). -/
def scaled (loc scale z : Rat) : Rat := loc + scale * z

/-- `PerturbationGenerator.generate` (peterbation.py:44-52) with the draws `z`. -/
def perturbation : List Rat → List Rat → List Rat → Vec
  | loc :: ls, scale :: ss, z :: zs => scaled loc scale z :: perturbation ls ss zs
  | _, _, _ => []

/-- `PerturbationGenerator.__init__` (peterbation.py:29-42): the comparison of lengths. -/
def perturbationInit (x0 : Vec) (bounds : List (Rat × Rat)) : Except Err Unit :=
  if bounds.length ≠ x0.length then .error .valueError else .ok ()

/-! ### Roulette selection of the exploit-explore generator -/

/-- `a / b` on numpy floats (a warning, no exception, for a zero divisor). Used in `exploit_explore.py:71`. -/
def fdiv : PyF → PyF → PyF
  | .fin a, .fin b =>
    if b ≠ 0 then .fin (a / b) else if a = 0 then .nan else if 0 < a then .pinf else .ninf
  | .nan, _ => .nan
  | _, .nan => .nan
  | .fin _, _ => .fin 0
  | .pinf, .fin b => if b < 0 then .ninf else .pinf
  | .ninf, .fin b => if b < 0 then .pinf else .ninf
  | _, _ => .nan

/-- The smaller of two; `nan` wins (`numpy.minimum`). Belongs to the model of `exploit_explore.py:67-68`. -/
def min2 (a b : PyF) : PyF := if a.isNan || b.isNan then .nan else if PyF.lt b a then b else a

/-- The larger of two; `nan` wins (`numpy.maximum`). Belongs to the model of `exploit_explore.py:67-68`. -/
def max2 (a b : PyF) : PyF := if a.isNan || b.isNan then .nan else if PyF.lt a b then b else a

/-- `numpy.min` of a non-empty array. Belongs to the model of `exploit_explore.py:67-68`. -/
def npMin (a : PyF) (t : List PyF) : PyF := t.foldl min2 a

/-- `numpy.max` of a non-empty array. Belongs to the model of `exploit_explore.py:67-68`. -/
def npMax (a : PyF) (t : List PyF) : PyF := t.foldl max2 a

/-- `numpy.sum`. Used in `exploit_explore.py:71`. -/
def npSum (l : List PyF) : PyF := l.foldl PyF.add (.fin 0)

/-- `revert` (exploit_explore.py:67-68). -/
def revert : List PyF → List PyF
  | [] => []
  | a :: t =>
    let m := npMin a t
    let s := PyF.sub a m
    let st := t.map fun f => PyF.sub f m
    let M := npMax s st
    (s :: st).map fun f => PyF.sub M f

/-- The checks of `numpy.random.choice` on its probabilities: `ValueError` for `nan`, negative ones, or a sum other than 1. Used in `exploit_explore.py:73`. -/
def choiceCheck (prob : List PyF) : Except Err Unit :=
  if prob.any PyF.isNan then .error .valueError
  else if prob.any fun p => PyF.lt p (.fin 0) then .error .valueError
  else if PyF.eq (npSum prob) (.fin 1) then .ok ()
  else .error .valueError

/-- The rational behind a finite float. Used for `exploit_explore.py:73`. -/
def toRat : PyF → Rat
  | .fin q => q
  | _ => 0

/-- The index `numpy.random.choice` returns for the draw `u`: the number of cumulated probabilities not above `u`. Used in `exploit_explore.py:73`. -/
def choose : List Rat → Rat → Nat
  | [], _ => 0
  | p :: t, u => if u < p then 0 else choose t (u - p) + 1

/-- Lines 61-73 of exploit_explore.py: `none` when the random point is returned, else the index selected. -/
def roulette (fTrack : List PyF) (u : Rat) : Except Err (Option Nat) :=
  if fTrack.length = 0 then .ok none
  else
    let rev := revert fTrack
    if rev.all fun r => PyF.eq r (.fin 0) then .ok none
    else
      let prob := rev.map fun r => fdiv r (npSum rev)
      match choiceCheck prob with
      | .error e => .error e
      | .ok () => .ok (some (choose (prob.map toRat) u))

/-- `numpy.array([best['fx'] for best in manager.opt_log._best_iters.values()])[1:]` (exploit_explore.py:61). -/
def fTrack (log : Logger) : List PyF := (log.bestIters.map fun p => p.2.fx).drop 1

/-- Lines 61-74 of exploit_explore.py: the incumbent, or `none` when the random point is returned. -/
def incumbent (log : Logger) (u : Rat) : Except Err (Option Vec) :=
  match roulette (fTrack log) u with
  | .error e => .error e
  | .ok none => .ok none
  | .ok (some k) =>
    match log.getBestIter (some (k + 1)) with
    | .error e => .error e
    | .ok b => .ok (some b.x)

end Glompo.Gen
