import Verif.Model.CMASettings

/-!
# Which settings a CMA strategy should get
-/

namespace Glompo.Spec.CMASettings

open Glompo.CMASettings (Given Entry Settings Call)

/-- The population size: the one given, unless it is 0 or `None`; else the number of workers, if there are several; else `4 + int(3 log d)`. -/
def popsizeFor (given : List (String × Given)) (workers : Int) (log3 : Nat → Int) (d : Nat) : Given :=
  match dictGet given "popsize" with
  | some (.int n) => if n ≠ 0 then .int n else if workers > 1 then .int workers else .int (4 + log3 d)
  | some (.other s) => .other s
  | _ => if workers > 1 then .int workers else .int (4 + log3 d)

/-- What the documentation promises: options known to the strategy are handed on, other ones under `vv`, the strategy is silent and not limited in its
iterations unless a limit was given, and the population and the bounds are those of the call. -/
structure Handed (native : String → Bool) (given : List (String × Given)) (workers : Int) (log3 : Nat → Int) (c : Call) (opts : Settings) : Prop where
  known : ∀ k, native k = true → k ∉ ["vv", "verbose", "maxiter", "popsize", "bounds"] → dictGet opts k = (dictGet given k).map .given
  unknown : ∀ k, native k = false → k ∉ ["vv", "verbose", "maxiter", "popsize", "bounds"] → dictGet opts k = none
  custom : ∃ d, dictGet opts "vv" = some (.custom d) ∧ ∀ k, dictGet d k = if native k then none else dictGet given k
  silent : dictGet opts "verbose" = some (.given (.int (-3)))
  maxiter : dictGet opts "maxiter" = some (((dictGet given "maxiter").map Entry.given).getD .inf)
  popsize : dictGet opts "popsize" = some (.given (popsizeFor given workers log3 c.x0.length))
  bounds : dictGet opts "bounds" = some (.bounds (c.bounds.map (·.1)) (c.bounds.map (·.2)))

end Glompo.Spec.CMASettings
