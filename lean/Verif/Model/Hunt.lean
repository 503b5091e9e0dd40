import Verif.Model.HuntersReal
import Verif.Model.Combi

/-!
# `glompo/hunters/`: the bundled hunting conditions as one family, and combinations of them as the manager calls them
-/

namespace Glompo

/-- The bundled hunting conditions with their settings. Belongs to the model of `min_fcalls.py:28-33`. -/
inductive Hunter where
  | minFuncCalls (minPts : Nat)
  | bestUnmoving (calls : Nat) (tol : PyF)
  | lastPointsInvalid (nIters : Nat)
  | evaluationsUnmoving (calls : Nat) (tol : Rat)
  | stepSize (bounds : List (Rat × Rat)) (calls : Nat) (tol : Rat)
  | parameterDistance (bounds : List (Rat × Rat)) (rel : Rat) (testAll : Bool)
  | timeAnnealing (critRatio : Rat)
  | valueAnnealing (med : ℝ)
  | typeHunter (optToKill : String)

/-- `__call__` of a hunting condition; `u` is the random number drawn, if one is (min_fcalls.py:28-33, bestunmoving.py:31-46,
lastptsinvalid.py:30-36, evalsunmoving.py:34-53, stepsize.py:44-61, parameterdistance.py:58-92, timeannealing.py:43-54,
valueannealing.py:37-57, type.py:38-44). -/
noncomputable def Hunter.ask (log : Logger) (hunter victim : Nat) (u : Rat) : Hunter → Except Err Bool
  | .minFuncCalls n => .ok (Glompo.minFuncCalls n log victim)
  | .bestUnmoving calls tol => Glompo.bestUnmoving calls tol log victim
  | .lastPointsInvalid n => Glompo.lastPointsInvalid n log victim
  | .evaluationsUnmoving calls tol => Glompo.evaluationsUnmoving calls tol log victim
  | .stepSize bounds calls tol => Glompo.stepSize bounds calls tol log victim
  | .parameterDistance bounds rel testAll => Glompo.parameterDistance bounds rel testAll log hunter victim
  | .timeAnnealing crit => Glompo.timeAnnealing crit u log hunter victim
  | .valueAnnealing med => Glompo.valueAnnealing med u log hunter victim
  | .typeHunter cls => Glompo.typeHunter cls log victim

/-- `self.killing_conditions(self.opt_log, hunter_id, victim_id)` (manager.py:1541-1542): the basic conditions of a combination,
called on the log; `rnd` are the random numbers, one for each call. -/
noncomputable def askHunter (hs : Nat → Hunter) (rnd : Nat → Rat) (log : Logger) (hunter victim : Nat) (i : Nat) (n : Nat) :
    Nat × Except Err Bool :=
  (n + 1, (hs i).ask log hunter victim (rnd n))

end Glompo
