import Verif.Spec.Manager
import Verif.Spec.Convergence
import Verif.Spec.Combi

/-!
# When a convergence criterion is met by what has happened
-/

namespace Glompo.Spec

open Glompo.Manager (Ev)

/-- The criteria about what has happened, i.e. all but those about the clock and about an order of events, with a target other than
`+inf`. -/
def Countable : Checker → Prop
  | .maxFuncCalls _ => True
  | .maxOptsStarted _ => True
  | .nOptConverged _ => True
  | .maxKills _ => True
  | .targetCost t a => t.add a ≠ .pinf
  | .maxSeconds _ _ => False
  | .killsAfterConvergence _ _ => False

/-- So many evaluations were accepted, optimizers created, optimizers converged, optimizers shut down; an evaluation was accepted
whose value is not above the target. -/
def Meets (ev : List Ev) : Checker → Prop
  | .maxFuncCalls n => n ≤ (acceptedOf ev).length
  | .maxOptsStarted n => n ≤ (newIdsOf ev).length
  | .nOptConverged n => n ≤ (finishedOf ev).length
  | .maxKills n => n ≤ (killedOf ev).length
  | .targetCost t a => ∃ r ∈ acceptedOf ev, PyF.le r.fx (t.add a) = true
  | .maxSeconds _ _ => False
  | .killsAfterConvergence _ _ => False

/-- The same for a combination of criteria. -/
def MeetsAll (chk : Nat → Checker) (ev : List Ev) : Cond → Prop
  | .leaf i => Meets ev (chk i)
  | .or _ a b => MeetsAll chk ev a ∨ MeetsAll chk ev b
  | .and _ a b => MeetsAll chk ev a ∧ MeetsAll chk ev b

/-- What a criterion sees of a manager with the given history: the number of evaluations accepted, of optimizers created,
converged and shut down, and the value of the last result. -/
structure Shows (ev : List Ev) (v : CView) : Prop where
  evals : v.fCounter = (acceptedOf ev).length
  created : v.oCounter = (newIdsOf ev).length
  converged : v.convCounter = (finishedOf ev).length
  killed : v.kills = (killedOf ev).length
  best : v.best = (lastResult ev).map (·.2.1)

/-- After the history `old` the answers to the manager's checks are those of the criterion `c`. -/
def AnsweredBy (chk : Nat → Checker) (c : Cond) (old run : List Ev) : Prop :=
  ∀ pre b post, run = pre ++ .checked b :: post → ∃ v st w, Shows (old ++ pre) v ∧ (c.call (askChecker chk v) st w).ans = .ok b

/-- The events of work going on: the criterion or the selector is asked, an optimizer is created or started. -/
def GoesOn : Ev → Prop
  | .checked _ => True
  | .asked _ _ => True
  | .newId _ => True
  | .started _ _ => True
  | .restarted _ _ => True
  | _ => False

end Glompo.Spec
