import Verif.Model.Convergence

namespace Glompo.Spec

open Glompo

/-- `v'` is a later moment of the same run: counters and clock do not go back, the best value does not get worse. -/
def Later (v v' : CView) : Prop :=
  v.fCounter ≤ v'.fCounter ∧ v.oCounter ≤ v'.oCounter ∧ v.convCounter ≤ v'.convCounter ∧ v.kills ≤ v'.kills ∧
  v.now ≤ v'.now ∧ v'.tStart = v.tStart ∧ v'.tUsed = v.tUsed ∧
  (∀ f, v.best = some f → ∃ f', v'.best = some f' ∧ (f' = f ∨ PyF.le f' f = true))

/-- Successive moments of a run. -/
def Progress : List CView → Prop
  | [] => True
  | [_] => True
  | a :: b :: t => Later a b ∧ Progress (b :: t)

/-- Seconds since the session was started, 0 if it was not (a start time of 0 counts as not started). -/
def elapsed (v : CView) : Rat :=
  match v.tStart with
  | some start => if start = 0 then 0 else v.now - start
  | none => 0

/-- The documented meaning of the stateless criteria. -/
def Meaning (v : CView) : Checker → Prop
  | .maxFuncCalls n => n ≤ v.fCounter
  | .maxOptsStarted n => n ≤ v.oCounter
  | .nOptConverged n => n ≤ v.convCounter
  | .maxKills n => n ≤ v.kills
  | .targetCost t a => ∃ f, v.best = some f ∧ PyF.le f (t.add a) = true
  | .maxSeconds s o =>
    (∃ lim, o = some lim ∧ lim ≠ 0 ∧ lim ≤ elapsed v + v.tUsed) ∨
    ((o = none ∨ o = some 0) ∧ ∃ lim, s = some lim ∧ lim ≤ elapsed v)
  | .killsAfterConvergence _ _ => False

/-- Which criteria `Meaning` covers. -/
def Stateless : Checker → Prop
  | .killsAfterConvergence _ _ => False
  | _ => True

/-- First evaluation at which enough optimizers have converged. -/
def FirstConv (nConverged : Int) (vs : List CView) (j : Nat) : Prop :=
  (∃ v, vs[j]? = some v ∧ nConverged ≤ v.convCounter) ∧
  ∀ i v, i < j → vs[i]? = some v → ¬ nConverged ≤ (v.convCounter : Int)

end Glompo.Spec
