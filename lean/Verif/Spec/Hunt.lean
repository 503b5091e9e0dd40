import Verif.Model.Hunt
import Verif.Spec.HuntersReal
import Verif.Spec.Manager
import Verif.Spec.Combi

/-!
# When an optimizer deserves to be hunted down
-/

namespace Glompo.Spec

open Glompo.Manager (Ev)

/-- The conditions, with windows and ratios which make sense. -/
def Judging : Hunter → Prop
  | .minFuncCalls _ => True
  | .bestUnmoving _ _ => True
  | .lastPointsInvalid n => 0 < n
  | .evaluationsUnmoving calls _ => 0 < calls
  | .stepSize _ calls _ => 2 ≤ calls
  | .parameterDistance _ _ _ => True
  | .timeAnnealing crit => 0 < crit
  | .valueAnnealing _ => True
  | .typeHunter _ => True

/-- What must hold of the evaluations `es` for optimizer `v` to be shut down in favour of `h`, if `cl i t` says that optimizer `i` is of class `t`:
* so many evaluations of `v`;
* more evaluations than the window, and the best value before the window is as good as the best of all but for the tolerance;
* as many evaluations as the window, none of those in it finite;
* as many evaluations as the window, all in it finite, with a variance within the tolerance;
* as many evaluations as the window, and a mean distance between successive points in it within the tolerance;
* last points of `v` and `h` close to each other, or of `v` and any other optimizer if all are to be compared;
* `h` has made fewer evaluations than the critical ratio allows;
* the best value of `h` is below that of `v`;
* `v` is of the class given. -/
def Deserves (es : List IterRes) (cl : Nat → String → Prop) (h v : Nat) : Hunter → Prop
  | .minFuncCalls n => n ≤ (evalsOf es v).length
  | .bestUnmoving calls tol => calls < (valuesOf es v).length ∧ ∀ before now, (∀ f ∈ valuesOf es v, f ≠ .nan) →
      IsLeast before ((valuesOf es v).take ((valuesOf es v).length - calls)) → IsLeast now (valuesOf es v) →
      PyF.le (PyF.abs (now.sub before)) (PyF.abs (before.mul tol)) = true
  | .lastPointsInvalid n => n ≤ (valuesOf es v).length ∧
      ∀ f ∈ (valuesOf es v).drop ((valuesOf es v).length - n), f = .nan ∨ f = .pinf ∨ f = .ninf
  | .evaluationsUnmoving calls tol => calls ≤ (valuesOf es v).length ∧ ∃ (w : List Rat) (last : Rat),
      (valuesOf es v).drop ((valuesOf es v).length - calls) = w.map .fin ∧ w.getLast? = some last ∧
      (w.map fun x => (x - w.sum / calls) ^ 2).sum / calls ≤ (last * tol) ^ 2
  | .stepSize bounds calls tol => calls ≤ (pointsOf es v).length ∧
      (∑ k ∈ Finset.range (calls - 1), distance ((pointsOf es v).getD ((pointsOf es v).length - calls + (k + 1)) [])
        ((pointsOf es v).getD ((pointsOf es v).length - calls + k) [])) / (calls - 1 : ℝ) ≤
        tol * distance (bounds.map (·.1)) (bounds.map (·.2))
  | .parameterDistance bounds rel testAll => ∃ j a b, (if testAll then j ≠ v else j = h) ∧ lastPoint es j = some a ∧ lastPoint es v = some b ∧
      distance a b / distance (bounds.map (·.1)) (bounds.map (·.2)) ≤ rel
  | .timeAnnealing crit => ((evalsOf es h).length : Rat) < crit * (evalsOf es v).length
  | .valueAnnealing _ => ∃ fh fv, BestValue es h fh ∧ BestValue es v fv ∧ PyF.lt fh fv = true
  | .typeHunter cls => cl v cls

/-- The same for a combination of conditions. -/
def DeservesAll (hs : Nat → Hunter) (es : List IterRes) (cl : Nat → String → Prop) (h v : Nat) : Cond → Prop
  | .leaf i => Deserves es cl h v (hs i)
  | .or _ a b => DeservesAll hs es cl h v a ∨ DeservesAll hs es cl h v b
  | .and _ a b => DeservesAll hs es cl h v a ∧ DeservesAll hs es cl h v b

/-- What the log tells of optimizer `i` is what it reported, its values, its points, how many they are and its best value, and its class. -/
structure Tells (es : List IterRes) (cl : Nat → String → Prop) (i : Nat) (log : Logger) : Prop where
  values : log.getHistory i "fx" = .ok ((evalsOf es i).map fun r => Cell.num r.fx)
  points : log.getHistory i "x" = .ok ((evalsOf es i).map fun r => Cell.vec r.x)
  count : log.lenOpt i = (evalsOf es i).length
  best : ∃ b, log.getBestIter (some i) = .ok b ∧ BestValue es i b.fx
  cls : ∃ t, log.getMetadata i "opt_type" = .ok t ∧ cl i t

/-- The points the log tells of an optimizer are all it reported, or none. -/
def Honest (es : List IterRes) (log : Logger) : Prop :=
  ∀ j, log.getHistory j "x" = .ok ((evalsOf es j).map fun r => Cell.vec r.x) ∨ log.getHistory j "x" = .ok []

/-- After the history `old`, an optimizer is shut down in a hunt if the hunting condition `c`, called on a log which tells what
victim and hunter reported and which class the selector named for them, and tells nothing untrue of the others, answers `True`; the random numbers
are between 0 and 1. -/
def HuntedBy (hs : Nat → Hunter) (c : Cond) (old run : List Ev) : Prop :=
  ∀ pre v h post, run = pre ++ .killed v (some h) :: post → ∃ log rnd st n,
    Tells (loggedOf (old ++ pre)) (ChosenAs (old ++ pre)) v log ∧ Tells (loggedOf (old ++ pre)) (ChosenAs (old ++ pre)) h log ∧
    Honest (loggedOf (old ++ pre)) log ∧ (∀ k, 0 ≤ rnd k ∧ rnd k ≤ 1) ∧
    (c.call (askHunter hs rnd log h v) st n).ans = .ok true

end Glompo.Spec
