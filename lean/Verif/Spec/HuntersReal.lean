import Mathlib.Analysis.InnerProductSpace.PiL2
import Verif.Model.HuntersReal
import Verif.Spec.Hunters

namespace Glompo.Spec

open Glompo

/-- `f` is the best function value reported by optimizer `i`: the smallest value below `+inf`, or `+inf` if there is
none. -/
def BestValue (es : List IterRes) (i : Nat) (f : PyF) : Prop :=
  (NoneQualifies (fun r => r.optId = i) es ∧ f = .pinf) ∨
    ∃ k r, EarliestMin (fun r => r.optId = i) es k ∧ es[k]? = some r ∧ r.fx = f

/-- The point of Euclidean space with the given rational coordinates. -/
noncomputable def point {n : Nat} (v : Fin n → Rat) : EuclideanSpace ℝ (Fin n) := WithLp.toLp 2 fun i => (v i : ℝ)

/-- The trial points of optimizer `i`, oldest first. -/
def pointsOf (es : List IterRes) (i : Nat) : List Vec := (evalsOf es i).map (·.x)

/-- The last trial point of optimizer `i`. -/
def lastPoint (es : List IterRes) (i : Nat) : Option Vec := (pointsOf es i).getLast?

end Glompo.Spec
