import Verif.Spec.Plot
import Verif.Spec.Hunters
import Verif.Model.Trials

/-! What pictures of parameter values show (C126). -/

namespace Glompo.Spec.Plot
open Glompo.Plot

/-- The picture shows the points `xs`, of `d` parameters each: a curve per parameter, with the value of this parameter of every point, in
order. -/
def Shows (pic : Picture) (d : Nat) (xs : List Vec) : Prop :=
  pic.length = d ∧ ∀ (j : Nat) (col : List Rat), pic[j]? = some col → col.length = xs.length ∧
    ∀ (k : Nat) (x : Vec), xs[k]? = some x → col[k]? = x[j]?

/-- The points show, at the number of each evaluation of optimizer `i`, the smallest of its values so far. -/
def ShowsBest (points : List (Cell × Cell)) (es : List IterRes) (i : Nat) : Prop :=
  points.map (·.1) = (pointsOf es i).map (·.1) ∧
    ∀ (k : Nat) (c v : Cell), points[k]? = some (c, v) →
      ∃ m, v = .num m ∧ Glompo.Spec.IsLeast m (((evalsOf es i).map (·.fx)).take (k + 1))

end Glompo.Spec.Plot
