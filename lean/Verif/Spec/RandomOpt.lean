import Verif.Model.Basic

/-! # The best of a sequence of evaluations (C44, C45) -/

namespace Glompo.Spec.RandomOpt

open Glompo

/-- `x`, `fx` is the first of the evaluations with the smallest value. Evaluations without a value below infinity do not
count; if there are no others there is no best point. -/
def FirstBest (evals : List (Vec × PyF)) (x : Option Vec) (fx : PyF) : Prop :=
  (x = none ∧ fx = .pinf ∧ ∀ e ∈ evals, PyF.lt e.2 .pinf = false) ∨
  (∃ pre post v, evals = pre ++ (v, fx) :: post ∧ x = some v ∧ PyF.lt fx .pinf = true ∧
    (∀ e ∈ pre, PyF.le e.2 fx = false) ∧ ∀ e ∈ post, PyF.lt e.2 fx = false)

/-- The point lies inside the bounds. -/
def InBounds (bounds : List (Rat × Rat)) (v : Vec) : Prop :=
  v.length = bounds.length ∧ ∀ (k : Nat) b y, bounds[k]? = some b → v[k]? = some y → b.1 ≤ y ∧ y ≤ b.2

end Glompo.Spec.RandomOpt
