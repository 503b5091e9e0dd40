import Mathlib.Analysis.SpecialFunctions.Pow.Real
import Verif.Spec.Logger
import Verif.Spec.RandomOpt

/-! # Starting points (C51, C69, C70) -/

namespace Glompo.Spec.Gen

open Glompo Glompo.Logger

/-- Numbers as drawn by `numpy.random.random`. -/
def Drawn (n : Nat) (draws : List Rat) : Prop := draws.length = n ∧ ∀ u ∈ draws, 0 ≤ u ∧ u < 1

/-- Bounds accepted by the constructors. -/
def Valid (bounds : List (Rat × Rat)) : Prop := ∀ b ∈ bounds, b.1 < b.2

/-- A point with real coordinates lies inside the bounds. -/
def InBoundsR (bounds : List (Rat × Rat)) (v : List ℝ) : Prop :=
  v.length = bounds.length ∧
  ∀ (k : Nat) b y, bounds[k]? = some b → v[k]? = some y → ((b.1 : Rat) : ℝ) ≤ y ∧ y ≤ ((b.2 : Rat) : ℝ)

/-- `v` lies at the fraction `p` of the way from `a` to `b`. -/
def Between (p : ℝ) (a b : Vec) (v : List ℝ) : Prop :=
  a.length = v.length ∧ b.length = v.length ∧
  ∀ (k : Nat) (s t : Rat) (y : ℝ), a[k]? = some s → b[k]? = some t → v[k]? = some y → y = (s : ℝ) + p * ((t : ℝ) - (s : ℝ))

/-- Evaluation `r` is the best of its optimizer: the earliest of the smallest. -/
def BestOfItsOptimizer (es : List IterRes) (r : IterRes) : Prop :=
  ∃ k, es[k]? = some r ∧ EarliestMin (fun r' => r'.optId = r.optId) es k

/-- Every optimizer registered has an evaluation with a finite value, and none worth minus infinity. -/
def AllHaveFiniteBest (ops : List Op) : Prop :=
  ∀ i ∈ added ops, (∃ r ∈ evals ops, r.optId = i ∧ PyF.lt r.fx .pinf = true) ∧
    ∀ r ∈ evals ops, r.optId = i → r.fx ≠ .ninf

/-- Optimizers are numbered from 1 in the order they are registered. -/
def Numbered (ops : List Op) : Prop := added ops = List.range' 1 (added ops).length

end Glompo.Spec.Gen
