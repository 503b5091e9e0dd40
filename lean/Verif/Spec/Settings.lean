import Verif.Model.Settings

/-!
# Specification for C131: the settings which make sense according to the documentation
-/

namespace Glompo.Spec

open Glompo.Settings

/-- The object is the number `q`, whatever its Python type. -/
def IsNum (a : Arg) (q : Rat) : Prop :=
  a = .float (.fin q) ∨ a = .numpy (.fin q) ∨ (∃ n : Int, a = .int n ∧ q = n) ∨ (∃ b, a = .bool b ∧ q = if b then 1 else 0)

/-- The object is a Python integer (`True` and `False` are). -/
def IsInt (a : Arg) (n : Int) : Prop := a = .int n ∨ ∃ b, a = .bool b ∧ n = if b then 1 else 0

/-- The object is the Python number `q`; numbers of numpy which are not Python numbers are not meant. -/
def IsPyNum (a : Arg) (q : Rat) : Prop := a = .float (.fin q) ∨ ∃ n, IsInt a n ∧ q = n

/-- There is a parameter, and for each a finite lower bound below a finite upper bound. -/
def ProperBounds (bounds : List (PyF × PyF)) : Prop :=
  bounds ≠ [] ∧ ∀ b ∈ bounds, ∃ lo hi : Rat, b = (.fin lo, .fin hi) ∧ lo < hi

/-- A point inside the bounds. -/
def Inside (bounds : List (PyF × PyF)) (x : List PyF) : Prop :=
  x.length = bounds.length ∧ ∀ p ∈ bounds.zip x, PyF.le p.1.1 p.2 = true ∧ PyF.le p.2 p.1.2 = true

/-- The settings which make sense: numbers of evaluations and optimizers are positive whole numbers, fractions and chances between 0 and 1, ratios and
exponents positive; exactly one time limit, positive; bounds proper, points inside them with positive deviations; a class of optimizers for the
`TypeHunter`; as many thresholds as optimizers, or one less. -/
def Sensible : Call → Prop
  | .minFuncCalls a => ∃ n, IsInt a n ∧ 0 < n
  | .timeAnnealing a => ∃ q, IsPyNum a q ∧ 0 < q
  | .parameterDistance b a => ProperBounds b ∧ ∃ q, IsPyNum a q ∧ 0 < q ∧ q ≤ 1
  | .stepSize b c t => ProperBounds b ∧ (∃ n, IsInt c n ∧ 0 < n) ∧ ∃ q, IsPyNum t q ∧ 0 < q ∧ q ≤ 1
  | .valueAnnealing a => ∃ q, IsNum a q ∧ 0 < q ∧ q < 1
  | .typeHunter a => a = .cls true
  | .unmoving c t => (∃ n, IsInt c n ∧ 0 < n) ∧ ∃ q, IsNum t q ∧ 0 ≤ q ∧ q ≤ 1
  | .lastPointsInvalid a => ∃ n, IsInt a n ∧ 0 < n
  | .limit a => ∃ n, IsInt a n ∧ 0 < n
  | .maxSeconds s o => (o = .none ∧ ∃ q, IsNum s q ∧ 0 < q) ∨ (s = .none ∧ ∃ q, IsNum o q ∧ 0 < q)
  | .exploitExplore b m f => ProperBounds b ∧ (∃ n, IsInt m n ∧ 1 < n) ∧ ∃ q, IsNum f q ∧ 0 < q
  | .perturbation x b s => ProperBounds b ∧ Inside b x ∧ s.length = x.length ∧ ∀ d ∈ s, ∃ q : Rat, d = .fin q ∧ 0 < q
  | .boxed b => ProperBounds b
  | .singlePoint b x => ProperBounds b ∧ ∀ v, x = some v → Inside b v
  | .chain n t => (t.length = n ∨ t.length + 1 = n) ∧ ∀ a ∈ t, ∃ q, IsNum a q

/-- The settings which are accepted although they make no sense: this is the whole list (`C131_accepted`). -/
def Unchecked : Call → Prop
  | .minFuncCalls _ => False
  | .timeAnnealing a => a = .float .pinf
  | .parameterDistance b a => ProperBounds b ∧ (a = .float .pinf ∨ ∃ q, IsPyNum a q ∧ 1 < q)
  | .stepSize b _ _ => ProperBounds b
  | .valueAnnealing _ => False
  | .typeHunter _ => False
  | .unmoving _ _ => True
  | .lastPointsInvalid _ => True
  | .limit _ => True
  | .maxSeconds s o => s.truth ≠ o.truth
  | .exploitExplore b m f =>
    (∀ p ∈ b, ∃ lo hi : Rat, p = (.fin lo, .fin hi) ∧ lo < hi) ∧ (∃ n, IsInt m n ∧ 1 < n) ∧
      (b = [] ∧ (∃ q, IsNum f q ∧ 0 < q) ∨ f.num = some .pinf ∨ f.num = some .nan)
  | .perturbation x b _ => ProperBounds b ∧ x.length = b.length
  | .boxed b => b = []
  | .singlePoint b x => (∀ p ∈ b, ∃ lo hi : Rat, p = (.fin lo, .fin hi) ∧ lo < hi) ∧ x ≠ none
  | .chain n t => t.length = n ∨ t.length + 1 = n

end Glompo.Spec
