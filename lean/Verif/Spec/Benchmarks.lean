import Mathlib.Analysis.Calculus.Deriv.Basic
import Verif.Model.Benchmarks

/-!
# What the announced minimum of a test case means
-/

namespace Glompo.Bench

variable {d : ℕ}

/-- `x` is within the bounds. -/
def InBox (lo hi x : Fin d → ℝ) : Prop := ∀ i, lo i ≤ x i ∧ x i ≤ hi i

/-- `m` is the smallest value of `f` within the bounds, and `f` takes it at `x0`. -/
def IsMinimum (f : (Fin d → ℝ) → ℝ) (lo hi x0 : Fin d → ℝ) (m : ℝ) : Prop :=
  InBox lo hi x0 ∧ f x0 = m ∧ ∀ x, InBox lo hi x → m ≤ f x

/-- The same with an error of at most `e` in the value. -/
def IsMinimumUpTo (e : ℝ) (f : (Fin d → ℝ) → ℝ) (lo hi x0 : Fin d → ℝ) (m : ℝ) : Prop :=
  InBox lo hi x0 ∧ |f x0 - m| ≤ e ∧ ∀ x, InBox lo hi x → m - e ≤ f x

/-- What a test case announces in `min_x` and `min_fx` is true. -/
def TestCase.Truthful (t : TestCase d) : Prop := IsMinimum t.f t.lo t.hi t.minX t.minFx

def TestCase.TruthfulUpTo (e : ℝ) (t : TestCase d) : Prop := IsMinimumUpTo e t.f t.lo t.hi t.minX t.minFx

/-- The energy has this slope if coordinate `k` of atom `a` changes. -/
def HasSlope {n d : ℕ} (f : (Fin n → Fin d → ℝ) → ℝ) (x : Fin n → Fin d → ℝ) (a : Fin n) (k : Fin d) (g : ℝ) : Prop :=
  HasDerivAt (fun t => f (Function.update x a (Function.update (x a) k t))) g (x a k)

/-- The Euclidean distance. -/
noncomputable def distance {d : ℕ} (p q : Fin d → ℝ) : ℝ := √(∑ k, (p k - q k) ^ 2)

/-- `4 ε Σ (i < j) ((σ / r)¹² - (σ / r)⁶)`, where a division by 0 is 0. -/
noncomputable def documentedEnergy {n d : ℕ} (eps sig : ℝ) (x : Fin n → Fin d → ℝ) : ℝ :=
  4 * eps * ∑ i, ∑ j ∈ Finset.univ.filter (i < ·), ((sig / distance (x i) (x j)) ^ 12 - (sig / distance (x i) (x j)) ^ 6)

end Glompo.Bench
