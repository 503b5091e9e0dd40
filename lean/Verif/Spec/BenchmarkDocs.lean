import Verif.Model.Benchmarks
import Mathlib.Data.Real.Basic
import Mathlib.Algebra.BigOperators.Intervals

/-!
# The formulas in the documentation of the benchmark functions

Indices start at 1, as in the documentation.
-/

namespace Glompo.Doc

open Finset Real

variable {d : ℕ}

/-- The component with this number, counted from 1. -/
def comp (x : Fin d → ℝ) (i : ℕ) : ℝ := if h : i - 1 < d then x ⟨i - 1, h⟩ else 0

noncomputable def ackley (a b c : ℝ) (x : Fin d → ℝ) : ℝ :=
  -a * exp (-b * √((1 / d) * ∑ i ∈ Icc 1 d, (comp x i) ^ 2)) - exp ((1 / d) * ∑ i ∈ Icc 1 d, cos (c * (comp x i))) + a + exp 1

noncomputable def alpine01 (x : Fin d → ℝ) : ℝ := ∑ i ∈ Icc 1 d, |(comp x i) * sin (comp x i) + 0.1 * (comp x i)|

noncomputable def alpine02 (x : Fin d → ℝ) : ℝ := -∏ i ∈ Icc 1 d, √(comp x i) * sin (comp x i)

noncomputable def easom (x : Fin 2 → ℝ) : ℝ := -cos (comp x 1) * cos (comp x 2) * exp (-((comp x 1) - π) ^ 2 - ((comp x 2) - π) ^ 2)

noncomputable def griewank (x : Fin d → ℝ) : ℝ := ∑ i ∈ Icc 1 d, (comp x i) ^ 2 / 4000 - ∏ i ∈ Icc 1 d, cos ((comp x i) / √i) + 1

noncomputable def levy (x : Fin d → ℝ) : ℝ :=
  sin (π * (1 + ((comp x 1) - 1) / 4)) ^ 2 +
    ∑ i ∈ Icc 1 (d - 1), (1 + ((comp x i) - 1) / 4 - 1) ^ 2 * (1 + 10 * sin (π * (1 + ((comp x i) - 1) / 4) + 1) ^ 2) +
    (1 + ((comp x d) - 1) / 4 - 1) ^ 2 * (1 + sin (2 * π * (1 + ((comp x d) - 1) / 4)) ^ 2)

noncomputable def michalewicz (m : ℕ) (x : Fin d → ℝ) : ℝ := -∑ i ∈ Icc 1 d, sin (comp x i) * sin (i * (comp x i) ^ 2 / π) ^ (2 * m)

noncomputable def qing (x : Fin d → ℝ) : ℝ := ∑ i ∈ Icc 1 d, ((comp x i) ^ 2 - i) ^ 2

noncomputable def rana (x : Fin d → ℝ) : ℝ :=
  ∑ i ∈ Icc 1 d, ((comp x i) * sin √|(comp x 1) - (comp x i) + 1| * cos √|(comp x 1) + (comp x i) + 1| +
    ((comp x 1) + 1) * sin √|(comp x 1) + (comp x i) + 1| * cos √|(comp x 1) - (comp x i) + 1|)

noncomputable def rastrigin (x : Fin d → ℝ) : ℝ := 10 * d + ∑ i ∈ Icc 1 d, ((comp x i) ^ 2 - 10 * cos (2 * π * (comp x i)))

noncomputable def rosenbrock (x : Fin d → ℝ) : ℝ := ∑ i ∈ Icc 1 (d - 1), (100 * ((comp x (i + 1)) - (comp x i) ^ 2) ^ 2 + ((comp x i) - 1) ^ 2)

noncomputable def schwefel (x : Fin d → ℝ) : ℝ := 418.9829 * d - ∑ i ∈ Icc 1 d, (comp x i) * sin √|(comp x i)|

/-- The constants `C_ji` of the Shekel function, which the documentation leaves out: coordinate `j` (row) of hollow `i` (column). -/
noncomputable def shekelC (j i : ℕ) : ℝ :=
  comp ((![![4, 1, 8, 6, 3, 2, 5, 8, 6, 7],
           ![4, 1, 8, 6, 7, 9, 5, 1, 2, 3.6],
           ![4, 1, 8, 6, 3, 2, 3, 8, 6, 7],
           ![4, 1, 8, 6, 7, 9, 3, 1, 2, 3.6]] : Fin 4 → Fin 10 → ℝ) (if j = 1 then 0 else if j = 2 then 1 else if j = 3 then 2 else 3)) i

/-- Its constants `β_i`; with five hollows the last is 0.6. -/
noncomputable def shekelBeta (m i : ℕ) : ℝ :=
  if m = 5 ∧ i = 5 then 6 / 10 else comp ((![1, 2, 2, 4, 4, 6, 3, 7, 5, 5] : Fin 10 → ℝ)) i / 10

noncomputable def shekel (m : ℕ) (x : Fin d → ℝ) : ℝ :=
  -∑ i ∈ Icc 1 m, (∑ j ∈ Icc 1 d, ((comp x j) - shekelC j i) ^ 2 + shekelBeta m i)⁻¹

noncomputable def shubert1 (x : Fin 2 → ℝ) : ℝ := ∑ i ∈ Icc (1 : ℕ) 2, ∑ j ∈ Icc (1 : ℕ) 5, (j : ℝ) * cos ((j + 1) * (comp x i) + j)

noncomputable def shubert3 (x : Fin d → ℝ) : ℝ := ∑ i ∈ Icc 1 d, ∑ j ∈ Icc (1 : ℕ) 5, (j : ℝ) * sin ((j + 1) * (comp x i) + j)

noncomputable def shubert4 (x : Fin d → ℝ) : ℝ := ∑ i ∈ Icc 1 d, ∑ j ∈ Icc (1 : ℕ) 5, (j : ℝ) * cos ((j + 1) * (comp x i) + j)

noncomputable def stochastic (e : Fin d → ℝ) (x : Fin d → ℝ) : ℝ := ∑ i ∈ Icc 1 d, (comp e i) * |(comp x i) - 1 / i|

noncomputable def styblinskiTang (x : Fin d → ℝ) : ℝ := 1 / 2 * ∑ i ∈ Icc 1 d, ((comp x i) ^ 4 - 16 * (comp x i) ^ 2 + 5 * (comp x i))

noncomputable def trigonometric (x : Fin d → ℝ) : ℝ :=
  1 + ∑ i ∈ Icc 1 d, (8 * sin (7 * ((comp x i) - 0.9) ^ 2) ^ 2 + 6 * sin (14 * ((comp x i) - 0.9) ^ 2) ^ 2 + ((comp x i) - 0.9) ^ 2)

noncomputable def vincent (x : Fin d → ℝ) : ℝ := -∑ i ∈ Icc 1 d, sin (10 * log (comp x i))

noncomputable def zeroSum (x : Fin d → ℝ) : ℝ :=
  if ∑ i ∈ Icc 1 d, (comp x i) = 0 then 0 else 1 + (10000 * |∑ i ∈ Icc 1 d, (comp x i)|) ^ (0.5 : ℝ)

/-- Without the exponent, which the documentation does not mention. -/
noncomputable def deceptive (g : Fin d → ℝ) : ℝ := -((1 / d) * ∑ i ∈ Icc 1 d, (comp g i))

/-- `f(p) = Σ (g(p, u) - g(p_true, u))²` with `g(p, u) = Σ exp(-pᵢ u)`. -/
noncomputable def expLeastSquares {n : ℕ} (u : Fin n → ℝ) (t x : Fin d → ℝ) : ℝ :=
  ∑ k ∈ Icc 1 n, (∑ i ∈ Icc 1 d, exp (-(comp x i) * (comp u k)) - ∑ i ∈ Icc 1 d, exp (-(comp t i) * (comp u k))) ^ 2

/-- The coefficients of the Langermann function. -/
noncomputable def langermannA : Fin 5 → ℝ := ![3, 5, 2, 1, 7]

/-- Likewise. -/
noncomputable def langermannB : Fin 5 → ℝ := ![5, 2, 1, 4, 9]

/-- Likewise. -/
noncomputable def langermannC : Fin 5 → ℝ := ![1, 2, 5, 2, 3]

/-- Langermann (benchmark_fncs.py:386-391). -/
noncomputable def langermann (x : Fin 2 → ℝ) : ℝ :=
  -∑ i : Fin 5, langermannC i * cos (π * ((x 0 - langermannA i) ^ 2 + (x 1 - langermannB i) ^ 2)) /
    exp (((x 0 - langermannA i) ^ 2 + (x 1 - langermannB i) ^ 2) / π)

end Glompo.Doc
