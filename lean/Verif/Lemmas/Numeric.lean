import Mathlib.Analysis.SpecialFunctions.Trigonometric.Deriv
import Mathlib.Analysis.Calculus.Deriv.MeanValue
import Mathlib.Analysis.Real.Pi.Bounds
import Mathlib.Tactic.Linarith
import Mathlib.Tactic.Ring

/-! # Polynomial bounds of sine and cosine -/

namespace Glompo.Num

open Real

/-- A function that starts at 0 and does not fall is not negative. -/
theorem nonneg_of_deriv {f g : ℝ → ℝ} (h0 : f 0 = 0) (hd : ∀ x, HasDerivAt f (g x) x) (hg : ∀ x, 0 ≤ x → 0 ≤ g x) {x : ℝ} (hx : 0 ≤ x) :
    0 ≤ f x := by
  have hm : MonotoneOn f (Set.Ici 0) := by
    refine monotoneOn_of_deriv_nonneg (convex_Ici 0) (fun y _ => (hd y).continuousAt.continuousWithinAt)
      (fun y _ => (hd y).differentiableAt.differentiableWithinAt) fun y hy => ?_
    rw [(hd y).deriv]
    exact hg y (interior_subset hy)
  have := hm (Set.self_mem_Ici) (show x ∈ Set.Ici 0 from hx) hx
  rwa [h0] at this

theorem hasDerivAt_mon (c : ℝ) (n : ℕ) (x : ℝ) : HasDerivAt (fun y => c * y ^ (n + 1)) (c * ((n + 1) * x ^ n)) x := by
  simpa using (hasDerivAt_pow (n + 1) x).const_mul c

theorem cos2 {x : ℝ} (hx : 0 ≤ x) : 1 - x ^ 2 / 2 ≤ cos x := one_sub_sq_div_two_le_cos

theorem sin3 {x : ℝ} (hx : 0 ≤ x) : x - x ^ 3 / 6 ≤ sin x := by
  have := nonneg_of_deriv (f := fun y => sin y - (1 * y ^ (0 + 1) - 1 / 6 * y ^ (2 + 1))) (by simp)
    (fun y => (hasDerivAt_sin y).sub ((hasDerivAt_mon 1 0 y).sub (hasDerivAt_mon (1 / 6) 2 y)))
    (fun y hy => by have := cos2 hy; push_cast; nlinarith) hx
  norm_num at this; linarith

theorem cos4 {x : ℝ} (hx : 0 ≤ x) : cos x ≤ 1 - x ^ 2 / 2 + x ^ 4 / 24 := by
  have := nonneg_of_deriv (f := fun y => 1 - 1 / 2 * y ^ (1 + 1) + 1 / 24 * y ^ (3 + 1) - cos y) (by simp)
    (fun y => (((hasDerivAt_const y (1 : ℝ)).sub (hasDerivAt_mon (1 / 2) 1 y)).add (hasDerivAt_mon (1 / 24) 3 y)).sub (hasDerivAt_cos y))
    (fun y hy => by have := sin3 hy; push_cast; nlinarith) hx
  norm_num at this; linarith

theorem sin5 {x : ℝ} (hx : 0 ≤ x) : sin x ≤ x - x ^ 3 / 6 + x ^ 5 / 120 := by
  have := nonneg_of_deriv (f := fun y => 1 * y ^ (0 + 1) - 1 / 6 * y ^ (2 + 1) + 1 / 120 * y ^ (4 + 1) - sin y) (by simp)
    (fun y => (((hasDerivAt_mon 1 0 y).sub (hasDerivAt_mon (1 / 6) 2 y)).add (hasDerivAt_mon (1 / 120) 4 y)).sub (hasDerivAt_sin y))
    (fun y hy => by have := cos4 hy; push_cast; nlinarith) hx
  norm_num at this; linarith

theorem cos6 {x : ℝ} (hx : 0 ≤ x) : 1 - x ^ 2 / 2 + x ^ 4 / 24 - x ^ 6 / 720 ≤ cos x := by
  have := nonneg_of_deriv (f := fun y => cos y - (1 - 1 / 2 * y ^ (1 + 1) + 1 / 24 * y ^ (3 + 1) - 1 / 720 * y ^ (5 + 1))) (by simp)
    (fun y => (hasDerivAt_cos y).sub ((((hasDerivAt_const y (1 : ℝ)).sub (hasDerivAt_mon (1 / 2) 1 y)).add (hasDerivAt_mon (1 / 24) 3 y)).sub
      (hasDerivAt_mon (1 / 720) 5 y)))
    (fun y hy => by have := sin5 hy; push_cast; nlinarith) hx
  norm_num at this; linarith

theorem sin7 {x : ℝ} (hx : 0 ≤ x) : x - x ^ 3 / 6 + x ^ 5 / 120 - x ^ 7 / 5040 ≤ sin x := by
  have := nonneg_of_deriv (f := fun y => sin y - (1 * y ^ (0 + 1) - 1 / 6 * y ^ (2 + 1) + 1 / 120 * y ^ (4 + 1) - 1 / 5040 * y ^ (6 + 1))) (by simp)
    (fun y => (hasDerivAt_sin y).sub ((((hasDerivAt_mon 1 0 y).sub (hasDerivAt_mon (1 / 6) 2 y)).add (hasDerivAt_mon (1 / 120) 4 y)).sub
      (hasDerivAt_mon (1 / 5040) 6 y)))
    (fun y hy => by have := cos6 hy; push_cast; nlinarith) hx
  norm_num at this; linarith

theorem cos8 {x : ℝ} (hx : 0 ≤ x) : cos x ≤ 1 - x ^ 2 / 2 + x ^ 4 / 24 - x ^ 6 / 720 + x ^ 8 / 40320 := by
  have := nonneg_of_deriv
    (f := fun y => 1 - 1 / 2 * y ^ (1 + 1) + 1 / 24 * y ^ (3 + 1) - 1 / 720 * y ^ (5 + 1) + 1 / 40320 * y ^ (7 + 1) - cos y) (by simp)
    (fun y => (((((hasDerivAt_const y (1 : ℝ)).sub (hasDerivAt_mon (1 / 2) 1 y)).add (hasDerivAt_mon (1 / 24) 3 y)).sub
      (hasDerivAt_mon (1 / 720) 5 y)).add (hasDerivAt_mon (1 / 40320) 7 y)).sub (hasDerivAt_cos y))
    (fun y hy => by have := sin7 hy; push_cast; nlinarith) hx
  norm_num at this; linarith

end Glompo.Num
