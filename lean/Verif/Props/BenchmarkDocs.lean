import Verif.Spec.BenchmarkDocs
import Mathlib.Tactic.NormNum
import Mathlib.Tactic.Ring
import Mathlib.Tactic.Linarith
import Mathlib.Tactic.Positivity
import Mathlib.Analysis.Real.Pi.Bounds

/-!
# C82: the benchmark functions compute the documented formulas
-/

namespace Glompo.Props

open Finset Real Glompo.Bench
open Glompo.Doc (comp)

variable {d : ℕ}

theorem comp_succ (x : Fin d → ℝ) (i : Fin d) : comp x (i + 1) = x i := by simp [comp]

theorem sum_comp (g : ℕ → ℝ) : ∑ i ∈ Icc 1 d, g i = ∑ i : Fin d, g ((i : ℕ) + 1) := by
  rw [Fin.sum_univ_eq_sum_range (fun i => g (i + 1)) d, Finset.range_eq_Ico, Finset.sum_Ico_add' g 0 d 1]
  congr 1

theorem prod_comp (g : ℕ → ℝ) : ∏ i ∈ Icc 1 d, g i = ∏ i : Fin d, g ((i : ℕ) + 1) := by
  rw [Fin.prod_univ_eq_prod_range (fun i => g (i + 1)) d, Finset.range_eq_Ico, Finset.prod_Ico_add' g 0 d 1]
  congr 1

theorem C82_ackley (a b c : ℝ) (x : Fin d → ℝ) : (ackley d a b c).f x = Doc.ackley a b c x := by
  simp only [ackley, box, Doc.ackley, sum_comp, comp_succ]; ring

theorem C82_alpine01 (x : Fin d → ℝ) : (alpine01 d).f x = Doc.alpine01 x := by
  simp only [alpine01, box, Doc.alpine01, sum_comp, comp_succ, mul_comm]

theorem C82_alpine02 (x : Fin d → ℝ) : (alpine02 d).f x = Doc.alpine02 x := by
  simp only [alpine02, box, Doc.alpine02, prod_comp, comp_succ, mul_comm]

theorem C82_easom (x : Fin 2 → ℝ) : (easom false).f x = Doc.easom x := rfl

theorem C82_griewank (x : Fin d → ℝ) : (griewank d).f x = Doc.griewank x := by
  simp only [griewank, box, Doc.griewank, sum_comp, prod_comp, comp_succ, div_eq_mul_inv, ← sum_mul]; push_cast; ring

theorem C82_michalewicz (m : ℕ) (x : Fin d → ℝ) : (michalewicz d m).f x = Doc.michalewicz m x := by
  simp only [michalewicz, box, Doc.michalewicz, sum_comp, comp_succ]; push_cast; rfl

theorem C82_qing (x : Fin d → ℝ) : (qing d).f x = Doc.qing x := by
  simp only [qing, box, Doc.qing, sum_comp, comp_succ]; push_cast; rfl

theorem C82_rana (n : ℕ) (x : Fin (n + 1) → ℝ) : (rana n).f x = Doc.rana x := by
  have h : comp x 1 = x 0 := comp_succ x 0
  simp only [rana, box, ranaF, ranaTerm, Doc.rana, sum_comp, comp_succ, h]

theorem C82_rastrigin (x : Fin d → ℝ) : (rastrigin d).f x = Doc.rastrigin x := by
  simp only [rastrigin, box, Doc.rastrigin, sum_comp, comp_succ]

theorem C82_rosenbrock (x : Fin d → ℝ) : (rosenbrock d).f x = Doc.rosenbrock x := by
  simp only [rosenbrock, box, Doc.rosenbrock, sum_comp]
  refine sum_congr rfl fun i _ => ?_
  have h1 : comp x ((i : ℕ) + 1) = x ⟨i, by omega⟩ := comp_succ x ⟨i, by omega⟩
  have h2 : comp x ((i : ℕ) + 1 + 1) = x ⟨i + 1, by omega⟩ := comp_succ x ⟨i + 1, by omega⟩
  rw [h1, h2]; ring

/-- The Shekel function has the documented form, with the constants of `Doc.shekelC` and `Doc.shekelBeta`, in every dimension and for every
number of hollows it can be made with; `shift_positive` adds 12 everywhere. -/
theorem C82_shekel (hd : d ≤ 4) (m : ℕ) (hm : m = 5 ∨ m = 7 ∨ m = 10) (x : Fin d → ℝ) :
    (shekel d hd m false).f x = Doc.shekel m x ∧ (shekel d hd m true).f x = Doc.shekel m x + 12 := by
  have key : -((shekelRows m).map fun r => (r.2 + ∑ i : Fin d, (x i - r.1 (Fin.castLE hd i)) ^ 2)⁻¹).sum = Doc.shekel m x := by
    have hd' : d = 0 ∨ d = 1 ∨ d = 2 ∨ d = 3 ∨ d = 4 := by omega
    rcases hm with rfl | rfl | rfl <;> rcases hd' with rfl | rfl | rfl | rfl | rfl <;>
      simp [shekelRows, Doc.shekel, Doc.shekelBeta, Doc.shekelC, comp, Fin.sum_univ_succ, Finset.sum_Icc_succ_top, Fin.castLE] <;> ring
  constructor
  · simpa [shekel, box, shifted] using key
  · simpa [shekel, box, shifted] using key

theorem C82_shubert (x : Fin d → ℝ) : shubertF 3 false x = Doc.shubert3 x ∧ shubertF 4 false x = Doc.shubert4 x := by
  constructor <;> simp [shubertF, shifted, shubertSin, shubertCos, Doc.shubert3, Doc.shubert4, sum_comp (d := d), comp_succ]

/-- `shift_positive` moves the Shubert functions and the minimum they announce by the same amount, up to 0.0001, and announces 0: for all styles,
dimensions and arguments. -/
theorem C82_shubert_shift (style : ℕ) (x : Fin d → ℝ) :
    shubertMin style true = 0 ∧
      |(shubertF style true x - shubertMin style true) - (shubertF style false x - shubertMin style false)| ≤ 0.0001 := by
  refine ⟨rfl, ?_⟩
  unfold shubertMin shubertF shifted
  split_ifs <;> rw [abs_le] <;> constructor <;> norm_num <;> linarith

/-- The minimum Michalewicz announces is the documented one, up to rounding. -/
theorem C82_michalewicz_min (m : ℕ) :
    |(michalewicz 2 m).minFx - (-1.8013)| ≤ 0.001 ∧ |(michalewicz 5 m).minFx - (-4.687)| ≤ 0.001 ∧
      |(michalewicz 10 m).minFx - (-9.66)| ≤ 0.001 := by
  refine ⟨?_, ?_, ?_⟩ <;> rw [abs_le] <;> constructor <;> norm_num [michalewicz, box]

/-- The Langermann function, shifted or not; the announced minimum is shifted by as much, and the announced place lies within the bounds. -/
theorem C82_langermann (x : Fin 2 → ℝ) :
    (langermann false).f x = Doc.langermann x ∧ (langermann true).f x = Doc.langermann x + 5.2 ∧
    (langermann true).minFx = (langermann false).minFx + 5.2 ∧
    ∀ shift i, (langermann shift).lo i = 0 ∧ (langermann shift).hi i = 10 ∧ 0 ≤ (langermann shift).minX i ∧ (langermann shift).minX i ≤ 10 := by
  have h : (langermannRows.map fun r : ℝ × ℝ × ℝ =>
      r.2.2 * cos (π * ((x 0 - r.1) ^ 2 + (x 1 - r.2.1) ^ 2)) / exp (((x 0 - r.1) ^ 2 + (x 1 - r.2.1) ^ 2) / π)).sum =
      ∑ i : Fin 5, Doc.langermannC i * cos (π * ((x 0 - Doc.langermannA i) ^ 2 + (x 1 - Doc.langermannB i) ^ 2)) /
        exp (((x 0 - Doc.langermannA i) ^ 2 + (x 1 - Doc.langermannB i) ^ 2) / π) := by
    simp [langermannRows, Fin.sum_univ_succ, Doc.langermannA, Doc.langermannB, Doc.langermannC]
  refine ⟨?_, ?_, by norm_num [langermann], ?_⟩
  · simp only [langermann, shifted, h, Doc.langermann, Bool.false_eq_true, if_false]
  · simp only [langermann, shifted, h, Doc.langermann, if_true]
  · intro shift i
    refine ⟨rfl, rfl, ?_, ?_⟩ <;> fin_cases i <;> norm_num [langermann]

theorem C82_stochastic (e : (Fin d → ℝ) → Fin d → ℝ) (x : Fin d → ℝ) : (stochastic d e).f x = Doc.stochastic (e x) x := by
  simp only [stochastic, box, Doc.stochastic, sum_comp, comp_succ]; push_cast; rfl

theorem C82_styblinski (x : Fin d → ℝ) : (styblinskiTang d).f x = Doc.styblinskiTang x := by
  simp only [styblinskiTang, box, Doc.styblinskiTang, sum_comp, comp_succ]; norm_num

theorem C82_trigonometric (x : Fin d → ℝ) : (trigonometric d).f x = Doc.trigonometric x := by
  simp only [trigonometric, box, Doc.trigonometric, sum_comp, comp_succ]

theorem C82_vincent (x : Fin d → ℝ) : (vincent d).f x = Doc.vincent x := by
  simp only [vincent, box, Doc.vincent, sum_comp, comp_succ]

theorem C82_zero_sum (x : Fin d → ℝ) : (zeroSum d).f x = Doc.zeroSum x := by
  simp only [zeroSum, box, Doc.zeroSum, sum_comp, comp_succ]
  rw [Real.sqrt_eq_rpow, mul_comm, add_comm]; norm_num

/-- Without noise. -/
theorem C82_exp_least_squares (n : ℕ) (u : Fin n → ℝ) (p : Fin d → ℝ) (a b : ℝ) (x : Fin d → ℝ) :
    (expLeastSquares n u p (fun _ => 0) a b).f x = Doc.expLeastSquares u p x := by
  simp only [expLeastSquares, box, Doc.expLeastSquares, expSum, sum_comp, comp_succ]; simp

/-- Only for the exponent 1, which is not the default. -/
theorem C82_deceptive_partial (a x : Fin d → ℝ) : (deceptive d 1 false a).f x = Doc.deceptive fun i => deceptiveG (a i) (x i) := by
  simp only [deceptive, box, shifted, Doc.deceptive, sum_comp, comp_succ]; simp

/-- The last component is counted in the sum, too. -/
theorem C82_levy_partial (n : ℕ) (x : Fin (n + 1) → ℝ) :
    (levy n).f x = Doc.levy x + (levyW (x (Fin.last n)) - 1) ^ 2 * (1 + 10 * sin (π * levyW (x (Fin.last n)) + 1) ^ 2) := by
  have h : comp x 1 = x 0 := comp_succ x 0
  have h' : comp x (n + 1) = x (Fin.last n) := comp_succ x (Fin.last n)
  simp only [levy, box, Doc.levy, Nat.add_sub_cancel, sum_comp, h, h', levyW]
  rw [Fin.sum_univ_castSucc]
  have : ∀ i : Fin n, comp x ((i : ℕ) + 1) = x i.castSucc := fun i => comp_succ x i.castSucc
  simp only [this]
  ring

/-- Without the shift that the documented formula contains. -/
theorem C82_schwefel_partial (x : Fin d → ℝ) (shift : Bool) :
    (schwefel d shift).f x = Doc.schwefel x + (if shift then 0.0001 else -418.9829) * d := by
  cases shift <;> simp [schwefel, box, shifted, Doc.schwefel, sum_comp, comp_succ] <;> ring

/-- The documented formulas of `Deceptive`, `Levy`, `Schwefel` and the first style of `Shubert` are not what is computed. -/
theorem C82_refuted :
    (∃ a x : Fin 1 → ℝ, (deceptive 1 2 false a).f x ≠ Doc.deceptive fun i => deceptiveG (a i) (x i)) ∧
    (∃ x : Fin 1 → ℝ, (levy 0).f x ≠ Doc.levy x) ∧
    (∀ x : Fin 1 → ℝ, (schwefel 1 false).f x ≠ Doc.schwefel x ∧ (schwefel 1 true).f x ≠ Doc.schwefel x) ∧
    (∃ x : Fin 2 → ℝ, shubertF 1 false x ≠ Doc.shubert1 x) := by
  refine ⟨⟨fun _ => 1 / 2, fun _ => 0, ?_⟩, ⟨fun _ => 5, ?_⟩, fun x => ⟨?_, ?_⟩, ⟨fun _ => -1, ?_⟩⟩
  · simp only [deceptive, box, shifted, Doc.deceptive, sum_comp, comp_succ, deceptiveG]
    norm_num
  · rw [C82_levy_partial]
    simp only [levyW]
    have : 0 ≤ sin (π * (1 + (5 - 1) / 4) + 1) ^ 2 := sq_nonneg _
    norm_num at *
    linarith
  · rw [C82_schwefel_partial]; norm_num
  · rw [C82_schwefel_partial]; norm_num
  · have h : shubertCos (-1) = 15 * cos 1 := by
      unfold shubertCos
      rw [sum_congr rfl fun (j : ℕ) _ => by rw [show ((j : ℝ) + 1) * -1 + j = -1 by ring, cos_neg], ← sum_mul]
      congr 1
      have hI : Icc (1 : ℕ) 5 = {1, 2, 3, 4, 5} := by decide
      rw [hI, sum_insert (by decide), sum_insert (by decide), sum_insert (by decide), sum_insert (by decide), sum_singleton]
      norm_num
    have h1 : shubertF 1 false (fun _ : Fin 2 => (-1 : ℝ)) = shubertCos (-1) * shubertCos (-1) := by
      simp [shubertF, shifted]; ring
    have h2 : Doc.shubert1 (fun _ : Fin 2 => (-1 : ℝ)) = shubertCos (-1) + shubertCos (-1) := by
      unfold Doc.shubert1
      rw [sum_comp (d := 2)]
      simp only [comp_succ, Fin.sum_univ_two]
      rfl
    rw [h1, h2, h]
    have := one_sub_sq_div_two_le_cos (x := 1)
    intro e
    nlinarith

end Glompo.Props
