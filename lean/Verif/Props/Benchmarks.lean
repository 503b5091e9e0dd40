import Verif.Spec.Benchmarks
import Mathlib.Algebra.Order.BigOperators.Group.Finset
import Mathlib.Algebra.Order.BigOperators.Ring.Finset
import Mathlib.Tactic.NormNum
import Mathlib.Tactic.Linarith
import Mathlib.Tactic.Positivity
import Mathlib.Tactic.FieldSimp
import Mathlib.Tactic.Ring
import Mathlib.Analysis.Real.Pi.Bounds

/-!
# C79: the announced minima of the benchmark functions
-/

namespace Glompo.Props

open Finset Real Glompo.Bench

variable {d : ℕ}

theorem C79_ackley (hd : 0 < d) (a b c : ℝ) (ha : 0 ≤ a) (hb : 0 ≤ b) : (ackley d a b c).Truthful := by
  have hd' : (0 : ℝ) < d := by exact_mod_cast hd
  refine ⟨fun i => by simp only [ackley, box]; norm_num, ?_, ?_⟩
  · simp [ackley, box, hd'.ne']; ring
  · intro x _
    simp only [ackley, box]
    have h1 : exp (-b * √(1 / d * ∑ i, x i ^ 2)) ≤ 1 := by
      rw [exp_le_one_iff]; have := sqrt_nonneg (1 / (d : ℝ) * ∑ i, x i ^ 2); nlinarith
    have h2 : exp (1 / d * ∑ i, cos (c * x i)) ≤ exp 1 := by
      rw [exp_le_exp]
      have : ∑ i, cos (c * x i) ≤ ∑ _i : Fin d, (1 : ℝ) := sum_le_sum fun i _ => cos_le_one _
      simp only [sum_const, card_univ, Fintype.card_fin, nsmul_eq_mul, mul_one] at this
      rw [one_div, inv_mul_le_iff₀ hd']; linarith
    nlinarith

theorem C79_alpine01 (d : ℕ) : (alpine01 d).Truthful := by
  refine ⟨fun i => by simp only [alpine01, box]; norm_num, by simp [alpine01, box], fun x _ => ?_⟩
  simp only [alpine01, box]
  exact sum_nonneg fun i _ => abs_nonneg _

theorem deceptiveG_self {a : ℝ} (h0 : 0 < a) : deceptiveG a a = 1 := by
  unfold deceptiveG
  rw [if_neg (by intro h; linarith [h.2]), if_pos (by constructor <;> linarith)]
  field_simp; norm_num

theorem deceptiveG_range {a : ℝ} (h0 : 0 < a) (h1 : a < 1) (x : ℝ) : 0 ≤ deceptiveG a x ∧ deceptiveG a x ≤ 1 := by
  have h2 : 0 < 1 - a := by linarith
  unfold deceptiveG
  split_ifs with g1 g2 g3 g4
  · have e1 : 0 ≤ x / a := div_nonneg g1.1 h0.le
    have e2 : x / a ≤ 0.8 := by rw [div_le_iff₀ h0]; exact g1.2
    constructor <;> linarith
  · have e1 : 4 ≤ 5 * x / a := by rw [le_div_iff₀ h0]; linarith [g2.1]
    have e2 : 5 * x / a ≤ 5 := by rw [div_le_iff₀ h0]; linarith [g2.2]
    constructor <;> linarith
  · have e : 5 * (x - a) / (a - 1) = -(5 * (x - a) / (1 - a)) := by rw [← div_neg]; congr 1; ring
    rw [e]
    have e1 : 0 ≤ 5 * (x - a) / (1 - a) := div_nonneg (by linarith [g3.1]) h2.le
    have e2 : 5 * (x - a) / (1 - a) ≤ 1 := by rw [div_le_iff₀ h2]; linarith [g3.2]
    constructor <;> linarith
  · have e1 : -0.8 ≤ (x - 1) / (1 - a) := by rw [le_div_iff₀ h2]; linarith [g4.1]
    have e2 : (x - 1) / (1 - a) ≤ 0 := div_nonpos_of_nonpos_of_nonneg (by linarith [g4.2]) h2.le
    constructor <;> linarith
  · constructor <;> norm_num

theorem C79_deceptive (hd : 0 < d) (b : ℝ) (hb : 0 ≤ b) (shift : Bool) (a : Fin d → ℝ) (ha : ∀ i, 0 < a i ∧ a i < 1) :
    (deceptive d b shift a).Truthful := by
  have hd' : (0 : ℝ) < d := by exact_mod_cast hd
  refine ⟨fun i => ⟨(ha i).1.le, (ha i).2.le⟩, ?_, fun x _ => ?_⟩
  · have : 1 / (d : ℝ) * ∑ i, deceptiveG (a i) (a i) = 1 := by
      rw [sum_congr rfl fun i _ => deceptiveG_self (ha i).1]
      simp [hd'.ne']
    cases shift <;> simp [deceptive, box, shifted] at this ⊢ <;> rw [this] <;> simp
  · have g0 : 0 ≤ 1 / (d : ℝ) * ∑ i, deceptiveG (a i) (x i) :=
      mul_nonneg (by positivity) (sum_nonneg fun i _ => (deceptiveG_range (ha i).1 (ha i).2 _).1)
    have g1 : 1 / (d : ℝ) * ∑ i, deceptiveG (a i) (x i) ≤ 1 := by
      have : ∑ i, deceptiveG (a i) (x i) ≤ ∑ _i : Fin d, (1 : ℝ) := sum_le_sum fun i _ => (deceptiveG_range (ha i).1 (ha i).2 _).2
      simp only [sum_const, card_univ, Fintype.card_fin, nsmul_eq_mul, mul_one] at this
      rw [one_div, inv_mul_le_iff₀ hd']; linarith
    have := rpow_le_one g0 g1 hb
    cases shift
    · show -1 ≤ -_; linarith
    · show 0 ≤ -_ + _; linarith

theorem C79_easom (shift : Bool) : (easom shift).Truthful := by
  refine ⟨fun i => ?_, ?_, fun x _ => ?_⟩
  · simp only [easom, box]; constructor <;> linarith [pi_pos, pi_lt_four]
  · cases shift <;> simp [easom, box, shifted]
  · have h : cos (x 0) * cos (x 1) * exp (-(x 0 - π) ^ 2 - (x 1 - π) ^ 2) ≤ 1 := by
      have e1 : exp (-(x 0 - π) ^ 2 - (x 1 - π) ^ 2) ≤ 1 := by rw [exp_le_one_iff]; nlinarith [sq_nonneg (x 0 - π), sq_nonneg (x 1 - π)]
      have e2 : cos (x 0) * cos (x 1) ≤ 1 := by
        have := abs_cos_le_one (x 0); have := abs_cos_le_one (x 1)
        calc _ ≤ |cos (x 0) * cos (x 1)| := le_abs_self _
          _ = |cos (x 0)| * |cos (x 1)| := abs_mul _ _
          _ ≤ 1 := mul_le_one₀ ‹_› (abs_nonneg _) ‹_›
      have e3 := exp_pos (-(x 0 - π) ^ 2 - (x 1 - π) ^ 2)
      nlinarith
    cases shift
    · show -1 ≤ -cos (x 0) * _ * _; linarith
    · show 0 ≤ -cos (x 0) * _ * _ + 1; linarith

theorem C79_griewank (d : ℕ) : (griewank d).Truthful := by
  refine ⟨fun i => by simp only [griewank, box]; norm_num, by simp [griewank, box], fun x _ => ?_⟩
  simp only [griewank, box]
  have h1 : ∏ i, cos (x i / √((i : ℕ) + 1)) ≤ 1 := by
    calc _ ≤ |∏ i, cos (x i / √((i : ℕ) + 1))| := le_abs_self _
      _ = ∏ i, |cos (x i / √((i : ℕ) + 1))| := abs_prod _ _
      _ ≤ 1 := prod_le_one (fun i _ => abs_nonneg _) fun i _ => abs_cos_le_one _
  have h2 : 0 ≤ ∑ i, x i ^ 2 := sum_nonneg fun i _ => sq_nonneg _
  linarith

theorem C79_exp_least_squares (n : ℕ) (u : Fin n → ℝ) (p : Fin d → ℝ) (noise : (Fin d → ℝ) → ℝ) (a b : ℝ)
    (hp : ∀ i, a ≤ p i ∧ p i ≤ b) : (expLeastSquares n u p noise a b).Truthful := by
  refine ⟨hp, by simp [expLeastSquares, box], fun x _ => ?_⟩
  simp only [expLeastSquares, box]
  exact sum_nonneg fun i _ => sq_nonneg _

theorem C79_levy (n : ℕ) : (levy n).Truthful := by
  refine ⟨fun i => by simp only [levy, box]; norm_num, by simp [levy, box, levyW], fun x _ => ?_⟩
  simp only [levy, box]
  have : 0 ≤ ∑ i, (levyW (x i) - 1) ^ 2 * (1 + 10 * sin (π * levyW (x i) + 1) ^ 2) := sum_nonneg fun i _ => by positivity
  positivity

/-- The announced place is out of bounds only in more than 250000 dimensions. -/
theorem C79_qing (hd : d ≤ 250000) : (qing d).Truthful := by
  refine ⟨fun i => ?_, ?_, fun x _ => ?_⟩
  · simp only [qing, box]
    have : ((i : ℕ) : ℝ) + 1 ≤ 250000 := by exact_mod_cast (by omega : (i : ℕ) + 1 ≤ 250000)
    refine ⟨by linarith [sqrt_nonneg (((i : ℕ) : ℝ) + 1)], ?_⟩
    rw [sqrt_le_left (by norm_num)]; linarith
  · simp only [qing, box]
    refine sum_eq_zero fun i _ => ?_
    rw [sq_sqrt (by positivity)]; simp
  · simp only [qing, box]
    exact sum_nonneg fun i _ => sq_nonneg _

theorem C79_rastrigin (d : ℕ) : (rastrigin d).Truthful := by
  refine ⟨fun i => by simp only [rastrigin, box]; norm_num, ?_, fun x _ => ?_⟩
  · simp [rastrigin, box]; ring
  · simp only [rastrigin, box]
    have : ∑ _i : Fin d, (-10 : ℝ) ≤ ∑ i, (x i ^ 2 - 10 * cos (2 * π * x i)) :=
      sum_le_sum fun i _ => by nlinarith [cos_le_one (2 * π * x i), sq_nonneg (x i)]
    simp only [sum_const, card_univ, Fintype.card_fin, nsmul_eq_mul] at this
    linarith

theorem C79_rosenbrock (d : ℕ) : (rosenbrock d).Truthful := by
  refine ⟨fun i => by simp only [rosenbrock, box]; norm_num, by simp [rosenbrock, box], fun x _ => ?_⟩
  simp only [rosenbrock, box]
  exact sum_nonneg fun i _ => by positivity

/-- For all draws of the random weights. -/
theorem C79_stochastic (d : ℕ) (e : (Fin d → ℝ) → Fin d → ℝ) (he : ∀ x i, 0 ≤ e x i) : (stochastic d e).Truthful := by
  refine ⟨fun i => ?_, by simp [stochastic, box], fun x _ => ?_⟩
  · simp only [stochastic, box]
    have : (1 : ℝ) / ((i : ℕ) + 1) ≤ 1 := by rw [div_le_one (by positivity)]; linarith [Nat.cast_nonneg (α := ℝ) (i : ℕ)]
    exact ⟨by linarith [show (0 : ℝ) ≤ 1 / ((i : ℕ) + 1) by positivity], by linarith⟩
  · simp only [stochastic, box]
    exact sum_nonneg fun i _ => mul_nonneg (he _ _) (abs_nonneg _)

theorem C79_trigonometric (d : ℕ) : (trigonometric d).Truthful := by
  refine ⟨fun i => by simp only [trigonometric, box]; norm_num, by simp [trigonometric, box], fun x _ => ?_⟩
  simp only [trigonometric, box]
  have : 0 ≤ ∑ i, (8 * sin (7 * (x i - 0.9) ^ 2) ^ 2 + 6 * sin (14 * (x i - 0.9) ^ 2) ^ 2 + (x i - 0.9) ^ 2) :=
    sum_nonneg fun i _ => by positivity
  linarith

/-! ## Examples -/

example : (ackley 2 20 0.2 (2 * π)).Truthful := C79_ackley (by norm_num) _ _ _ (by norm_num) (by norm_num)
example : (deceptive 2 2 true ![1 / 4, 1 / 2]).Truthful :=
  C79_deceptive (by norm_num) 2 (by norm_num) true _ fun i => by fin_cases i <;> simp <;> norm_num
example : (stochastic 3 fun _ i => 1 / ((i : ℕ) + 2)).Truthful := C79_stochastic 3 _ fun _ _ => by positivity
example : (expLeastSquares 2 ![1, 3] ![-1, 1] (fun _ => 0.1) (-2) 2).Truthful :=
  C79_exp_least_squares 2 _ _ _ _ _ fun i => by fin_cases i <;> simp <;> norm_num
example : (qing 10).Truthful := C79_qing (by norm_num)
example : ∃ x : Fin 2 → ℝ, InBox (rosenbrock 2).lo (rosenbrock 2).hi x ∧ 0 < (rosenbrock 2).f x :=
  ⟨fun _ => 0, fun i => by simp only [rosenbrock, box]; norm_num, by simp [rosenbrock, box]⟩

end Glompo.Props
