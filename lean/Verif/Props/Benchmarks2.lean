import Verif.Props.Benchmarks
import Verif.Lemmas.Numeric
import Mathlib.Analysis.SpecialFunctions.Log.Deriv
import Mathlib.Analysis.Complex.ExponentialBounds

/-!
# C79: announced minima that are rounded or wrong
-/

namespace Glompo.Props

open Finset Real Glompo.Bench Glompo.Num

variable {d : ℕ}

theorem styblinski_one (x : ℝ) : 2 * -39.16616570377142 ≤ x ^ 4 - 16 * x ^ 2 + 5 * x := by
  nlinarith [sq_nonneg ((x + 2.90353401818596) * (x - 2.90353401818596)), sq_nonneg (x + 2.90353401818596),
    sq_nonneg (x + 2.90353401818596 + 1e-14), sq_nonneg (x + 2.90353401818596 - 1e-14)]

theorem C79_styblinski (d : ℕ) :
    (styblinskiTang d).TruthfulUpTo (1e-12 * d) ∧ ∀ x, (styblinskiTang d).minFx ≤ (styblinskiTang d).f x := by
  have low : ∀ x, (styblinskiTang d).minFx ≤ (styblinskiTang d).f x := by
    intro x
    have := sum_le_sum (s := univ) fun (i : Fin d) _ => styblinski_one (x i)
    simp only [sum_const, card_univ, Fintype.card_fin, nsmul_eq_mul] at this
    simp only [styblinskiTang, box]; linarith
  refine ⟨⟨fun i => by simp only [styblinskiTang, box]; norm_num, ?_, fun x _ => ?_⟩, low⟩
  · simp only [styblinskiTang, box, sum_const, card_univ, Fintype.card_fin, nsmul_eq_mul]
    rw [abs_le]
    have : (0 : ℝ) ≤ d := Nat.cast_nonneg d
    constructor <;> nlinarith
  · have := low x
    have : (0 : ℝ) ≤ d := Nat.cast_nonneg d
    linarith

theorem vincent_log : |10 * log 7.70628098 - 6.5 * π| ≤ 1e-5 := by
  have e : (7.70628098 : ℝ) = 2 ^ 3 * (1 - (1 - 7.70628098 / 8)) := by norm_num
  have h := abs_log_sub_add_sum_range_le (x := 1 - 7.70628098 / 8) (by rw [abs_lt]; norm_num) 5
  rw [abs_le] at h
  have h2 : log 7.70628098 = 3 * log 2 + log (1 - (1 - 7.70628098 / 8)) := by
    conv_lhs => rw [e]
    rw [log_mul (by norm_num) (by norm_num), log_pow]; norm_num
  norm_num [sum_range_succ, abs_of_nonneg] at h
  have l1 := log_two_gt_d9
  have l2 := log_two_lt_d9
  have p1 := pi_gt_d6
  have p2 := pi_lt_d6
  rw [abs_le, h2]
  norm_num at *
  constructor <;> linarith [h.1, h.2]

theorem C79_vincent (d : ℕ) : (vincent d).TruthfulUpTo (1e-10 * d) ∧ ∀ x, (vincent d).minFx ≤ (vincent d).f x := by
  have low : ∀ x, (vincent d).minFx ≤ (vincent d).f x := by
    intro x
    have := sum_le_sum (s := univ) fun (i : Fin d) _ => sin_le_one (10 * log (x i))
    simp only [sum_const, card_univ, Fintype.card_fin, nsmul_eq_mul] at this
    simp only [vincent, box]; linarith
  have hd : (0 : ℝ) ≤ d := Nat.cast_nonneg d
  refine ⟨⟨fun i => by simp only [vincent, box]; norm_num, ?_, fun x _ => ?_⟩, low⟩
  · simp only [vincent, box, sum_const, card_univ, Fintype.card_fin, nsmul_eq_mul]
    have h1 := vincent_log
    have h2 : sin (10 * log 7.70628098) = cos (10 * log 7.70628098 - 6.5 * π) := by
      rw [show 10 * log 7.70628098 - 6.5 * π = -(π / 2 - (10 * log 7.70628098 - (3 : ℕ) * (2 * π))) by push_cast; ring, cos_neg, cos_pi_div_two_sub,
        sin_sub_nat_mul_two_pi]
    have h3 : 1 - 1e-10 ≤ sin (10 * log 7.70628098) := by
      rw [h2]
      have := one_sub_sq_div_two_le_cos (x := 10 * log 7.70628098 - 6.5 * π)
      have h4 := sq_abs (10 * log 7.70628098 - 6.5 * π)
      have : |10 * log 7.70628098 - 6.5 * π| ^ 2 ≤ 1e-5 ^ 2 := pow_le_pow_left₀ (abs_nonneg _) h1 2
      rw [h4] at this
      norm_num at *; linarith
    rw [abs_le]
    have := sin_le_one (10 * log 7.70628098)
    constructor <;> nlinarith
  · have := low x; linarith

/-- `ZeroSum` announces the minimum of `Vincent`, which it never reaches, at a place where it is large; its true minimum is 0. -/
theorem C79_zero_sum_refuted (hd : 0 < d) :
    ¬ (zeroSum d).Truthful ∧ (∀ x, (zeroSum d).minFx < (zeroSum d).f x) ∧ 1 < (zeroSum d).f (zeroSum d).minX ∧
      IsMinimum (zeroSum d).f (zeroSum d).lo (zeroSum d).hi (fun _ => 0) 0 := by
  have hd' : (0 : ℝ) < d := by exact_mod_cast hd
  have pos : ∀ x, 0 ≤ (zeroSum d).f x := by
    intro x; simp only [zeroSum, box]; split_ifs <;> positivity
  have below : ∀ x, (zeroSum d).minFx < (zeroSum d).f x := fun x => lt_of_lt_of_le (by simp only [zeroSum, box]; linarith) (pos x)
  refine ⟨fun h => (below _).ne' h.2.1, below, ?_, fun i => by simp only [zeroSum, box]; norm_num, by simp [zeroSum, box], fun x _ => pos x⟩
  simp only [zeroSum, box, sum_const, card_univ, Fintype.card_fin, nsmul_eq_mul]
  rw [if_neg (by positivity)]
  have : 0 < √(|(d : ℝ) * 7.70628098| * 10000) := by positivity
  linarith

/-- In no dimension and for no `m` does `Shekel` have the announced value at the announced place. With the default arguments it is lower there. -/
theorem C79_shekel_refuted :
    (∀ d (_ : 0 < d) (hd : d ≤ 4) m, m = 5 ∨ m = 7 ∨ m = 10 → ∀ shift, ¬ (shekel d hd m shift).Truthful) ∧
    (shekel 2 (by omega) 10 false).f (shekel 2 (by omega) 10 false).minX < (shekel 2 (by omega) 10 false).minFx - 0.4 ∧
    (shekel 1 (by omega) 7 true).f (fun _ => 4) < 0 := by
  refine ⟨?_, ?_, ?_⟩
  · rintro d h0 hd m hm shift ⟨-, h, -⟩
    have hd' : d = 1 ∨ d = 2 ∨ d = 3 ∨ d = 4 := by omega
    rcases hd' with rfl | rfl | rfl | rfl <;> rcases hm with rfl | rfl | rfl <;> cases shift <;>
      (simp [shekel, box, shifted, shekelRows, Fin.sum_univ_succ, Fin.castLE] at h; norm_num at h)
  · simp [shekel, box, shifted, shekelRows, Fin.sum_univ_succ, Fin.castLE]; norm_num
  · simp [shekel, box, shifted, shekelRows, Fin.sum_univ_succ, Fin.castLE]; norm_num

/-- The announced minimum of `Michalewicz` does not depend on `m`; it is undercut for `m = 1`. -/
theorem C79_michalewicz_refuted :
    ∃ x, InBox (michalewicz 2 1).lo (michalewicz 2 1).hi x ∧ (michalewicz 2 1).f x < (michalewicz 2 1).minFx - 0.03 := by
  refine ⟨![2 * π / 3, π / 2], ?_, ?_⟩
  · intro i
    fin_cases i <;> simp [michalewicz, box] <;> constructor <;> linarith [pi_pos]
  · simp only [michalewicz, box, if_true, Fin.sum_univ_two]
    have e1 : sin (2 * π / 3) = √3 / 2 := by
      rw [show 2 * π / 3 = π - π / 3 by ring, sin_pi_sub, sin_pi_div_three]
    have e2 : ((0 : ℕ) + 1 : ℝ) * (2 * π / 3) ^ 2 / π = π / 2 - π / 18 := by field_simp; ring
    have e3 : ((1 : ℕ) + 1 : ℝ) * (π / 2) ^ 2 / π = π / 2 := by field_simp; ring
    have e4 : 0.9847 ≤ cos (π / 18) := by
      have := one_sub_sq_div_two_le_cos (x := π / 18)
      have : π ^ 2 ≤ 3.1416 ^ 2 := pow_le_pow_left₀ pi_pos.le pi_lt_d4.le 2
      rw [div_pow] at *; norm_num at *; linarith
    have e5 : (1.7320 : ℝ) ≤ √3 := le_sqrt_of_sq_le (by norm_num)
    show -(sin (2 * π / 3) * sin (((0 : ℕ) + 1) * (2 * π / 3) ^ 2 / π) ^ 2 + sin (π / 2) * sin (((1 : ℕ) + 1) * (π / 2) ^ 2 / π) ^ 2) < _
    rw [e1, e2, e3, sin_pi_div_two_sub, sin_pi_div_two]
    have : 0.9847 ^ 2 ≤ cos (π / 18) ^ 2 := pow_le_pow_left₀ (by norm_num) e4 2
    nlinarith

end Glompo.Props
