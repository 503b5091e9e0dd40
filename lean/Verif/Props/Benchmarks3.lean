import Verif.Props.Benchmarks2

/-!
# C79: announced minima that need numerical bounds
-/

namespace Glompo.Props

open Finset Real Glompo.Bench Glompo.Num

variable {d : ℕ}

/-! ## Schwefel -/

theorem schwefel_poly {u : ℝ} (h1 : -0.03 ≤ u) (h2 : u ≤ 1.95) : (20.4203522484 + u) ^ 2 * (1 - u ^ 2 / 2 + u ^ 4 / 24) ≤ 418.9829 := by
  have hq : 1 ≤ (105489814871562192023481135817951 / 500000000000000000000000000000) * u ^ 0 + (42731460397320878521743801 / 2500000000000000000000000) * u ^ 1 + (-860325196848631348547 / 50000000000000000000) * u ^ 2 + (-17097935207 / 10000000000) * u ^ 3 + (-1 / 24) * u ^ 4 := by
    nlinarith [mul_nonneg (sub_nonneg.2 h1) (sub_nonneg.2 h2), sq_nonneg u, mul_nonneg (sq_nonneg u) (sub_nonneg.2 h2),
      mul_nonneg (mul_nonneg (sq_nonneg u) (sub_nonneg.2 h1)) (sub_nonneg.2 h2)]
  have key : 418.9829 - (20.4203522484 + u) ^ 2 * (1 - u ^ 2 / 2 + u ^ 4 / 24) =
      (u - 9717 / 100000) ^ 2 * ((105489814871562192023481135817951 / 500000000000000000000000000000) * u ^ 0 + (42731460397320878521743801 / 2500000000000000000000000) * u ^ 1 + (-860325196848631348547 / 50000000000000000000) * u ^ 2 + (-17097935207 / 10000000000) * u ^ 3 + (-1 / 24) * u ^ 4) + (-3894803422596409707520691294211 / 12500000000000000000000000000000000) * (u - 9717 / 100000) + (61164339468270055309152018755389213 / 5000000000000000000000000000000000000000) := by ring
  nlinarith [mul_le_mul_of_nonneg_left hq (sq_nonneg (u - 9717 / 100000)), sq_nonneg (u - 9717 / 100000 - 1 / 5000)]

/-- The largest value of `t² sin t` up to the root of 500. -/
theorem schwefel_pos {t : ℝ} (h0 : 0 ≤ t) (h1 : t ^ 2 ≤ 500) : t ^ 2 * sin t ≤ 418.9829 := by
  rcases le_or_gt t 20.42 with h | h
  · nlinarith [sin_le_one t]
  · have ht : t ≤ 22.361 := by nlinarith
    have p1 := pi_gt_d20
    have p2 := pi_lt_d20
    have e : sin t = cos (t - 6.5 * π) := by
      rw [show t - 6.5 * π = -(π / 2 - (t - (3 : ℕ) * (2 * π))) by push_cast; ring, cos_neg, cos_pi_div_two_sub, sin_sub_nat_mul_two_pi]
    have hc : cos (t - 6.5 * π) ≤ 1 - (t - 6.5 * π) ^ 2 / 2 + (t - 6.5 * π) ^ 4 / 24 := by
      have := cos4 (abs_nonneg (t - 6.5 * π))
      rw [cos_abs] at this
      calc _ ≤ _ := this
        _ = _ := by
          rw [show |t - 6.5 * π| ^ 4 = (|t - 6.5 * π| ^ 2) ^ 2 by ring, sq_abs]; ring
    have hp := schwefel_poly (u := t - 6.5 * π) (by norm_num at *; linarith) (by norm_num at *; linarith)
    have hs : t ^ 2 ≤ (20.4203522484 + (t - 6.5 * π)) ^ 2 := pow_le_pow_left₀ h0 (by norm_num at *; linarith) 2
    rw [e]
    rcases le_or_gt 0 (1 - (t - 6.5 * π) ^ 2 / 2 + (t - 6.5 * π) ^ 4 / 24) with hq | hq
    swap
    · nlinarith [mul_nonneg (sq_nonneg t) (neg_nonneg.2 (hc.trans hq.le))]
    calc t ^ 2 * cos (t - 6.5 * π) ≤ t ^ 2 * (1 - (t - 6.5 * π) ^ 2 / 2 + (t - 6.5 * π) ^ 4 / 24) := mul_le_mul_of_nonneg_left hc (sq_nonneg t)
      _ ≤ _ := le_trans (mul_le_mul_of_nonneg_right hs hq) hp

theorem schwefel_neg {t : ℝ} (h0 : 0 ≤ t) (h1 : t ^ 2 ≤ 500) : -418.9829 ≤ t ^ 2 * sin t := by
  rcases le_or_gt t 20.4203 with h | h
  · nlinarith [neg_one_le_sin t]
  · have ht : t ≤ 22.361 := by nlinarith
    have p1 := pi_gt_d4
    have p2 := pi_lt_d4
    have e : sin t = -sin (t - 7 * π) := by
      rw [show t - 7 * π = t - (3 : ℕ) * (2 * π) - π by push_cast; ring, sin_sub_pi, sin_sub_nat_mul_two_pi, neg_neg]
    have : sin (t - 7 * π) ≤ 0.38 := by
      rcases le_or_gt 0 (t - 7 * π) with hh | hh
      · exact (sin_le hh).trans (by norm_num at *; linarith)
      · have := sin_nonpos_of_nonpos_of_neg_pi_le hh.le (by norm_num at *; linarith)
        linarith
    rw [e]
    nlinarith [sq_nonneg t]

theorem schwefel_one {x : ℝ} (h : |x| ≤ 500) : -418.9829 ≤ -x * sin √|x| := by
  have h0 := sqrt_nonneg |x|
  have h1 := sq_sqrt (abs_nonneg x)
  have h2 : √|x| ^ 2 ≤ 500 := by rw [h1]; exact h
  have a := schwefel_pos h0 h2
  have b := schwefel_neg h0 h2
  rw [h1] at a b
  rcases abs_cases x with ⟨hx, _⟩ | ⟨hx, _⟩
  · rw [show -x * sin √|x| = -(x * sin √|x|) by ring]
    nth_rewrite 1 [hx] at a
    linarith
  · nth_rewrite 1 [hx] at b
    linarith

theorem schwefel_at : 418.982 ≤ 420.9687 * sin √420.9687 := by
  have p1 := pi_gt_d20
  have p2 := pi_lt_d20
  have s1 : 20.51752 ≤ √420.9687 := le_sqrt_of_sq_le (by norm_num)
  have s2 : √420.9687 ≤ 20.51753 := by rw [sqrt_le_left (by norm_num)]; norm_num
  have e : sin √420.9687 = cos (√420.9687 - 6.5 * π) := by
    rw [show √420.9687 - 6.5 * π = -(π / 2 - (√420.9687 - (3 : ℕ) * (2 * π))) by push_cast; ring, cos_neg, cos_pi_div_two_sub,
      sin_sub_nat_mul_two_pi]
  have u1 : 0.09716 ≤ √420.9687 - 6.5 * π := by norm_num at *; linarith
  have u2 : √420.9687 - 6.5 * π ≤ 0.09718 := by norm_num at *; linarith
  have hc := cos6 (x := √420.9687 - 6.5 * π) (by linarith)
  rw [e]
  have a2 : (√420.9687 - 6.5 * π) ^ 2 ≤ 0.09718 ^ 2 := pow_le_pow_left₀ (by linarith) u2 2
  have a4 : 0.09716 ^ 4 ≤ (√420.9687 - 6.5 * π) ^ 4 := pow_le_pow_left₀ (by norm_num) u1 4
  have a6 : (√420.9687 - 6.5 * π) ^ 6 ≤ 0.09718 ^ 6 := pow_le_pow_left₀ (by linarith) u2 6
  norm_num at *
  linarith

/-- True up to rounding, and never undercut. -/
theorem C79_schwefel (d : ℕ) (shift : Bool) :
    (schwefel d shift).TruthfulUpTo (1e-3 * d) ∧
      ∀ x, InBox (schwefel d shift).lo (schwefel d shift).hi x → (schwefel d shift).minFx ≤ (schwefel d shift).f x := by
  have hd : (0 : ℝ) ≤ d := Nat.cast_nonneg d
  have low : ∀ x, InBox (schwefel d shift).lo (schwefel d shift).hi x → (schwefel d shift).minFx ≤ (schwefel d shift).f x := by
    intro x hx
    have := sum_le_sum (s := univ) fun (i : Fin d) _ => schwefel_one (abs_le.2 (hx i))
    simp only [sum_const, card_univ, Fintype.card_fin, nsmul_eq_mul] at this
    cases shift <;> simp only [schwefel, box, shifted, if_true, if_false, Bool.false_eq_true] <;> linarith
  refine ⟨⟨fun i => by simp only [schwefel, box]; norm_num, ?_, fun x hx => ?_⟩, low⟩
  · have h1 := schwefel_at
    have h2 : -418.9829 ≤ -420.9687 * sin √|420.9687| := schwefel_one (by norm_num)
    rw [abs_of_nonneg (by norm_num : (0 : ℝ) ≤ 420.9687)] at h2
    rw [abs_le]
    cases shift <;> simp only [schwefel, box, shifted, if_true, if_false, Bool.false_eq_true, sum_const, card_univ, Fintype.card_fin, nsmul_eq_mul] <;>
      rw [abs_of_nonneg (by norm_num : (0 : ℝ) ≤ 420.9687)] <;> constructor <;> nlinarith
  · have := low x hx; linarith

/-! ## Rana -/

theorem sqrt_abs_neg_sq {a b : ℝ} (hb : 0 ≤ b) (h : a = -b ^ 2) : √|a| = b := by
  rw [h, abs_neg, abs_of_nonneg (sq_nonneg b), sqrt_sq hb]

theorem sin_cos_shift (b : ℝ) : sin b = sin (b - 10 * π) ∧ cos b = cos (b - 10 * π) := by
  constructor
  · rw [show b - 10 * π = b - (5 : ℕ) * (2 * π) by push_cast; ring, sin_sub_nat_mul_two_pi]
  · rw [show b - 10 * π = b - (5 : ℕ) * (2 * π) by push_cast; ring, cos_sub_nat_mul_two_pi]

theorem sin_one_bounds : 0.841 ≤ sin 1 ∧ sin 1 ≤ 0.842 := by
  have := sin5 (x := 1) (by norm_num)
  have := sin7 (x := 1) (by norm_num)
  norm_num at *; constructor <;> linarith

theorem cos_one_bounds : 0.54 ≤ cos 1 ∧ cos 1 ≤ 0.542 := by
  have := cos4 (x := 1) (by norm_num)
  have := cos6 (x := 1) (by norm_num)
  norm_num at *; constructor <;> linarith

theorem rana_announced : -473.5 ≤ ranaTerm (-500) (-500) := by
  have e1 : √|(-500 : ℝ) - -500 + 1| = 1 := by norm_num
  have e2 : |(-500 : ℝ) + -500 + 1| = 999 := by norm_num
  have p1 := pi_gt_d6
  have s1 : 31.6 ≤ √999 := le_sqrt_of_sq_le (by norm_num)
  have s2 : √999 ≤ 31.607 := by rw [sqrt_le_left (by norm_num)]; norm_num
  have p2 := pi_lt_d6
  have b1 : sin (√999) ≤ 0.192 := by
    rw [(sin_cos_shift _).1]
    exact (sin_le (by norm_num at *; linarith)).trans (by norm_num at *; linarith)
  have b0 : 0 ≤ sin (√999) := by
    rw [(sin_cos_shift _).1]
    exact sin_nonneg_of_nonneg_of_le_pi (by norm_num at *; linarith) (by norm_num at *; linarith)
  have c1 := cos_le_one (√999)
  unfold ranaTerm
  rw [e1, e2]
  have := sin_one_bounds
  have := cos_one_bounds
  have k1 : sin 1 * cos √999 ≤ 0.842 := by nlinarith [sin_one_bounds.1]
  have k2 : sin √999 * cos 1 ≤ 0.192 * 0.542 := by nlinarith
  nlinarith

theorem rana_first : ranaTerm (-2550895171009 / 5104540800) (-2550895171009 / 5104540800) ≤ -461 := by
  have e1 : √|(-2550895171009 / 5104540800 : ℝ) - -2550895171009 / 5104540800 + 1| = 1 := by norm_num
  have e2 : √|(-2550895171009 / 5104540800 : ℝ) + -2550895171009 / 5104540800 + 1| = 1596353 / 50520 :=
    sqrt_abs_neg_sq (by norm_num) (by norm_num)
  have p1 := pi_gt_d6
  have p2 := pi_lt_d6
  have b1 : 0.181 ≤ sin (1596353 / 50520) := by
    rw [(sin_cos_shift _).1]
    have u0 : (0.182 : ℝ) ≤ 1596353 / 50520 - 10 * π := by norm_num at *; linarith
    have u1 : 1596353 / 50520 - 10 * π ≤ (0.1830 : ℝ) := by norm_num at *; linarith
    have := sin3 (x := 1596353 / 50520 - 10 * π) (by linarith)
    have := pow_le_pow_left₀ (by linarith) u1 3
    norm_num at *; linarith
  have c1 : 0.983 ≤ cos (1596353 / 50520) := by
    rw [(sin_cos_shift _).2]
    have u0 : (0.182 : ℝ) ≤ 1596353 / 50520 - 10 * π := by norm_num at *; linarith
    have u1 : 1596353 / 50520 - 10 * π ≤ (0.1830 : ℝ) := by norm_num at *; linarith
    have := cos2 (x := 1596353 / 50520 - 10 * π) (by linarith)
    have := pow_le_pow_left₀ (by linarith) u1 2
    norm_num at *; linarith
  unfold ranaTerm
  rw [e1, e2]
  have := sin_one_bounds
  have := cos_one_bounds
  have k1 : 0.841 * 0.983 ≤ sin 1 * cos (1596353 / 50520) := by nlinarith
  have k2 : 0.181 * 0.54 ≤ sin (1596353 / 50520) * cos 1 := by nlinarith
  norm_num at *
  nlinarith

theorem rana_other : ranaTerm (-2550895171009 / 5104540800) (-2535785730241 / 5104540800) ≤ -494 := by
  have e1 : √|(-2550895171009 / 5104540800 : ℝ) - -2535785730241 / 5104540800 + 1| = 1.4 :=
    sqrt_abs_neg_sq (by norm_num) (by norm_num)
  have e2 : √|(-2550895171009 / 5104540800 : ℝ) + -2535785730241 / 5104540800 + 1| = 318797 / 10104 :=
    sqrt_abs_neg_sq (by norm_num) (by norm_num)
  have p1 := pi_gt_d6
  have p2 := pi_lt_d6
  have u0 : (0.135 : ℝ) ≤ 318797 / 10104 - 10 * π := by norm_num at *; linarith
  have u1 : 318797 / 10104 - 10 * π ≤ (0.137 : ℝ) := by norm_num at *; linarith
  have b1 : 0.134 ≤ sin (318797 / 10104) := by
    rw [(sin_cos_shift _).1]
    have := sin3 (x := 318797 / 10104 - 10 * π) (by linarith)
    have := pow_le_pow_left₀ (by linarith) u1 3
    norm_num at *; linarith
  have c1 : 0.990 ≤ cos (318797 / 10104) := by
    rw [(sin_cos_shift _).2]
    have := cos2 (x := 318797 / 10104 - 10 * π) (by linarith)
    have := pow_le_pow_left₀ (by linarith) u1 2
    norm_num at *; linarith
  have s1 : 0.985 ≤ sin 1.4 := by
    have := sin7 (x := 1.4) (by norm_num)
    norm_num at *; linarith
  have s2 : 0.169 ≤ cos 1.4 := by
    have := cos6 (x := 1.4) (by norm_num)
    norm_num at *; linarith
  unfold ranaTerm
  rw [e1, e2]
  have k1 : 0.985 * 0.990 ≤ sin 1.4 * cos (318797 / 10104) := by nlinarith
  have k2 : 0.134 * 0.169 ≤ sin (318797 / 10104) * cos 1.4 := by nlinarith
  norm_num at *
  nlinarith

/-- In two or more dimensions the announced minimum is undercut. -/
theorem C79_rana_refuted (n : ℕ) (hn : 0 < n) :
    ∃ x, InBox (rana n).lo (rana n).hi x ∧ (rana n).f x < (rana n).minFx - 5 := by
  refine ⟨fun i => if i = 0 then -2550895171009 / 5104540800 else -2535785730241 / 5104540800, fun i => ?_, ?_⟩
  · simp only [rana, box]; split_ifs <;> norm_num
  · simp only [rana, box, ranaF, sum_const, card_univ, Fintype.card_fin, nsmul_eq_mul]
    rw [Fin.sum_univ_succ]
    simp only [if_true, Fin.succ_ne_zero, if_false, sum_const, card_univ, Fintype.card_fin, nsmul_eq_mul]
    have h0 := rana_announced
    have h1 := rana_first
    have h2 := rana_other
    have hn' : (1 : ℝ) ≤ n := by exact_mod_cast hn
    push_cast
    nlinarith

/-! ## Shubert -/

theorem shubert_abs (g : ℝ → ℝ) (hg : ∀ y, -1 ≤ g y) (x : ℝ) : -15 ≤ ∑ j ∈ Icc (1 : ℕ) 5, (j : ℝ) * g ((j + 1) * x + j) := by
  have : Icc (1 : ℕ) 5 = {1, 2, 3, 4, 5} := by decide
  rw [this]
  rw [sum_insert (by decide), sum_insert (by decide), sum_insert (by decide), sum_insert (by decide), sum_singleton]
  simp only [Nat.cast_ofNat, Nat.cast_one]
  linarith [hg ((1 + 1) * x + 1), hg ((2 + 1) * x + 2), hg ((3 + 1) * x + 3), hg ((4 + 1) * x + 4), hg ((5 + 1) * x + 5)]

theorem sin_near (k : ℕ) (t : ℝ) : sin t ≤ -1 + (t + π / 2 - k * (2 * π)) ^ 2 / 2 := by
  have : sin t = -cos (t + π / 2 - k * (2 * π)) := by
    rw [cos_sub_nat_mul_two_pi, cos_add_pi_div_two, neg_neg]
  rw [this]
  linarith [one_sub_sq_div_two_le_cos (x := t + π / 2 - k * (2 * π))]

theorem sq_le_of_bounds {a b : ℝ} (h1 : -b ≤ a) (h2 : a ≤ b) : a ^ 2 ≤ b ^ 2 := sq_le_sq' h1 h2

theorem shubertSin_at : shubertSin 5.169 ≤ -14.7 := by
  have hI : Icc (1 : ℕ) 5 = {1, 2, 3, 4, 5} := by decide
  unfold shubertSin
  rw [hI]
  rw [sum_insert (by decide), sum_insert (by decide), sum_insert (by decide), sum_insert (by decide), sum_singleton]
  simp only [Nat.cast_ofNat, Nat.cast_one]
  have p1 := pi_gt_d6
  have p2 := pi_lt_d6
  have h1 := sin_near 2 ((1 + 1) * 5.169 + 1)
  have h2 := sin_near 3 ((2 + 1) * 5.169 + 2)
  have h3 := sin_near 4 ((3 + 1) * 5.169 + 3)
  have h4 := sin_near 5 ((4 + 1) * 5.169 + 4)
  have h5 := sin_near 6 ((5 + 1) * 5.169 + 5)
  have q1 : ((1 + 1) * 5.169 + 1 + π / 2 - (2 : ℕ) * (2 * π)) ^ 2 ≤ 0.344 ^ 2 :=
    sq_le_of_bounds (by norm_num at *; linarith) (by norm_num at *; linarith)
  have q2 : ((2 + 1) * 5.169 + 2 + π / 2 - (3 : ℕ) * (2 * π)) ^ 2 ≤ 0.23 ^ 2 :=
    sq_le_of_bounds (by norm_num at *; linarith) (by norm_num at *; linarith)
  have q3 : ((3 + 1) * 5.169 + 3 + π / 2 - (4 : ℕ) * (2 * π)) ^ 2 ≤ 0.116 ^ 2 :=
    sq_le_of_bounds (by norm_num at *; linarith) (by norm_num at *; linarith)
  have q4 : ((4 + 1) * 5.169 + 4 + π / 2 - (5 : ℕ) * (2 * π)) ^ 2 ≤ 0.01 ^ 2 :=
    sq_le_of_bounds (by norm_num at *; linarith) (by norm_num at *; linarith)
  have q5 : ((5 + 1) * 5.169 + 5 + π / 2 - (6 : ℕ) * (2 * π)) ^ 2 ≤ 0.116 ^ 2 :=
    sq_le_of_bounds (by norm_num at *; linarith) (by norm_num at *; linarith)
  norm_num at *
  linarith

/-- In one dimension none of the three styles takes its announced minimum, and the third style undercuts it in two dimensions. -/
theorem C79_shubert_refuted :
    (∀ style x, shubertMin style false < shubertF (d := 1) style false x - 9) ∧
    (∃ x, InBox (d := 2) (fun _ => -10) (fun _ => 10) x ∧ shubertF 3 false x < shubertMin 3 false - 5) := by
  constructor
  · intro style x
    have c : -15 ≤ shubertCos (x 0) := shubert_abs cos neg_one_le_cos _
    have s : -15 ≤ shubertSin (x 0) := shubert_abs sin neg_one_le_sin _
    unfold shubertMin shubertF shifted
    simp only [Bool.false_eq_true, if_false, Finset.univ_unique, Fin.default_eq_zero, prod_singleton, sum_singleton]
    split_ifs <;> norm_num at * <;> linarith
  · refine ⟨fun _ => 5.169, fun i => by norm_num, ?_⟩
    unfold shubertMin shubertF shifted
    have := shubertSin_at
    simp only [Fin.sum_univ_two]
    norm_num at *; linarith

/-! ## Alpine02 -/

theorem alpine02_one {x : ℝ} (h0 : 0 ≤ x) (h1 : x ≤ 10) : |sin x * √x| ≤ 2.8085 := by
  have hs := sq_sqrt h0
  have hn := sqrt_nonneg x
  refine abs_le_of_sq_le_sq ?_ (by norm_num)
  rw [mul_pow, hs]
  have h2 : sin x ^ 2 ≤ 1 := by nlinarith [sin_sq_add_cos_sq x, sq_nonneg (cos x)]
  rcases le_or_gt x 7.885 with h | h
  · have : sin x ^ 2 * x ≤ 1 * x := mul_le_mul_of_nonneg_right h2 h0
    norm_num at *; linarith
  · have p1 := pi_gt_d6
    have p2 := pi_lt_d6
    have e : cos x = -sin (x - 2.5 * π) := by
      rw [show x - 2.5 * π = x - (1 : ℕ) * (2 * π) - π / 2 by push_cast; ring, sin_sub_pi_div_two, cos_sub_nat_mul_two_pi, neg_neg]
    have u0 : (0.03 : ℝ) ≤ x - 2.5 * π := by norm_num at *; linarith
    have u1 : x - 2.5 * π ≤ (2.15 : ℝ) := by norm_num at *; linarith
    have k : x = 2.5 * π + (x - 2.5 * π) := by ring
    have e2 : sin x ^ 2 = 1 - sin (x - 2.5 * π) ^ 2 := by
      have := sin_sq_add_cos_sq x
      rw [e] at this; linarith [this]
    have s := sin3 (x := x - 2.5 * π) (by linarith)
    generalize x - 2.5 * π = u at *
    have hx : x ≤ 7.854 + u := by norm_num at *; linarith
    rw [e2]
    rcases le_or_gt u 0.2 with g | g
    · have a1 : 0.993 * u ≤ sin u := by
        have : u ^ 2 ≤ 0.2 ^ 2 := pow_le_pow_left₀ (by linarith) g 2
        nlinarith [mul_nonneg (by linarith : (0 : ℝ) ≤ u) (sub_nonneg.2 this)]
      have a2 : (0.993 * u) ^ 2 ≤ sin u ^ 2 := pow_le_pow_left₀ (by linarith) a1 2
      nlinarith [sq_nonneg (u - 0.065)]
    · rcases le_or_gt u 1 with g' | g'
      · have a1 : 0.832 * u ≤ sin u := by
          have : u ^ 2 ≤ 1 ^ 2 := pow_le_pow_left₀ (by linarith) g' 2
          nlinarith [mul_nonneg (by linarith : (0 : ℝ) ≤ u) (sub_nonneg.2 this)]
        have a2 : (0.832 * u) ^ 2 ≤ sin u ^ 2 := pow_le_pow_left₀ (by linarith) a1 2
        nlinarith [mul_nonneg (sub_nonneg.2 g.le) (sub_nonneg.2 g')]
      · have a1 : 0.49 ≤ sin u := by nlinarith [mul_nonneg (sub_nonneg.2 g'.le) (sub_nonneg.2 u1)]
        have a2 : 0.49 ^ 2 ≤ sin u ^ 2 := pow_le_pow_left₀ (by norm_num) a1 2
        nlinarith

theorem alpine02_at : 2.808 < sin 7.917 * √7.917 := by
  have p1 := pi_gt_d6
  have p2 := pi_lt_d6
  have e : sin 7.917 = cos (7.917 - 2.5 * π) := by
    rw [show (7.917 : ℝ) - 2.5 * π = -(π / 2 - (7.917 - (1 : ℕ) * (2 * π))) by push_cast; ring, cos_neg, cos_pi_div_two_sub,
      sin_sub_nat_mul_two_pi]
  have h1 : 0.998013 ≤ sin 7.917 := by
    rw [e]
    have := one_sub_sq_div_two_le_cos (x := 7.917 - 2.5 * π)
    have : (7.917 - 2.5 * π) ^ 2 ≤ 0.06302 ^ 2 := sq_le_of_bounds (by norm_num at *; linarith) (by norm_num at *; linarith)
    norm_num at *; linarith
  have h2 : 2.8137 ≤ √7.917 := le_sqrt_of_sq_le (by norm_num)
  nlinarith

/-- The announced value is close to the minimum of `Alpine02`: the true one is within 0.0005 per dimension, relative to the factors. -/
theorem C79_alpine02_partial (d : ℕ) (x : Fin d → ℝ) (hx : InBox (alpine02 d).lo (alpine02 d).hi x) : -(2.808 + 0.0005) ^ d ≤ (alpine02 d).f x := by
  have h : ∏ i, sin (x i) * √(x i) ≤ 2.8085 ^ d := by
    calc _ ≤ |∏ i, sin (x i) * √(x i)| := le_abs_self _
      _ = ∏ i, |sin (x i) * √(x i)| := abs_prod _ _
      _ ≤ ∏ _i : Fin d, (2.8085 : ℝ) := prod_le_prod (fun i _ => abs_nonneg _) fun i _ => alpine02_one (hx i).1 (hx i).2
      _ = _ := by simp
  simp only [alpine02, box]
  norm_num at *; linarith

/-- It is not the minimum: the function is lower at the announced place. -/
theorem C79_alpine02_refuted (hd : 0 < d) :
    InBox (alpine02 d).lo (alpine02 d).hi (alpine02 d).minX ∧ (alpine02 d).f (alpine02 d).minX < (alpine02 d).minFx := by
  refine ⟨fun i => by simp only [alpine02, box]; norm_num, ?_⟩
  simp only [alpine02, box, prod_const, card_univ, Fintype.card_fin]
  exact neg_lt_neg (pow_lt_pow_left₀ alpine02_at (by norm_num) hd.ne')

end Glompo.Props
