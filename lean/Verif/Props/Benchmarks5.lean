import Verif.Props.Benchmarks4

/-!
# C79: the announced minimum of Langermann
-/

namespace Glompo.Props

open Finset Real Glompo.Bench Glompo.Num

namespace Langermann

/-- The squared distance. -/
def R (x y a b : ℝ) : ℝ := (x - a) ^ 2 + (y - b) ^ 2

/-- The factor which falls off. -/
noncomputable def W (r : ℝ) : ℝ := exp (-(r / π))

theorem W_pos (r : ℝ) : 0 < W r := exp_pos _

theorem W_le_one {r : ℝ} (h : 0 ≤ r) : W r ≤ 1 := by
  have := pi_pos
  unfold W
  rw [exp_le_one_iff, neg_nonpos]
  positivity

theorem W_mul (r s : ℝ) : W r * W s = W (r + s) := by
  unfold W
  rw [← exp_add]
  congr 1
  ring

theorem W_le {r q z B : ℝ} (hq : q ≤ r) (hz : z * 3.1416 ≤ q) (hz0 : 0 ≤ z) (hB0 : 0 ≤ B)
    (hB : 1 ≤ B * ∑ i ∈ range 12, z ^ i / (Nat.factorial i : ℝ)) : W r ≤ B := by
  have p0 := pi_pos
  have p2 := pi_lt_d4
  have h1 : z ≤ r / π := by
    rw [le_div_iff₀ p0]
    nlinarith
  have h2 : exp (-(r / π)) ≤ exp (-z) := exp_le_exp.2 (by linarith)
  have h3 := sum_le_exp_of_nonneg hz0 12
  have h4 : exp (-z) * exp z = 1 := by rw [← exp_add]; simp
  have h5 : 1 ≤ B * exp z := hB.trans (mul_le_mul_of_nonneg_left h3 hB0)
  have h6 : 0 < exp z := exp_pos z
  unfold W
  refine h2.trans ?_
  by_contra hlt
  rw [not_le] at hlt
  nlinarith

/-- From one centre the other one cannot be near. -/
theorem R_ge (x y a b c d l : ℝ) (hl : 0 < l) : ((a - c) ^ 2 + (b - d) ^ 2) * (1 - l) + R x y c d * (1 - 1 / l) ≤ R x y a b := by
  have h : 0 ≤ ((x - c - l * (a - c)) ^ 2 + (y - d - l * (b - d)) ^ 2) / l := by positivity
  have e : ((x - c - l * (a - c)) ^ 2 + (y - d - l * (b - d)) ^ 2) / l =
      R x y a b - (((a - c) ^ 2 + (b - d) ^ 2) * (1 - l) + R x y c d * (1 - 1 / l)) := by
    unfold R
    field_simp
    ring
  linarith

/-- Two centres cannot both be near. -/
theorem R_add (x y a b c d : ℝ) : ((a - c) ^ 2 + (b - d) ^ 2) / 2 ≤ R x y a b + R x y c d := by
  unfold R
  nlinarith [sq_nonneg (2 * x - a - c), sq_nonneg (2 * y - b - d)]

theorem W_mul_le {x y a b c d z B : ℝ} (hz : z * 3.1416 ≤ ((a - c) ^ 2 + (b - d) ^ 2) / 2) (hz0 : 0 ≤ z) (hB0 : 0 ≤ B)
    (hB : 1 ≤ B * ∑ i ∈ range 12, z ^ i / (Nat.factorial i : ℝ)) : W (R x y a b) * W (R x y c d) ≤ B := by
  rw [W_mul]
  exact W_le (R_add x y a b c d) hz hz0 hB0 hB

theorem R_nonneg (x y a b : ℝ) : 0 ≤ R x y a b := by unfold R; positivity

theorem cos_le_sq {r : ℝ} (h0 : 0 ≤ r) (h1 : r ≤ 1) : cos (π * r) ≤ 1 - 2 * r ^ 2 := by
  have p0 := pi_pos
  have h := cos_le_one_sub_mul_cos_sq (x := π * r) (by rw [abs_of_nonneg (by positivity)]; nlinarith)
  have e : 2 / π ^ 2 * (π * r) ^ 2 = 2 * r ^ 2 := by field_simp
  linarith

/-- The part of the sum which is far from the third centre, for points near it. -/
theorem others {x y l1 l2 m z1 z2 B1 B2 : ℝ} (hm : R x y 2 1 ≤ m) (hm2 : m ≤ 1.5) (hl1 : 0 < l1) (hl1' : l1 ≤ 1) (hl2 : 0 < l2) (hl2' : l2 ≤ 1)
    (h1 : z1 * 3.1416 ≤ 17 * (1 - l1) + m * (1 - 1 / l1)) (h2 : z2 * 3.1416 ≤ 10 * (1 - l2) + m * (1 - 1 / l2))
    (hz1 : 0 ≤ z1) (hz2 : 0 ≤ z2) (hB1 : 0 ≤ B1) (hB2 : 0 ≤ B2)
    (hS1 : 1 ≤ B1 * ∑ i ∈ range 12, z1 ^ i / (Nat.factorial i : ℝ)) (hS2 : 1 ≤ B2 * ∑ i ∈ range 12, z2 ^ i / (Nat.factorial i : ℝ)) :
    W (R x y 3 5) ≤ B1 ∧ W (R x y 5 2) ≤ B2 ∧ W (R x y 1 4) ≤ B2 ∧ W (R x y 7 9) ≤ 0.001 := by
  have mono : ∀ {l : ℝ}, 0 < l → l ≤ 1 → m * (1 - 1 / l) ≤ R x y 2 1 * (1 - 1 / l) := by
    intro l hl hl'
    have : 1 - 1 / l ≤ 0 := by
      have : 1 ≤ 1 / l := by rw [le_div_iff₀ hl]; linarith
      linarith
    nlinarith
  refine ⟨W_le ?_ h1 hz1 hB1 hS1, W_le ?_ h2 hz2 hB2 hS2, W_le ?_ h2 hz2 hB2 hS2, ?_⟩
  · have := R_ge x y 3 5 2 1 l1 hl1
    have := mono hl1 hl1'
    norm_num at *; linarith
  · have := R_ge x y 5 2 2 1 l2 hl2
    have := mono hl2 hl2'
    norm_num at *; linarith
  · have := R_ge x y 1 4 2 1 l2 hl2
    have := mono hl2 hl2'
    norm_num at *; linarith
  · refine W_le (q := 60) (z := 9) ?_ (by norm_num) (by norm_num) (by norm_num) (by norm_num [sum_range_succ, Nat.factorial])
    have := R_ge x y 7 9 2 1 0.13 (by norm_num)
    have := R_nonneg x y 2 1
    norm_num at *; linarith

theorem near {x y : ℝ} (h : R x y 2 1 ≤ 1.5) :
    5 * cos (π * R x y 2 1) * W (R x y 2 1) + 2 * W (R x y 5 2) + 2 * W (R x y 1 4) + W (R x y 3 5) + 3 * W (R x y 7 9) ≤ 5.2621 := by
  have h0 := R_nonneg x y 2 1
  have hW0 := W_pos (R x y 2 1)
  have hc := cos_le_one (π * R x y 2 1)
  rcases le_or_gt (R x y 2 1) 0.04 with a | a
  · obtain ⟨b1, b2, b3, b4⟩ := others (l1 := 0.0485) (l2 := 0.0632) (z1 := 4.89) (z2 := 2.793) (B1 := 0.0078) (B2 := 0.0625) a (by norm_num)
      (by norm_num) (by norm_num) (by norm_num) (by norm_num) (by norm_num) (by norm_num) (by norm_num) (by norm_num) (by norm_num) (by norm_num)
      (by norm_num [sum_range_succ, Nat.factorial]) (by norm_num [sum_range_succ, Nat.factorial])
    have hW := W_le_one h0
    have : cos (π * R x y 2 1) * W (R x y 2 1) ≤ 1 := by nlinarith
    linarith
  rcases le_or_gt (R x y 2 1) 0.1 with b | b
  · obtain ⟨b1, b2, b3, b4⟩ := others (l1 := 0.0767) (l2 := 0.1) (z1 := 4.61) (z2 := 2.578) (B1 := 0.0102) (B2 := 0.0765) b (by norm_num)
      (by norm_num) (by norm_num) (by norm_num) (by norm_num) (by norm_num) (by norm_num) (by norm_num) (by norm_num) (by norm_num) (by norm_num)
      (by norm_num [sum_range_succ, Nat.factorial]) (by norm_num [sum_range_succ, Nat.factorial])
    have hW : W (R x y 2 1) ≤ 0.9874 := W_le (z := 0.0127) a.le (by norm_num) (by norm_num) (by norm_num) (by norm_num [sum_range_succ, Nat.factorial])
    have : cos (π * R x y 2 1) * W (R x y 2 1) ≤ 0.9874 := by nlinarith
    linarith
  rcases le_or_gt (R x y 2 1) 0.25 with c | c
  · obtain ⟨b1, b2, b3, b4⟩ := others (l1 := 0.1213) (l2 := 0.158) (z1 := 4.17) (z2 := 2.25) (B1 := 0.0156) (B2 := 0.1056) c (by norm_num)
      (by norm_num) (by norm_num) (by norm_num) (by norm_num) (by norm_num) (by norm_num) (by norm_num) (by norm_num) (by norm_num) (by norm_num)
      (by norm_num [sum_range_succ, Nat.factorial]) (by norm_num [sum_range_succ, Nat.factorial])
    have hW : W (R x y 2 1) ≤ 0.97 := W_le (z := 0.0318) b.le (by norm_num) (by norm_num) (by norm_num) (by norm_num [sum_range_succ, Nat.factorial])
    have hcc := cos_le_sq h0 (by linarith)
    have : cos (π * R x y 2 1) ≤ 0.98 := by nlinarith
    have : cos (π * R x y 2 1) * W (R x y 2 1) ≤ 0.98 * 0.97 := by nlinarith
    norm_num at *; linarith
  rcases le_or_gt (R x y 2 1) 0.5 with e | e
  · obtain ⟨b1, b2, b3, b4⟩ := others (l1 := 0.1715) (l2 := 0.2236) (z1 := 3.71) (z2 := 1.91) (B1 := 0.025) (B2 := 0.15) e (by norm_num)
      (by norm_num) (by norm_num) (by norm_num) (by norm_num) (by norm_num) (by norm_num) (by norm_num) (by norm_num) (by norm_num) (by norm_num)
      (by norm_num [sum_range_succ, Nat.factorial]) (by norm_num [sum_range_succ, Nat.factorial])
    have hW := W_le_one h0
    have hcc := cos_le_sq h0 (by linarith)
    have : cos (π * R x y 2 1) ≤ 0.875 := by nlinarith
    have : cos (π * R x y 2 1) * W (R x y 2 1) ≤ 0.875 := by nlinarith
    linarith
  · obtain ⟨-, -, -, b4⟩ := others (l1 := 0.5) (l2 := 0.5) (z1 := 0) (z2 := 0) (B1 := 1) (B2 := 1) h (by norm_num)
      (by norm_num) (by norm_num) (by norm_num) (by norm_num) (by norm_num) (by norm_num) (by norm_num) (by norm_num) (by norm_num) (by norm_num)
      (by norm_num [sum_range_succ, Nat.factorial]) (by norm_num [sum_range_succ, Nat.factorial])
    have p0 := pi_pos
    have hcn : cos (π * R x y 2 1) ≤ 0 := cos_nonpos_of_pi_div_two_le_of_le (by nlinarith) (by nlinarith)
    have : cos (π * R x y 2 1) * W (R x y 2 1) ≤ 0 := by nlinarith
    have := W_le_one (R_nonneg x y 5 2)
    have := W_le_one (R_nonneg x y 1 4)
    have := W_le_one (R_nonneg x y 3 5)
    linarith

/-- Five factors of which no two are large together. -/
theorem far_arith {w1 w2 w3 w4 w5 : ℝ} (h1 : 0 < w1) (h2 : 0 < w2) (h3 : 0 < w3) (h4 : 0 < w4) (h5 : 0 < w5)
    (g1 : w1 ≤ 1) (g2 : w2 ≤ 1) (g4 : w4 ≤ 1) (g5 : w5 ≤ 1) (g3 : w3 ≤ 0.621)
    (a23 : w2 * w3 ≤ 0.204) (a34 : w4 * w3 ≤ 0.204) (a24 : w2 * w4 ≤ 0.042) (a13 : w1 * w3 ≤ 0.07) (a12 : w1 * w2 ≤ 0.13)
    (a51 : w5 * w1 ≤ 0.007) (a52 : w5 * w2 ≤ 0.007) (a53 : w5 * w3 ≤ 0.007) (a54 : w5 * w4 ≤ 0.007) :
    5 * w3 + 2 * w2 + 2 * w4 + w1 + 3 * w5 ≤ 5.2621 := by
  rcases le_or_gt 0.1 w5 with a | a
  · have : w1 ≤ 0.07 := by nlinarith
    have : w2 ≤ 0.07 := by nlinarith
    have : w3 ≤ 0.07 := by nlinarith
    have : w4 ≤ 0.07 := by nlinarith
    linarith
  rcases le_or_gt 0.3 w3 with b | b
  · have c1 : w1 ≤ 0.24 := by nlinarith
    have e2 : 5 * w3 + 2 * w2 ≤ 3.78 := by
      have : w2 ≤ 0.204 / w3 := by rw [le_div_iff₀ h3]; exact a23
      have k : 5 * w3 + 2 * (0.204 / w3) ≤ 3.78 := by
        rw [← sub_nonneg]
        have : 3.78 - (5 * w3 + 2 * (0.204 / w3)) = (3.78 * w3 - 5 * w3 ^ 2 - 0.408) / w3 := by field_simp; ring
        rw [this]
        apply div_nonneg _ h3.le
        nlinarith
      linarith
    have e4 : 5 * w3 + 2 * w4 ≤ 3.78 := by
      have : w4 ≤ 0.204 / w3 := by rw [le_div_iff₀ h3]; exact a34
      have k : 5 * w3 + 2 * (0.204 / w3) ≤ 3.78 := by
        rw [← sub_nonneg]
        have : 3.78 - (5 * w3 + 2 * (0.204 / w3)) = (3.78 * w3 - 5 * w3 ^ 2 - 0.408) / w3 := by field_simp; ring
        rw [this]
        apply div_nonneg _ h3.le
        nlinarith
      linarith
    rcases le_or_gt w2 0.21 with c | c
    · linarith
    · have : w4 ≤ 0.2 := by nlinarith
      linarith
  rcases le_or_gt 0.5 w2 with c | c
  · have : w4 ≤ 0.084 := by nlinarith
    have : w1 ≤ 0.26 := by nlinarith
    linarith
  rcases le_or_gt 0.5 w4 with e | e
  · have : w2 ≤ 0.084 := by nlinarith
    linarith
  · linarith

theorem far {x y : ℝ} (h : 1.5 < R x y 2 1) :
    5 * W (R x y 2 1) + 2 * W (R x y 5 2) + 2 * W (R x y 1 4) + W (R x y 3 5) + 3 * W (R x y 7 9) ≤ 5.2621 := by
  refine far_arith (W_pos _) (W_pos _) (W_pos _) (W_pos _) (W_pos _) (W_le_one (R_nonneg ..)) (W_le_one (R_nonneg ..)) (W_le_one (R_nonneg ..))
    (W_le_one (R_nonneg ..)) ?_ ?_ ?_ ?_ ?_ ?_ ?_ ?_ ?_ ?_
  · exact W_le (z := 0.4774) h.le (by norm_num) (by norm_num) (by norm_num) (by norm_num [sum_range_succ, Nat.factorial])
  · exact W_mul_le (z := 1.591) (by norm_num) (by norm_num) (by norm_num) (by norm_num [sum_range_succ, Nat.factorial])
  · exact W_mul_le (z := 1.591) (by norm_num) (by norm_num) (by norm_num) (by norm_num [sum_range_succ, Nat.factorial])
  · exact W_mul_le (z := 3.183) (by norm_num) (by norm_num) (by norm_num) (by norm_num [sum_range_succ, Nat.factorial])
  · exact W_mul_le (z := 2.7) (by norm_num) (by norm_num) (by norm_num) (by norm_num [sum_range_succ, Nat.factorial])
  · exact W_mul_le (z := 2.06) (by norm_num) (by norm_num) (by norm_num) (by norm_num [sum_range_succ, Nat.factorial])
  · exact W_mul_le (z := 5.09) (by norm_num) (by norm_num) (by norm_num) (by norm_num [sum_range_succ, Nat.factorial])
  · exact W_mul_le (z := 5.09) (by norm_num) (by norm_num) (by norm_num) (by norm_num [sum_range_succ, Nat.factorial])
  · exact W_mul_le (z := 5.09) (by norm_num) (by norm_num) (by norm_num) (by norm_num [sum_range_succ, Nat.factorial])
  · exact W_mul_le (z := 5.09) (by norm_num) (by norm_num) (by norm_num) (by norm_num [sum_range_succ, Nat.factorial])

/-- The sum of the Langermann function. -/
noncomputable def total (x y : ℝ) : ℝ :=
  cos (π * R x y 3 5) * W (R x y 3 5) + 2 * (cos (π * R x y 5 2) * W (R x y 5 2)) + 5 * (cos (π * R x y 2 1) * W (R x y 2 1)) +
    2 * (cos (π * R x y 1 4) * W (R x y 1 4)) + 3 * (cos (π * R x y 7 9) * W (R x y 7 9))

theorem total_le (x y : ℝ) : total x y ≤ 5.2621 := by
  have k : ∀ r, cos (π * r) * W r ≤ W r := fun r => by nlinarith [cos_le_one (π * r), W_pos r]
  have k1 := k (R x y 3 5)
  have k2 := k (R x y 5 2)
  have k3 := k (R x y 2 1)
  have k4 := k (R x y 1 4)
  have k5 := k (R x y 7 9)
  unfold total
  rcases le_or_gt (R x y 2 1) 1.5 with h | h
  · have := near h
    nlinarith
  · have := far h
    linarith

theorem f_eq (x : Fin 2 → ℝ) : (langermann false).f x = -total (x 0) (x 1) := by
  have e : ∀ r : ℝ, ∀ c, c * cos (π * r) / exp (r / π) = c * (cos (π * r) * W r) := by
    intro r c
    unfold W
    rw [exp_neg]
    field_simp
  simp only [langermann, shifted, langermannRows, List.map_cons, List.map_nil, List.sum_cons, List.sum_nil, Bool.false_eq_true, if_false, e, total, R]
  ring

theorem exp_32 : exp 3.2 ≤ 26 := by
  have h1 : exp 3.2 = exp 1 ^ 3 * exp 0.2 := by
    rw [← exp_nat_mul, ← exp_add]
    norm_num
  have h2 := exp_one_lt_d9
  have h3 : exp 0.2 ≤ 1.25 := by
    have := one_sub_le_exp_neg (0.2 : ℝ)
    have e : exp (-0.2) * exp 0.2 = 1 := by rw [← exp_add]; simp
    have := exp_pos (0.2 : ℝ)
    nlinarith
  have h4 : exp 1 ^ 3 ≤ 2.7182818286 ^ 3 := pow_le_pow_left₀ (exp_pos _).le h2.le 3
  rw [h1]
  have := exp_pos (0.2 : ℝ)
  have : exp 1 ^ 3 * exp 0.2 ≤ 2.7182818286 ^ 3 * 1.25 := mul_le_mul h4 h3 this.le (by norm_num)
  norm_num at *
  linarith

/-- A lower bound for the factor of a centre about as far away as the square root of ten. -/
theorem W_ge {r : ℝ} (h : r ≤ 10) : 0.038 ≤ W r := by
  have p1 := pi_gt_d4
  have p0 := pi_pos
  have h1 : r / π ≤ 3.2 := by
    rw [div_le_iff₀ p0]
    nlinarith
  have h2 : exp (-3.2) ≤ W r := exp_le_exp.2 (by linarith)
  have e : exp (-3.2) * exp 3.2 = 1 := by rw [← exp_add]; simp
  have h3 := exp_32
  have := exp_pos (-3.2 : ℝ)
  nlinarith

theorem total_at : 5.0622 ≤ total 2.00299219 1.006096 := by
  have p1 := pi_gt_d4
  have p2 := pi_lt_d4
  have p0 := pi_pos
  have c1 : -1 ≤ cos (π * R 2.00299219 1.006096 3 5) := neg_one_le_cos _
  have c5 : -1 ≤ cos (π * R 2.00299219 1.006096 7 9) := neg_one_le_cos _
  have w1 : W (R 2.00299219 1.006096 3 5) ≤ 0.01 :=
    W_le (q := 16) (z := 5) (by norm_num [R]) (by norm_num) (by norm_num) (by norm_num) (by norm_num [sum_range_succ, Nat.factorial])
  have w5 : W (R 2.00299219 1.006096 7 9) ≤ 0.001 :=
    W_le (q := 60) (z := 9) (by norm_num [R]) (by norm_num) (by norm_num) (by norm_num) (by norm_num [sum_range_succ, Nat.factorial])
  have near10 : ∀ r : ℝ, 9.9 ≤ r → r ≤ 10 → 0.9 ≤ cos (π * r) := by
    intro r ha hb
    have e : cos (π * r) = cos (π * (10 - r)) := by
      rw [← cos_neg (π * (10 - r)), ← cos_add_nat_mul_two_pi (-(π * (10 - r))) 5]
      congr 1
      push_cast
      ring
    rw [e]
    have := one_sub_sq_div_two_le_cos (x := π * (10 - r))
    have u : π * (10 - r) ≤ 0.4 := by nlinarith
    have v : 0 ≤ π * (10 - r) := by nlinarith
    nlinarith
  have c2 := near10 (R 2.00299219 1.006096 5 2) (by norm_num [R]) (by norm_num [R])
  have c4 := near10 (R 2.00299219 1.006096 1 4) (by norm_num [R]) (by norm_num [R])
  have w2 := W_ge (r := R 2.00299219 1.006096 5 2) (by norm_num [R])
  have w4 := W_ge (r := R 2.00299219 1.006096 1 4) (by norm_num [R])
  have r3 : R 2.00299219 1.006096 2 1 ≤ 0.0001 := by norm_num [R]
  have r30 := R_nonneg 2.00299219 1.006096 2 1
  have c3 : 0.9999 ≤ cos (π * R 2.00299219 1.006096 2 1) := by
    have := one_sub_sq_div_two_le_cos (x := π * R 2.00299219 1.006096 2 1)
    have u : π * R 2.00299219 1.006096 2 1 ≤ 0.001 := by nlinarith
    have v : 0 ≤ π * R 2.00299219 1.006096 2 1 := by positivity
    nlinarith
  have w3 : 0.9999 ≤ W (R 2.00299219 1.006096 2 1) := by
    have := one_sub_le_exp_neg (R 2.00299219 1.006096 2 1 / π)
    have u : R 2.00299219 1.006096 2 1 / π ≤ 0.0001 := by
      rw [div_le_iff₀ p0]
      nlinarith
    unfold W
    linarith
  have q1 : -0.01 ≤ cos (π * R 2.00299219 1.006096 3 5) * W (R 2.00299219 1.006096 3 5) := by
    nlinarith [W_pos (R 2.00299219 1.006096 3 5)]
  have q5 : -0.001 ≤ cos (π * R 2.00299219 1.006096 7 9) * W (R 2.00299219 1.006096 7 9) := by
    nlinarith [W_pos (R 2.00299219 1.006096 7 9)]
  have q2 : 0.9 * 0.038 ≤ cos (π * R 2.00299219 1.006096 5 2) * W (R 2.00299219 1.006096 5 2) :=
    mul_le_mul c2 w2 (by norm_num) (by linarith)
  have q4 : 0.9 * 0.038 ≤ cos (π * R 2.00299219 1.006096 1 4) * W (R 2.00299219 1.006096 1 4) :=
    mul_le_mul c4 w4 (by norm_num) (by linarith)
  have q3 : 0.9999 * 0.9999 ≤ cos (π * R 2.00299219 1.006096 2 1) * W (R 2.00299219 1.006096 2 1) :=
    mul_le_mul c3 w3 (by norm_num) (by linarith)
  unfold total
  linarith

end Langermann

/-- **C79** The announced minimum of Langermann is its minimum, shifted or not, up to an error of 0.1 in the value; the announced place is within the
bounds and comes as near. Missing: the remaining digits of the announced value. -/
theorem C79_langermann_partial (shift : Bool) :
    (langermann shift).TruthfulUpTo 0.1 ∧ ∀ x, (langermann shift).minFx - 0.1 ≤ (langermann shift).f x := by
  have low : ∀ x, (langermann shift).minFx - 0.1 ≤ (langermann shift).f x := by
    intro x
    have h := Langermann.f_eq x
    have h2 := Langermann.total_le (x 0) (x 1)
    cases shift
    · rw [h]
      norm_num [langermann] at *
      linarith
    · have e : (langermann true).f x = (langermann false).f x + 5.2 := by simp [langermann, shifted]
      rw [e, h]
      norm_num [langermann] at *
      linarith
  refine ⟨⟨?_, ?_, fun x _ => low x⟩, low⟩
  · intro i
    fin_cases i <;> norm_num [langermann]
  · have hl := low (langermann shift).minX
    rw [abs_le]
    refine ⟨by linarith, ?_⟩
    have h := Langermann.f_eq ![2.00299219, 1.006096]
    have h2 := Langermann.total_at
    cases shift
    · have e : (langermann false).minX = ![2.00299219, 1.006096] := rfl
      rw [e, h]
      norm_num [langermann] at *
      linarith
    · have e : (langermann true).minX = ![2.00299219, 1.006096] := rfl
      have e' : (langermann true).f ![2.00299219, 1.006096] = (langermann false).f ![2.00299219, 1.006096] + 5.2 := by simp [langermann, shifted]
      rw [e, e', h]
      norm_num [langermann] at *
      linarith

/-- The third centre, where the term with the largest coefficient peaks, is one of the points. -/
example : InBox (langermann true).lo (langermann true).hi ![2, 1] := by
  intro i
  fin_cases i <;> norm_num [langermann]

end Glompo.Props
