import Verif.Props.Benchmarks3

/-!
# C79: Michalewicz in two dimensions with the default parameter
-/

namespace Glompo.Props

open Finset Real Glompo.Bench Glompo.Num

/-- A power of a cosine falls off at least like this. -/
theorem cos_pow_mul_le {t : ℝ} (h1 : -(π / 2) ≤ t) (h2 : t ≤ π / 2) (n : ℕ) : (cos t ^ 2) ^ n * (1 + n * t ^ 2) ≤ 1 := by
  have hp := pi_pos
  have hb : 1 + n * t ^ 2 ≤ (1 + t ^ 2) ^ n := one_add_mul_le_pow (a := t ^ 2) (by nlinarith [sq_nonneg t]) n
  have hc : cos t ^ 2 * (1 + t ^ 2) ≤ 1 := by
    have h := cos_le_one_div_sqrt_sq_add_one (x := t) (by linarith) (by linarith)
    have h3 : cos t ^ 2 ≤ (1 / √(t ^ 2 + 1)) ^ 2 := pow_le_pow_left₀ (cos_nonneg_of_neg_pi_div_two_le_of_le h1 h2) h 2
    rw [div_pow, one_pow, sq_sqrt (by positivity), le_div_iff₀ (by positivity)] at h3
    linarith
  calc (cos t ^ 2) ^ n * (1 + n * t ^ 2) ≤ (cos t ^ 2) ^ n * (1 + t ^ 2) ^ n := by gcongr
    _ = (cos t ^ 2 * (1 + t ^ 2)) ^ n := by rw [mul_pow]
    _ ≤ 1 := pow_le_one₀ (by positivity) hc

theorem sin_two : sin 2.2214 ≤ 0.79584 ∧ 0 ≤ sin 2.2214 ∧ -0.60569 ≤ cos 2.2214 ∧ cos 2.2214 ≤ 0 := by
  have p1 := pi_gt_d6
  have p2 := pi_lt_d6
  have e1 : sin 2.2214 = cos (2.2214 - π / 2) := by rw [cos_sub_pi_div_two]
  have e2 : cos 2.2214 = -sin (2.2214 - π / 2) := by rw [sin_sub_pi_div_two, neg_neg]
  set u := 2.2214 - π / 2 with hu
  have u1 : 0.6506035 ≤ u := by norm_num at *; linarith
  have u2 : u ≤ 0.6506045 := by norm_num at *; linarith
  have u0 : 0 ≤ u := by linarith
  refine ⟨?_, ?_, ?_, ?_⟩
  · rw [e1]
    have a2 : 0.6506035 ^ 2 ≤ u ^ 2 := pow_le_pow_left₀ (by norm_num) u1 2
    have a4 : u ^ 4 ≤ 0.6506045 ^ 4 := pow_le_pow_left₀ u0 u2 4
    have := cos4 u0
    norm_num at *; linarith
  · exact sin_nonneg_of_nonneg_of_le_pi (by norm_num) (by linarith)
  · rw [e2]
    have a3 : 0.6506035 ^ 3 ≤ u ^ 3 := pow_le_pow_left₀ (by norm_num) u1 3
    have a5 : u ^ 5 ≤ 0.6506045 ^ 5 := pow_le_pow_left₀ u0 u2 5
    have := sin5 u0
    norm_num at *; linarith
  · exact cos_nonpos_of_pi_div_two_le_of_le (by linarith) (by linarith)

theorem mich_near {y T : ℝ} (hy : 0 ≤ y) (h : 1.35 * y ≤ T) : 0.79584 + 0.60569 * y ≤ 0.8023 * (1 + 10 * T ^ 2) := by
  have h2 : (1.35 * y) ^ 2 ≤ T ^ 2 := pow_le_pow_left₀ (by positivity) h 2
  have h3 : (1.35 * y) ^ 2 = 1.8225 * y ^ 2 := by ring
  have h4 := sq_nonneg (y - 0.020712)
  have h5 : (y - 0.020712) ^ 2 = y ^ 2 - 0.041424 * y + 0.000428986944 := by ring
  rw [h3] at h2
  rw [h5] at h4
  linarith

theorem mich_far {y T : ℝ} (hy : 0.2 ≤ y) (h : 0.707 * y ≤ T) : 0.79584 + 0.60569 * y ≤ 0.8023 * (1 + 10 * T ^ 2) := by
  have h2 : (0.707 * y) ^ 2 ≤ T ^ 2 := pow_le_pow_left₀ (by positivity) h 2
  have h3 : (0.707 * y) ^ 2 = 0.499849 * y ^ 2 := by ring
  have h4 : 0.2 * y ≤ y ^ 2 := by nlinarith
  rw [h3] at h2
  linarith

theorem mich_key {x t : ℝ} (h0 : 0 ≤ x) (hxa : x < 2.2214) (p0 : 0 < π) (p2 : π < 3.141593) (htneg : 0 ≤ -t)
    (htn : (2.2214 - x) * (2.2214 + x) ≤ -t * π) : 0.79584 + 0.60569 * (2.2214 - x) ≤ 0.8023 * (1 + 10 * t ^ 2) := by
  rw [← neg_sq t]
  generalize hT : -t = T at *
  have h1 : T * π ≤ T * 3.141593 := mul_le_mul_of_nonneg_left p2.le htneg
  have hy : 0 < 2.2214 - x := by linarith
  rcases le_or_gt 2.02 x with hxx | hxx
  · refine mich_near hy.le ?_
    have : (2.2214 - x) * 4.2414 ≤ (2.2214 - x) * (2.2214 + x) := mul_le_mul_of_nonneg_left (by linarith) hy.le
    linarith
  · refine mich_far (by linarith) ?_
    have : (2.2214 - x) * 2.2214 ≤ (2.2214 - x) * (2.2214 + x) := mul_le_mul_of_nonneg_left (by linarith) hy.le
    linarith

theorem michalewicz_one {x : ℝ} (h0 : 0 ≤ x) (h1 : x ≤ π) : sin x * sin (x ^ 2 / π) ^ 20 ≤ 0.8023 := by
  have p0 := pi_pos
  have p1 := pi_gt_d6
  have p2 := pi_lt_d6
  obtain ⟨s1, s0, c1, c2⟩ := sin_two
  have hx : sin x = sin 2.2214 * cos (x - 2.2214) + cos 2.2214 * sin (x - 2.2214) := by
    rw [← sin_add]; congr 1; ring
  have hn : 0 ≤ sin x := sin_nonneg_of_nonneg_of_le_pi h0 h1
  set t := x ^ 2 / π - π / 2 with ht
  have hC : sin (x ^ 2 / π) ^ 20 = (cos t ^ 2) ^ 10 := by rw [ht, cos_sub_pi_div_two]; ring
  rw [hC]
  set C := (cos t ^ 2) ^ 10 with hCd
  have hC0 : 0 ≤ C := by positivity
  have hC1 : C ≤ 1 := pow_le_one₀ (by positivity) (by nlinarith [abs_cos_le_one t, sq_abs (cos t), abs_nonneg (cos t)])
  rcases le_or_gt 2.2214 x with hxa | hxa
  · have hs : sin x ≤ 0.79584 := by
      have := cos_le_one (x - 2.2214)
      have : 0 ≤ sin (x - 2.2214) := sin_nonneg_of_nonneg_of_le_pi (by linarith) (by linarith)
      rw [hx]; nlinarith
    nlinarith
  · set y := 2.2214 - x with hy
    have hy0 : 0 < y := by linarith
    have hs : sin x ≤ 0.79584 + 0.60569 * y := by
      have e : sin (x - 2.2214) = -sin y := by rw [← sin_neg]; congr 1; rw [hy]; ring
      have := cos_le_one (x - 2.2214)
      have h3 : sin y ≤ y := sin_le hy0.le
      have h4 : 0 ≤ sin y := sin_nonneg_of_nonneg_of_le_pi hy0.le (by linarith)
      rw [hx, e]; nlinarith
    have hpp : 4.9348 ≤ π ^ 2 / 2 := by nlinarith
    have htπ : t * π = x ^ 2 - π ^ 2 / 2 := by rw [ht]; field_simp
    have hx2 : x ^ 2 = (2.2214 - y) ^ 2 := by rw [hy]; ring
    have htn : y * (2.2214 + x) ≤ -t * π := by
      have : -t * π = π ^ 2 / 2 - x ^ 2 := by linarith
      rw [this]
      have : y * (2.2214 + x) = 2.2214 ^ 2 - x ^ 2 := by rw [hy]; ring
      norm_num at *; linarith
    have hb1 : -(π / 2) ≤ t := by rw [ht]; have : 0 ≤ x ^ 2 / π := by positivity
                                  linarith
    have htneg : 0 ≤ -t := by
      have : 0 ≤ -t * π := le_trans (by positivity) htn
      exact nonneg_of_mul_nonneg_left this p0
    have hb2 : t ≤ π / 2 := by linarith
    have hm := cos_pow_mul_le hb1 hb2 10
    rw [← hCd] at hm
    push_cast at hm
    have key := mich_key h0 hxa p0 p2 htneg htn
    calc sin x * C ≤ (0.79584 + 0.60569 * y) * C := by gcongr
      _ ≤ 0.8023 * (1 + 10 * t ^ 2) * C := by gcongr
      _ = 0.8023 * (C * (1 + 10 * t ^ 2)) := by ring
      _ ≤ 0.8023 := by nlinarith

/-- A point where the first term is almost as large as it can be. -/
theorem michalewicz_at : 0.8003 ≤ sin 2.2 * sin (2.2 ^ 2 / π) ^ 20 := by
  have p0 := pi_pos
  have p1 := pi_gt_d6
  have p2 := pi_lt_d6
  have hs : 0.8084 ≤ sin 2.2 := by
    rw [← cos_sub_pi_div_two]
    set u := 2.2 - π / 2 with hu
    have u1 : 0.629203 ≤ u := by norm_num at *; linarith
    have u2 : u ≤ 0.629204 := by norm_num at *; linarith
    have u0 : 0 ≤ u := by linarith
    have a2 : u ^ 2 ≤ 0.629204 ^ 2 := pow_le_pow_left₀ u0 u2 2
    have a4 : 0.629203 ^ 4 ≤ u ^ 4 := pow_le_pow_left₀ (by norm_num) u1 4
    have a6 : u ^ 6 ≤ 0.629204 ^ 6 := pow_le_pow_left₀ u0 u2 6
    have := cos6 u0
    norm_num at *; linarith
  set t := 2.2 ^ 2 / π - π / 2 with ht
  have hC : sin (2.2 ^ 2 / π) ^ 20 = (cos t ^ 2) ^ 10 := by rw [ht, cos_sub_pi_div_two]; ring
  rw [hC]
  have htπ : t * π = 2.2 ^ 2 - π ^ 2 / 2 := by rw [ht]; field_simp
  have hpp : π ^ 2 / 2 ≤ 4.93481 := by nlinarith
  have hpp' : 4.9348 ≤ π ^ 2 / 2 := by nlinarith
  have ht1 : -0.0303 ≤ t := by
    by_contra h
    rw [not_le] at h
    have : t * π < -0.0303 * 3.141592 := by nlinarith
    norm_num at *; linarith
  have ht2 : t ≤ 0 := by
    by_contra h
    rw [not_le] at h
    have : 0 < t * π := by positivity
    norm_num at *; linarith
  have hc : 1 - t ^ 2 ≤ cos t ^ 2 := by
    have := sin_sq_le_sq (x := t)
    have := sin_sq_add_cos_sq t
    linarith
  have hsq : t ^ 2 ≤ 0.0303 ^ 2 := by nlinarith
  have h1 : 0.99 ≤ (cos t ^ 2) ^ 10 := by
    have hsq' : t ^ 2 ≤ 0.001 := by norm_num at hsq ⊢; linarith
    have hb := one_add_mul_le_pow (a := -t ^ 2) (by linarith) 10
    have h2 : (1 + -t ^ 2) ^ 10 ≤ (cos t ^ 2) ^ 10 := pow_le_pow_left₀ (by linarith) (by linarith) 10
    push_cast at hb
    linarith
  nlinarith

/-- With two dimensions and the default `m` the announced value is the minimum up to 0.001. -/
theorem C79_michalewicz_partial :
    (∀ x, InBox (michalewicz 2 10).lo (michalewicz 2 10).hi x → (michalewicz 2 10).minFx - 0.001 ≤ (michalewicz 2 10).f x) ∧
    ∃ x, InBox (michalewicz 2 10).lo (michalewicz 2 10).hi x ∧ (michalewicz 2 10).f x ≤ (michalewicz 2 10).minFx + 0.001 := by
  have p0 := pi_pos
  have p1 := pi_gt_d6
  constructor
  · intro x hx
    have h0 := hx 0
    have h1 := hx 1
    simp only [michalewicz, box] at h0 h1
    simp only [michalewicz, box, if_true, Fin.sum_univ_two]
    have a := michalewicz_one h0.1 h0.2
    have b : sin (x 1) * sin (((1 : ℕ) + 1) * x 1 ^ 2 / π) ^ 20 ≤ 1 := by
      have := sin_le_one (x 1)
      have := sin_nonneg_of_nonneg_of_le_pi h1.1 h1.2
      have h3 : sin (((1 : ℕ) + 1) * x 1 ^ 2 / π) ^ 20 ≤ 1 := by
        rw [show (20 : ℕ) = 2 * 10 by norm_num, pow_mul]
        exact pow_le_one₀ (sq_nonneg _) (sin_sq_le_one _)
      have h4 : 0 ≤ sin (((1 : ℕ) + 1) * x 1 ^ 2 / π) ^ 20 := by positivity
      nlinarith
    have e : sin (((0 : Fin 2) : ℕ) + 1 : ℝ) = sin (((0 : Fin 2) : ℕ) + 1 : ℝ) := rfl
    norm_num at *; linarith
  · refine ⟨![2.2, π / 2], ?_, ?_⟩
    · intro i
      fin_cases i <;> simp [michalewicz, box] <;> constructor <;> linarith
    · simp only [michalewicz, box, if_true, Fin.sum_univ_two]
      have e3 : ((1 : ℕ) + 1 : ℝ) * (π / 2) ^ 2 / π = π / 2 := by field_simp; ring
      show -(sin 2.2 * sin (((0 : ℕ) + 1) * 2.2 ^ 2 / π) ^ 20 + sin (π / 2) * sin (((1 : ℕ) + 1) * (π / 2) ^ 2 / π) ^ 20) ≤ _
      rw [e3, sin_pi_div_two]
      have := michalewicz_at
      norm_num at *; linarith

end Glompo.Props
