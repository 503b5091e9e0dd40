import Verif.Props.Benchmarks4

/-!
# C79: Michalewicz in five and ten dimensions with the default parameter
-/

namespace Glompo.Props

open Finset Real Glompo.Bench Glompo.Num

theorem mich_quad {M S c σ y t : ℝ} (hM : 0 < M) (hσ : 0 < σ) (hy : 0 ≤ y) (ht : σ * y ≤ t)
    (hd : c ^ 2 ≤ 40 * M * σ ^ 2 * (M - S)) : S + c * y ≤ M * (1 + 10 * t ^ 2) := by
  have h1 : (σ * y) ^ 2 ≤ t ^ 2 := pow_le_pow_left₀ (by positivity) ht 2
  have h2 : 0 < 40 * M * σ ^ 2 := by positivity
  have h3 : 0 ≤ 40 * M * σ ^ 2 * (M * (1 + 10 * (σ * y) ^ 2) - S - c * y) := by
    have : 40 * M * σ ^ 2 * (M * (1 + 10 * (σ * y) ^ 2) - S - c * y) =
      (20 * M * σ ^ 2 * y - c) ^ 2 + (40 * M * σ ^ 2 * (M - S) - c ^ 2) := by ring
    rw [this]
    nlinarith [sq_nonneg (20 * M * σ ^ 2 * y - c)]
  have h4 := nonneg_of_mul_nonneg_right h3 h2
  nlinarith

/-- Near one of the places where the second factor is 1. -/
theorem mich_hill {x M S c σ y t z : ℝ} (hM : 0 < M) (hσ : 0 < σ) (hy : 0 ≤ y) (ht : σ * y ≤ t) (ht2 : t ≤ π / 2)
    (hd : c ^ 2 ≤ 40 * M * σ ^ 2 * (M - S)) (hs : sin x ≤ S + c * y) (hz : sin z ^ 2 = cos t ^ 2) : sin x * sin z ^ 20 ≤ M := by
  have p0 := pi_pos
  have ht0 : 0 ≤ t := le_trans (by positivity) ht
  have hC : sin z ^ 20 = (cos t ^ 2) ^ 10 := by rw [← hz]; ring
  rw [hC]
  have hm := cos_pow_mul_le (t := t) (by linarith) ht2 10
  push_cast at hm
  have hq := mich_quad hM hσ hy ht hd
  set C := (cos t ^ 2) ^ 10
  have hC0 : 0 ≤ C := by positivity
  calc sin x * C ≤ (S + c * y) * C := by gcongr
    _ ≤ M * (1 + 10 * t ^ 2) * C := by gcongr
    _ = M * (C * (1 + 10 * t ^ 2)) := by ring
    _ ≤ M * 1 := by gcongr
    _ = M := mul_one M

theorem sin_shift_sq (t : ℝ) (k : ℕ) : sin (t + (k + 1 / 2) * π) ^ 2 = cos t ^ 2 := by
  rw [show t + (k + 1 / 2) * π = t + π / 2 + k * π by ring, sin_add_nat_mul_pi, sin_add_pi_div_two, mul_pow, ← pow_mul, mul_comm k 2, pow_mul]
  simp

theorem pow20_le_one (z : ℝ) : sin z ^ 20 ≤ 1 ∧ 0 ≤ sin z ^ 20 := by
  rw [show (20 : ℕ) = 2 * 10 by norm_num, pow_mul]
  exact ⟨pow_le_one₀ (sq_nonneg _) (sin_sq_le_one _), by positivity⟩

/-- Values of the sine and cosine left of the middle, at `π u`. -/
theorem sin_left {u la ua SA : ℝ} (la0 : 0 < la) (ua0 : ua ≤ 1 / 2) (r1 : la ≤ u) (r2 : u ≤ ua)
    (hS : 1 - (3.141592 * (1 / 2 - ua)) ^ 2 / 2 + (3.141593 * (1 / 2 - la)) ^ 4 / 24 ≤ SA) :
    sin (π * u) ≤ SA ∧ 0 ≤ sin (π * u) ∧ cos (π * u) ≤ 3.141593 * (1 / 2 - la) ∧ 0 ≤ cos (π * u) ∧ π * u ≤ π / 2 ∧ 0 ≤ π * u := by
  have p0 := pi_pos
  have p1 := pi_gt_d6
  have p2 := pi_lt_d6
  have d : π / 2 - π * u = π * (1 / 2 - u) := by ring
  have e1 : 3.141592 * (1 / 2 - ua) ≤ π / 2 - π * u := by
    rw [d]; exact mul_le_mul p1.le (by linarith) (by linarith) p0.le
  have e2 : π / 2 - π * u ≤ 3.141593 * (1 / 2 - la) := by
    rw [d]; exact mul_le_mul p2.le (by linarith) (by linarith) (by norm_num)
  have e0 : 0 ≤ π / 2 - π * u := by rw [d]; exact mul_nonneg p0.le (by linarith)
  have u0 : 0 ≤ π * u := mul_nonneg p0.le (by linarith)
  refine ⟨?_, sin_nonneg_of_nonneg_of_le_pi u0 (by linarith), ?_, cos_nonneg_of_neg_pi_div_two_le_of_le (by linarith) (by linarith), by linarith, u0⟩
  · have h := cos4 e0
    rw [cos_pi_div_two_sub] at h
    have h2 : (3.141592 * (1 / 2 - ua)) ^ 2 ≤ (π / 2 - π * u) ^ 2 := pow_le_pow_left₀ (mul_nonneg (by norm_num) (by linarith)) e1 2
    have h4 : (π / 2 - π * u) ^ 4 ≤ (3.141593 * (1 / 2 - la)) ^ 4 := pow_le_pow_left₀ e0 e2 4
    linarith
  · rw [← sin_pi_div_two_sub]
    exact le_trans (sin_le e0) e2

/-- Values of the sine and cosine right of the middle, at `π w`. -/
theorem sin_right {w lb ub SB : ℝ} (lb0 : 1 / 2 ≤ lb) (ub0 : ub ≤ 1) (r1 : lb ≤ w) (r2 : w ≤ ub)
    (hS : 1 - (3.141592 * (lb - 1 / 2)) ^ 2 / 2 + (3.141593 * (ub - 1 / 2)) ^ 4 / 24 ≤ SB) :
    sin (π * w) ≤ SB ∧ 0 ≤ sin (π * w) ∧ -cos (π * w) ≤ 3.141593 * (ub - 1 / 2) ∧ 0 ≤ -cos (π * w) ∧ π / 2 ≤ π * w ∧ π * w ≤ π := by
  have p0 := pi_pos
  have p1 := pi_gt_d6
  have p2 := pi_lt_d6
  have d : π * w - π / 2 = π * (w - 1 / 2) := by ring
  have f1 : 3.141592 * (lb - 1 / 2) ≤ π * w - π / 2 := by
    rw [d]; exact mul_le_mul p1.le (by linarith) (by linarith) p0.le
  have f2 : π * w - π / 2 ≤ 3.141593 * (ub - 1 / 2) := by
    rw [d]; exact mul_le_mul p2.le (by linarith) (by linarith) (by norm_num)
  have f0 : 0 ≤ π * w - π / 2 := by rw [d]; exact mul_nonneg p0.le (by linarith)
  have w1 : π * w ≤ π := mul_le_of_le_one_right p0.le (by linarith)
  refine ⟨?_, sin_nonneg_of_nonneg_of_le_pi (by linarith) w1, ?_, ?_, by linarith, w1⟩
  · have h := cos4 f0
    rw [cos_sub_pi_div_two] at h
    have h2 : (3.141592 * (lb - 1 / 2)) ^ 2 ≤ (π * w - π / 2) ^ 2 := pow_le_pow_left₀ (mul_nonneg (by norm_num) (by linarith)) f1 2
    have h4 : (π * w - π / 2) ^ 4 ≤ (3.141593 * (ub - 1 / 2)) ^ 4 := pow_le_pow_left₀ f0 f2 4
    linarith
  · have h := sin_le f0
    rw [sin_sub_pi_div_two] at h
    exact le_trans h f2
  · have : cos (π * w) ≤ 0 := cos_nonpos_of_pi_div_two_le_of_le (by linarith) (by linarith)
    linarith

theorem hill_at {i q v c : ℝ} (e : v ^ 2 = q) (h : i * q = c) : i * (π * v) ^ 2 / π = c * π := by
  have p0 := pi_pos
  rw [mul_pow, e, ← h]; field_simp

/-- The right side of the left hill. -/
theorem mich_left {x i u la S c M : ℝ} (k : ℕ) (hi : 0 < i) (hM : 0 < M) (la0 : 0 < la) (r1 : la ≤ u)
    (hav : i * (π * u) ^ 2 / π = (k + 1 / 2) * π) (hx : π * u < x) (hv : i * x ^ 2 / π ≤ (k + 1) * π)
    (s1 : sin (π * u) ≤ S) (s0 : 0 ≤ sin (π * u)) (c1 : cos (π * u) ≤ c) (c0 : 0 ≤ cos (π * u))
    (d : c ^ 2 ≤ 40 * M * (2 * i * la) ^ 2 * (M - S)) : sin x * sin (i * x ^ 2 / π) ^ 20 ≤ M := by
  have p0 := pi_pos
  refine mich_hill (S := S) (c := c) (σ := 2 * i * la) (y := x - π * u) (t := i * x ^ 2 / π - (k + 1 / 2) * π)
    hM (by positivity) (by linarith) ?_ (by linarith) d ?_ ?_
  · have key : i * x ^ 2 / π - i * (π * u) ^ 2 / π = i * (x - π * u) * (x + π * u) / π := by ring
    rw [← hav, key, le_div_iff₀ p0]
    have h1 : π * la ≤ π * u := mul_le_mul_of_nonneg_left r1 p0.le
    have h2 : 2 * (π * la) ≤ x + π * u := by linarith
    have h3 : 0 ≤ i * (x - π * u) := mul_nonneg hi.le (by linarith)
    calc 2 * i * la * (x - π * u) * π = i * (x - π * u) * (2 * (π * la)) := by ring
      _ ≤ i * (x - π * u) * (x + π * u) := mul_le_mul_of_nonneg_left h2 h3
  · have h : sin x = sin (π * u) * cos (x - π * u) + cos (π * u) * sin (x - π * u) := by rw [← sin_add]; congr 1; ring
    have h2 := cos_le_one (x - π * u)
    have h3 : sin (x - π * u) ≤ x - π * u := sin_le (by linarith)
    have h4 : cos (π * u) * sin (x - π * u) ≤ c * (x - π * u) :=
      le_trans (mul_le_mul_of_nonneg_left h3 c0) (mul_le_mul_of_nonneg_right c1 (by linarith))
    have h5 : sin (π * u) * cos (x - π * u) ≤ sin (π * u) * 1 := mul_le_mul_of_nonneg_left h2 s0
    rw [h]; linarith
  · rw [← sin_shift_sq _ k]; congr 2; ring

/-- The left side of the right hill. -/
theorem mich_right {x i w lb S c M : ℝ} (k : ℕ) (h0 : 0 ≤ x) (hi : 0 < i) (hM : 0 < M) (lb0 : 0 < lb) (r1 : lb ≤ w)
    (hbv : i * (π * w) ^ 2 / π = (k + 3 / 2) * π) (hx : x < π * w) (hv : (k + 1) * π < i * x ^ 2 / π)
    (s1 : sin (π * w) ≤ S) (s0 : 0 ≤ sin (π * w)) (c1 : -cos (π * w) ≤ c) (c0 : 0 ≤ -cos (π * w))
    (d : c ^ 2 ≤ 40 * M * (i * lb) ^ 2 * (M - S)) : sin x * sin (i * x ^ 2 / π) ^ 20 ≤ M := by
  have p0 := pi_pos
  refine mich_hill (S := S) (c := c) (σ := i * lb) (y := π * w - x) (t := (k + 3 / 2) * π - i * x ^ 2 / π)
    hM (by positivity) (by linarith) ?_ (by linarith) d ?_ ?_
  · have key : i * (π * w) ^ 2 / π - i * x ^ 2 / π = i * (π * w - x) * (x + π * w) / π := by ring
    rw [← hbv, key, le_div_iff₀ p0]
    have h1 : π * lb ≤ π * w := mul_le_mul_of_nonneg_left r1 p0.le
    have h2 : π * lb ≤ x + π * w := by linarith
    have h3 : 0 ≤ i * (π * w - x) := mul_nonneg hi.le (by linarith)
    calc i * lb * (π * w - x) * π = i * (π * w - x) * (π * lb) := by ring
      _ ≤ i * (π * w - x) * (x + π * w) := mul_le_mul_of_nonneg_left h2 h3
  · have h : sin x = sin (π * w) * cos (π * w - x) - cos (π * w) * sin (π * w - x) := by rw [← sin_sub]; congr 1; ring
    have h2 := cos_le_one (π * w - x)
    have h3 : sin (π * w - x) ≤ π * w - x := sin_le (by linarith)
    have h4 : -cos (π * w) * sin (π * w - x) ≤ c * (π * w - x) :=
      le_trans (mul_le_mul_of_nonneg_left h3 c0) (mul_le_mul_of_nonneg_right c1 (by linarith))
    have h5 : sin (π * w) * cos (π * w - x) ≤ sin (π * w) * 1 := mul_le_mul_of_nonneg_left h2 s0
    rw [h]; linarith
  · rw [← cos_neg, ← sin_shift_sq _ (k + 1)]; congr 2; push_cast; ring

/-- Bounds of a summand by its two hills next to the middle, at `π √qa` and `π √qb`. -/
theorem mich_term {x i qa qb : ℝ} (la ua lb ub SA SB : ℝ) {M : ℝ} (k : ℕ) (h0 : 0 ≤ x) (h1 : x ≤ π) (hi : 0 < i) (hM : 0 < M)
    (ha : i * qa = k + 1 / 2) (hb : i * qb = k + 3 / 2) (la0 : 0 < la) (lb0 : 1 / 2 ≤ lb) (ua0 : ua ≤ 1 / 2) (ub0 : ub ≤ 1)
    (la1 : la ≤ ua) (lb1 : lb ≤ ub) (a1 : la ^ 2 ≤ qa) (a2 : qa ≤ ua ^ 2) (b1 : lb ^ 2 ≤ qb) (b2 : qb ≤ ub ^ 2)
    (hSA : 1 - (3.141592 * (1 / 2 - ua)) ^ 2 / 2 + (3.141593 * (1 / 2 - la)) ^ 4 / 24 ≤ SA)
    (hSB : 1 - (3.141592 * (lb - 1 / 2)) ^ 2 / 2 + (3.141593 * (ub - 1 / 2)) ^ 4 / 24 ≤ SB)
    (hA : SA ≤ M) (hB : SB ≤ M)
    (dA : (3.141593 * (1 / 2 - la)) ^ 2 ≤ 40 * M * (2 * i * la) ^ 2 * (M - SA))
    (dB : (3.141593 * (ub - 1 / 2)) ^ 2 ≤ 40 * M * (i * lb) ^ 2 * (M - SB)) :
    sin x * sin (i * x ^ 2 / π) ^ 20 ≤ M := by
  have p0 := pi_pos
  have ra1 : la ≤ √qa := le_sqrt_of_sq_le a1
  have ra2 : √qa ≤ ua := (sqrt_le_left (by linarith)).mpr a2
  have rb1 : lb ≤ √qb := le_sqrt_of_sq_le b1
  have rb2 : √qb ≤ ub := (sqrt_le_left (by linarith)).mpr b2
  have ea := hill_at (sq_sqrt (le_trans (sq_nonneg _) a1)) ha
  have eb := hill_at (sq_sqrt (le_trans (sq_nonneg _) b1)) hb
  obtain ⟨sa, sa0, ca, ca0, ua1, ua2⟩ := sin_left la0 ua0 ra1 ra2 hSA
  obtain ⟨sb, sb0, cb, cb0, ub1, ub2⟩ := sin_right lb0 ub0 rb1 rb2 hSB
  obtain ⟨q1, q0⟩ := pow20_le_one (i * x ^ 2 / π)
  have hx0 : 0 ≤ sin x := sin_nonneg_of_nonneg_of_le_pi h0 h1
  have low : sin x ≤ M → sin x * sin (i * x ^ 2 / π) ^ 20 ≤ M := fun h =>
    le_trans (mul_le_of_le_one_right hx0 q1) h
  rcases le_or_gt x (π * √qa) with hxa | hxa
  · refine low (le_trans ?_ (le_trans sa hA))
    exact sin_le_sin_of_le_of_le_pi_div_two (by linarith) (by linarith) hxa
  rcases le_or_gt (π * √qb) x with hxb | hxb
  · refine low (le_trans ?_ (le_trans sb hB))
    rw [← sin_pi_sub x, ← sin_pi_sub (π * √qb)]
    exact sin_le_sin_of_le_of_le_pi_div_two (by linarith) (by linarith) (by linarith)
  rcases le_or_gt (i * x ^ 2 / π) ((k + 1) * π) with hv | hv
  · exact mich_left k hi hM la0 ra1 ea hxa hv sa sa0 ca ca0 dA
  · exact mich_right k h0 hi hM (by linarith) rb1 eb hxb hv sb sb0 cb cb0 dB

theorem mich3 {x : ℝ} (h0 : 0 ≤ x) (h1 : x ≤ π) : sin x * sin (3 * x ^ 2 / π) ^ 20 ≤ 0.9592 :=
  mich_term (qa := 1 / 6) (qb := 3 / 6) 0.40824 0.40825 0.70710 0.70711 0.958747 0.795813 0 h0 h1 (by norm_num) (by norm_num)
    (by norm_num) (by norm_num) (by norm_num) (by norm_num) (by norm_num) (by norm_num) (by norm_num) (by norm_num) (by norm_num)
    (by norm_num) (by norm_num) (by norm_num) (by norm_num) (by norm_num) (by norm_num) (by norm_num) (by norm_num) (by norm_num)

theorem mich4 {x : ℝ} (h0 : 0 ≤ x) (h1 : x ≤ π) : sin x * sin (4 * x ^ 2 / π) ^ 20 ≤ 0.9390 :=
  mich_term (qa := 1 / 8) (qb := 3 / 8) 0.35355 0.35356 0.61237 0.61238 0.896042 0.938336 0 h0 h1 (by norm_num) (by norm_num)
    (by norm_num) (by norm_num) (by norm_num) (by norm_num) (by norm_num) (by norm_num) (by norm_num) (by norm_num) (by norm_num)
    (by norm_num) (by norm_num) (by norm_num) (by norm_num) (by norm_num) (by norm_num) (by norm_num) (by norm_num) (by norm_num)

theorem mich5 {x : ℝ} (h0 : 0 ≤ x) (h1 : x ≤ π) : sin x * sin (5 * x ^ 2 / π) ^ 20 ≤ 0.9889 :=
  mich_term (qa := 1 / 10) (qb := 3 / 10) 0.31622 0.31623 0.54772 0.54773 0.837975 0.988784 0 h0 h1 (by norm_num) (by norm_num)
    (by norm_num) (by norm_num) (by norm_num) (by norm_num) (by norm_num) (by norm_num) (by norm_num) (by norm_num) (by norm_num)
    (by norm_num) (by norm_num) (by norm_num) (by norm_num) (by norm_num) (by norm_num) (by norm_num) (by norm_num) (by norm_num)

theorem mich7 {x : ℝ} (h0 : 0 ≤ x) (h1 : x ≤ π) : sin x * sin (7 * x ^ 2 / π) ^ 20 ≤ 0.9933 :=
  mich_term (qa := 3 / 14) (qb := 5 / 14) 0.46291 0.46292 0.59761 0.59762 0.993223 0.953352 1 h0 h1 (by norm_num) (by norm_num)
    (by norm_num) (by norm_num) (by norm_num) (by norm_num) (by norm_num) (by norm_num) (by norm_num) (by norm_num) (by norm_num)
    (by norm_num) (by norm_num) (by norm_num) (by norm_num) (by norm_num) (by norm_num) (by norm_num) (by norm_num) (by norm_num)

theorem mich8 {x : ℝ} (h0 : 0 ≤ x) (h1 : x ≤ π) : sin x * sin (8 * x ^ 2 / π) ^ 20 ≤ 0.9830 :=
  mich_term (qa := 3 / 16) (qb := 5 / 16) 0.43301 0.43302 0.55901 0.55902 0.977943 0.982866 1 h0 h1 (by norm_num) (by norm_num)
    (by norm_num) (by norm_num) (by norm_num) (by norm_num) (by norm_num) (by norm_num) (by norm_num) (by norm_num) (by norm_num)
    (by norm_num) (by norm_num) (by norm_num) (by norm_num) (by norm_num) (by norm_num) (by norm_num) (by norm_num) (by norm_num)

theorem mich9 {x : ℝ} (h0 : 0 ≤ x) (h1 : x ≤ π) : sin x * sin (9 * x ^ 2 / π) ^ 20 ≤ 0.99641 :=
  mich_term (qa := 3 / 18) (qb := 5 / 18) 0.40824 0.40825 0.52704 0.52705 0.958747 0.996395 1 h0 h1 (by norm_num) (by norm_num)
    (by norm_num) (by norm_num) (by norm_num) (by norm_num) (by norm_num) (by norm_num) (by norm_num) (by norm_num) (by norm_num)
    (by norm_num) (by norm_num) (by norm_num) (by norm_num) (by norm_num) (by norm_num) (by norm_num) (by norm_num) (by norm_num)

/-- A value of a summand at one of its hills. -/
theorem mich_at {i q : ℝ} (l u L : ℝ) (k : ℕ) (h : i * q = k + 1 / 2) (l0 : 0 ≤ l) (_ : l ≤ u) (hl : l ≤ |1 / 2 - √q|) (hu : |1 / 2 - √q| ≤ u)
    (q0 : 0 ≤ q) (hL : L ≤ 1 - (3.141593 * u) ^ 2 / 2 + (3.141592 * l) ^ 4 / 24 - (3.141593 * u) ^ 6 / 720) :
    L ≤ sin (π * √q) * sin (i * (π * √q) ^ 2 / π) ^ 20 := by
  have p0 := pi_pos
  have p1 := pi_gt_d6
  have p2 := pi_lt_d6
  have h1 : sin (i * (π * √q) ^ 2 / π) ^ 20 = 1 := by
    have := sin_shift_sq 0 k
    rw [hill_at (sq_sqrt q0) h, ← zero_add ((k + 1 / 2 : ℝ) * π), show (20 : ℕ) = 2 * 10 by norm_num, pow_mul, this]
    simp
  rw [h1, mul_one]
  have h2 : sin (π * √q) = cos (π * |1 / 2 - √q|) := by
    have : π * |1 / 2 - √q| = |π / 2 - π * √q| := by
      rw [show π / 2 - π * √q = π * (1 / 2 - √q) by ring, abs_mul, abs_of_pos p0]
    rw [this, cos_abs, cos_pi_div_two_sub]
  rw [h2]
  generalize |1 / 2 - √q| = y at hl hu
  have y0 : 0 ≤ π * y := mul_nonneg p0.le (by linarith)
  have y1 : 3.141592 * l ≤ π * y := mul_le_mul p1.le hl l0 p0.le
  have y2 : π * y ≤ 3.141593 * u := mul_le_mul p2.le hu (by linarith) (by norm_num)
  have b2 : (π * y) ^ 2 ≤ (3.141593 * u) ^ 2 := pow_le_pow_left₀ y0 y2 2
  have b4 : (3.141592 * l) ^ 4 ≤ (π * y) ^ 4 := pow_le_pow_left₀ (mul_nonneg (by norm_num) l0) y1 4
  have b6 : (π * y) ^ 6 ≤ (3.141593 * u) ^ 6 := pow_le_pow_left₀ y0 y2 6
  have := cos6 y0
  linarith

theorem mich3_at : 0.95871 ≤ sin (π * √(1 / 6)) * sin (3 * (π * √(1 / 6)) ^ 2 / π) ^ 20 := by
  have h1 : (0.40824 : ℝ) ≤ √(1 / 6) := le_sqrt_of_sq_le (by norm_num)
  have h2 : √(1 / 6) ≤ (0.40825 : ℝ) := (sqrt_le_left (by norm_num)).mpr (by norm_num)
  have h3 : |1 / 2 - √(1 / 6)| = 1 / 2 - √(1 / 6) := by
    rw [abs_of_nonneg (by linarith)]
  exact mich_at 0.09175 0.09176 0.95871 0 (by norm_num) (by norm_num) (by norm_num) (by rw [h3]; linarith) (by rw [h3]; linarith)
    (by norm_num) (by norm_num)

theorem mich4_at : 0.9383 ≤ sin (π * √(3 / 8)) * sin (4 * (π * √(3 / 8)) ^ 2 / π) ^ 20 := by
  have h1 : (0.61237 : ℝ) ≤ √(3 / 8) := le_sqrt_of_sq_le (by norm_num)
  have h2 : √(3 / 8) ≤ (0.61238 : ℝ) := (sqrt_le_left (by norm_num)).mpr (by norm_num)
  have h3 : |1 / 2 - √(3 / 8)| = √(3 / 8) - 1 / 2 := by
    rw [abs_of_nonpos (by linarith)]; ring
  exact mich_at 0.11237 0.11238 0.9383 1 (by norm_num) (by norm_num) (by norm_num) (by rw [h3]; linarith) (by rw [h3]; linarith)
    (by norm_num) (by norm_num)

theorem mich5_at : 0.98875 ≤ sin (π * √(3 / 10)) * sin (5 * (π * √(3 / 10)) ^ 2 / π) ^ 20 := by
  have h1 : (0.54772 : ℝ) ≤ √(3 / 10) := le_sqrt_of_sq_le (by norm_num)
  have h2 : √(3 / 10) ≤ (0.54773 : ℝ) := (sqrt_le_left (by norm_num)).mpr (by norm_num)
  have h3 : |1 / 2 - √(3 / 10)| = √(3 / 10) - 1 / 2 := by
    rw [abs_of_nonpos (by linarith)]; ring
  exact mich_at 0.04772 0.04773 0.98875 1 (by norm_num) (by norm_num) (by norm_num) (by rw [h3]; linarith) (by rw [h3]; linarith)
    (by norm_num) (by norm_num)

theorem mich7_at : 0.99319 ≤ sin (π * √(3 / 14)) * sin (7 * (π * √(3 / 14)) ^ 2 / π) ^ 20 := by
  have h1 : (0.46291 : ℝ) ≤ √(3 / 14) := le_sqrt_of_sq_le (by norm_num)
  have h2 : √(3 / 14) ≤ (0.46292 : ℝ) := (sqrt_le_left (by norm_num)).mpr (by norm_num)
  have h3 : |1 / 2 - √(3 / 14)| = 1 / 2 - √(3 / 14) := by
    rw [abs_of_nonneg (by linarith)]
  exact mich_at 0.03708 0.03709 0.99319 1 (by norm_num) (by norm_num) (by norm_num) (by rw [h3]; linarith) (by rw [h3]; linarith)
    (by norm_num) (by norm_num)

theorem mich8_at : 0.98283 ≤ sin (π * √(5 / 16)) * sin (8 * (π * √(5 / 16)) ^ 2 / π) ^ 20 := by
  have h1 : (0.55901 : ℝ) ≤ √(5 / 16) := le_sqrt_of_sq_le (by norm_num)
  have h2 : √(5 / 16) ≤ (0.55902 : ℝ) := (sqrt_le_left (by norm_num)).mpr (by norm_num)
  have h3 : |1 / 2 - √(5 / 16)| = √(5 / 16) - 1 / 2 := by
    rw [abs_of_nonpos (by linarith)]; ring
  exact mich_at 0.05901 0.05902 0.98283 2 (by norm_num) (by norm_num) (by norm_num) (by rw [h3]; linarith) (by rw [h3]; linarith)
    (by norm_num) (by norm_num)

theorem mich9_at : 0.99637 ≤ sin (π * √(5 / 18)) * sin (9 * (π * √(5 / 18)) ^ 2 / π) ^ 20 := by
  have h1 : (0.52704 : ℝ) ≤ √(5 / 18) := le_sqrt_of_sq_le (by norm_num)
  have h2 : √(5 / 18) ≤ (0.52705 : ℝ) := (sqrt_le_left (by norm_num)).mpr (by norm_num)
  have h3 : |1 / 2 - √(5 / 18)| = √(5 / 18) - 1 / 2 := by
    rw [abs_of_nonpos (by linarith)]; ring
  exact mich_at 0.02704 0.02705 0.99637 2 (by norm_num) (by norm_num) (by norm_num) (by rw [h3]; linarith) (by rw [h3]; linarith)
    (by norm_num) (by norm_num)

/-- A summand is never above 1. -/
theorem mich_le_one {x : ℝ} (h0 : 0 ≤ x) (h1 : x ≤ π) (y : ℝ) : sin x * sin y ^ 20 ≤ 1 := by
  have a := sin_nonneg_of_nonneg_of_le_pi h0 h1
  have h3 : sin y ^ 20 ≤ 1 := by
    rw [show (20 : ℕ) = 2 * 10 by norm_num, pow_mul]
    exact pow_le_one₀ (sq_nonneg _) (sin_sq_le_one _)
  exact mul_le_one₀ (sin_le_one x) (by positivity) h3

theorem mich2_at : sin (π / 2) * sin (2 * (π / 2) ^ 2 / π) ^ 20 = 1 := by
  have e : 2 * (π / 2) ^ 2 / π = π / 2 := by field_simp
  rw [e, sin_pi_div_two]; norm_num

theorem mich6_at : sin (π / 2) * sin (6 * (π / 2) ^ 2 / π) ^ 20 = 1 := by
  have e : 6 * (π / 2) ^ 2 / π = 0 + ((1 : ℕ) + 1 / 2) * π := by push_cast; field_simp; ring
  rw [e, sin_pi_div_two, show (20 : ℕ) = 2 * 10 by norm_num, pow_mul, sin_shift_sq]; simp

theorem mich10_at : sin (π / 2) * sin (10 * (π / 2) ^ 2 / π) ^ 20 = 1 := by
  have e : 10 * (π / 2) ^ 2 / π = 0 + ((2 : ℕ) + 1 / 2) * π := by push_cast; field_simp; ring
  rw [e, sin_pi_div_two, show (20 : ℕ) = 2 * 10 by norm_num, pow_mul, sin_shift_sq]; simp

theorem mich_point {q : ℝ} (h : q ≤ 1) : 0 ≤ π * √q ∧ π * √q ≤ π := by
  have p0 := pi_pos
  have h1 : √q ≤ 1 := by rw [sqrt_le_one]; exact h
  exact ⟨by positivity, by nlinarith⟩

theorem michalewicz5_sum (x : Fin 5 → ℝ) :
    (michalewicz 5 10).f x = -(sin (x 0) * sin (1 * x 0 ^ 2 / π) ^ 20 + sin (x 1) * sin (2 * x 1 ^ 2 / π) ^ 20 + sin (x 2) * sin (3 * x 2 ^ 2 / π) ^ 20 + sin (x 3) * sin (4 * x 3 ^ 2 / π) ^ 20 + sin (x 4) * sin (5 * x 4 ^ 2 / π) ^ 20) := by
  have h (g : Fin 5 → ℝ) : ∑ i, g i = g 0 + g 1 + g 2 + g 3 + g 4 := by
    rw [Fin.sum_univ_five]
  have e1 : (((0 : Fin 5) : ℕ) + 1 : ℝ) = 1 := by norm_num [Fin.ext_iff]
  have e2 : (((1 : Fin 5) : ℕ) + 1 : ℝ) = 2 := by norm_num [Fin.ext_iff]
  have e3 : (((2 : Fin 5) : ℕ) + 1 : ℝ) = 3 := by norm_num [Fin.ext_iff]
  have e4 : (((3 : Fin 5) : ℕ) + 1 : ℝ) = 4 := by norm_num [Fin.ext_iff]
  have e5 : (((4 : Fin 5) : ℕ) + 1 : ℝ) = 5 := by norm_num [Fin.ext_iff]
  simp only [michalewicz, box, h, e1, e2, e3, e4, e5]

/-- C79: the minimum announced for Michalewicz' function in five dimensions is right up to 0.002. -/
theorem C79_michalewicz5_partial :
    (∀ x, InBox (michalewicz 5 10).lo (michalewicz 5 10).hi x → (michalewicz 5 10).minFx - 0.002 ≤ (michalewicz 5 10).f x) ∧
    ∃ x, InBox (michalewicz 5 10).lo (michalewicz 5 10).hi x ∧ (michalewicz 5 10).f x ≤ (michalewicz 5 10).minFx + 0.002 := by
  have p0 := pi_pos
  have p1 := pi_gt_d6
  have hm : (michalewicz 5 10).minFx = -4.687658 := by simp [michalewicz, box]
  constructor
  · intro x hx
    have h : ∀ i, 0 ≤ x i ∧ x i ≤ π := hx
    rw [michalewicz5_sum, hm]
    have b1 : sin (x 0) * sin (1 * x 0 ^ 2 / π) ^ 20 ≤ 0.8023 := by rw [one_mul]; exact michalewicz_one (h 0).1 (h 0).2
    have b2 : sin (x 1) * sin (2 * x 1 ^ 2 / π) ^ 20 ≤ 1 := mich_le_one (h 1).1 (h 1).2 _
    have b3 : sin (x 2) * sin (3 * x 2 ^ 2 / π) ^ 20 ≤ 0.9592 := mich3 (h 2).1 (h 2).2
    have b4 : sin (x 3) * sin (4 * x 3 ^ 2 / π) ^ 20 ≤ 0.9390 := mich4 (h 3).1 (h 3).2
    have b5 : sin (x 4) * sin (5 * x 4 ^ 2 / π) ^ 20 ≤ 0.9889 := mich5 (h 4).1 (h 4).2
    norm_num at *; linarith
  · refine ⟨![2.2, π / 2, π * √(1 / 6), π * √(3 / 8), π * √(3 / 10)], ?_, ?_⟩
    · show ∀ i, 0 ≤ _ ∧ _ ≤ π
      intro i
      fin_cases i
      · show (0 : ℝ) ≤ 2.2 ∧ 2.2 ≤ π; constructor <;> linarith
      · show 0 ≤ π / 2 ∧ π / 2 ≤ π; constructor <;> linarith
      · exact mich_point (by norm_num)
      · exact mich_point (by norm_num)
      · exact mich_point (by norm_num)
    · rw [michalewicz5_sum, hm]
      show -(sin (2.2) * sin (1 * (2.2) ^ 2 / π) ^ 20 + sin (π / 2) * sin (2 * (π / 2) ^ 2 / π) ^ 20 + sin (π * √(1 / 6)) * sin (3 * (π * √(1 / 6)) ^ 2 / π) ^ 20 + sin (π * √(3 / 8)) * sin (4 * (π * √(3 / 8)) ^ 2 / π) ^ 20 + sin (π * √(3 / 10)) * sin (5 * (π * √(3 / 10)) ^ 2 / π) ^ 20) ≤ _
      have w1 := michalewicz_at
      have w2 := mich2_at
      have w3 := mich3_at
      have w4 := mich4_at
      have w5 := mich5_at
      rw [one_mul]
      linarith

theorem michalewicz10_sum (x : Fin 10 → ℝ) :
    (michalewicz 10 10).f x = -(sin (x 0) * sin (1 * x 0 ^ 2 / π) ^ 20 + sin (x 1) * sin (2 * x 1 ^ 2 / π) ^ 20 + sin (x 2) * sin (3 * x 2 ^ 2 / π) ^ 20 + sin (x 3) * sin (4 * x 3 ^ 2 / π) ^ 20 + sin (x 4) * sin (5 * x 4 ^ 2 / π) ^ 20 + sin (x 5) * sin (6 * x 5 ^ 2 / π) ^ 20 + sin (x 6) * sin (7 * x 6 ^ 2 / π) ^ 20 + sin (x 7) * sin (8 * x 7 ^ 2 / π) ^ 20 + sin (x 8) * sin (9 * x 8 ^ 2 / π) ^ 20 + sin (x 9) * sin (10 * x 9 ^ 2 / π) ^ 20) := by
  have h (g : Fin 10 → ℝ) : ∑ i, g i = g 0 + g 1 + g 2 + g 3 + g 4 + g 5 + g 6 + g 7 + g 8 + g 9 := by
    rw [Fin.sum_univ_castSucc, Fin.sum_univ_castSucc, Fin.sum_univ_eight]; rfl
  have e1 : (((0 : Fin 10) : ℕ) + 1 : ℝ) = 1 := by norm_num [Fin.ext_iff]
  have e2 : (((1 : Fin 10) : ℕ) + 1 : ℝ) = 2 := by norm_num [Fin.ext_iff]
  have e3 : (((2 : Fin 10) : ℕ) + 1 : ℝ) = 3 := by norm_num [Fin.ext_iff]
  have e4 : (((3 : Fin 10) : ℕ) + 1 : ℝ) = 4 := by norm_num [Fin.ext_iff]
  have e5 : (((4 : Fin 10) : ℕ) + 1 : ℝ) = 5 := by norm_num [Fin.ext_iff]
  have e6 : (((5 : Fin 10) : ℕ) + 1 : ℝ) = 6 := by norm_num [Fin.ext_iff]
  have e7 : (((6 : Fin 10) : ℕ) + 1 : ℝ) = 7 := by norm_num [Fin.ext_iff]
  have e8 : (((7 : Fin 10) : ℕ) + 1 : ℝ) = 8 := by norm_num [Fin.ext_iff]
  have e9 : (((8 : Fin 10) : ℕ) + 1 : ℝ) = 9 := by norm_num [Fin.ext_iff]
  have e10 : (((9 : Fin 10) : ℕ) + 1 : ℝ) = 10 := by norm_num [Fin.ext_iff]
  simp only [michalewicz, box, h, e1, e2, e3, e4, e5, e6, e7, e8, e9, e10]

/-- C79: the minimum announced for Michalewicz' function in ten dimensions is right up to 0.002. -/
theorem C79_michalewicz10_partial :
    (∀ x, InBox (michalewicz 10 10).lo (michalewicz 10 10).hi x → (michalewicz 10 10).minFx - 0.002 ≤ (michalewicz 10 10).f x) ∧
    ∃ x, InBox (michalewicz 10 10).lo (michalewicz 10 10).hi x ∧ (michalewicz 10 10).f x ≤ (michalewicz 10 10).minFx + 0.002 := by
  have p0 := pi_pos
  have p1 := pi_gt_d6
  have hm : (michalewicz 10 10).minFx = -9.66015 := by simp [michalewicz, box]
  constructor
  · intro x hx
    have h : ∀ i, 0 ≤ x i ∧ x i ≤ π := hx
    rw [michalewicz10_sum, hm]
    have b1 : sin (x 0) * sin (1 * x 0 ^ 2 / π) ^ 20 ≤ 0.8023 := by rw [one_mul]; exact michalewicz_one (h 0).1 (h 0).2
    have b2 : sin (x 1) * sin (2 * x 1 ^ 2 / π) ^ 20 ≤ 1 := mich_le_one (h 1).1 (h 1).2 _
    have b3 : sin (x 2) * sin (3 * x 2 ^ 2 / π) ^ 20 ≤ 0.9592 := mich3 (h 2).1 (h 2).2
    have b4 : sin (x 3) * sin (4 * x 3 ^ 2 / π) ^ 20 ≤ 0.9390 := mich4 (h 3).1 (h 3).2
    have b5 : sin (x 4) * sin (5 * x 4 ^ 2 / π) ^ 20 ≤ 0.9889 := mich5 (h 4).1 (h 4).2
    have b6 : sin (x 5) * sin (6 * x 5 ^ 2 / π) ^ 20 ≤ 1 := mich_le_one (h 5).1 (h 5).2 _
    have b7 : sin (x 6) * sin (7 * x 6 ^ 2 / π) ^ 20 ≤ 0.9933 := mich7 (h 6).1 (h 6).2
    have b8 : sin (x 7) * sin (8 * x 7 ^ 2 / π) ^ 20 ≤ 0.9830 := mich8 (h 7).1 (h 7).2
    have b9 : sin (x 8) * sin (9 * x 8 ^ 2 / π) ^ 20 ≤ 0.99641 := mich9 (h 8).1 (h 8).2
    have b10 : sin (x 9) * sin (10 * x 9 ^ 2 / π) ^ 20 ≤ 1 := mich_le_one (h 9).1 (h 9).2 _
    norm_num at *; linarith
  · refine ⟨![2.2, π / 2, π * √(1 / 6), π * √(3 / 8), π * √(3 / 10), π / 2, π * √(3 / 14), π * √(5 / 16), π * √(5 / 18), π / 2], ?_, ?_⟩
    · show ∀ i, 0 ≤ _ ∧ _ ≤ π
      intro i
      fin_cases i
      · show (0 : ℝ) ≤ 2.2 ∧ 2.2 ≤ π; constructor <;> linarith
      · show 0 ≤ π / 2 ∧ π / 2 ≤ π; constructor <;> linarith
      · exact mich_point (by norm_num)
      · exact mich_point (by norm_num)
      · exact mich_point (by norm_num)
      · show 0 ≤ π / 2 ∧ π / 2 ≤ π; constructor <;> linarith
      · exact mich_point (by norm_num)
      · exact mich_point (by norm_num)
      · exact mich_point (by norm_num)
      · show 0 ≤ π / 2 ∧ π / 2 ≤ π; constructor <;> linarith
    · rw [michalewicz10_sum, hm]
      show -(sin (2.2) * sin (1 * (2.2) ^ 2 / π) ^ 20 + sin (π / 2) * sin (2 * (π / 2) ^ 2 / π) ^ 20 + sin (π * √(1 / 6)) * sin (3 * (π * √(1 / 6)) ^ 2 / π) ^ 20 + sin (π * √(3 / 8)) * sin (4 * (π * √(3 / 8)) ^ 2 / π) ^ 20 + sin (π * √(3 / 10)) * sin (5 * (π * √(3 / 10)) ^ 2 / π) ^ 20 + sin (π / 2) * sin (6 * (π / 2) ^ 2 / π) ^ 20 + sin (π * √(3 / 14)) * sin (7 * (π * √(3 / 14)) ^ 2 / π) ^ 20 + sin (π * √(5 / 16)) * sin (8 * (π * √(5 / 16)) ^ 2 / π) ^ 20 + sin (π * √(5 / 18)) * sin (9 * (π * √(5 / 18)) ^ 2 / π) ^ 20 + sin (π / 2) * sin (10 * (π / 2) ^ 2 / π) ^ 20) ≤ _
      have w1 := michalewicz_at
      have w2 := mich2_at
      have w3 := mich3_at
      have w4 := mich4_at
      have w5 := mich5_at
      have w6 := mich6_at
      have w7 := mich7_at
      have w8 := mich8_at
      have w9 := mich9_at
      have w10 := mich10_at
      rw [one_mul]
      linarith

end Glompo.Props
