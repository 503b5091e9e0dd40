import Verif.Spec.Benchmarks
import Mathlib.Analysis.Calculus.Deriv.Pow
import Mathlib.Analysis.Calculus.Deriv.Inv
import Mathlib.Analysis.Calculus.Deriv.Add
import Mathlib.Tactic.NormNum
import Mathlib.Tactic.Linarith
import Mathlib.Tactic.Ring
import Mathlib.Tactic.FieldSimp

/-!
# C80, C81: the Lennard-Jones test case
-/

namespace Glompo.Props

open Finset Real Glompo.Bench

variable {n d : ℕ}

/-- The configuration in which coordinate `k` of atom `a` is `t`. -/
noncomputable abbrev moved (x : Fin n → Fin d → ℝ) (a : Fin n) (k : Fin d) (t : ℝ) : Fin n → Fin d → ℝ :=
  Function.update x a (Function.update (x a) k t)

theorem moved_self (x : Fin n → Fin d → ℝ) (a : Fin n) (k : Fin d) : moved x a k (x a k) = x := by simp [moved]

theorem moved_apply (x : Fin n → Fin d → ℝ) (a : Fin n) (k : Fin d) (t : ℝ) (i : Fin n) (l : Fin d) :
    moved x a k t i l = if i = a ∧ l = k then t else x i l := by
  unfold moved
  by_cases h : i = a
  · subst h
    by_cases h' : l = k
    · subst h'; simp
    · simp [h']
  · simp [h]

theorem hasDerivAt_coord (x : Fin n → Fin d → ℝ) (a : Fin n) (k : Fin d) (i : Fin n) (l : Fin d) (t : ℝ) :
    HasDerivAt (fun t => moved x a k t i l) (if i = a ∧ l = k then 1 else 0) t := by
  simp only [moved_apply]
  by_cases h : i = a ∧ l = k
  · simp only [h, and_self, if_true]; exact hasDerivAt_id t
  · simp only [h, if_false]; exact hasDerivAt_const t _

theorem hasDerivAt_distSq (x : Fin n → Fin d → ℝ) (a : Fin n) (k : Fin d) (i j : Fin n) :
    HasDerivAt (fun t => distSq (moved x a k t) i j)
      (2 * (x i k - x j k) * ((if i = a then 1 else 0) - (if j = a then 1 else 0))) (x a k) := by
  unfold distSq
  have h : ∀ l ∈ (univ : Finset (Fin d)), HasDerivAt (fun t => (moved x a k t i l - moved x a k t j l) ^ 2)
      (2 * (x i l - x j l) * ((if i = a ∧ l = k then 1 else 0) - (if j = a ∧ l = k then 1 else 0))) (x a k) := by
    intro l _
    have := ((hasDerivAt_coord x a k i l (x a k)).sub (hasDerivAt_coord x a k j l (x a k))).pow 2
    simp [moved_self] at this
    exact this
  have hs := HasDerivAt.fun_sum h
  refine hs.congr_deriv ?_
  rw [sum_eq_single k]
  · simp
  · intro l _ hl; simp [hl]
  · simp

theorem hasDerivAt_pair (sig : ℝ) {s : ℝ} (hs : s ≠ 0) :
    HasDerivAt (fun s => (sig ^ 2 / s) ^ 6 - (sig ^ 2 / s) ^ 3) (-6 * sig ^ 12 * (s⁻¹) ^ 7 + 3 * sig ^ 6 * (s⁻¹) ^ 4) s := by
  have h := (hasDerivAt_inv hs).const_mul (sig ^ 2)
  have h2 := (h.pow 6).sub (h.pow 3)
  have e : (fun s => (sig ^ 2 / s) ^ 6 - (sig ^ 2 / s) ^ 3) = (fun y => sig ^ 2 * y⁻¹) ^ 6 - (fun y => sig ^ 2 * y⁻¹) ^ 3 := by
    funext y; simp [div_eq_mul_inv]
  rw [e]
  refine h2.congr_deriv ?_
  push_cast
  field_simp
  ring

/-- The gradient is the returned vector times sigma. -/
theorem C80_jacobian_partial (eps sig : ℝ) (x : Fin n → Fin d → ℝ) (hx : ∀ i j, i < j → distSq x i j ≠ 0) (a : Fin n) (k : Fin d) :
    HasSlope (lennardJones eps sig) x a k (sig * ljJacobian eps sig x a k) := by
  unfold HasSlope lennardJones
  have hpair : ∀ i ∈ (univ : Finset (Fin n)), ∀ j ∈ univ.filter (i < ·),
      HasDerivAt (fun t => (sig ^ 2 / distSq (moved x a k t) i j) ^ 6 - (sig ^ 2 / distSq (moved x a k t) i j) ^ 3)
        ((-6 * sig ^ 12 * ((distSq x i j)⁻¹) ^ 7 + 3 * sig ^ 6 * ((distSq x i j)⁻¹) ^ 4) *
          (2 * (x i k - x j k) * ((if i = a then 1 else 0) - (if j = a then 1 else 0)))) (x a k) := by
    intro i _ j hj
    have h1 := hasDerivAt_distSq x a k i j
    have h2 := hasDerivAt_pair sig (hx i j (by simpa using hj))
    rw [show distSq x i j = distSq (moved x a k (x a k)) i j by rw [moved_self]] at h2
    have := h2.comp (x a k) h1
    rw [moved_self] at this
    exact this
  have hsum := (HasDerivAt.fun_sum fun i hi => HasDerivAt.fun_sum (hpair i hi)).mul_const (4 * eps)
  refine hsum.congr_deriv ?_
  unfold ljJacobian ljGrad
  rw [mul_sum, sum_mul]
  refine sum_congr rfl fun i _ => ?_
  rw [mul_sum, sum_mul]
  refine sum_congr rfl fun j _ => ?_
  split_ifs <;> ring

/-- So the returned vector is the gradient for the default `sigma`. -/
theorem C80_jacobian_default (eps : ℝ) (x : Fin n → Fin d → ℝ) (hx : ∀ i j, i < j → distSq x i j ≠ 0) (a : Fin n) (k : Fin d) :
    HasSlope (lennardJones eps 1) x a k (ljJacobian eps 1 x a k) := by
  have := C80_jacobian_partial eps 1 x hx a k
  rwa [one_mul] at this

/-- Two atoms on a line. -/
def dimer (r : ℝ) : Fin 2 → Fin 1 → ℝ := fun i _ => if i = 0 then 0 else r

theorem dimer_dist (r : ℝ) : distSq (dimer r) 0 1 = r ^ 2 := by simp [distSq, dimer]

theorem dimer_jacobian (eps sig r : ℝ) :
    ljJacobian eps sig (dimer r) 0 0 = 24 * eps * (2 * sig ^ 11 * ((r ^ 2)⁻¹) ^ 7 - sig ^ 5 * ((r ^ 2)⁻¹) ^ 4) * r := by
  unfold ljJacobian
  rw [Fin.sum_univ_two]
  have f0 : (univ.filter ((0 : Fin 2) < ·)) = {1} := by decide
  have f1 : (univ.filter ((1 : Fin 2) < ·)) = ∅ := by decide
  rw [f0, f1]
  simp only [sum_singleton, sum_empty, ljGrad, dimer_dist]
  simp [dimer]

theorem dimer_distinct {r : ℝ} (hr : r ≠ 0) : ∀ i j, i < j → distSq (dimer r) i j ≠ 0 := by
  intro i j hij
  have : i = 0 ∧ j = 1 := by revert hij; revert i j; decide
  rw [this.1, this.2, dimer_dist]
  exact pow_ne_zero 2 hr

/-- For other values of `sigma` it is not. -/
theorem C80_jacobian_refuted :
    ∃ x : Fin 2 → Fin 1 → ℝ, (∀ i j, i < j → distSq x i j ≠ 0) ∧ ¬ HasSlope (lennardJones 1 2) x 0 0 (ljJacobian 1 2 x 0 0) := by
  refine ⟨dimer 1, dimer_distinct one_ne_zero, fun h => ?_⟩
  have h2 := C80_jacobian_partial 1 2 (dimer 1) (dimer_distinct one_ne_zero) 0 0
  have := h.unique h2
  rw [dimer_jacobian] at this
  norm_num at this

/-! ## C81: the energy -/

/-- The value is the documented one, from the distances. -/
theorem C81_energy (eps sig : ℝ) (x : Fin n → Fin d → ℝ) : lennardJones eps sig x = documentedEnergy eps sig x := by
  unfold lennardJones documentedEnergy
  rw [mul_comm, mul_sum, mul_sum]
  refine sum_congr rfl fun i _ => ?_
  rw [mul_sum, mul_sum]
  refine sum_congr rfl fun j _ => ?_
  have h : distance (x i) (x j) ^ 2 = distSq x i j := by
    unfold distance distSq
    rw [Real.sq_sqrt (sum_nonneg fun k _ => sq_nonneg _)]
  rw [← h]
  ring

/-- No pair contributes less than `-eps`. -/
theorem C81_lower_bound (eps sig : ℝ) (he : 0 ≤ eps) (x : Fin n → Fin d → ℝ) : -eps * (n * (n - 1) / 2) ≤ lennardJones eps sig x := by
  have hc : ∑ i : Fin n, ∑ _j ∈ univ.filter (i < ·), (1 : ℝ) = n * (n - 1) / 2 := by
    have h1 : ∀ i : Fin n, ∑ _j ∈ univ.filter (i < ·), (1 : ℝ) = n - 1 - (i : ℕ) := by
      intro i
      rw [sum_const, nsmul_eq_mul, mul_one]
      have : #(univ.filter (i < ·)) = n - 1 - i := by
        rw [← Fin.card_Ioi]; congr 1; ext j; simp
      rw [this, Nat.cast_sub (by omega), Nat.cast_sub (by omega)]; simp
    rw [sum_congr rfl fun i _ => h1 i, sum_sub_distrib, sum_const, card_univ, Fintype.card_fin, nsmul_eq_mul,
      Fin.sum_univ_eq_sum_range (fun i => ((i : ℕ) : ℝ)) n]
    have := Finset.sum_range_id_mul_two n
    have h2 : (∑ i ∈ range n, (i : ℝ)) * 2 = n * (n - 1) := by
      rcases n with _ | n
      · simp
      · have : ((∑ i ∈ range (n + 1), i : ℕ) : ℝ) * 2 = ((n + 1 : ℕ) : ℝ) * (n : ℕ) := by exact_mod_cast this
        push_cast at this ⊢; linarith
    linarith
  rw [← hc]
  unfold lennardJones
  have hp : ∑ i : Fin n, ∑ _j ∈ univ.filter (i < ·), (-(1 / 4) : ℝ) ≤
      ∑ i, ∑ j ∈ univ.filter (i < ·), ((sig ^ 2 / distSq x i j) ^ 6 - (sig ^ 2 / distSq x i j) ^ 3) :=
    sum_le_sum fun i _ => sum_le_sum fun j _ => by nlinarith [sq_nonneg ((sig ^ 2 / distSq x i j) ^ 3 - 1 / 2)]
  have e : ∑ i : Fin n, ∑ _j ∈ univ.filter (i < ·), (-(1 / 4) : ℝ) = -(1 / 4) * ∑ i : Fin n, ∑ _j ∈ univ.filter (i < ·), (1 : ℝ) := by
    simp only [mul_sum, mul_one]
  rw [e] at hp
  nlinarith [mul_le_mul_of_nonneg_right hp (by linarith : (0 : ℝ) ≤ 4 * eps)]

/-- Moving all atoms by the same vector changes nothing. -/
theorem C81_translation (eps sig : ℝ) (x : Fin n → Fin d → ℝ) (v : Fin d → ℝ) :
    lennardJones eps sig (fun i k => x i k + v k) = lennardJones eps sig x := by
  unfold lennardJones distSq
  simp only [add_sub_add_right_eq_sub]

theorem dimer_energy (eps sig r : ℝ) : lennardJones eps sig (dimer r) = ((sig ^ 2 / r ^ 2) ^ 6 - (sig ^ 2 / r ^ 2) ^ 3) * (4 * eps) := by
  unfold lennardJones
  rw [Fin.sum_univ_two]
  have f0 : (univ.filter ((0 : Fin 2) < ·)) = {1} := by decide
  have f1 : (univ.filter ((1 : Fin 2) < ·)) = ∅ := by decide
  rw [f0, f1]
  simp only [sum_singleton, sum_empty, dimer_dist, add_zero]

/-- The bound is reached by two atoms at the distance `2^(1/6) sigma`. -/
theorem C81_dimer (eps sig r : ℝ) (hs : sig ≠ 0) (hr : r ^ 6 = 2 * sig ^ 6) : lennardJones eps sig (dimer r) = -eps := by
  rw [dimer_energy]
  have h : (sig ^ 2 / r ^ 2) ^ 3 = 1 / 2 := by
    rw [div_pow, ← pow_mul, ← pow_mul, hr]
    have : sig ^ 6 ≠ 0 := pow_ne_zero 6 hs
    field_simp
  rw [show (sig ^ 2 / r ^ 2) ^ 6 = ((sig ^ 2 / r ^ 2) ^ 3) ^ 2 by ring, h]
  ring

/-- Atoms that approach each other are repelled without bound, but atoms in the same place do not interact. -/
theorem C81_coincident_refuted :
    (∀ M : ℝ, ∃ r, 0 < r ∧ M < lennardJones 1 1 (dimer r)) ∧ lennardJones 1 1 (dimer 0) = 0 := by
  constructor
  · intro M
    refine ⟨1 / (|M| + 2), by positivity, ?_⟩
    rw [dimer_energy]
    have h0 := abs_nonneg M
    have h1 := le_abs_self M
    have e : (1 : ℝ) ^ 2 / (1 / (|M| + 2)) ^ 2 = (|M| + 2) ^ 2 := by field_simp
    rw [e]
    have g1 : 2 ≤ (|M| + 2) ^ 2 := by nlinarith
    have g2 : (|M| + 2) ≤ (|M| + 2) ^ 2 := by nlinarith
    generalize (|M| + 2) ^ 2 = y at *
    have g3 : y ≤ y ^ 3 := by nlinarith [sq_nonneg y, mul_nonneg (by linarith : (0 : ℝ) ≤ y) (by nlinarith : (0 : ℝ) ≤ y ^ 2 - 1)]
    nlinarith [show y ^ 6 = (y ^ 3) ^ 2 by ring]
  · rw [dimer_energy]; norm_num

/-- A minimum is announced for no cluster of two or more atoms in space, but for three atoms on a line. -/
theorem C81_minimum_refuted : (∀ n, 2 ≤ n → ljMinKnown n 3 = false) ∧ ljMinKnown 3 1 = true := by
  refine ⟨fun n hn => ?_, rfl⟩
  simp [ljMinKnown]; omega

/-! ## Examples -/

example : ∃ x : Fin 2 → Fin 1 → ℝ, (∀ i j, i < j → distSq x i j ≠ 0) ∧ ljJacobian 1 1 x 0 0 = 24 :=
  ⟨dimer 1, dimer_distinct one_ne_zero, by rw [dimer_jacobian]; norm_num⟩

example : ∃ r : ℝ, r ^ 6 = 2 * (1 : ℝ) ^ 6 := ⟨2 ^ (1 / 6 : ℝ), by rw [← Real.rpow_natCast, ← Real.rpow_mul (by norm_num)]; norm_num⟩

end Glompo.Props
