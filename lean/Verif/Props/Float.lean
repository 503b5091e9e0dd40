import Verif.Spec.Float
import Verif.Props.Hunters
import Mathlib.Tactic.NormNum
import Mathlib.Data.Rat.Cast.Order

/-!
# C16: comparisons and arithmetic of the values of the objective function

All theorems comparing values use the operations of `PyF`. Here they are shown to be those of the extended real numbers, with the
rules of IEEE 754 for `nan`.
-/

namespace Glompo.Props

open Glompo Glompo.Spec Glompo.Logger

/-- **Comparisons.** Comparing values is comparing the numbers they stand for; every comparison with `nan` is false. -/
theorem float_comparisons (a b : PyF) :
    (PyF.lt a b = true ↔ ∃ x y, number a = some x ∧ number b = some y ∧ x < y) ∧
    (PyF.le a b = true ↔ ∃ x y, number a = some x ∧ number b = some y ∧ x ≤ y) ∧
    (PyF.eq a b = true ↔ ∃ x y, number a = some x ∧ number b = some y ∧ x = y) ∧
    (PyF.isNan a = true ↔ number a = none) ∧
    (PyF.isFinite a = true ↔ ∃ x, number a = some x ∧ x ≠ ⊤ ∧ x ≠ ⊥) := by
  cases a <;> cases b <;>
    simp [PyF.lt, PyF.le, PyF.eq, PyF.isNan, PyF.isFinite, number, EReal.coe_lt_top, EReal.bot_lt_coe]
  exact eq_comm

/-- **Sums and differences.** A sum of two values is the sum of the numbers they stand for, a difference the difference, unless an
infinity is subtracted from itself: that gives `nan`, as does any `nan` involved. -/
theorem float_sums (a b : PyF) :
    (∀ x y, number a = some x → number b = some y → ¬ (x = ⊤ ∧ y = ⊥) → ¬ (x = ⊥ ∧ y = ⊤) → number (PyF.add a b) = some (x + y)) ∧
    (∀ x y, number a = some x → number b = some y → ¬ (x = ⊤ ∧ y = ⊤) → ¬ (x = ⊥ ∧ y = ⊥) → number (PyF.sub a b) = some (x - y)) ∧
    (PyF.add a b = .nan ↔ a = .nan ∨ b = .nan ∨ (a = .pinf ∧ b = .ninf) ∨ (a = .ninf ∧ b = .pinf)) ∧
    (PyF.sub a b = .nan ↔ a = .nan ∨ b = .nan ∨ (a = .pinf ∧ b = .pinf) ∨ (a = .ninf ∧ b = .ninf)) := by
  cases a <;> cases b <;>
    simp [PyF.add, PyF.sub, PyF.neg, number, sub_eq_add_neg, EReal.coe_add]

/-- **Signs.** Absolute values and negatives are those of the numbers. -/
theorem float_signs (a : PyF) :
    (∀ x, number a = some x → number (PyF.neg a) = some (-x) ∧ number (PyF.abs a) = some (max x (-x))) ∧
    (a = .nan → PyF.neg a = .nan ∧ PyF.abs a = .nan) := by
  cases a with
  | fin q =>
    refine ⟨?_, by simp⟩
    simp only [number, Option.some.injEq, forall_eq', PyF.neg, PyF.abs]
    refine ⟨by simp, ?_⟩
    rcases lt_or_ge q 0 with h | h
    · have h' : ((q : ℝ) : EReal) ≤ -((q : ℝ) : EReal) := by
        have : (q : ℝ) < 0 := by exact_mod_cast h
        rw [← EReal.coe_neg, EReal.coe_le_coe_iff]; linarith
      rw [if_pos h, max_eq_right h']; simp
    · have h' : -((q : ℝ) : EReal) ≤ ((q : ℝ) : EReal) := by
        have : (0 : ℝ) ≤ q := by exact_mod_cast h
        rw [← EReal.coe_neg, EReal.coe_le_coe_iff]; linarith
      rw [if_neg (not_lt.mpr h), max_eq_left h']
  | pinf => simp [number, PyF.neg, PyF.abs]
  | ninf => simp [number, PyF.neg, PyF.abs]
  | nan => simp [number, PyF.neg, PyF.abs]

/-- **Products.** A product of two values is the product of the numbers they stand for, unless an infinity is multiplied with zero:
that gives `nan`, as does any `nan` involved. -/
theorem float_products (a b : PyF) :
    (∀ x y, number a = some x → number b = some y → ¬ (x = 0 ∧ (y = ⊤ ∨ y = ⊥)) → ¬ (y = 0 ∧ (x = ⊤ ∨ x = ⊥)) →
      number (PyF.mul a b) = some (x * y)) ∧
    (PyF.mul a b = .nan ↔ a = .nan ∨ b = .nan ∨ (a = .fin 0 ∧ (b = .pinf ∨ b = .ninf)) ∨ (b = .fin 0 ∧ (a = .pinf ∨ a = .ninf))) := by
  have key : ∀ q : Rat, q ≠ 0 → ((q : ℝ) : EReal) ≠ 0 := by
    intro q h h'
    exact h (by exact_mod_cast h')
  have pos : ∀ q : Rat, 0 < q → ((q : ℝ) : EReal) * ⊤ = ⊤ ∧ ((q : ℝ) : EReal) * ⊥ = ⊥ := by
    intro q h
    have : (0 : ℝ) < q := by exact_mod_cast h
    exact ⟨EReal.coe_mul_top_of_pos this, EReal.coe_mul_bot_of_pos this⟩
  have neg : ∀ q : Rat, q < 0 → ((q : ℝ) : EReal) * ⊤ = ⊥ ∧ ((q : ℝ) : EReal) * ⊥ = ⊤ := by
    intro q h
    have : (q : ℝ) < 0 := by exact_mod_cast h
    exact ⟨EReal.coe_mul_top_of_neg this, EReal.coe_mul_bot_of_neg this⟩
  have sg : ∀ (q : Rat), q ≠ 0 → number (PyF.signInf q true) = some (((q : ℝ) : EReal) * ⊤) ∧
      number (PyF.signInf q false) = some (((q : ℝ) : EReal) * ⊥) := by
    intro q h
    rcases lt_or_gt_of_ne h with h' | h'
    · simp [PyF.signInf, h, not_lt.mpr h'.le, number, neg q h']
    · simp [PyF.signInf, h, h', number, pos q h']
  have sn : ∀ (q : Rat) (p : Bool), PyF.signInf q p = .nan ↔ q = 0 := by
    intro q p
    unfold PyF.signInf
    split
    · simp [*]
    · split <;> simp [*]
  constructor
  · intro x y hx hy h1 h2
    cases a <;> cases b <;> simp only [number, Option.some.injEq, reduceCtorEq] at hx hy <;> subst hx <;> subst hy
    case fin.fin => simp [PyF.mul, number]
    case fin.pinf q =>
      have hq : q ≠ 0 := by rintro rfl; exact h1 (by simp)
      exact (sg q hq).1
    case fin.ninf q =>
      have hq : q ≠ 0 := by rintro rfl; exact h1 (by simp)
      exact (sg q hq).2
    case pinf.fin q =>
      have hq : q ≠ 0 := by rintro rfl; exact h2 (by simp)
      rw [EReal.mul_comm]; exact (sg q hq).1
    case ninf.fin q =>
      have hq : q ≠ 0 := by rintro rfl; exact h2 (by simp)
      rw [EReal.mul_comm]; exact (sg q hq).2
    all_goals simp [PyF.mul, number]
  · cases a <;> cases b <;> simp [PyF.mul, sn]

example : PyF.add .pinf .ninf = .nan ∧ PyF.mul (.fin (-2)) .pinf = .ninf ∧ PyF.lt .nan (.fin 1) = false ∧
    PyF.sub (.fin 1) .pinf = .ninf := by decide

/-- **C16, stagnation, in numbers.** With a window of at least one evaluation and finite values: the answer is `True` exactly
when the victim reported more evaluations than the window and its best value before the window differs from its best value by no
more than the tolerated fraction of the former. -/
theorem C16_best_unmoving_numbers (traj : Bool) (ops : List Op) (victim calls : Nat) (tol before now : Rat)
    (hwf : WellFormed ops) (hc : traj = true ∨ ¬ Cleared ops victim) (hcalls : 0 < calls)
    (values : List Rat) (hv : valuesOf (evals ops) victim = values.map .fin)
    (hnow : now ∈ values ∧ ∀ v ∈ values, now ≤ v)
    (hbefore : calls < values.length → before ∈ values.take (values.length - calls) ∧
      ∀ v ∈ values.take (values.length - calls), before ≤ v) :
    bestUnmoving calls (.fin tol) ((init traj).run ops) victim =
      .ok (decide (calls < values.length ∧ |now - before| ≤ |before * tol|)) := by
  have least : ∀ (m : Rat) (l : List Rat), m ∈ l ∧ (∀ v ∈ l, m ≤ v) → IsLeast (.fin m) (l.map .fin) := by
    intro m l h
    refine ⟨List.mem_map_of_mem h.1, ?_⟩
    intro a ha
    obtain ⟨v, hv, rfl⟩ := List.mem_map.mp ha
    simp [PyF.le, h.2 v hv]
  rw [C16_best_unmoving traj ops victim calls (.fin tol) (.fin before) (.fin now) hwf hc hcalls]
  · have habs : ∀ q : Rat, PyF.abs (.fin q) = .fin |q| := by
      intro q
      simp only [PyF.abs]
      split
      next h => rw [abs_of_neg h]
      next h => rw [abs_of_nonneg (not_lt.mp h)]
    simp only [PyF.sub, PyF.neg, PyF.add, PyF.mul, habs, PyF.le, hv, List.length_map, ← sub_eq_add_neg, Bool.decide_and]
  · intro f hf
    rw [hv] at hf
    obtain ⟨v, _, rfl⟩ := List.mem_map.mp hf
    simp
  · rw [hv]; exact least _ _ hnow
  · intro h
    rw [hv] at h ⊢
    rw [List.length_map] at h ⊢
    rw [← List.map_take]
    exact least _ _ (hbefore h)

example : valuesOf (evals huntOps) 1 = [5, 3, 3, 3].map .fin ∧ ((3 : Rat) ∈ [5, 3, 3, (3 : Rat)]) ∧
    (bestUnmoving 3 (.fin (1 / 2)) ((init false).run huntOps) 1).toOption = some true := by decide +kernel

end Glompo.Props
