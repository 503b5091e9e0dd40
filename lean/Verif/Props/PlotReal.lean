import Verif.Model.PlotReal
import Verif.Props.Plot
import Mathlib.Tactic.Linarith
import Mathlib.Tactic.Positivity
import Mathlib.Tactic.NormNum

/-! C92: the logarithmic scale of the plot of trajectories. -/

namespace Glompo.Props
open Glompo.Plot Glompo.Spec Glompo.Logger

namespace PlotL

/-- With at least one finite value and no `-inf`, the scale is decided by the largest and the smallest finite value. -/
theorem extremes (traj : Bool) (ops : List Op) (hwf : WellFormed ops) (q : Rat) (hq : ∃ r ∈ evals ops, r.fx = .fin q) :
    ∃ hi, ((init traj).run ops).maxEval = .fin hi ∧ (∃ r ∈ evals ops, r.fx = .fin hi) ∧
      (∀ r ∈ evals ops, ∀ v, r.fx = .fin v → v ≤ hi) ∧
      (((init traj).run ops).best.fx = .ninf ∨
        ∃ lo, ((init traj).run ops).best.fx = .fin lo ∧ (∃ r ∈ evals ops, r.fx = .fin lo) ∧
          ∀ r ∈ evals ops, ∀ v, r.fx = .fin v → lo ≤ v) ∧
      (((init traj).run ops).best.fx = .ninf → ∃ r ∈ evals ops, r.fx = .ninf) := by
  obtain ⟨r0, hr0, h0⟩ := hq
  rcases C56_largest_eval traj ops hwf with ⟨-, hno⟩ | ⟨hi, r1, hm, h1, h1f, hall⟩
  · have := hno r0 hr0; rw [h0] at this; cases this
  · refine ⟨hi, hm, ⟨r1, h1, h1f⟩, hall, ?_⟩
    obtain ⟨-, c2, -⟩ := C01_best_is_earliest_min traj ops hwf
    rcases earliestMin_or_none (fun _ => True) (evals ops) with hn | ⟨k, hk⟩
    · have := hn r0 hr0 trivial; rw [h0] at this; cases this
    · have hk' := hk
      obtain ⟨r, hr, -, hlt, hmin⟩ := hk
      have hadd : ∃ t, Op.add r.optId t ∈ ops := by
        have hput : Op.put r ∈ ops := by
          have hmem : r ∈ evals ops := List.mem_of_getElem? hr
          simp only [evals, List.mem_filterMap] at hmem
          obtain ⟨op, hop, he⟩ := hmem
          cases op <;> simp at he
          subst he; exact hop
        obtain ⟨pre, post, e⟩ := List.append_of_mem hput
        have := hwf pre _ post e
        obtain ⟨t, ht⟩ := mem_added.mp this.1
        exact ⟨t, by rw [e]; simp [ht]⟩
      obtain ⟨t, ht⟩ := hadd
      have hb := c2 k r t hk' hr ht
      simp only [getBestIter, Except.ok.injEq] at hb
      have hbf : ((init traj).run ops).best.fx = r.fx := by rw [hb]
      rw [hbf]
      have hle : ∀ r' ∈ evals ops, PyF.lt r'.fx r.fx = false := by
        intro r' hr'
        obtain ⟨j, hj⟩ := List.getElem?_of_mem hr'
        exact (hmin j r' hj trivial).1
      cases hfx : r.fx with
      | fin lo =>
        refine ⟨Or.inr ⟨lo, rfl, ⟨r, List.mem_of_getElem? hr, hfx⟩, fun r' hr' v hv => ?_⟩, by simp⟩
        have := hle r' hr'
        rw [hv, hfx] at this
        simpa [PyF.lt] using this
      | ninf => exact ⟨Or.inl rfl, fun _ => ⟨r, List.mem_of_getElem? hr, hfx⟩⟩
      | pinf => rw [hfx] at hlt; cases hlt
      | nan => rw [hfx] at hlt; cases hlt

theorem shown_pos {a : ℝ} (h : 0 < a) : shown a = Real.logb 10 a := by
  simp [shown, sign_pos h, abs_of_pos h]

theorem shown_neg {a : ℝ} (h : a < 0) : shown a = -Real.logb 10 (-a) := by
  simp [shown, sign_neg h, abs_of_neg h]

end PlotL
open PlotL

/-- **C92** (scale). If the summary plot uses the logarithmic scale, all finite values have the same sign and the scale keeps their order: a
better evaluation is drawn lower. -/
theorem C92_log_order (traj : Bool) (ops : List Op) (hwf : WellFormed ops) (h : logScale ((init traj).run ops) = true)
    (r1 r2 : IterRes) (h1 : r1 ∈ evals ops) (h2 : r2 ∈ evals ops) (a b : Rat) (ha : r1.fx = .fin a) (hb : r2.fx = .fin b) :
    0 < a * b ∧ (a < b ↔ shown (a : ℝ) < shown (b : ℝ)) := by
  obtain ⟨hi, hm, -, hmax, hlow, -⟩ := extremes traj ops hwf a ⟨r1, h1, ha⟩
  simp only [logScale, Bool.and_eq_true] at h
  have hs := h.1
  rw [hm] at hs
  have cases' : (0 < a ∧ 0 < b) ∨ (a < 0 ∧ b < 0) := by
    rcases hlow with hl | ⟨lo, hl, -, hmin⟩
    · rw [hl] at hs
      simp [sameSign, PyF.lt] at hs
      have := hmax r1 h1 a ha
      have := hmax r2 h2 b hb
      right; constructor <;> linarith
    · rw [hl] at hs
      simp only [sameSign, PyF.lt, Bool.or_eq_true, Bool.and_eq_true, decide_eq_true_eq] at hs
      rcases hs with ⟨-, hs⟩ | ⟨hs, -⟩
      · have := hmin r1 h1 a ha
        have := hmin r2 h2 b hb
        left; constructor <;> linarith
      · have := hmax r1 h1 a ha
        have := hmax r2 h2 b hb
        right; constructor <;> linarith
  rcases cases' with ⟨pa, pb⟩ | ⟨na, nb⟩
  · refine ⟨mul_pos pa pb, ?_⟩
    have pa' : (0 : ℝ) < a := by exact_mod_cast pa
    have pb' : (0 : ℝ) < b := by exact_mod_cast pb
    rw [shown_pos pa', shown_pos pb', Real.logb_lt_logb_iff (by norm_num) pa' pb']
    exact_mod_cast Iff.rfl
  · refine ⟨mul_pos_of_neg_of_neg na nb, ?_⟩
    have na' : (a : ℝ) < 0 := by exact_mod_cast na
    have nb' : (b : ℝ) < 0 := by exact_mod_cast nb
    rw [shown_neg na', shown_neg nb', neg_lt_neg_iff,
      Real.logb_lt_logb_iff (by norm_num) (by linarith) (by linarith), neg_lt_neg_iff]
    exact_mod_cast Iff.rfl

/-- **C92** (choice of the scale). If all values are finite (and there are some), the logarithmic scale is used exactly if they are all
positive or all negative and two of them differ by more than 100000. -/
theorem C92_log_choice (traj : Bool) (ops : List Op) (hwf : WellFormed ops) (hne : evals ops ≠ [])
    (hfin : ∀ r ∈ evals ops, ∃ q, r.fx = .fin q) :
    logScale ((init traj).run ops) = true ↔
      ((∀ r ∈ evals ops, ∀ q, r.fx = .fin q → 0 < q) ∨ (∀ r ∈ evals ops, ∀ q, r.fx = .fin q → q < 0)) ∧
      ∃ r ∈ evals ops, ∃ r' ∈ evals ops, ∃ q q', r.fx = .fin q ∧ r'.fx = .fin q' ∧ 100000 < q - q' := by
  obtain ⟨r0, hr0⟩ := List.exists_mem_of_ne_nil _ hne
  obtain ⟨q0, hq0⟩ := hfin r0 hr0
  obtain ⟨hi, hm, ⟨rh, hrh, hfh⟩, hmax, hlow, hnin⟩ := extremes traj ops hwf q0 ⟨r0, hr0, hq0⟩
  have hlo : ∃ lo, ((init traj).run ops).best.fx = .fin lo ∧ (∃ r ∈ evals ops, r.fx = .fin lo) ∧
      ∀ r ∈ evals ops, ∀ v, r.fx = .fin v → lo ≤ v := by
    rcases hlow with hl | hl
    · obtain ⟨r, hr, he⟩ := hnin hl
      obtain ⟨q, hq⟩ := hfin r hr
      rw [he] at hq; cases hq
    · exact hl
  obtain ⟨lo, hl, ⟨rl, hrl, hfl⟩, hmin⟩ := hlo
  simp only [logScale, hm, hl, sameSign, farAbove, PyF.lt, Bool.and_eq_true, Bool.or_eq_true, decide_eq_true_eq]
  constructor
  · rintro ⟨h1, h2⟩
    refine ⟨?_, rh, hrh, rl, hrl, hi, lo, hfh, hfl, h2⟩
    rcases h1 with ⟨-, h1⟩ | ⟨h1, -⟩
    · exact Or.inl fun r hr q hq => lt_of_lt_of_le h1 (hmin r hr q hq)
    · exact Or.inr fun r hr q hq => lt_of_le_of_lt (hmax r hr q hq) h1
  · rintro ⟨h1, r, hr, r', hr', q, q', hq, hq', h2⟩
    refine ⟨?_, ?_⟩
    · rcases h1 with h1 | h1
      · exact Or.inl ⟨h1 rh hrh hi hfh, h1 rl hrl lo hfl⟩
      · exact Or.inr ⟨h1 rh hrh hi hfh, h1 rl hrl lo hfl⟩
    · have := hmax r hr q hq
      have := hmin r' hr' q' hq'
      show 100000 < hi - lo
      linarith

/-- Values 1 and 200000. -/
example : logScale ((init true).run [.add 1 "A", .addHist 1 [], .put ⟨1, [0], .fin 200000, []⟩, .put ⟨1, [1], .fin 1, []⟩]) = true := by
  decide +kernel

/-- Asked for by the user (`plot_trajectory(log_scale=True)`), the scale may be used for values of both signs; then it does not keep
the order: -0.1 is drawn above 0.1. -/
theorem C92_mixed_signs_refuted : ∃ a b : ℝ, a < b ∧ shown b < shown a := by
  refine ⟨-(1 / 10), 1 / 10, by norm_num, ?_⟩
  have e1 : shown (-(1 / 10)) = -Real.logb 10 (1 / 10) := by
    rw [shown_neg (by norm_num), neg_neg]
  have e2 : shown (1 / 10) = Real.logb 10 (1 / 10) := shown_pos (by norm_num)
  rw [e1, e2]
  have : Real.logb 10 (1 / 10 : ℝ) < 0 := Real.logb_neg (by norm_num) (by norm_num) (by norm_num)
  linarith

end Glompo.Props
