import Mathlib.Tactic.Linarith
import Mathlib.Tactic.FieldSimp
import Mathlib.Tactic.Ring
import Mathlib.Algebra.BigOperators.Group.List.Basic
import Mathlib.Algebra.Order.BigOperators.Group.List
import Verif.Model.GeneratorsReal
import Verif.Spec.Generators
import Verif.Lemmas.LoggerStore

/-! # Lemmas about the generators -/

namespace Glompo.Gen

open Glompo Glompo.Logger Glompo.Spec Glompo.Spec.Gen Glompo.Spec.RandomOpt

theorem uniform_inBounds {bounds : List (Rat × Rat)} {draws : List Rat} (hb : Valid bounds)
    (hd : Drawn bounds.length draws) : InBounds bounds (uniform bounds draws) := by
  refine ⟨by simp [uniform, hd.1], fun k b y h1 h2 => ?_⟩
  unfold uniform at h2
  rw [List.getElem?_zipWith, h1] at h2
  cases hu : draws[k]? with
  | none => rw [hu] at h2; cases h2
  | some u =>
    rw [hu] at h2
    simp only [Option.some.injEq] at h2
    subst h2
    have := hb b (List.mem_of_getElem? h1)
    have hu' := hd.2 u (List.mem_of_getElem? hu)
    constructor
    · nlinarith [mul_nonneg (sub_nonneg.mpr this.le) hu'.1]
    · nlinarith [mul_le_mul_of_nonneg_left hu'.2.le (sub_nonneg.mpr this.le)]

/-! ### The best records -/

theorem keys_run (traj : Bool) (ops : List Op) (h : WellFormed ops) :
    ((Logger.init traj).run ops).bestIters.map (·.1) = 0 :: added ops := by
  induction ops using snoc_induction with
  | h0 => simp [Logger.init, Logger.run, added]
  | hs l a ih =>
    have ih := ih h.init
    have hl := h.last
    rw [run_snoc, added_append]
    cases a with
    | add i t =>
      obtain ⟨h0, h1⟩ : i ≠ 0 ∧ i ∉ added l := hl
      simp only [step, addOptimizer, dictSet_keys, ih, List.mem_cons, h0, h1, or_self, if_false]
      simp [added]
    | put r =>
      obtain ⟨h0, h1⟩ : r.optId ∈ added l ∧ r.optId ∈ opened l := hl
      have : r.optId ∈ (((Logger.init traj).run l).bestIters.map (·.1)) := by rw [ih]; simp [h0]
      obtain ⟨b, hb⟩ := Option.isSome_iff_exists.mp ((dictGet_isSome_iff _ _).mpr this)
      have := (putIteration_best _ r b hb).2.1
      simp only [step]
      rw [this, putBest_bestIters]
      split
      · rw [dictSet_keys, if_pos (by rw [ih]; simp [h0]), ih]; simp [added]
      · rw [ih]; simp [added]
    | addHist i hs => rw [(step_other _ (.addHist i hs) (by simp) (by simp)).2.1, ih]; simp [added]
    | clear i => rw [(step_other _ (.clear i) (by simp) (by simp)).2.1, ih]; simp [added]
    | putMeta i k v => rw [(step_other _ (.putMeta i k v) (by simp) (by simp)).2.1, ih]; simp [added]
    | putMsg i m => rw [(step_other _ (.putMsg i m) (by simp) (by simp)).2.1, ih]; simp [added]

theorem added_nodup {ops : List Op} (h : WellFormed ops) : (0 :: added ops).Nodup := by
  induction ops using snoc_induction with
  | h0 => simp [added]
  | hs l a ih =>
    have ih := ih h.init
    have hl := h.last
    rw [added_append]
    cases a with
    | add i t =>
      obtain ⟨h0, h1⟩ : i ≠ 0 ∧ i ∉ added l := hl
      have : 0 :: (added l ++ added [Op.add i t]) = (0 :: added l) ++ [i] := by simp [added]
      rw [this, List.nodup_append]
      refine ⟨ih, by simp, ?_⟩
      intro a ha b hb e
      simp only [List.mem_singleton] at hb
      subst hb; subst e
      rcases List.mem_cons.mp ha with h | h
      · exact h0 h
      · exact h1 h
    | _ => simpa [added] using ih

theorem dictGet_of_mem {K V : Type} [DecidableEq K] {d : List (K × V)} (hn : (d.map (·.1)).Nodup) {k : K} {v : V}
    (h : (k, v) ∈ d) : dictGet d k = some v := by
  induction d with
  | nil => cases h
  | cons p t ih =>
    obtain ⟨a, b⟩ := p
    simp only [List.map_cons, List.nodup_cons] at hn
    rcases List.mem_cons.mp h with h | h
    · cases h; simp [dictGet]
    · have : a ≠ k := by
        rintro rfl
        exact hn.1 (List.mem_map.mpr ⟨_, h, rfl⟩)
      simp only [dictGet, this, if_false]
      exact ih hn.2 h

/-! ### Roulette -/

theorem sub_pinf_cases (m : PyF) : PyF.sub .pinf m = .nan ∨ PyF.sub .pinf m = .pinf := by
  cases m <;> simp [PyF.sub, PyF.neg, PyF.add]

theorem foldl_max_bad (t : List PyF) : ∀ a, (a = .nan ∨ a = .pinf) → (t.foldl max2 a = .nan ∨ t.foldl max2 a = .pinf) := by
  induction t with
  | nil => intro a h; exact h
  | cons b t ih =>
    intro a h
    refine ih _ ?_
    rcases h with rfl | rfl
    · left; simp [max2, PyF.isNan]
    · cases b <;> simp [max2, PyF.isNan, PyF.lt]

theorem foldl_max_mem_bad (t : List PyF) : ∀ a, (∃ f ∈ t, f = .nan ∨ f = .pinf) →
    (t.foldl max2 a = .nan ∨ t.foldl max2 a = .pinf) := by
  induction t with
  | nil => intro a ⟨f, h, _⟩; cases h
  | cons b t ih =>
    rintro a ⟨f, h, hf⟩
    rcases List.mem_cons.mp h with rfl | h
    · simp only [List.foldl_cons]
      apply foldl_max_bad
      rcases hf with rfl | rfl
      · left; simp [max2, PyF.isNan]
      · cases a <;> simp [max2, PyF.isNan, PyF.lt]
    · exact ih _ ⟨f, h, hf⟩

theorem nan_mem_revert {l : List PyF} (h : PyF.pinf ∈ l) : PyF.nan ∈ revert l := by
  cases l with
  | nil => cases h
  | cons a t =>
    simp only [revert]
    generalize npMin a t = m
    have hs : ∃ f ∈ PyF.sub a m :: t.map (fun f => PyF.sub f m), f = .nan ∨ f = .pinf := by
      refine ⟨PyF.sub .pinf m, ?_, sub_pinf_cases m⟩
      rcases List.mem_cons.mp h with rfl | h
      · exact List.mem_cons_self
      · exact List.mem_cons_of_mem _ (List.mem_map.mpr ⟨_, h, rfl⟩)
    have hM : npMax (PyF.sub a m) (t.map fun f => PyF.sub f m) = .nan ∨
        npMax (PyF.sub a m) (t.map fun f => PyF.sub f m) = .pinf := by
      obtain ⟨f, h1, h2⟩ := hs
      rcases List.mem_cons.mp h1 with rfl | h1
      · exact foldl_max_bad _ _ h2
      · exact foldl_max_mem_bad _ _ ⟨f, h1, h2⟩
    generalize npMax (PyF.sub a m) (t.map fun f => PyF.sub f m) = M at hM
    obtain ⟨f, h1, h2⟩ := hs
    refine List.mem_map.mpr ⟨f, h1, ?_⟩
    rcases hM with rfl | rfl <;> rcases h2 with rfl | rfl <;> simp [PyF.sub, PyF.neg, PyF.add]

/-- One optimizer without a value below infinity is enough. -/
theorem roulette_pinf {l : List PyF} (h : PyF.pinf ∈ l) (u : Rat) : roulette l u = .error .valueError := by
  have hn := nan_mem_revert h
  have hl : l.length ≠ 0 := by
    intro e; rw [List.length_eq_zero_iff] at e; subst e; cases h
  unfold roulette
  rw [if_neg hl]
  dsimp only
  rw [if_neg]
  · have : choiceCheck ((revert l).map fun r => fdiv r (npSum (revert l))) = .error .valueError := by
      unfold choiceCheck
      rw [if_pos]
      rw [List.any_eq_true]
      exact ⟨.nan, List.mem_map.mpr ⟨.nan, hn, by simp [fdiv]⟩, rfl⟩
    rw [this]
  · rw [List.all_eq_true]
    intro hc
    have := hc _ hn
    simp [PyF.eq] at this

theorem foldl_min_fin (t : List Rat) : ∀ a : Rat, ∃ m : Rat, (t.map PyF.fin).foldl min2 (.fin a) = .fin m := by
  induction t with
  | nil => intro a; exact ⟨a, rfl⟩
  | cons b t ih =>
    intro a
    simp only [List.map_cons, List.foldl_cons, min2, PyF.isNan, PyF.lt, Bool.or_self]
    by_cases h : b < a
    · simpa [h] using ih b
    · simpa [h] using ih a

theorem foldl_max_fin (t : List Rat) : ∀ a : Rat, ∃ m : Rat, (t.map PyF.fin).foldl max2 (.fin a) = .fin m ∧ a ≤ m ∧
    (∀ q ∈ t, q ≤ m) ∧ (m = a ∨ m ∈ t) := by
  induction t with
  | nil => intro a; exact ⟨a, rfl, le_refl _, by simp, by simp⟩
  | cons b t ih =>
    intro a
    simp only [List.map_cons, List.foldl_cons, max2, PyF.isNan, PyF.lt, Bool.or_self]
    by_cases h : a < b
    · obtain ⟨m, h1, h2, h3, h4⟩ := ih b
      refine ⟨m, by simpa [h] using h1, by linarith, ?_, ?_⟩
      · intro q hq
        rcases List.mem_cons.mp hq with rfl | hq
        · exact h2
        · exact h3 q hq
      · rcases h4 with rfl | h4 <;> simp_all
    · obtain ⟨m, h1, h2, h3, h4⟩ := ih a
      refine ⟨m, by simpa [h] using h1, h2, ?_, ?_⟩
      · intro q hq
        rcases List.mem_cons.mp hq with rfl | hq
        · linarith
        · exact h3 q hq
      · rcases h4 with rfl | h4 <;> simp_all

/-- `revert` of finite values: how far each is below the largest one. -/
theorem revert_fin {qs : List Rat} (hne : qs ≠ []) : ∃ c : Rat, revert (qs.map PyF.fin) = qs.map (fun q => PyF.fin (c - q)) ∧
    (∀ q ∈ qs, q ≤ c) ∧ c ∈ qs := by
  cases qs with
  | nil => exact absurd rfl hne
  | cons a t =>
    obtain ⟨m, hm⟩ := foldl_min_fin t a
    obtain ⟨M, h1, h2, h3, h4⟩ := foldl_max_fin (t.map (· - m)) (a - m)
    have e : (t.map (· - m)).map PyF.fin = (t.map PyF.fin).map (fun f => PyF.sub f (.fin m)) := by
      simp [List.map_map, Function.comp_def, PyF.sub, PyF.neg, PyF.add, sub_eq_add_neg]
    have e0 : PyF.sub (.fin a) (.fin m) = .fin (a - m) := by simp [PyF.sub, PyF.neg, PyF.add, sub_eq_add_neg]
    refine ⟨M + m, ?_, ?_, ?_⟩
    · simp only [List.map_cons, revert, npMin, npMax, hm]
      rw [← e, e0, h1]
      simp only [List.map_cons, List.map_map, List.cons.injEq]
      refine ⟨?_, ?_⟩
      · simp only [PyF.sub, PyF.neg, PyF.add, PyF.fin.injEq]; ring
      · apply List.map_congr_left
        intro q _
        simp only [Function.comp, PyF.sub, PyF.neg, PyF.add, PyF.fin.injEq]; ring
    · intro q hq
      rcases List.mem_cons.mp hq with rfl | hq
      · linarith
      · have := h3 (q - m) (List.mem_map.mpr ⟨q, hq, rfl⟩); linarith
    · rcases h4 with h4 | h4
      · have : M + m = a := by rw [h4]; ring
        rw [this]; exact List.mem_cons_self
      · obtain ⟨q, hq, rfl⟩ := List.mem_map.mp h4
        have : q - m + m = q := by ring
        rw [this]; exact List.mem_cons_of_mem _ hq

theorem npSum_fin_aux (l : List Rat) : ∀ a : Rat, (l.map PyF.fin).foldl PyF.add (.fin a) = .fin (a + l.sum) := by
  induction l with
  | nil => intro a; simp
  | cons b t ih =>
    intro a
    simp only [List.map_cons, List.foldl_cons, PyF.add, ih, List.sum_cons]
    congr 1; ring

theorem npSum_fin (l : List Rat) : npSum (l.map PyF.fin) = .fin l.sum := by
  unfold npSum; rw [npSum_fin_aux]; simp

theorem choose_spec (ps : List Rat) : ∀ u, 0 ≤ u → u < ps.sum → ∃ p, ps[choose ps u]? = some p ∧ 0 < p := by
  induction ps with
  | nil => intro u h1 h2; simp at h2; linarith
  | cons p t ih =>
    intro u h1 h2
    rw [choose]
    by_cases h : u < p
    · rw [if_pos h]; exact ⟨p, by simp, by linarith⟩
    · rw [if_neg h]
      simp only [List.getElem?_cons_succ]
      exact ih (u - p) (by linarith) (by simp only [List.sum_cons] at h2; linarith)

theorem sum_pos_of {l : List Rat} (h : ∀ q ∈ l, 0 ≤ q) (hx : ∃ q ∈ l, q ≠ 0) : 0 < l.sum := by
  have h0 : 0 ≤ l.sum := List.sum_nonneg h
  rcases h0.lt_or_eq with h1 | h1
  · exact h1
  · obtain ⟨q, hq, hne⟩ := hx
    have : ∀ x ∈ l, x = 0 := by
      clear hq hne q
      induction l with
      | nil => simp
      | cons a t ih =>
        have ha := h a (by simp)
        have ht : 0 ≤ t.sum := List.sum_nonneg fun q hq => h q (by simp [hq])
        simp only [List.sum_cons] at h1 h0
        intro x hx
        rcases List.mem_cons.mp hx with rfl | hx
        · linarith
        · exact ih (fun q hq => h q (by simp [hq])) ht (by linarith) x hx
    exact absurd (this q hq) hne

/-- Roulette among finite values: the random point if all values are equal, else an optimizer which is not the worst. -/
theorem roulette_fin (qs : List Rat) (u : Rat) (h0 : 0 ≤ u) (h1 : u < 1) :
    (roulette (qs.map PyF.fin) u = .ok none ∧ ∀ q ∈ qs, ∀ q' ∈ qs, q = q') ∨
    (∃ k q, roulette (qs.map PyF.fin) u = .ok (some k) ∧ qs[k]? = some q ∧ ∃ q' ∈ qs, q < q') := by
  unfold roulette
  by_cases hne : qs = []
  · left; subst hne; simp
  rw [if_neg (by simpa using hne)]
  obtain ⟨c, hr, hc, hcm⟩ := revert_fin hne
  dsimp only
  rw [hr]
  by_cases hall : (qs.map fun q => PyF.fin (c - q)).all (fun r => PyF.eq r (.fin 0)) = true
  · rw [if_pos hall]
    left
    refine ⟨rfl, ?_⟩
    have : ∀ q ∈ qs, q = c := by
      intro q hq
      rw [List.all_eq_true] at hall
      have := hall _ (List.mem_map.mpr ⟨q, hq, rfl⟩)
      simp only [PyF.eq, decide_eq_true_eq] at this
      linarith
    intro q hq q' hq'
    rw [this q hq, this q' hq']
  · rw [if_neg hall]
    right
    have hd : (qs.map fun q => PyF.fin (c - q)) = (qs.map fun q => c - q).map PyF.fin := by simp [List.map_map]
    rw [hd, npSum_fin]
    have hpos : 0 < (qs.map fun q => c - q).sum := by
      apply sum_pos_of
      · intro x hx
        obtain ⟨q, hq, rfl⟩ := List.mem_map.mp hx
        linarith [hc q hq]
      · by_contra hcon
        push Not at hcon
        apply hall
        rw [List.all_eq_true]
        intro x hx
        obtain ⟨q, hq, rfl⟩ := List.mem_map.mp hx
        simpa [PyF.eq] using hcon (c - q) (List.mem_map.mpr ⟨q, hq, rfl⟩)
    generalize hS : (qs.map fun q => c - q).sum = S at hpos
    have hp : ((qs.map fun q => c - q).map PyF.fin).map (fun r => fdiv r (.fin S)) =
        (qs.map fun q => (c - q) / S).map PyF.fin := by
      simp only [List.map_map]
      apply List.map_congr_left
      intro q _
      simp [Function.comp, fdiv, hpos.ne']
    rw [hp]
    have hsum : (qs.map fun q => (c - q) / S).sum = 1 := by
      have : (qs.map fun q => (c - q) / S) = (qs.map fun q => c - q).map (fun x => x * S⁻¹) := by
        simp [List.map_map, Function.comp_def, div_eq_mul_inv]
      rw [this, List.sum_map_mul_right, List.map_id', hS, mul_inv_cancel₀ hpos.ne']
    have hcheck : choiceCheck ((qs.map fun q => (c - q) / S).map PyF.fin) = .ok () := by
      unfold choiceCheck
      rw [if_neg, if_neg, npSum_fin, hsum, if_pos (by simp [PyF.eq])]
      · simp only [List.any_map, List.any_eq_true, not_exists, not_and]
        intro q hq
        have := div_nonneg (sub_nonneg.mpr (hc q hq)) hpos.le
        simp only [Function.comp, PyF.lt, decide_eq_true_eq]
        linarith
      · simp [List.any_map, Function.comp_def, PyF.isNan]
    rw [hcheck]
    have hback : ((qs.map fun q => (c - q) / S).map PyF.fin).map toRat = qs.map fun q => (c - q) / S := by
      simp [List.map_map, Function.comp_def, toRat]
    simp only [hback]
    obtain ⟨p, hk, hp0⟩ := choose_spec _ u h0 (by rw [hsum]; exact h1)
    rw [List.getElem?_map] at hk
    obtain ⟨q, hq, hq'⟩ := Option.map_eq_some_iff.mp hk
    refine ⟨_, q, rfl, hq, c, hcm, ?_⟩
    rw [← hq'] at hp0
    have := (div_pos_iff_of_pos_right hpos).mp hp0
    linarith

end Glompo.Gen
