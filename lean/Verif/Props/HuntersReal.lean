import Mathlib.Analysis.SpecialFunctions.Pow.Real
import Mathlib.MeasureTheory.Measure.Lebesgue.Basic
import Verif.Spec.HuntersReal
import Verif.Props.Hunters

/-!
# C16 (rest), C17, C50, C61-C63: distance and the hunters needing roots and exponentials
-/

namespace Glompo.Props

open Glompo Glompo.Spec Glompo.Logger

/-! ## C50: distance -/

theorem sqDist_ofFn {n : Nat} (v w : Fin n → Rat) :
    sqDist (List.ofFn v) (List.ofFn w) = ∑ i, (v i - w i) ^ 2 := by
  induction n with
  | zero => simp [sqDist]
  | succ n ih =>
    rw [Fin.sum_univ_succ, ← ih]
    simp [sqDist, List.ofFn_succ]

/-- **C50.** The distance used by the hunters is the Euclidean distance. -/
theorem C50_euclidean {n : Nat} (v w : Fin n → Rat) :
    distance (List.ofFn v) (List.ofFn w) = dist (point v) (point w) := by
  rw [EuclideanSpace.dist_eq, distance, sqDist_ofFn]
  congr 1
  push_cast
  refine Finset.sum_congr rfl fun i _ => ?_
  simp [point, Real.dist_eq, sq_abs]

theorem exists_ofFn {n : Nat} (a : Vec) (h : a.length = n) : ∃ v : Fin n → Rat, a = List.ofFn v := by
  subst h
  exact ⟨a.get, (List.ofFn_get a).symm⟩

theorem point_inj {n : Nat} {v w : Fin n → Rat} : point v = point w ↔ v = w := by
  constructor
  · intro h
    funext i
    have := congrArg (fun p : EuclideanSpace ℝ (Fin n) => p i) h
    simpa [point] using this
  · rintro rfl; rfl

/-- **C50.** For points of equal length the distance is non-negative, zero exactly for equal points, symmetric and
satisfies the triangle inequality. -/
theorem C50_metric (a b c : Vec) (hab : a.length = b.length) (hbc : b.length = c.length) :
    0 ≤ distance a b ∧ (distance a b = 0 ↔ a = b) ∧ distance a b = distance b a ∧
    distance a c ≤ distance a b + distance b c := by
  obtain ⟨n, hn⟩ : ∃ n, b.length = n := ⟨_, rfl⟩
  obtain ⟨u, rfl⟩ := exists_ofFn a (hab.trans hn)
  obtain ⟨v, rfl⟩ := exists_ofFn b hn
  obtain ⟨w, rfl⟩ := exists_ofFn c (hbc.symm.trans hn)
  simp only [C50_euclidean]
  refine ⟨dist_nonneg, ?_, dist_comm _ _, dist_triangle _ _ _⟩
  rw [dist_eq_zero, point_inj]
  exact List.ofFn_injective.eq_iff.symm

example : distance [0, 0] [3, 4] = 5 := by
  have : sqDist [0, 0] [3, 4] = 25 := by decide +kernel
  rw [distance, this, show ((25 : Rat) : ℝ) = 5 ^ 2 by norm_num, Real.sqrt_sq (by norm_num)]

/-! ## C17: value annealing -/

/-- A run in which optimizer 1 was released; optimizers 2 and 3 sit at the same point. -/
def pdOps : List Op :=
  [.add 1 "A", .add 2 "B", .add 3 "B", .addHist 1 [], .addHist 2 [], .addHist 3 [], .put ⟨1, [0], .fin 5, []⟩,
   .put ⟨2, [7], .fin 9, []⟩, .put ⟨3, [7], .fin 3, []⟩, .clear (some 1)]

theorem bestValue_read (traj : Bool) (ops : List Op) (hwf : WellFormed ops) (i : Nat) (t : String) (f : PyF)
    (ha : Op.add i t ∈ ops) (hb : BestValue (evals ops) i f) :
    ∃ b, ((init traj).run ops).getBestIter (some i) = .ok b ∧ b.fx = f := by
  obtain ⟨h1, h2⟩ := (C01_best_is_earliest_min traj ops hwf).2.2 i t ha
  rcases hb with ⟨hn, rfl⟩ | ⟨k, r, hk, hr, rfl⟩
  · exact ⟨_, h1 hn, rfl⟩
  · exact ⟨_, h2 k r hk hr, rfl⟩

theorem rlt_eq (a b : ℝ) : rlt a b = true ↔ a < b := by simp [rlt]

theorem rle_eq (a b : ℝ) : rle a b = true ↔ a ≤ b := by simp [rle]

/-- **C17, value annealing.** With `fh`, `fv` the best values of hunter and victim and `u` the random number: a victim no
worse than the hunter is never condemned. A worse one (finite values, hunter not 0) is condemned exactly when `u` exceeds
`m ^ |(fv - fh) / fh|`, which lies in `(0, 1)`; a victim without any finite value, exactly when `u > 0`. A hunter at 0 or
`-inf` condemns nobody. -/
theorem C17_value_annealing (traj : Bool) (ops : List Op) (hunter victim : Nat) (th tv : String) (fh fv : PyF) (m u : ℝ)
    (hwf : WellFormed ops) (hah : Op.add hunter th ∈ ops) (hav : Op.add victim tv ∈ ops)
    (hfh : BestValue (evals ops) hunter fh) (hfv : BestValue (evals ops) victim fv) (hm : 0 < m ∧ m < 1) :
    (PyF.le fv fh = true → valueAnnealing m u ((init traj).run ops) hunter victim = .ok false) ∧
    (∀ h v : Rat, fh = .fin h → fv = .fin v → h < v → h ≠ 0 →
      (valueAnnealing m u ((init traj).run ops) hunter victim = .ok true ↔ m ^ |((v - h) / h : ℝ)| < u) ∧
      (valueAnnealing m u ((init traj).run ops) hunter victim = .ok false ↔ u ≤ m ^ |((v - h) / h : ℝ)|) ∧
      0 < m ^ |((v - h) / h : ℝ)| ∧ m ^ |((v - h) / h : ℝ)| < 1) ∧
    (∀ h : Rat, fh = .fin h → fv = .pinf → h ≠ 0 →
      (valueAnnealing m u ((init traj).run ops) hunter victim = .ok true ↔ 0 < u)) ∧
    (fh = .fin 0 ∨ fh = .ninf → valueAnnealing m u ((init traj).run ops) hunter victim = .ok false) := by
  obtain ⟨bh, eh, rfl⟩ := bestValue_read traj ops hwf hunter th fh hah hfh
  obtain ⟨bv, ev, rfl⟩ := bestValue_read traj ops hwf victim tv fv hav hfv
  simp only [valueAnnealing, eh, ev]
  refine ⟨fun h => by simp [h], ?_, ?_, ?_⟩
  · intro h v e1 e2 hlt hne
    have hc : (PyF.eq bh.fx (.fin 0) || PyF.le bv.fx bh.fx) = false := by
      rw [e1, e2]
      simp [PyF.eq, PyF.le, hne, hlt]
    have hp : Real.exp (|((h : ℝ) - v) / h| * Real.log m) = m ^ |((v - h) / h : ℝ)| := by
      rw [Real.rpow_def_of_pos hm.1, mul_comm, ← abs_neg (((v : ℝ) - h) / h), ← neg_div, neg_sub]
    rw [hc]
    simp only [Bool.false_eq_true, if_false, e1, e2, survivalProb, hp, Except.ok.injEq]
    refine ⟨rlt_eq _ _, ?_, Real.rpow_pos_of_pos hm.1 _, ?_⟩
    · rw [← Bool.not_eq_true, rlt_eq, not_lt]
    · apply Real.rpow_lt_one hm.1.le hm.2
      rw [abs_pos]
      have h1 : (v : ℝ) - h ≠ 0 := by
        have : (h : ℝ) < v := by exact_mod_cast hlt
        linarith
      exact div_ne_zero h1 (by exact_mod_cast hne)
  · intro h e1 e2 hne
    have hc : (PyF.eq bh.fx (.fin 0) || PyF.le bv.fx bh.fx) = false := by
      rw [e1, e2]
      simp [PyF.eq, PyF.le, hne]
    rw [hc]
    simp only [Bool.false_eq_true, if_false, e1, e2, survivalProb, Except.ok.injEq]
    exact rlt_eq _ _
  · rintro (e | e)
    · simp [e, PyF.eq]
    · rw [e]
      split
      · rfl
      · simp only [survivalProb]

theorem bestValue_of_check {es : List IterRes} {i : Nat} {f : PyF} (k : Nat)
    (h : ∃ r ∈ es[k]?, r.optId = i ∧ r.fx = f ∧ PyF.lt f .pinf = true ∧
      ∀ j < es.length, ∀ r' ∈ es[j]?, r'.optId = i →
        PyF.lt r'.fx f = false ∧ (j < k → PyF.le r'.fx f = false)) : BestValue es i f := by
  obtain ⟨r, hr, hi, rfl, hp, hall⟩ := h
  refine Or.inr ⟨k, r, ⟨r, hr, hi, hp, fun j r' hj hi' => ?_⟩, hr, rfl⟩
  exact hall j (List.getElem?_eq_some_iff.mp hj).1 r' hj hi'

example : BestValue (evals huntOps) 1 (.fin 3) := bestValue_of_check 2 (by decide +kernel)
example : BestValue (evals huntOps) 2 (.fin 9) := bestValue_of_check 1 (by decide +kernel)

/-- **C61.** The documentation of `med_kill_chance` says: the probability of killing a victim whose value is twice the
hunter's. For a uniform random number this probability is `1 - med_kill_chance`. -/
theorem C61_kill_chance_refuted (traj : Bool) (ops : List Op) (hunter victim : Nat) (th tv : String) (f : Rat) (m : ℝ)
    (hwf : WellFormed ops) (hah : Op.add hunter th ∈ ops) (hav : Op.add victim tv ∈ ops) (hf : 0 < f)
    (hfh : BestValue (evals ops) hunter (.fin f)) (hfv : BestValue (evals ops) victim (.fin (2 * f)))
    (hm : 0 < m ∧ m < 1) :
    MeasureTheory.volume {u : ℝ | u ∈ Set.Icc 0 1 ∧
      valueAnnealing m u ((init traj).run ops) hunter victim = .ok true} = ENNReal.ofReal (1 - m) := by
  have hset : {u : ℝ | u ∈ Set.Icc 0 1 ∧ valueAnnealing m u ((init traj).run ops) hunter victim = .ok true} =
      Set.Ioc m 1 := by
    ext u
    obtain ⟨h1, -⟩ := (C17_value_annealing traj ops hunter victim th tv _ _ m u hwf hah hav hfh hfv hm).2.1 f (2 * f)
      rfl rfl (by linarith) hf.ne'
    have hf' : (f : ℝ) ≠ 0 := by exact_mod_cast hf.ne'
    have e : |(((2 * f : Rat) : ℝ) - f) / f| = 1 := by
      push_cast
      rw [show (2 * (f : ℝ) - f) / f = 1 by field_simp; ring, abs_one]
    rw [e, Real.rpow_one] at h1
    simp only [Set.mem_ofPred_eq, h1, Set.mem_Icc, Set.mem_Ioc]
    constructor
    · rintro ⟨⟨_, h⟩, h'⟩; exact ⟨h', h⟩
    · rintro ⟨h, h'⟩; exact ⟨⟨by linarith [hm.1], h'⟩, h⟩
  rw [hset, Real.volume_Ioc]

example : BestValue (evals pdOps) 3 (.fin 3) ∧ BestValue (evals (pdOps ++ [.put ⟨2, [8], .fin (2 * 3), []⟩])) 2 (.fin 6) :=
  ⟨bestValue_of_check 2 (by decide +kernel), bestValue_of_check 3 (by decide +kernel)⟩

/-- In particular the documented reading holds only for one half. -/
theorem C61_kill_chance_half (m : ℝ) (hm : 0 < m ∧ m < 1) : ENNReal.ofReal (1 - m) = ENNReal.ofReal m ↔ m = 1 / 2 := by
  rw [ENNReal.ofReal_eq_ofReal_iff (by linarith [hm.2]) hm.1.le]
  constructor <;> intro h <;> linarith

/-! ## C62: unmoving evaluations -/

theorem allFin_eq (l : List PyF) (w : List Rat) : allFin l = some w ↔ l = w.map .fin := by
  induction l generalizing w with
  | nil => cases w <;> simp [allFin]
  | cons a t ih =>
    cases a with
    | fin q =>
      simp only [allFin]
      cases w with
      | nil => cases allFin t <;> simp
      | cons p w =>
        have := ih w
        cases h : allFin t with
        | none => rw [h] at this; simp at this; simp [this]
        | some r => rw [h] at this; simp at this ⊢; intro _; exact this
    | _ => cases w <;> simp [allFin]

theorem allFin_none {l : List PyF} (h : allFin l = none) : ∃ a ∈ l, a.isFinite = false := by
  induction l with
  | nil => simp [allFin] at h
  | cons a t ih =>
    cases a with
    | fin q =>
      simp only [allFin] at h
      cases h' : allFin t with
      | none => obtain ⟨b, hb, hf⟩ := ih h'; exact ⟨b, by simp [hb], hf⟩
      | some r => rw [h'] at h; simp at h
    | _ => exact ⟨_, List.mem_cons_self, rfl⟩

/-- **C62.** With a window of at least one evaluation: if fewer evaluations exist, or one of the window is not finite,
the victim survives; otherwise it is condemned exactly when the variance of the window's values is at most the square of
the tolerance times the last value. -/
theorem C62_evaluations_unmoving (traj : Bool) (ops : List Op) (victim calls : Nat) (tol : Rat) (hwf : WellFormed ops)
    (hc : traj = true ∨ ¬ Cleared ops victim) (hcalls : 0 < calls) :
    let vals := valuesOf (evals ops) victim
    let window := vals.drop (vals.length - calls)
    let hunter := evaluationsUnmoving calls tol ((init traj).run ops) victim
    (vals.length < calls → hunter = .ok false) ∧
    ((∃ f ∈ window, f = .nan ∨ f = .pinf ∨ f = .ninf) → hunter = .ok false) ∧
    (∀ (w : List Rat) (last : Rat), calls ≤ vals.length → window = w.map .fin → w.getLast? = some last →
      (∃ b, hunter = .ok b) ∧
      (hunter = .ok true ↔
        (w.map fun x => (x - w.sum / calls) ^ 2).sum / calls ≤ (last * tol) ^ 2)) := by
  obtain ⟨h1, h2⟩ := fxHist_exact traj ops victim hwf hc
  intro vals window hunter
  have hl : lastN vals calls = window := by simp [lastN, Nat.ne_of_gt hcalls, window]
  have hans : hunter = if vals.length < calls then .ok false else
      match vals.getLast? with
      | none => .error .indexError
      | some _ =>
        match allFin window with
        | none => .ok false
        | some w =>
          match w.getLast? with
          | none => .ok false
          | some last => .ok (rle (std w) |((last * tol : Rat) : ℝ)|) := by
    simp only [hunter, evaluationsUnmoving, h1, h2]
    rw [show valuesOf (evals ops) victim = vals from rfl, hl]
    rfl
  clear_value hunter
  refine ⟨fun h => by rw [hans, if_pos h], ?_, ?_⟩
  · rintro ⟨f, hf, hn⟩
    rw [hans]
    split
    · rfl
    · have hne : vals ≠ [] := by rintro e; simp [window, e] at hf
      obtain ⟨a, ha⟩ : ∃ a, vals.getLast? = some a := ⟨_, List.getLast?_eq_some_getLast hne⟩
      have : allFin window = none := by
        cases h : allFin window with
        | none => rfl
        | some w =>
          rw [allFin_eq] at h
          rw [h] at hf
          obtain ⟨q, _, rfl⟩ := List.mem_map.mp hf
          simp at hn
      rw [ha, this]
  · intro w last hlen hw hlast
    have hwl : w.length = calls := by
      have := congrArg List.length hw
      simp [window] at this
      omega
    have hne : vals ≠ [] := by rintro e; simp [e] at hlen; omega
    obtain ⟨a, ha⟩ : ∃ a, vals.getLast? = some a := ⟨_, List.getLast?_eq_some_getLast hne⟩
    have hfin := (allFin_eq window w).mpr hw
    rw [if_neg (by omega), ha, hfin] at hans
    simp only [hlast] at hans
    refine ⟨⟨_, hans⟩, ?_⟩
    rw [hans, Except.ok.injEq, rle_eq, std]
    have hv : mean (w.map fun x => (x - mean w) ^ 2) = (w.map fun x => (x - w.sum / calls) ^ 2).sum / calls := by
      simp [mean, hwl]
    rw [hv, Real.sqrt_le_left (abs_nonneg _), sq_abs]
    exact_mod_cast Iff.rfl

theorem sum_sq_zero (l : List Rat) (c : Rat) : (l.map fun x => (x - c) ^ 2).sum = 0 ↔ ∀ x ∈ l, x = c := by
  induction l with
  | nil => simp
  | cons a t ih =>
    have hn : 0 ≤ (t.map fun x => (x - c) ^ 2).sum := by
      apply List.sum_nonneg
      intro x hx
      obtain ⟨y, _, rfl⟩ := List.mem_map.mp hx
      exact sq_nonneg _
    simp only [List.map_cons, List.sum_cons, List.forall_mem_cons, ← ih]
    rw [add_eq_zero_iff_of_nonneg (sq_nonneg _) hn, sq_eq_zero_iff, sub_eq_zero]

/-- **C62, zero tolerance.** With tolerance 0 the victim is condemned exactly when the window's values are all the same
finite value. -/
theorem C62_zero_tolerance (traj : Bool) (ops : List Op) (victim calls : Nat) (hwf : WellFormed ops)
    (hc : traj = true ∨ ¬ Cleared ops victim) (hcalls : 0 < calls) :
    evaluationsUnmoving calls 0 ((init traj).run ops) victim = .ok true ↔
      calls ≤ (valuesOf (evals ops) victim).length ∧
      ∃ c : Rat, ∀ f ∈ (valuesOf (evals ops) victim).drop ((valuesOf (evals ops) victim).length - calls), f = .fin c := by
  obtain ⟨g1, g2, g3⟩ := C62_evaluations_unmoving traj ops victim calls 0 hwf hc hcalls
  generalize evaluationsUnmoving calls 0 ((init traj).run ops) victim = hunter at *
  generalize valuesOf (evals ops) victim = vals at *
  have hcq : (calls : Rat) ≠ 0 := by exact_mod_cast hcalls.ne'
  by_cases hlen : calls ≤ vals.length
  · cases h : allFin (vals.drop (vals.length - calls)) with
    | none =>
      obtain ⟨a, ha, hf⟩ := allFin_none h
      have : hunter = .ok false := g2 ⟨a, ha, by cases a <;> simp_all [PyF.isFinite]⟩
      rw [this]
      constructor
      · intro e; cases e
      · rintro ⟨_, c, hall⟩
        rw [hall a ha] at hf
        simp [PyF.isFinite] at hf
    | some w =>
      have hw := (allFin_eq _ w).mp h
      have hwl : w.length = calls := by
        have := congrArg List.length hw
        simp at this
        omega
      have hwne : w ≠ [] := by rintro rfl; simp at hwl; omega
      obtain ⟨_, g⟩ := g3 w _ hlen hw (List.getLast?_eq_some_getLast hwne)
      rw [g]
      have hnn : 0 ≤ (w.map fun x => (x - w.sum / calls) ^ 2).sum := by
        apply List.sum_nonneg
        intro x hx
        obtain ⟨y, _, rfl⟩ := List.mem_map.mp hx
        exact sq_nonneg _
      have hz : (w.map fun x => (x - w.sum / calls) ^ 2).sum / calls ≤ (w.getLast hwne * 0) ^ 2 ↔
          (w.map fun x => (x - w.sum / calls) ^ 2).sum = 0 := by
        simp only [mul_zero, ne_eq, OfNat.ofNat_ne_zero, not_false_eq_true, zero_pow]
        constructor
        · intro hle
          have := div_nonneg hnn (by positivity : (0 : Rat) ≤ calls)
          have e := _root_.le_antisymm hle this
          rcases div_eq_zero_iff.mp e with e | e
          · exact e
          · exact absurd e hcq
        · intro e; rw [e, zero_div]
      rw [hz, sum_sq_zero]
      constructor
      · intro hall
        refine ⟨hlen, w.sum / calls, fun f hf => ?_⟩
        rw [hw] at hf
        obtain ⟨q, hq, rfl⟩ := List.mem_map.mp hf
        rw [hall q hq]
      · rintro ⟨_, c, hall⟩
        have hc' : ∀ x ∈ w, x = c := by
          intro x hx
          have := hall (.fin x) (by rw [hw]; exact List.mem_map_of_mem hx)
          simpa using this
        have hs : w.sum = calls * c := by
          rw [List.eq_replicate_of_mem hc', hwl]; simp
        intro x hx
        rw [hc' x hx, hs]
        field_simp
  · have : hunter = .ok false := g1 (by omega)
    rw [this]
    constructor
    · intro e; cases e
    · rintro ⟨h, _⟩; exact absurd h hlen

example : evaluationsUnmoving 3 0 ((init false).run huntOps) 1 = .ok true :=
  (C62_zero_tolerance false huntOps 1 3 (wellFormed_of_wfB (by decide +kernel))
    (Or.inr (by simp [Cleared, huntOps])) (by decide)).mpr ⟨by decide +kernel, 3, by decide +kernel⟩

/-! ## C63: parameter distance and step size -/

theorem xHist_exact (traj : Bool) (ops : List Op) (i : Nat) (hwf : WellFormed ops)
    (hc : traj = true ∨ ¬ Cleared ops i) : xHist ((init traj).run ops) i = .ok (pointsOf (evals ops) i) := by
  obtain ⟨_, h1, _⟩ := C02_history_exact traj ops i hwf hc
  simp only [xHist, h1, pointsOf, List.map_map]
  rfl

theorem paramDistLoop_true (trans : ℝ) (rel : Rat) (log : Logger) (es : List IterRes) (victim : Nat) (v : Vec)
    (js : List Nat) (hj : ∀ j ∈ js, xHist log j = .ok (pointsOf es j)) (hvic : xHist log victim = .ok (pointsOf es victim))
    (hv : lastPoint es victim = some v) :
    (∃ b, paramDistLoop trans rel log victim js = .ok b) ∧
    (paramDistLoop trans rel log victim js = .ok true ↔
      ∃ j ∈ js, j ≠ victim ∧ ∃ h, lastPoint es j = some h ∧ distance h v / trans ≤ rel) := by
  induction js with
  | nil => simp [paramDistLoop]
  | cons j js ih =>
    have ih := ih fun k hk => hj k (by simp [hk])
    simp only [paramDistLoop]
    by_cases e : j = victim
    · rw [if_pos e]
      refine ⟨ih.1, ih.2.trans ?_⟩
      simp [e]
    · rw [if_neg e, hj j (by simp)]
      simp only
      cases h1 : (pointsOf es j).getLast? with
      | none =>
        simp only
        refine ⟨ih.1, ih.2.trans ?_⟩
        simp [lastPoint, h1]
      | some h =>
        rw [hvic]
        simp only
        rw [show (pointsOf es victim).getLast? = some v from hv]
        simp only
        by_cases hd : distance h v / trans ≤ (rel : ℝ)
        · rw [if_pos ((rle_eq _ _).mpr hd)]
          exact ⟨⟨_, rfl⟩, fun _ => ⟨j, by simp, e, h, h1, hd⟩, fun _ => rfl⟩
        · rw [if_neg (by rw [rle_eq]; exact hd)]
          refine ⟨ih.1, ih.2.trans ?_⟩
          constructor
          · rintro ⟨k, hk, r⟩; exact ⟨k, by simp [hk], r⟩
          · rintro ⟨k, hk, hne, h', hl, hle⟩
            rcases List.mem_cons.mp hk with rfl | hk
            · rw [lastPoint, h1] at hl
              cases hl
              exact absurd hle hd
            · exact ⟨k, hk, hne, h', hl, hle⟩

theorem nOptimizers_run (traj : Bool) (ops : List Op) (hwf : WellFormed ops) (hc : traj = true ∨ ∀ j, Op.clear j ∉ ops) :
    ((init traj).run ops).storage.map (·.1) = added ops := by
  induction ops using snoc_induction with
  | h0 => rfl
  | hs l op ih =>
    have hcl : traj = true ∨ ∀ j, Op.clear j ∉ l := hc.imp id fun h j hj => h j (by simp [hj])
    replace ih := ih hwf.init hcl
    have hlast := hwf.last
    have htraj : ((init traj).run l).buildTrajPlot = traj := by rw [run_traj]; rfl
    rw [run_snoc, added_append]
    generalize (init traj).run l = s at ih htraj
    have hkey : ∀ (k : Nat) (st st' : Store), dictGet s.storage k = some st →
        (dictSet s.storage k st').map (·.1) = s.storage.map (·.1) := by
      intro k st st' h
      rw [dictSet_keys]
      exact if_pos ((dictGet_isSome_iff _ _).mp (by rw [h]; rfl))
    cases op with
    | add j t =>
      simp only [step, addOptimizer, added, List.filterMap_cons, List.filterMap_nil]
      rw [dictSet_keys, ih]
      simp [hlast.2]
      rfl
    | addHist j hs =>
      simp only [step, addIterHistory, added, List.filterMap_cons, List.filterMap_nil, List.append_nil]
      split
      · exact ih
      · rename_i st h; simp only; rw [hkey _ _ _ h]; exact ih
    | put r =>
      simp only [step, putIteration, added, List.filterMap_cons, List.filterMap_nil, List.append_nil]
      split
      · exact ih
      · rw [putBest_storage]
        split
        · rw [putBest_storage]; exact ih
        · rename_i st h; simp only; rw [hkey _ _ _ h]; exact ih
    | clear j =>
      rcases hc with h | h
      · subst h
        simp only [step, clearCache, htraj, if_true, added, List.filterMap_cons, List.filterMap_nil, List.append_nil]
        exact ih
      · exact absurd (by simp) (h j)
    | putMeta j k v =>
      simp only [step, putMetadata, added, List.filterMap_cons, List.filterMap_nil, List.append_nil]
      split
      · exact ih
      · rename_i st h; simp only; rw [hkey _ _ _ h]; exact ih
    | putMsg j m =>
      simp only [step, putMessage, added, List.filterMap_cons, List.filterMap_nil, List.append_nil]
      split
      · exact ih
      · rename_i st h; simp only; rw [hkey _ _ _ h]; exact ih

/-- **C63.** Compared with the hunter only: the victim is condemned exactly when both reported a point and the last
points are no further apart than the given fraction of the diagonal of the search space. -/
theorem C63_parameter_distance (traj : Bool) (ops : List Op) (hunter victim : Nat) (bounds : List (Rat × Rat)) (rel : Rat)
    (v : Vec) (hwf : WellFormed ops) (hch : traj = true ∨ ¬ Cleared ops hunter)
    (hcv : traj = true ∨ ¬ Cleared ops victim) (hne : hunter ≠ victim) (hv : lastPoint (evals ops) victim = some v) :
    (∃ b, parameterDistance bounds rel false ((init traj).run ops) hunter victim = .ok b) ∧
    (parameterDistance bounds rel false ((init traj).run ops) hunter victim = .ok true ↔
      ∃ h, lastPoint (evals ops) hunter = some h ∧
        distance h v / distance (bounds.map (·.1)) (bounds.map (·.2)) ≤ rel) := by
  obtain ⟨h1, h2⟩ := paramDistLoop_true (transSpaceDist bounds) rel ((init traj).run ops) (evals ops) victim v [hunter]
    (by intro j hj; rw [List.mem_singleton.mp hj]; exact xHist_exact traj ops hunter hwf hch)
    (xHist_exact traj ops victim hwf hcv) hv
  refine ⟨h1, h2.trans ?_⟩
  simp [hne, transSpaceDist]

/-- **C63, comparing with all.** If no memory was released and the optimizers are numbered 1, 2, ..., the victim is
condemned exactly when the last point of some other optimizer is no further away than the given fraction of the
diagonal. -/
theorem C63_parameter_distance_all_partial (traj : Bool) (ops : List Op) (hunter victim : Nat)
    (bounds : List (Rat × Rat)) (rel : Rat) (v : Vec) (hwf : WellFormed ops)
    (hc : traj = true ∨ ∀ j, Op.clear j ∉ ops) (hids : added ops = List.range' 1 (added ops).length)
    (hv : lastPoint (evals ops) victim = some v) :
    (∃ b, parameterDistance bounds rel true ((init traj).run ops) hunter victim = .ok b) ∧
    (parameterDistance bounds rel true ((init traj).run ops) hunter victim = .ok true ↔
      ∃ j ∈ added ops, j ≠ victim ∧ ∃ h, lastPoint (evals ops) j = some h ∧
        distance h v / distance (bounds.map (·.1)) (bounds.map (·.2)) ≤ rel) := by
  have hcj : ∀ j, traj = true ∨ ¬ Cleared ops j := fun j => hc.imp id fun h hcl => by
    rcases hcl with hcl | hcl | hcl <;> exact h _ hcl
  have hn : List.range' 1 ((init traj).run ops).nOptimizers = added ops := by
    have := congrArg List.length (nOptimizers_run traj ops hwf hc)
    rw [List.length_map] at this
    rw [nOptimizers, this, ← hids]
  have := paramDistLoop_true (transSpaceDist bounds) rel ((init traj).run ops) (evals ops) victim v (added ops)
    (fun j _ => xHist_exact traj ops j hwf (hcj j)) (xHist_exact traj ops victim hwf (hcj victim)) hv
  simp only [parameterDistance, if_true, hn]
  exact this

/-- **C63, comparing with all, refuted.** After memory was released the newest optimizers are left out of the comparison:
the victim 2 sits exactly on the point of optimizer 3 and survives. -/
theorem C63_parameter_distance_all_refuted :
    WellFormed pdOps ∧ lastPoint (evals pdOps) 2 = some [7] ∧ lastPoint (evals pdOps) 3 = some [7] ∧
    added pdOps = [1, 2, 3] ∧
    parameterDistance [(0, 10)] (1 / 10) true ((init false).run pdOps) 3 2 = .ok false := by
  refine ⟨wellFormed_of_wfB (by decide +kernel), by decide +kernel, by decide +kernel, by decide +kernel, ?_⟩
  have hn : ((init false).run pdOps).nOptimizers = 2 := by decide +kernel
  have h1 : (xHist ((init false).run pdOps) 1).toOption = some [] := by decide +kernel
  have h1' : xHist ((init false).run pdOps) 1 = .ok [] := by
    cases h : xHist ((init false).run pdOps) 1 with
    | error e => rw [h] at h1; cases h1
    | ok a => rw [h] at h1; cases h1; rfl
  simp only [parameterDistance, if_true, hn]
  show paramDistLoop _ _ _ 2 [1, 2] = _
  simp [paramDistLoop, h1']

example : parameterDistance [(0, 10)] (1 / 10) true ((init false).run pdOps.dropLast) 3 2 = .ok true := by
  refine (C63_parameter_distance_all_partial false pdOps.dropLast 3 2 [(0, 10)] (1 / 10) [7]
    (wellFormed_of_wfB (by decide +kernel)) (Or.inr (by intro j; simp [pdOps])) (by decide +kernel)
    (by decide +kernel)).2.mpr ⟨3, by decide +kernel, by decide, [7], by decide +kernel, ?_⟩
  rw [(C50_metric [7] [7] [7] rfl rfl).2.1.mpr rfl, zero_div]
  norm_num

theorem stepLengths_length (l : List Vec) : (stepLengths l).length = l.length - 1 := by
  induction l with
  | nil => rfl
  | cons a t ih =>
    cases t with
    | nil => rfl
    | cons b t => simp [stepLengths, ih]

theorem stepLengths_sum (l : List Vec) :
    (stepLengths l).sum = ∑ k ∈ Finset.range (l.length - 1), distance (l.getD (k + 1) []) (l.getD k []) := by
  induction l with
  | nil => rfl
  | cons a t ih =>
    cases t with
    | nil => rfl
    | cons b t =>
      simp only [stepLengths, List.sum_cons, ih, List.length_cons, Nat.add_sub_cancel]
      rw [Finset.sum_range_succ', add_comm]
      simp

/-- **C63, step size.** With a window of at least two evaluations, the victim is condemned exactly when it has that many
evaluations and the mean distance between successive points of the window is at most the given fraction of the diagonal
of the search space. -/
theorem C63_step_size (traj : Bool) (ops : List Op) (victim calls : Nat) (bounds : List (Rat × Rat)) (tol : Rat)
    (hwf : WellFormed ops) (hc : traj = true ∨ ¬ Cleared ops victim) (hcalls : 2 ≤ calls) :
    let n := (pointsOf (evals ops) victim).length
    let pt := fun k => (pointsOf (evals ops) victim).getD k []
    (∃ b, stepSize bounds calls tol ((init traj).run ops) victim = .ok b) ∧
    (stepSize bounds calls tol ((init traj).run ops) victim = .ok true ↔
      calls ≤ n ∧
      (∑ k ∈ Finset.range (calls - 1), distance (pt (n - calls + (k + 1))) (pt (n - calls + k))) / (calls - 1 : ℝ) ≤
        tol * distance (bounds.map (·.1)) (bounds.map (·.2))) := by
  intro n pt
  simp only [stepSize, xHist_exact traj ops victim hwf hc, lastN, if_neg (show ¬ calls = 0 by omega), List.length_drop]
  by_cases h : calls ≤ n
  · have hn : n - (n - calls) ≥ calls := by omega
    rw [show (pointsOf (evals ops) victim).length = n from rfl, if_pos hn, stepLengths_length, stepLengths_sum]
    simp only [List.length_drop]
    rw [show (pointsOf (evals ops) victim).length = n from rfl, show n - (n - calls) = calls by omega,
      if_neg (show ¬ calls - 1 = 0 by omega)]
    refine ⟨⟨_, rfl⟩, ?_⟩
    rw [Except.ok.injEq, rle_eq]
    have hcast : ((calls - 1 : Nat) : ℝ) = (calls : ℝ) - 1 := by
      rw [Nat.cast_sub (by omega)]; simp
    have hsum : ∀ k, ((pointsOf (evals ops) victim).drop (n - calls)).getD k [] = pt (n - calls + k) := by
      intro k; simp [pt, List.getD_eq_getElem?_getD, List.getElem?_drop]
    simp only [hsum, hcast, transSpaceDist]
    exact ⟨fun h' => ⟨h, h'⟩, fun h' => h'.2⟩
  · have hn : ¬ n - (n - calls) ≥ calls := by omega
    rw [show (pointsOf (evals ops) victim).length = n from rfl, if_neg hn]
    exact ⟨⟨_, rfl⟩, fun e => by simp at e, fun e => absurd e.1 h⟩

/-- **C63, step size with a window of one.** Accepted by the constructor, but never condemns anybody. -/
theorem C63_step_size_one (traj : Bool) (ops : List Op) (victim : Nat) (bounds : List (Rat × Rat)) (tol : Rat)
    (hwf : WellFormed ops) (hc : traj = true ∨ ¬ Cleared ops victim) :
    stepSize bounds 1 tol ((init traj).run ops) victim = .ok false := by
  simp only [stepSize, xHist_exact traj ops victim hwf hc, lastN, if_neg (show ¬ (1 : Nat) = 0 by omega)]
  split
  · rw [stepLengths_length, List.length_drop]
    rw [if_pos (by omega)]
  · rfl

example : stepSize [(0, 10)] 3 0 ((init false).run huntOps) 1 = .ok true := by
  refine (C63_step_size false huntOps 1 3 [(0, 10)] 0 (wellFormed_of_wfB (by decide +kernel))
    (Or.inr (by simp [Cleared, huntOps])) (by decide)).2.mpr ⟨by decide +kernel, ?_⟩
  have e : pointsOf (evals huntOps) 1 = [[0], [0], [0], [0]] := by decide +kernel
  have d : distance [0] [0] = 0 := (C50_metric [0] [0] [0] rfl rfl).2.1.mpr rfl
  simp [e, Finset.sum_range_succ, d]

end Glompo.Props
