import Verif.Props.Generators

/-!
# C70: the basin hopping generator
-/

namespace Glompo.Props

open Glompo Glompo.Logger Glompo.Spec Glompo.Spec.Gen Glompo.Spec.RandomOpt Glompo.Gen

namespace Basin

/-- `v` differs from `x` by at most `s` in every coordinate. -/
def Within (s : Rat) (x v : Vec) : Prop :=
  v.length = x.length ∧ ∀ (k : Nat) a y, x[k]? = some a → v[k]? = some y → a - s ≤ y ∧ y ≤ a + s

/-- Generators made from the constructor and used any number of times, with any logs and draws. -/
inductive Used (bounds : List (Rat × Rat)) (g0 : Gen.Basin) : Gen.Basin → Prop
  | new : Used bounds g0 g0
  | again {g : Gen.Basin} (log : Logger) (o : Nat) (d : Draws) : Used bounds g0 g →
      Used bounds g0 (g.generate bounds log o d).1

/-- What `generate` never touches. -/
def Same (a b : Gen.Basin) : Prop :=
  a.beta = b.beta ∧ a.maxStep = b.maxStep ∧ a.target = b.target ∧ a.interval = b.interval ∧ a.factor = b.factor

theorem Same.refl (a : Gen.Basin) : Same a a := ⟨rfl, rfl, rfl, rfl, rfl⟩

theorem Same.trans {a b c : Gen.Basin} (h : Same a b) (h' : Same b c) : Same a c :=
  ⟨h.1.trans h'.1, h.2.1.trans h'.2.1, h.2.2.1.trans h'.2.2.1, h.2.2.2.1.trans h'.2.2.2.1, h.2.2.2.2.trans h'.2.2.2.2⟩

theorem notice_same (g : Gen.Basin) (b : BestIter) : Same (g.notice b) g ∧ (g.notice b).step = g.step := by
  unfold Gen.Basin.notice
  split
  · exact ⟨⟨rfl, rfl, rfl, rfl, rfl⟩, rfl⟩
  · exact ⟨Same.refl _, rfl⟩

theorem centre_same (g : Gen.Basin) (log : Logger) (b : BestIter) (d : Draws) :
    Same (g.centre log b d).2 g ∧ (g.centre log b d).2.step = g.step := by
  unfold Gen.Basin.centre
  split
  · exact ⟨Same.refl _, rfl⟩
  split
  · exact ⟨Same.refl _, rfl⟩
  split
  · exact ⟨⟨rfl, rfl, rfl, rfl, rfl⟩, rfl⟩
  · exact ⟨Same.refl _, rfl⟩

theorem adjust_same {g g' : Gen.Basin} {o : Nat} (h : g.adjust o = .ok g') : Same g' g := by
  unfold Gen.Basin.adjust at h
  split at h
  · cases h
  split at h
  · split at h
    · cases h
    · dsimp only at h
      split at h
      · cases h; exact ⟨rfl, rfl, rfl, rfl, rfl⟩
      split at h
      · cases h; exact ⟨rfl, rfl, rfl, rfl, rfl⟩
      · cases h; exact Same.refl _
  · cases h; exact Same.refl _

theorem generate_same (g : Gen.Basin) (bounds : List (Rat × Rat)) (log : Logger) (o : Nat) (d : Draws) :
    Same (g.generate bounds log o d).1 g := by
  unfold Gen.Basin.generate
  dsimp only
  split
  · exact Same.refl _
  · split
    · exact (centre_same _ _ _ _).1.trans (notice_same _ _).1
    · rename_i g3 h
      exact (adjust_same h).trans ((centre_same _ _ _ _).1.trans (notice_same _ _).1)

theorem used_same {bounds : List (Rat × Rat)} {g0 g : Gen.Basin} (h : Used bounds g0 g) : Same g g0 := by
  induction h with
  | new => exact Same.refl _
  | again log o d _ ih => exact (generate_same _ _ _ _ _).trans ih

theorem displace_within {s : Rat} (hs : 0 ≤ s) {x : Vec} {disp : List Rat} (hl : disp.length = x.length)
    (hd : ∀ u ∈ disp, -1 ≤ u ∧ u ≤ 1) {v : Vec} (h : displace s x disp = .ok v) : Within s x v := by
  unfold displace at h
  split at h
  · cases h
  · simp only [Except.ok.injEq] at h
    subst h
    refine ⟨by simp [hl], fun k a y h1 h2 => ?_⟩
    rw [List.getElem?_zipWith, h1] at h2
    cases hu : disp[k]? with
    | none => rw [hu] at h2; cases h2
    | some u =>
      rw [hu] at h2
      simp only [Option.some.injEq] at h2
      subst h2
      have := hd u (List.mem_of_getElem? hu)
      constructor <;> nlinarith [mul_le_mul_of_nonneg_left this.1 hs, mul_le_mul_of_nonneg_left this.2 hs]

/-- The record whose point is perturbed is that of a registered optimizer. -/
theorem centre_rec (g : Gen.Basin) (log : Logger) (b : BestIter) (d : Draws) :
    (g.centre log b d).1 = b ∨ ∃ j, j ≠ 0 ∧ dictGet log.bestIters j = some (g.centre log b d).1 ∧
      metropolis (exponent g.beta (g.centre log b d).1.fx b.fx) d.rand = true := by
  unfold Gen.Basin.centre
  split
  · exact Or.inl rfl
  · rename_i j hj
    split
    · exact Or.inl rfl
    · rename_i other ho
      split
      · rename_i hm
        refine Or.inr ⟨j, ?_, ho, hm⟩
        have := List.mem_of_getElem? hj
        unfold others at this
        simp only [List.mem_filter, Bool.and_eq_true, bne_iff_ne, ne_eq] at this
        exact this.2.1
      · exact Or.inl rfl

/-- An optimizer without a value below infinity is only chosen if exactly 0 is drawn. -/
theorem no_pinf {T : Rat} (hT : 0 ≤ T) {best : PyF} (h1 : best ≠ .nan) (h2 : best ≠ .pinf) {rand : Rat} (hr : 0 < rand) :
    metropolis (exponent (if T ≠ 0 then some (1 / T) else none) .pinf best) rand = false := by
  have hsub : PyF.neg (PyF.sub .pinf best) = .ninf := by
    cases best <;> simp_all [PyF.sub, PyF.neg, PyF.add]
  unfold exponent
  rw [hsub]
  have : ∀ e, e = PyF.ninf → metropolis e rand = false := by
    rintro e rfl
    have : min2 (.fin 0) .ninf = .ninf := by simp [min2, PyF.isNan, PyF.lt]
    simp only [metropolis, this, decide_eq_false_iff_not, not_le]
    exact hr
  apply this
  by_cases h : T = 0
  · simp [h, PyF.mul]
  · have hpos : 0 < T := lt_of_le_of_ne hT (Ne.symm h)
    have hp : 0 < 1 / T := one_div_pos.mpr hpos
    simp only [ne_eq, h, not_false_eq_true, if_true, PyF.mul, PyF.signInf, hp.ne', hp, decide_true, if_false]
    simp

end Basin

open Basin

/-- **C70, proved part.** Before any evaluation has a value below infinity, the starting point is inside the bounds and the generator does
not change. Afterwards, in every state the generator can reach (temperature not negative), with an interval other than 0
and unless exactly 0 is drawn, every coordinate of the starting point is within the current step size of the best point of
some optimizer. Missing: the draw of 0, staying inside the bounds, `max_step_size`; see the refutations below. -/
theorem C70_near_a_best_point_partial (traj : Bool) (bounds : List (Rat × Rat)) (hb : Valid bounds) (hne : bounds ≠ [])
    (T s target : Rat) (interval : Int) (factor : Rat) (hT : 0 ≤ T) (hint : interval ≠ 0)
    (g : Gen.Basin) (hg : Used bounds (mkBasin T s target interval factor) g)
    (ops : List Op) (hwf : WellFormed ops) (hin : ∀ r ∈ evals ops, InBounds bounds r.x)
    (oCounter : Nat) (ho : 0 < oCounter) (d : Draws) (hstart : Drawn bounds.length d.start) (hrand : 0 < d.rand)
    (hdisp : d.disp.length = bounds.length ∧ ∀ u ∈ d.disp, -1 ≤ u ∧ u ≤ 1) :
    let out := g.generate bounds ((Logger.init traj).run ops) oCounter d
    (NoneQualifies (fun _ => True) (evals ops) → ∃ v, out = (g, .ok v) ∧ InBounds bounds v) ∧
    ((∃ r ∈ evals ops, PyF.lt r.fx .pinf = true) → 0 ≤ out.1.step →
      ∃ v r, out.2 = .ok v ∧ BestOfItsOptimizer (evals ops) r ∧ Within out.1.step r.x v) := by
  have inv := bestInv_run traj ops hwf
  have hk := keys_run traj _ hwf
  generalize hL : (Logger.init traj).run ops = L at inv hk
  dsimp only
  constructor
  · intro hn
    have hbest : L.best = BestIter.empty 0 "" := by
      rcases inv.glob with ⟨h1, -⟩ | ⟨i, t, b, k, r, -, -, -, h4, -⟩
      · simp [Logger.best, h1]
      · obtain ⟨r1, q1, _, q3, _⟩ := h4
        rw [hn r1 (List.mem_of_getElem? q1) trivial] at q3; cases q3
    refine ⟨uniform bounds d.start, ?_, uniform_inBounds hb hstart⟩
    unfold Gen.Basin.generate
    simp [hbest, BestIter.empty, PyF.eq]
  · intro hex hstep
    obtain ⟨i, t, b, k, r, h1, h2, h3, h4, h5, h6, h7, h8, h9⟩ : ∃ i t b k r, Op.add i t ∈ ops ∧ L.bestRef = some i ∧
        dictGet L.bestIters i = some b ∧ EarliestMin (fun _ => True) (evals ops) k ∧ (evals ops)[k]? = some r ∧
        r.optId = i ∧ b.x = r.x ∧ b.fx = r.fx ∧ b.callId = k + 1 := by
      rcases inv.glob with ⟨-, h2⟩ | h
      · obtain ⟨r, hr, h'⟩ := hex
        rw [h2 r hr trivial] at h'; cases h'
      · exact h
    have hbest : L.best = b := by simp [Logger.best, h2, h3]
    obtain ⟨r1, q1, -, q3, q4⟩ := h4
    rw [h5] at q1; cases q1
    have hrbest : BestOfItsOptimizer (evals ops) r :=
      ⟨k, h5, r, h5, rfl, q3, fun j r' hj _ => q4 j r' hj trivial⟩
    have hnan : b.fx ≠ .nan := by rw [h8]; exact PyF.ne_nan_of_lt_left q3
    have hpinf : b.fx ≠ .pinf := by
      rw [h8]; intro e; rw [e] at q3; cases q3
    have hneq : PyF.eq L.best.fx .pinf = false := by
      rw [hbest]
      cases hh : b.fx <;> simp_all [PyF.eq]
    have hsame := used_same hg
    -- the centre
    have hc : ∃ r', BestOfItsOptimizer (evals ops) r' ∧ (((g.notice L.best).centre L L.best d).1).x = r'.x := by
      rcases centre_rec (g.notice L.best) L L.best d with h | ⟨j, hj0, hj, hm⟩
      · exact ⟨r, hrbest, by rw [h, hbest, h7]⟩
      · generalize ((g.notice L.best).centre L L.best d).1 = c at hj hm
        have hjk : j ∈ L.bestIters.map (·.1) := (dictGet_isSome_iff _ _).mp (by rw [hj]; rfl)
        rw [hk] at hjk
        have hjadd : j ∈ added ops := by
          rcases List.mem_cons.mp hjk with h | h
          · exact absurd h hj0
          · exact h
        obtain ⟨t', ht'⟩ := mem_added.mp hjadd
        obtain ⟨b', hb', -, -, hok⟩ := inv.known j t' ht'
        rw [hj] at hb'; cases hb'
        rcases hok with ⟨-, -, hf, -⟩ | ⟨m, r', hE, hr', hx, hf, -⟩
        · rw [hf, ((notice_same g L.best).1.trans hsame).1, hbest] at hm
          have := no_pinf hT hnan hpinf hrand
          simp only [mkBasin] at hm
          rw [this] at hm; cases hm
        · refine ⟨r', ⟨m, hr', ?_⟩, hx⟩
          obtain ⟨r'', z1, z2, -⟩ := id hE
          rw [hr'] at z1; cases z1
          rw [z2]; exact hE
    obtain ⟨r', hr', hx⟩ := hc
    -- the step size
    have hs2 : ((g.notice L.best).centre L L.best d).2.interval ≠ 0 := by
      rw [((centre_same _ _ _ _).1.trans ((notice_same g L.best).1.trans hsame)).2.2.2.1]; exact hint
    obtain ⟨g3, hadj⟩ : ∃ g3, ((g.notice L.best).centre L L.best d).2.adjust oCounter = .ok g3 := by
      unfold Gen.Basin.adjust
      rw [if_neg hs2]
      split
      · rw [if_neg (by omega)]
        dsimp only
        split
        · exact ⟨_, rfl⟩
        split
        · exact ⟨_, rfl⟩
        · exact ⟨_, rfl⟩
      · exact ⟨_, rfl⟩
    have hout : g.generate bounds L oCounter d = (g3, displace g3.step r'.x d.disp) := by
      unfold Gen.Basin.generate
      simp only [hneq, Bool.false_eq_true, if_false, hadj, hx]
    rw [hout] at hstep ⊢
    have hlen := (hin r' (by obtain ⟨m, hm, -⟩ := hr'; exact List.mem_of_getElem? hm)).1
    have hxne : r'.x ≠ [] := by
      intro e
      rw [e] at hlen
      exact hne (List.length_eq_zero_iff.mp (by simpa using hlen.symm))
    obtain ⟨v, hv⟩ : ∃ v, displace g3.step r'.x d.disp = .ok v := by
      unfold displace; rw [if_neg hxne]; exact ⟨_, rfl⟩
    exact ⟨v, r', hv, hr', displace_within hstep (by rw [hdisp.1, hlen]) hdisp.2 hv⟩

/-- **C70.** The step size: it starts at `max_step_size`; a call changes it only when the number of optimizers started is a
multiple of the interval. It is then divided by `factor` if more than the target fraction of calls was accepted, multiplied
by it if less, and kept if the fraction is met exactly. With a factor between 0 and 1 it stays positive in every reachable
state. -/
theorem C70_step_size (bounds : List (Rat × Rat)) (T s target : Rat) (interval : Int) (factor : Rat) :
    (mkBasin T s target interval factor).step = s ∧
    (∀ (g g' : Gen.Basin) (o : Nat), g.adjust o = .ok g' →
      (¬ g.interval ∣ (o : Int) → g' = g) ∧
      (g.interval ∣ (o : Int) →
        (g.target < (g.nAccept : Rat) / o → g' = { g with step := g.step / g.factor }) ∧
        ((g.nAccept : Rat) / o < g.target → g' = { g with step := g.step * g.factor }) ∧
        ((g.nAccept : Rat) / o = g.target → g' = g))) ∧
    (0 < s → 0 < factor → ∀ g, Used bounds (mkBasin T s target interval factor) g → 0 < g.step) := by
  refine ⟨rfl, fun g g' o h => ?_, fun hs hf g hg => ?_⟩
  · unfold Gen.Basin.adjust at h
    split at h
    · cases h
    split at h
    · rename_i hdvd
      have hdvd := Int.dvd_of_emod_eq_zero hdvd
      split at h
      · cases h
      refine ⟨fun hn => absurd hdvd hn, fun _ => ?_⟩
      dsimp only at h
      split at h
      · rename_i hlt
        cases h
        exact ⟨fun _ => rfl, fun h => absurd h (by linarith), fun h => absurd h (by linarith)⟩
      split at h
      · rename_i hlt
        cases h
        exact ⟨fun h => absurd h (by linarith), fun _ => rfl, fun h => absurd h (by linarith)⟩
      · rename_i h1 h2
        cases h
        exact ⟨fun h => absurd h h1, fun h => absurd h h2, fun _ => rfl⟩
    · rename_i hdvd
      cases h
      exact ⟨fun _ => rfl, fun hd => absurd (Int.emod_eq_zero_of_dvd hd) hdvd⟩
  · induction hg with
    | new => exact hs
    | again log o d hu ih =>
      rename_i g
      unfold Gen.Basin.generate
      dsimp only
      split
      · exact ih
      · have e : ((g.notice log.best).centre log log.best d).2.step = g.step :=
          (centre_same _ _ _ _).2.trans (notice_same _ _).2
        have ef : ((g.notice log.best).centre log log.best d).2.factor = factor :=
          ((centre_same _ _ _ _).1.trans ((notice_same g log.best).1.trans (used_same hu))).2.2.2.2
        split
        · show 0 < ((g.notice log.best).centre log log.best d).2.step
          rw [e]; exact ih
        · rename_i g3 h
          unfold Gen.Basin.adjust at h
          split at h
          · cases h
          split at h
          · split at h
            · cases h
            dsimp only at h
            split at h
            · cases h; show 0 < _ / _; rw [e, ef]; exact div_pos ih hf
            split at h
            · cases h; show 0 < _ * _; rw [e, ef]; exact mul_pos ih hf
            · cases h; rw [e]; exact ih
          · cases h; rw [e]; exact ih

/-- **C70.** Acceptance: another optimizer with value `a` replaces the best one with value `b` exactly if the number drawn is at
most `exp(min(0, (b - a) / T))`, so always if it is as good. -/
theorem C70_metropolis (T a b rand : Rat) (hT : 0 < T) :
    metropolis (exponent (mkBasin T 0 0 1 1).beta (.fin a) (.fin b)) rand = true ↔
      (rand : ℝ) ≤ Real.exp (min 0 (((b : ℝ) - (a : ℝ)) / (T : ℝ))) := by
  have e : exponent (mkBasin T 0 0 1 1).beta (.fin a) (.fin b) = .fin ((b - a) / T) := by
    simp only [mkBasin, ne_eq, hT.ne', not_false_eq_true, if_true, exponent, PyF.sub, PyF.add, PyF.neg, PyF.mul, PyF.fin.injEq]
    ring
  rw [e]
  have hm : min2 (.fin 0) (.fin ((b - a) / T)) = .fin (min 0 ((b - a) / T)) := by
    simp only [min2, PyF.isNan, PyF.lt, Bool.or_self, Bool.false_eq_true, if_false, decide_eq_true_eq]
    split
    · rename_i h; rw [min_eq_right h.le]
    · rename_i h; rw [min_eq_left (not_lt.mp h)]
  simp only [metropolis, hm, decide_eq_true_eq]
  push_cast
  rfl

/-- **C70.** The counter of accepted points goes up by one when the best value known is reached or beaten by another optimizer
than the one which held it, and by one when a picked optimizer is accepted; the point perturbed is that of the accepted
optimizer, else the best one. The holder of the best value is remembered. -/
theorem C70_acceptance (g : Gen.Basin) (log : Logger) (d : Draws) (j : Nat) (other : BestIter)
    (hpick : (others log log.best.optId)[d.pick]? = some j) (hget : dictGet log.bestIters j = some other) :
    let acc := metropolis (exponent g.beta other.fx log.best.fx) d.rand
    let out := (g.notice log.best).centre log log.best d
    out.1 = (if acc then other else log.best) ∧
    out.2.nAccept = g.nAccept + (if PyF.le log.best.fx g.stateFx = true ∧ log.best.optId ≠ g.stateId then 1 else 0) +
      (if acc then 1 else 0) ∧
    (out.2.stateId, out.2.stateFx) =
      (if PyF.le log.best.fx g.stateFx = true ∧ log.best.optId ≠ g.stateId then (log.best.optId, log.best.fx)
        else (g.stateId, g.stateFx)) ∧
    j ≠ 0 ∧ j ≠ log.best.optId := by
  have hbeta : (g.notice log.best).beta = g.beta := (notice_same g log.best).1.1
  have hj := List.mem_of_getElem? hpick
  unfold others at hj
  simp only [List.mem_filter, Bool.and_eq_true, bne_iff_ne, ne_eq] at hj
  have hn : (g.notice log.best).nAccept =
      g.nAccept + (if PyF.le log.best.fx g.stateFx = true ∧ log.best.optId ≠ g.stateId then 1 else 0) := by
    unfold Gen.Basin.notice
    simp only [Bool.and_eq_true, bne_iff_ne, ne_eq]
    split
    · rfl
    · simp
  have hst : ((g.notice log.best).stateId, (g.notice log.best).stateFx) =
      (if PyF.le log.best.fx g.stateFx = true ∧ log.best.optId ≠ g.stateId then (log.best.optId, log.best.fx)
        else (g.stateId, g.stateFx)) := by
    unfold Gen.Basin.notice
    simp only [Bool.and_eq_true, bne_iff_ne, ne_eq]
    split <;> rfl
  dsimp only
  unfold Gen.Basin.centre
  simp only [hpick, hget, hbeta]
  cases metropolis (exponent g.beta other.fx log.best.fx) d.rand with
  | true => exact ⟨rfl, by simp [hn], hst, hj.2.1, hj.2.2⟩
  | false => exact ⟨rfl, by simp [hn], hst, hj.2.1, hj.2.2⟩

namespace Basin

/-- Two optimizers with the same best value and a third one just registered, as the manager does before it asks for the
starting point. -/
def three : List Op :=
  [.add 1 "A", .addHist 1 [], .put ⟨1, [1, 0], .fin 5, []⟩, .add 2 "B", .addHist 2 [], .put ⟨2, [1/2, 1], .fin 5, []⟩,
   .add 3 "C"]

def log3 : Logger := (Logger.init false).run three

theorem three_wf : WellFormed three := wellFormed_of_wfB (by decide +kernel)

/-- A generator which grows fast: two of the three optimizers are accepted in one call. -/
def g0 : Gen.Basin := mkBasin 1 (1/2) (1/4) 3 (1/2)

/-- Optimizer 2 is picked and accepted, every coordinate moves up by 3/4 of the step size. -/
def up : Draws := ⟨0, 1/2, [3/4, 3/4], []⟩

theorem accept_equal (r : Rat) (h : r ≤ 1) : metropolis (exponent (some 1) (.fin 5) (.fin 5)) r = true := by
  have : exponent (some 1) (.fin 5) (.fin 5) = .fin 0 := by decide +kernel
  rw [this]
  have : min2 (.fin 0) (.fin 0) = .fin 0 := by decide +kernel
  simp only [metropolis, this, Rat.cast_zero, Real.exp_zero, decide_eq_true_eq]
  exact_mod_cast h

theorem run_up : g0.generate Gener.box log3 3 up =
    ({ g0 with nAccept := 1, stateId := 1, stateFx := .fin 5, step := 1 }, .ok [5/4, 7/4]) := by
  have hb : log3.best = ⟨1, [1, 0], .fin 5, "A", 1⟩ := by decide +kernel
  have hn : g0.notice ⟨1, [1, 0], .fin 5, "A", 1⟩ = { g0 with nAccept := 0, stateId := 1, stateFx := .fin 5 } := by
    decide +kernel
  have hot : (others log3 1)[up.pick]? = some 2 := by decide +kernel
  have hget : dictGet log3.bestIters 2 = some ⟨2, [1/2, 1], .fin 5, "B", 2⟩ := by decide +kernel
  have hbeta : g0.beta = some 1 := by decide +kernel
  have hc : ({ g0 with nAccept := 0, stateId := 1, stateFx := .fin 5 } : Gen.Basin).centre log3 ⟨1, [1, 0], .fin 5, "A", 1⟩ up =
      (⟨2, [1/2, 1], .fin 5, "B", 2⟩, { g0 with nAccept := 1, stateId := 1, stateFx := .fin 5 }) := by
    unfold Gen.Basin.centre
    simp only [hot, hget, hbeta]
    rw [accept_equal _ (by decide +kernel)]
    decide +kernel
  have ha : ({ g0 with nAccept := 1, stateId := 1, stateFx := .fin 5 } : Gen.Basin).adjust 3 =
      .ok { g0 with nAccept := 1, stateId := 1, stateFx := .fin 5, step := 1 } := by decide +kernel
  have hd : displace 1 [1/2, 1] up.disp = .ok [5/4, 7/4] := by decide +kernel
  have hq : PyF.eq (.fin 5) .pinf = false := by rfl
  unfold Gen.Basin.generate
  simp only [hb, hn, hc, ha, hq, Bool.false_eq_true, if_false, hd]

end Basin

example : (g0.notice log3.best).nAccept = 0 ∧ (others log3 log3.best.optId)[up.pick]? = some 2 := by decide +kernel

/-- **C70, refuted.** "Maximum jump size allowed": the step size exceeds `max_step_size`, and the starting point leaves the
bounds although every evaluation was inside them. -/
theorem C70_limits_refuted : ∃ g ops d v, Used Gener.box g0 g ∧ WellFormed ops ∧
    (∀ r ∈ evals ops, InBounds Gener.box r.x) ∧
    (g.generate Gener.box ((Logger.init false).run ops) 3 d).2 = .ok v ∧
    g.maxStep < (g.generate Gener.box ((Logger.init false).run ops) 3 d).1.step ∧ ¬ InBounds Gener.box v := by
  refine ⟨g0, three, up, [5/4, 7/4], .new, three_wf, ?_, ?_, ?_, ?_⟩
  · have e : evals three = [⟨1, [1, 0], .fin 5, []⟩, ⟨2, [1/2, 1], .fin 5, []⟩] := by decide +kernel
    rw [e]
    intro r hr
    simp only [List.mem_cons, List.not_mem_nil, or_false] at hr
    rcases hr with rfl | rfl
    all_goals
      unfold Gener.box
      refine ⟨rfl, fun k b y h1 h2 => ?_⟩
      match k with
      | 0 => simp at h1 h2; subst h1; subst h2; decide +kernel
      | 1 => simp at h1 h2; subst h1; subst h2; decide +kernel
      | k + 2 => simp at h1
  · have := run_up
    unfold log3 at this
    rw [this]
  · have := run_up
    unfold log3 at this
    rw [this]
    show (1/2 : Rat) < 1
    decide +kernel
  · intro h
    have := (h.2 1 (-1, 1) (7/4) rfl rfl).2
    exact absurd this (by decide +kernel)

/-- **C70, refuted.** If exactly 0 is drawn the optimizer just registered, which has no point yet, is accepted and the call fails. -/
theorem C70_zero_draw_refuted : (g0.generate Gener.box log3 3 ⟨1, 0, [0, 0], []⟩).2 = .error .other := by
  have hb : log3.best = ⟨1, [1, 0], .fin 5, "A", 1⟩ := by decide +kernel
  have hn : g0.notice ⟨1, [1, 0], .fin 5, "A", 1⟩ = { g0 with nAccept := 0, stateId := 1, stateFx := .fin 5 } := by
    decide +kernel
  have hot : (others log3 1)[1]? = some 3 := by decide +kernel
  have hget : dictGet log3.bestIters 3 = some ⟨3, [], .pinf, "C", 0⟩ := by decide +kernel
  have hbeta : g0.beta = some 1 := by decide +kernel
  have hm : metropolis (exponent (some 1) .pinf (.fin 5)) 0 = true := by
    have : min2 (.fin 0) (exponent (some 1) .pinf (.fin 5)) = .ninf := by decide +kernel
    simp [metropolis, this]
  have hc : ({ g0 with nAccept := 0, stateId := 1, stateFx := .fin 5 } : Gen.Basin).centre log3 ⟨1, [1, 0], .fin 5, "A", 1⟩
      ⟨1, 0, [0, 0], []⟩ =
      (⟨3, [], .pinf, "C", 0⟩, { g0 with nAccept := 1, stateId := 1, stateFx := .fin 5 }) := by
    unfold Gen.Basin.centre
    simp only [hot, hget, hbeta, hm, if_true]
    decide +kernel
  have ha : ({ g0 with nAccept := 1, stateId := 1, stateFx := .fin 5 } : Gen.Basin).adjust 3 =
      .ok { g0 with nAccept := 1, stateId := 1, stateFx := .fin 5, step := 1 } := by decide +kernel
  have hd : displace 1 [] [0, 0] = .error .other := by rfl
  have hq : PyF.eq (.fin 5) .pinf = false := by rfl
  unfold Gen.Basin.generate
  simp only [hb, hn, hc, ha, hq, Bool.false_eq_true, if_false, hd]

end Glompo.Props
