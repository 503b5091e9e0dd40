import Mathlib.Analysis.SpecialFunctions.Exp
import Verif.Lemmas.Generators

/-!
# C51, C69: starting points
-/

namespace Glompo.Props

open Glompo Glompo.Logger Glompo.Spec Glompo.Spec.Gen Glompo.Spec.RandomOpt Glompo.Gen

namespace Gener

/-- Two parameters. -/
def box : List (Rat × Rat) := [(0, 2), (-1, 1)]

theorem valid_box : Valid box := by unfold Valid box; decide +kernel

theorem drawn_half : Drawn box.length [1/2, 3/4] := by unfold Drawn box; decide +kernel

/-- Two optimizers with two evaluations each. -/
def twoOpts : List Op :=
  [.add 1 "A", .addHist 1 [], .put ⟨1, [1, 0], .fin 5, []⟩, .add 2 "B", .addHist 2 [], .put ⟨2, [1/2, 1], .fin 2, []⟩,
   .put ⟨1, [2, -1], .nan, []⟩, .put ⟨2, [0, 0], .fin 7, []⟩]

theorem twoOpts_wf : WellFormed twoOpts := wellFormed_of_wfB (by decide +kernel)

end Gener

open Gener

/-- **C51.** The random generator: every point has one coordinate per parameter, inside its bounds. -/
theorem C51_random (bounds : List (Rat × Rat)) (hb : Valid bounds) (draws : List Rat) (hd : Drawn bounds.length draws) :
    InBounds bounds (uniform bounds draws) := uniform_inBounds hb hd

example : uniform box [1/2, 3/4] = [1, 1/2] ∧ InBounds box [1, 1/2] := by
  have h := C51_random box valid_box _ drawn_half
  have e : uniform box [1/2, 3/4] = [1, 1/2] := by decide +kernel
  exact ⟨e, e ▸ h⟩

/-- **C51.** The single point generator returns the given point, or one drawn inside the bounds, in every call. -/
theorem C51_single (bounds : List (Rat × Rat)) (hb : Valid bounds) (x : Option Vec) (draws : List Rat)
    (hd : Drawn bounds.length draws) :
    (∀ v, x = some v → singleGenerate (singleInit bounds x draws) = v) ∧
    ((∀ v, x = some v → InBounds bounds v) → InBounds bounds (singleGenerate (singleInit bounds x draws))) := by
  cases x with
  | none => exact ⟨by simp, fun _ => uniform_inBounds hb hd⟩
  | some v => exact ⟨by simp [singleInit, singleGenerate], fun h => h v rfl⟩

/-- **C51.** The perturbation generator: with positive scales and numbers drawn between the limits it computes, every
point lies inside the bounds, wherever the centre is. Bounds of another length than the centre are rejected. -/
theorem C51_perturbation (x0 : Vec) (bounds : List (Rat × Rat)) (scale z : List Rat)
    (hs : scale.length = x0.length) (hpos : ∀ s ∈ scale, 0 < s) (hz : z.length = x0.length)
    (hd : ∀ (k : Nat) l s w b, x0[k]? = some l → scale[k]? = some s → z[k]? = some w → bounds[k]? = some b →
      (limits b l s).1 ≤ w ∧ w ≤ (limits b l s).2) :
    (perturbationInit x0 bounds = .ok () → InBounds bounds (perturbation x0 scale z)) ∧
    (bounds.length ≠ x0.length → perturbationInit x0 bounds = .error .valueError) := by
  refine ⟨fun h => ?_, fun h => by simp [perturbationInit, h]⟩
  have hl : bounds.length = x0.length := by
    by_contra hc; simp [perturbationInit, hc] at h
  clear h
  induction x0 generalizing bounds scale z with
  | nil =>
    have : bounds = [] := List.length_eq_zero_iff.mp hl
    subst this
    exact ⟨by simp [perturbation], by simp⟩
  | cons l ls ih =>
    cases scale with
    | nil => simp at hs
    | cons s ss =>
      cases z with
      | nil => simp at hz
      | cons w ws =>
        cases bounds with
        | nil => simp at hl
        | cons b bs =>
          have := ih bs ss ws (by simpa using hs) (fun s h => hpos s (by simp [h])) (by simpa using hz)
            (fun k l s w b h1 h2 h3 h4 => hd (k + 1) l s w b (by simpa using h1) (by simpa using h2) (by simpa using h3)
              (by simpa using h4)) (by simpa using hl)
          have h0 := hd 0 l s w b rfl rfl rfl rfl
          have hs0 := hpos s (by simp)
          simp only [limits] at h0
          rw [div_le_iff₀ hs0, le_div_iff₀ hs0] at h0
          refine ⟨by simp [perturbation, this.1], fun k b' y h1 h2 => ?_⟩
          cases k with
          | zero =>
            simp only [perturbation, List.getElem?_cons_zero, Option.some.injEq] at h1 h2
            subst h1; subst h2
            simp only [scaled]
            constructor <;> nlinarith [h0.1, h0.2]
          | succ k =>
            simp only [perturbation, List.getElem?_cons_succ] at h1 h2
            exact this.2 k b' y h1 h2

/-- The hypotheses can be met: a centre outside the bounds. -/
example : perturbationInit [5, 0] box = .ok () ∧ (limits (0, 2) 5 2, limits (-1, 1) 0 1) = ((-5/2, -3/2), (-1, 1)) ∧
    perturbation [5, 0] [2, 1] [-2, 1/2] = [1, 1/2] := by
  refine ⟨by rfl, by decide +kernel, by decide +kernel⟩

/-- **C51, the incumbent generator, refuted.** After an evaluation without a value below infinity the best point of the log is
empty, and so is the starting point. -/
theorem C51_incumbent_refuted : ∃ ops, WellFormed ops ∧ (∀ r ∈ evals ops, InBounds box r.x) ∧ evals ops ≠ [] ∧
    ∀ draws, incumbentGenerate box (some ((Logger.init false).run ops).best.x) draws = [] := by
  refine ⟨[.add 1 "A", .addHist 1 [], .put ⟨1, [1, 0], .nan, []⟩], wellFormed_of_wfB (by decide +kernel), ?_, by decide +kernel,
    fun draws => by rfl⟩
  intro r hr
  have : r = ⟨1, [1, 0], .nan, []⟩ := by simpa [evals] using hr
  subst this
  unfold box
  refine ⟨rfl, fun k b y h1 h2 => ?_⟩
  match k with
  | 0 => simp at h1 h2; subst h1; subst h2; decide +kernel
  | 1 => simp at h1 h2; subst h1; subst h2; decide +kernel
  | k + 2 => simp at h1

theorem best_point (traj : Bool) {ops : List Op} (hwf : WellFormed ops)
    (h : ∃ r ∈ evals ops, PyF.lt r.fx .pinf = true) :
    ∃ r ∈ evals ops, ((Logger.init traj).run ops).best.x = r.x ∧ PyF.lt r.fx .pinf = true ∧
      ∀ r' ∈ evals ops, PyF.lt r'.fx r.fx = false := by
  have inv := bestInv_run traj ops hwf
  rcases inv.glob with ⟨-, h2⟩ | ⟨i, t', b, k', r', h1, h2, h3, h4, h5, h6, h7, h8, h9⟩
  · obtain ⟨r, hr, h'⟩ := h
    rw [h2 r hr trivial] at h'; cases h'
  · obtain ⟨r1, q1, -, q3, q4⟩ := h4
    rw [h5] at q1; cases q1
    refine ⟨r', List.mem_of_getElem? h5, by simp [Logger.best, h2, h3, h7], q3, fun r'' hr'' => ?_⟩
    obtain ⟨j, hj⟩ := List.getElem?_of_mem hr''
    exact (q4 j r'' hj trivial).1

/-- **C51, the incumbent generator, proved part.** Before there is a result, a point inside the bounds; once some evaluation
has a value below infinity, an evaluated point with the smallest value, inside the bounds if all evaluations were.
Missing: the time between, see `C51_incumbent_refuted`. -/
theorem C51_incumbent_partial (traj : Bool) (bounds : List (Rat × Rat)) (hb : Valid bounds) (draws : List Rat)
    (hd : Drawn bounds.length draws) :
    InBounds bounds (incumbentGenerate bounds none draws) ∧
    ∀ ops, WellFormed ops → (∀ r ∈ evals ops, InBounds bounds r.x) → (∃ r ∈ evals ops, PyF.lt r.fx .pinf = true) →
      InBounds bounds (incumbentGenerate bounds (some ((Logger.init traj).run ops).best.x) draws) ∧
      ∃ r ∈ evals ops, incumbentGenerate bounds (some ((Logger.init traj).run ops).best.x) draws = r.x ∧
        ∀ r' ∈ evals ops, PyF.lt r'.fx r.fx = false := by
  refine ⟨uniform_inBounds hb hd, fun ops hwf hin hex => ?_⟩
  obtain ⟨r, h1, h2, -, h4⟩ := best_point traj hwf hex
  refine ⟨?_, r, h1, h2, h4⟩
  show InBounds bounds (((Logger.init traj).run ops).best.x)
  rw [h2]; exact hin r h1

example : incumbentGenerate box (some ((Logger.init false).run twoOpts).best.x) [0, 0] = [1/2, 1] := by decide +kernel

/-! ### The exploit-explore generator -/

/-- **C51, C69, the exploit-explore generator, refuted.** The manager registers a new optimizer in the log
(`_setup_new_optimizer`, manager.py:1353) before it asks for its starting point (`_start_new_job`, manager.py:1271). The
new optimizer has no evaluation yet, its best value is infinite, and the selection probabilities are `nan`: whatever
happened before and whatever is drawn, the generator raises `ValueError`. -/
theorem C51_exploit_explore_refuted (traj : Bool) (g : EE) (ops : List Op) (i : Nat) (t : String)
    (hwf : WellFormed (ops ++ [.add i t])) (fCounter : Nat) (draws : List Rat) (u : Rat) :
    g.generate ((Logger.init traj).run (ops ++ [.add i t])) fCounter draws u = .error .valueError := by
  have hk := keys_run traj _ hwf
  have hnd := added_nodup hwf
  rw [← hk] at hnd
  obtain ⟨h0, -⟩ : i ≠ 0 ∧ i ∉ added ops := hwf.last
  have hb : dictGet ((Logger.init traj).run (ops ++ [.add i t])).bestIters i = some (BestIter.empty i t) := by
    rw [run_snoc]; simp [step, addOptimizer]
  have hm := dictGet_mem hb
  have hpinf : PyF.pinf ∈ fTrack ((Logger.init traj).run (ops ++ [.add i t])) := by
    unfold fTrack
    generalize ((Logger.init traj).run (ops ++ [.add i t])).bestIters = d at hk hm
    cases d with
    | nil => simp at hk
    | cons p d =>
      simp only [List.map_cons, List.drop_succ_cons, List.drop_zero, List.cons.injEq] at hk ⊢
      rcases List.mem_cons.mp hm with h | h
      · rw [← h] at hk; exact absurd hk.1 h0
      · exact List.mem_map.mpr ⟨_, h, rfl⟩
  simp only [EE.generate, incumbent, roulette_pinf hpinf]

example : WellFormed (twoOpts ++ [.add 3 "C"]) := wellFormed_of_wfB (by decide +kernel)

namespace Gener

/-- The log of the selected optimizer, for finite best values. -/
theorem incumbent_spec (traj : Bool) {ops : List Op} (hwf : WellFormed ops) (hnum : Numbered ops)
    (hfin : AllHaveFiniteBest ops) (u : Rat) (h0 : 0 ≤ u) (h1 : u < 1) :
    (incumbent ((Logger.init traj).run ops) u = .ok none ∧
      ∀ r r', BestOfItsOptimizer (evals ops) r → BestOfItsOptimizer (evals ops) r' → r.fx = r'.fx) ∨
    (∃ r, BestOfItsOptimizer (evals ops) r ∧ incumbent ((Logger.init traj).run ops) u = .ok (some r.x) ∧
      ∃ r', BestOfItsOptimizer (evals ops) r' ∧ PyF.lt r.fx r'.fx = true) := by
  have hk := keys_run traj _ hwf
  have hnd := added_nodup hwf
  rw [← hk] at hnd
  have inv := bestInv_run traj ops hwf
  generalize hL : (Logger.init traj).run ops = L at hk hnd inv
  obtain ⟨p0, rest, hd⟩ : ∃ p0 rest, L.bestIters = p0 :: rest := by
    cases h : L.bestIters with
    | nil => rw [h] at hk; simp at hk
    | cons p r => exact ⟨p, r, rfl⟩
  have hkr : rest.map (·.1) = added ops := by rw [hd] at hk; simpa using (List.cons.inj hk).2
  -- the record at position `k` is the best of optimizer `k + 1`
  have hrec : ∀ (k : Nat) p, rest[k]? = some p → p.1 = k + 1 ∧ dictGet L.bestIters (k + 1) = some p.2 ∧
      ∃ r, BestOfItsOptimizer (evals ops) r ∧ r.optId = k + 1 ∧ p.2.x = r.x ∧ p.2.fx = r.fx ∧ ∃ q, r.fx = .fin q := by
    intro k p hp
    have hid : (added ops)[k]? = some p.1 := by rw [← hkr, List.getElem?_map, hp]; rfl
    have hid' : p.1 = k + 1 := by
      rw [hnum] at hid
      have hlt : k < (List.range' 1 (added ops).length).length := by
        by_contra hc
        rw [List.getElem?_eq_none (Nat.le_of_not_lt hc)] at hid; cases hid
      rw [List.getElem?_eq_getElem hlt, List.getElem_range'] at hid
      simp only [Option.some.injEq] at hid
      omega
    have hget : dictGet L.bestIters (k + 1) = some p.2 := by
      apply dictGet_of_mem hnd
      rw [hd, ← hid']
      exact List.mem_cons_of_mem _ (List.mem_of_getElem? hp)
    refine ⟨hid', hget, ?_⟩
    have hadd : p.1 ∈ added ops := List.mem_of_getElem? hid
    obtain ⟨t, ht⟩ := mem_added.mp hadd
    obtain ⟨b, hb, -, -, hok⟩ := inv.known p.1 t ht
    rw [hid', hget] at hb; cases hb
    obtain ⟨⟨r0, hr0, hr1, hr2⟩, hninf⟩ := hfin p.1 hadd
    rcases hok with ⟨hn, -⟩ | ⟨j, r, hE, hr, hx, hf, -⟩
    · rw [hn r0 hr0 hr1] at hr2; cases hr2
    · obtain ⟨r', q1, q2, q3, q4⟩ := id hE
      rw [hr] at q1; cases q1
      refine ⟨r, ⟨j, hr, ?_⟩, by rw [q2, hid'], hx, hf, ?_⟩
      · rw [q2]; exact hE
      · have := hninf r (List.mem_of_getElem? hr) q2
        cases hfx : r.fx with
        | fin q => exact ⟨q, rfl⟩
        | ninf => exact absurd hfx this
        | pinf => rw [hfx] at q3; cases q3
        | nan => rw [hfx] at q3; cases q3
  -- conversely every best evaluation is recorded
  have hconv : ∀ r, BestOfItsOptimizer (evals ops) r → ∃ p ∈ rest, p.2.fx = r.fx := by
    rintro r ⟨j, hj, hE⟩
    have hradd : r.optId ∈ added ops := by
      have hm : r ∈ evals ops := List.mem_of_getElem? hj
      obtain ⟨op, hop, he⟩ := List.mem_filterMap.mp hm
      cases op with
      | put r1 =>
        simp only [Option.some.injEq] at he; subst he
        obtain ⟨pre, post, e⟩ := List.append_of_mem hop
        have h2 : r1.optId ∈ added pre ∧ r1.optId ∈ opened pre := hwf pre _ post e
        rw [e, added_append]; exact List.mem_append_left _ h2.1
      | _ => simp at he
    rw [← hkr] at hradd
    obtain ⟨p, hp, hpe⟩ := List.mem_map.mp hradd
    obtain ⟨k, hk'⟩ := List.getElem?_of_mem hp
    obtain ⟨h1', -, r', ⟨j', hj', hE'⟩, hid, -, hf, -⟩ := hrec k p hk'
    have : r'.optId = r.optId := by rw [hid, ← h1', hpe]
    rw [this] at hE'
    have := hE.unique hE'
    subst this
    rw [hj] at hj'; cases hj'
    exact ⟨p, hp, hf⟩
  obtain ⟨qs, hqs⟩ : ∃ qs : List Rat, fTrack L = qs.map PyF.fin := by
    refine ⟨rest.map (fun p => toRat p.2.fx), ?_⟩
    unfold fTrack
    rw [hd]
    simp only [List.map_cons, List.drop_succ_cons, List.drop_zero, List.map_map]
    apply List.map_congr_left
    intro p hp
    obtain ⟨k, hk'⟩ := List.getElem?_of_mem hp
    obtain ⟨-, -, r, -, -, -, hf, q, hq⟩ := hrec k p hk'
    simp [Function.comp, hf, hq, toRat]
  have htrack : rest.map (fun p => p.2.fx) = qs.map PyF.fin := by
    rw [← hqs]; unfold fTrack; rw [hd]; simp
  rcases roulette_fin qs u h0 h1 with ⟨hr, hall⟩ | ⟨k, q, hr, hq, q', hq', hlt⟩
  · left
    refine ⟨by simp only [incumbent, hqs, hr], ?_⟩
    intro r r' hb hb'
    obtain ⟨p, hp, hf⟩ := hconv r hb
    obtain ⟨p', hp', hf'⟩ := hconv r' hb'
    have e1 : p.2.fx ∈ qs.map PyF.fin := by rw [← htrack]; exact List.mem_map.mpr ⟨p, hp, rfl⟩
    have e2 : p'.2.fx ∈ qs.map PyF.fin := by rw [← htrack]; exact List.mem_map.mpr ⟨p', hp', rfl⟩
    obtain ⟨a, ha, ha'⟩ := List.mem_map.mp e1
    obtain ⟨b, hb1, hb2⟩ := List.mem_map.mp e2
    rw [← hf, ← hf', ← ha', ← hb2, hall a ha b hb1]
  · right
    have hkq : (rest.map (fun p => p.2.fx))[k]? = some (.fin q) := by rw [htrack, List.getElem?_map, hq]; rfl
    rw [List.getElem?_map] at hkq
    obtain ⟨p, hp, hpf⟩ := Option.map_eq_some_iff.mp hkq
    obtain ⟨-, hget, r, hbest, -, hx, hf, -⟩ := hrec k p hp
    have hq'm : PyF.fin q' ∈ rest.map (fun p => p.2.fx) := by rw [htrack]; exact List.mem_map.mpr ⟨q', hq', rfl⟩
    obtain ⟨p', hp', hpf'⟩ := List.mem_map.mp hq'm
    obtain ⟨k', hk'⟩ := List.getElem?_of_mem hp'
    obtain ⟨-, -, r', hbest', -, -, hf', -⟩ := hrec k' p' hk'
    refine ⟨r, hbest, ?_, r', hbest', ?_⟩
    · simp only [incumbent, hqs, hr, getBestIter, hget, hx]
    · rw [← hf, ← hf', hpf, hpf']; simpa [PyF.lt] using hlt

theorem alpha_mem {bounds : List (Rat × Rat)} {m : Int} {focus : Rat} {g : EE} (hg : mkEE bounds m focus = .ok g)
    (f : Nat) : 0 ≤ g.alpha f ∧ g.alpha f ≤ 1 ∧ (f = 0 → g.alpha f = 0) ∧ (m ≤ f → g.alpha f = 1) ∧
      g.alpha f = min 1 ((f : ℝ) / (m : ℝ)) ^ (focus : ℝ) := by
  unfold mkEE at hg
  split at hg
  · cases hg
  split at hg
  · cases hg
  rename_i hm hf
  cases hg
  have hmpos : (0 : ℝ) < (m : ℝ) := by
    have : (0 : Int) < m := by omega
    exact_mod_cast this
  have hfpos : (0 : ℝ) < (focus : ℝ) := by
    have : (0 : Rat) < focus := not_le.mp hf
    exact_mod_cast this
  have hnn : 0 ≤ min 1 ((f : ℝ) / (m : ℝ)) := le_min zero_le_one (div_nonneg (Nat.cast_nonneg f) hmpos.le)
  have e : max 0 (min 1 ((f : ℝ) / (m : ℝ))) = min 1 ((f : ℝ) / (m : ℝ)) := max_eq_right hnn
  simp only [EE.alpha, e]
  refine ⟨Real.rpow_nonneg hnn _, Real.rpow_le_one hnn (min_le_left _ _) hfpos.le, ?_, ?_, trivial⟩
  · rintro rfl
    simp only [Nat.cast_zero, zero_div]
    rw [min_eq_right zero_le_one, Real.zero_rpow hfpos.ne']
  · intro h
    have : (m : ℝ) ≤ (f : ℝ) := by exact_mod_cast h
    rw [min_eq_left ((one_le_div hmpos).mpr this), Real.one_rpow]

theorem between_inBounds {bounds : List (Rat × Rat)} {p : ℝ} {a b : Vec} {v : List ℝ} (h : Between p a b v) (h0 : 0 ≤ p)
    (h1 : p ≤ 1) (ha : InBounds bounds a) (hb : InBounds bounds b) : InBoundsR bounds v := by
  refine ⟨by rw [← h.1, ha.1], fun k bd y hk hy => ?_⟩
  have hlt : k < v.length := (List.getElem?_eq_some_iff.mp hy).1
  have hs : a[k]? = some (a[k]'(by rw [h.1]; exact hlt)) := List.getElem?_eq_getElem _
  have ht : b[k]? = some (b[k]'(by rw [h.2.1]; exact hlt)) := List.getElem?_eq_getElem _
  have e := h.2.2 k _ _ y hs ht hy
  have ha' := ha.2 k bd _ hk hs
  have hb' := hb.2 k bd _ hk ht
  generalize (a[k]'(by rw [h.1]; exact hlt)) = s at e ha'
  generalize (b[k]'(by rw [h.2.1]; exact hlt)) = t at e hb'
  have s1 : ((bd.1 : Rat) : ℝ) ≤ (s : ℝ) := by exact_mod_cast ha'.1
  have s2 : (s : ℝ) ≤ ((bd.2 : Rat) : ℝ) := by exact_mod_cast ha'.2
  have t1 : ((bd.1 : Rat) : ℝ) ≤ (t : ℝ) := by exact_mod_cast hb'.1
  have t2 : (t : ℝ) ≤ ((bd.2 : Rat) : ℝ) := by exact_mod_cast hb'.2
  have hq : 0 ≤ 1 - p := by linarith
  have e' : y = (1 - p) * (s : ℝ) + p * (t : ℝ) := by rw [e]; ring
  rw [e']
  constructor
  · nlinarith [mul_le_mul_of_nonneg_left s1 hq, mul_le_mul_of_nonneg_left t1 h0]
  · nlinarith [mul_le_mul_of_nonneg_left s2 hq, mul_le_mul_of_nonneg_left t2 h0]

theorem between_blend (p : ℝ) (inc rnd : Vec) (hl : inc.length = rnd.length) :
    ∃ v, blend p inc rnd = .ok v ∧ Between p rnd inc v := by
  unfold blend
  rw [if_pos hl]
  refine ⟨_, rfl, by simp [hl], by simp [hl], fun k s t y h1 h2 h3 => ?_⟩
  rw [List.getElem?_zipWith, h2, h1] at h3
  simp only [Option.some.injEq] at h3
  rw [← h3]; ring

theorem between_zero {a b : Vec} {v : List ℝ} (h : Between 0 a b v) : v = a.map fun (q : Rat) => (q : ℝ) := by
  apply List.ext_getElem?
  intro k
  rw [List.getElem?_map]
  cases hv : v[k]? with
  | none =>
    rw [List.getElem?_eq_none_iff] at hv
    rw [List.getElem?_eq_none (by rw [h.1]; exact hv)]; rfl
  | some y =>
    have hlt : k < v.length := (List.getElem?_eq_some_iff.mp hv).1
    have hs : a[k]? = some (a[k]'(by rw [h.1]; exact hlt)) := List.getElem?_eq_getElem _
    have ht : b[k]? = some (b[k]'(by rw [h.2.1]; exact hlt)) := List.getElem?_eq_getElem _
    rw [h.2.2 k _ _ y hs ht hv, hs]; simp

theorem between_one {a b : Vec} {v : List ℝ} (h : Between 1 a b v) : v = b.map fun (q : Rat) => (q : ℝ) := by
  apply List.ext_getElem?
  intro k
  rw [List.getElem?_map]
  cases hv : v[k]? with
  | none =>
    rw [List.getElem?_eq_none_iff] at hv
    rw [List.getElem?_eq_none (by rw [h.2.1]; exact hv)]; rfl
  | some y =>
    have hlt : k < v.length := (List.getElem?_eq_some_iff.mp hv).1
    have hs : a[k]? = some (a[k]'(by rw [h.1]; exact hlt)) := List.getElem?_eq_getElem _
    have ht : b[k]? = some (b[k]'(by rw [h.2.1]; exact hlt)) := List.getElem?_eq_getElem _
    rw [h.2.2 k _ _ y hs ht hv, ht]; simp

theorem between_self (a : Vec) : Between 0 a a (a.map fun (q : Rat) => (q : ℝ)) := by
  refine ⟨by simp, by simp, fun k s t y h1 h2 h3 => ?_⟩
  rw [List.getElem?_map, h1] at h3
  simp only [Option.map_some, Option.some.injEq] at h3
  rw [← h3]; ring

theorem inBounds_cast {bounds : List (Rat × Rat)} {a : Vec} (h : InBounds bounds a) :
    InBoundsR bounds (a.map fun (q : Rat) => (q : ℝ)) :=
  between_inBounds (between_self a) le_rfl zero_le_one h h

end Gener

/-- **C51, the exploit-explore generator, proved part.** If every optimizer in the log has a finite best value, every point
is inside the bounds provided all evaluations were. Missing: the situation in which the manager calls it,
`C51_exploit_explore_refuted`. -/
theorem C51_exploit_explore_partial (traj : Bool) (bounds : List (Rat × Rat)) (hb : Valid bounds) (m : Int) (focus : Rat)
    (g : EE) (hg : mkEE bounds m focus = .ok g) (ops : List Op) (hwf : WellFormed ops) (hnum : Numbered ops)
    (hfin : AllHaveFiniteBest ops) (hin : ∀ r ∈ evals ops, InBounds bounds r.x) (fCounter : Nat) (draws : List Rat)
    (hd : Drawn bounds.length draws) (u : Rat) (h0 : 0 ≤ u) (h1 : u < 1) :
    ∃ v, g.generate ((Logger.init traj).run ops) fCounter draws u = .ok v ∧ InBoundsR bounds v := by
  have hgb : g.bounds = bounds := by
    unfold mkEE at hg
    split at hg
    · cases hg
    split at hg
    · cases hg
    cases hg; rfl
  have hu := uniform_inBounds hb hd
  obtain ⟨a0, a1, -⟩ := alpha_mem hg fCounter
  rcases incumbent_spec traj hwf hnum hfin u h0 h1 with ⟨hi, -⟩ | ⟨r, ⟨k, hk, -⟩, hi, -⟩
  · exact ⟨(uniform bounds draws).map fun (q : Rat) => (q : ℝ), by simp only [EE.generate, hi, hgb], inBounds_cast hu⟩
  · have hr := hin r (List.mem_of_getElem? hk)
    obtain ⟨v, hv, hbt⟩ := between_blend (g.alpha fCounter) r.x (uniform bounds draws) (by rw [hr.1, hu.1])
    refine ⟨v, by simp only [EE.generate, hi, hgb, hv], ?_⟩
    exact between_inBounds hbt a0 a1 hu hr

/-- **C69, proved part.** If every optimizer in the log has a finite best value, the generator returns either a random
point, and that only if all optimizers have the same best value, or a point `p = min(1, f_calls / max_f_calls) ** focus` of
the way from a random point to the best point of an optimizer which is not the worst: the random point itself before the
first evaluation, the evaluated point itself from `max_f_calls` evaluations on. Missing: `C51_exploit_explore_refuted` and
`C69_evaluated_point_refuted`. -/
theorem C69_exploit_explore_blend_partial (traj : Bool) (bounds : List (Rat × Rat)) (hb : Valid bounds) (m : Int)
    (focus : Rat) (g : EE) (hg : mkEE bounds m focus = .ok g) (ops : List Op) (hwf : WellFormed ops) (hnum : Numbered ops)
    (hfin : AllHaveFiniteBest ops) (hin : ∀ r ∈ evals ops, InBounds bounds r.x) (fCounter : Nat) (draws : List Rat)
    (hd : Drawn bounds.length draws) (u : Rat) (h0 : 0 ≤ u) (h1 : u < 1) :
    ∃ v rnd, g.generate ((Logger.init traj).run ops) fCounter draws u = .ok v ∧ InBounds bounds rnd ∧
      ((v = rnd.map (fun (q : Rat) => (q : ℝ)) ∧
        ∀ r r', BestOfItsOptimizer (evals ops) r → BestOfItsOptimizer (evals ops) r' → r.fx = r'.fx) ∨
       ∃ r, BestOfItsOptimizer (evals ops) r ∧ (∃ r', BestOfItsOptimizer (evals ops) r' ∧ PyF.lt r.fx r'.fx = true) ∧
        Between (min 1 ((fCounter : ℝ) / (m : ℝ)) ^ (focus : ℝ)) rnd r.x v ∧
        (fCounter = 0 → v = rnd.map (fun (q : Rat) => (q : ℝ))) ∧
        (m ≤ fCounter → v = r.x.map (fun (q : Rat) => (q : ℝ)))) := by
  have hgb : g.bounds = bounds := by
    unfold mkEE at hg
    split at hg
    · cases hg
    split at hg
    · cases hg
    cases hg; rfl
  have hu := uniform_inBounds hb hd
  obtain ⟨-, -, az, ao, ae⟩ := alpha_mem hg fCounter
  rcases incumbent_spec traj hwf hnum hfin u h0 h1 with ⟨hi, hall⟩ | ⟨r, hbest, hi, hworse⟩
  · exact ⟨(uniform bounds draws).map fun (q : Rat) => (q : ℝ), uniform bounds draws,
      by simp only [EE.generate, hi, hgb], hu, Or.inl ⟨rfl, hall⟩⟩
  · have hr := hin r (by obtain ⟨k, hk, -⟩ := hbest; exact List.mem_of_getElem? hk)
    obtain ⟨v, hv, hbt⟩ := between_blend (g.alpha fCounter) r.x (uniform bounds draws) (by rw [hr.1, hu.1])
    refine ⟨v, uniform bounds draws, by simp only [EE.generate, hi, hgb, hv], hu, Or.inr ⟨r, hbest, hworse, ae ▸ hbt, ?_, ?_⟩⟩
    · intro e; rw [az e] at hbt; exact between_zero hbt
    · intro e; rw [ao e] at hbt; exact between_one hbt

/-- The constructor accepts exactly limits of at least 2 and positive `focus`. -/
theorem C69_parameters (bounds : List (Rat × Rat)) (m : Int) (focus : Rat) :
    (m < 2 ∨ focus ≤ 0 → mkEE bounds m focus = .error .valueError) ∧
    (2 ≤ m ∧ 0 < focus → mkEE bounds m focus = .ok ⟨bounds, m, focus⟩) := by
  unfold mkEE
  refine ⟨fun h => ?_, fun h => ?_⟩
  · rcases h with h | h
    · rw [if_pos h]
    · split
      · rfl
      · rfl
  · rw [if_neg (by omega), if_neg (not_le.mpr h.2)]

namespace Gener

theorem twoOpts_numbered : Numbered twoOpts := by unfold Numbered; decide +kernel

theorem twoOpts_finite : AllHaveFiniteBest twoOpts := by
  have e : added twoOpts = [1, 2] := by decide +kernel
  have e' : evals twoOpts = [⟨1, [1, 0], .fin 5, []⟩, ⟨2, [1/2, 1], .fin 2, []⟩, ⟨1, [2, -1], .nan, []⟩,
    ⟨2, [0, 0], .fin 7, []⟩] := by decide +kernel
  unfold AllHaveFiniteBest
  rw [e, e']
  intro i hi
  simp only [List.mem_cons, List.not_mem_nil, or_false] at hi
  rcases hi with rfl | rfl
  · refine ⟨⟨⟨1, [1, 0], .fin 5, []⟩, by simp, rfl, rfl⟩, ?_⟩
    intro r hr _
    simp only [List.mem_cons, List.not_mem_nil, or_false] at hr
    rcases hr with rfl | rfl | rfl | rfl <;> simp
  · refine ⟨⟨⟨2, [1/2, 1], .fin 2, []⟩, by simp, rfl, rfl⟩, ?_⟩
    intro r hr _
    simp only [List.mem_cons, List.not_mem_nil, or_false] at hr
    rcases hr with rfl | rfl | rfl | rfl <;> simp

end Gener

/-- The hypotheses of both parts can be met; optimizer 2 is selected whatever is drawn. -/
example : WellFormed twoOpts ∧ Numbered twoOpts ∧ AllHaveFiniteBest twoOpts ∧
    incumbent ((Logger.init false).run twoOpts) (99/100) = .ok (some [1/2, 1]) :=
  ⟨twoOpts_wf, twoOpts_numbered, twoOpts_finite, by decide +kernel⟩

/-- **C69, refuted.** "At and beyond `max_func_calls` a previously evaluated point will be returned": with a single
optimizer in the log the random point is returned whatever the number of evaluations. -/
theorem C69_evaluated_point_refuted : ∃ ops, WellFormed ops ∧ Numbered ops ∧ AllHaveFiniteBest ops ∧ ∀ g : EE,
    ∀ fCounter draws u, g.generate ((Logger.init false).run ops) fCounter draws u =
      .ok ((uniform g.bounds draws).map fun (q : Rat) => (q : ℝ)) := by
  refine ⟨[.add 1 "A", .addHist 1 [], .put ⟨1, [1, 0], .fin 5, []⟩], wellFormed_of_wfB (by decide +kernel), ?_, ?_, ?_⟩
  · unfold Numbered; decide +kernel
  · intro i hi
    have e : i = 1 := by simpa [added] using hi
    subst e
    refine ⟨⟨⟨1, [1, 0], .fin 5, []⟩, by simp [evals], rfl, rfl⟩, ?_⟩
    intro r hr _
    have : r = ⟨1, [1, 0], .fin 5, []⟩ := by simpa [evals] using hr
    subst this; simp
  · intro g fCounter draws u
    have : incumbent ((Logger.init false).run
        [.add 1 "A", .addHist 1 [], .put ⟨1, [1, 0], .fin 5, []⟩]) u = .ok none := by
      have e : fTrack ((Logger.init false).run
          [.add 1 "A", .addHist 1 [], .put ⟨1, [1, 0], .fin 5, []⟩]) = [.fin 5] := by decide +kernel
      have e' : (revert [.fin 5]).all (fun r => PyF.eq r (.fin 0)) = true := by decide +kernel
      simp only [incumbent, e, roulette, e', List.length_cons]
      rfl
    simp only [EE.generate, this]

end Glompo.Props
