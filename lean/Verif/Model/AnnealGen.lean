import Mathlib.Analysis.SpecialFunctions.Pow.Real

/-!
# The annealing generator

Model of `AnnealingGenerator` (glompo/generators/annealing.py:11-131) over the real numbers. What SciPy's annealing chain and
`EnergyState.reset` do is not modelled: each of their calls ends in an arbitrary place with an arbitrary number of
evaluations, which the model reads from a list.
-/

namespace Glompo.AnnealGen

/-- Parameters of `__init__` (lines 54-78). -/
structure Par where
  qv : ℝ
  initial : ℝ
  ratio : ℝ

/-- `restart_temperature` (line 75). -/
noncomputable def Par.restart (p : Par) : ℝ := p.initial * p.ratio

/-- `t1` (line 78) and `t2` (line 102) are `power 0` and `power iter`. -/
noncomputable def Par.power (p : Par) (k : ℤ) : ℝ := Real.exp ((p.qv - 1) * Real.log (k + 2)) - 1

/-- Lines 102-103. -/
noncomputable def Par.temperature (p : Par) (k : ℤ) : ℝ := p.initial * p.power 0 / p.power k

/-- How a call of `chain.run` or `state.reset` ends: where, with which value, after how many evaluations. Outside the repository (`scipy.optimize._dual_annealing`); called in `annealing.py:84`, `annealing.py:112` and `annealing.py:129`. -/
structure Move where
  place : List ℝ
  energy : ℝ
  evals : ℕ

/-- The generator and what concerns it of the manager. `place`, `energy`: `state.current_location`, `.current_energy`; `nfev`:
evaluations made, `counted`: those added to the manager's counters (lines 113-114). `runs`: ghost, `iter`, temperature,
number of evaluations and starting point of every annealing, latest first. -/
structure Gen where
  iter : ℤ
  temp : ℝ
  place : List ℝ
  energy : ℝ
  last : List ℝ
  nfev : ℕ
  counted : ℕ
  runs : List (ℤ × ℝ × ℕ × List ℝ)

/-- `__init__` (lines 64-85); `m` is the outcome of `state.reset`, `junk` the contents of `np.empty` (line 71). -/
noncomputable def start (p : Par) (m : Move) (junk : List ℝ) : Gen :=
  ⟨-1, p.initial, m.place, m.energy, junk, m.evals, 0, []⟩

/-- `np.isclose` (line 116) with its default tolerances. -/
def close (a b : ℝ) : Prop := |a - b| ≤ 1 / 10 ^ 8 + 1 / 10 ^ 5 * |b|

/-- `np.all(np.isclose(x, y))` for arrays of the same shape. Used in `annealing.py:116`. -/
def allClose (x y : List ℝ) : Prop := ∀ q ∈ x.zip y, close q.1 q.2

/-- `reset_temperature` (lines 128-131). -/
noncomputable def resetTemperature (p : Par) (m : Move) (g : Gen) : Gen :=
  { g with place := m.place, energy := m.energy, nfev := g.nfev + m.evals, iter := 0, temp := p.initial }

/-- `chain.run` and the accounting (lines 111-114). -/
def anneal (m : Move) (g : Gen) : Gen :=
  { g with place := m.place, energy := m.energy, nfev := g.nfev + m.evals, counted := g.counted + m.evals
           runs := (g.iter, g.temp, m.evals, g.place) :: g.runs }

open Classical in
/-- The loop of `generate` (lines 97-125). `none`: it has not come to an end within `moves`. -/
noncomputable def loop (p : Par) : List Move → ℕ → Gen → Option (Gen × List Move)
  | ms, reps, g =>
    let g1 := { g with temp := p.temperature g.iter }
    if g1.temp < p.restart then
      match ms with
      | m :: n :: t => after p (anneal n (resetTemperature p m g1)) t (reps + 1)
      | _ => none
    else
      match ms with
      | n :: t => after p (anneal n g1) t (reps + 1)
      | [] => none
  termination_by ms => (ms.length, 1)
where
  /-- Lines 116-125. -/
  after (p : Par) (g : Gen) (ms : List Move) (reps : ℕ) : Option (Gen × List Move) :=
    if allClose g.place g.last then
      if 5 ≤ reps then
        match ms with
        | m :: t => loop p t 0 (resetTemperature p m g)
        | [] => none
      else loop p ms reps g
    else some ({ g with last := g.place }, ms)
  termination_by (ms.length, 2)

open Classical in
/-- Lines 91-95: the best evaluation of the optimizers is taken over if it is better. `best` is what the log reports, a place
and a value, or `none` if there is no evaluation (value `inf`). -/
noncomputable def adopt (best : Option (List ℝ × ℝ)) (g : Gen) : Gen :=
  match best with
  | none => g
  | some b => if b.2 < g.energy then { g with place := b.1, energy := b.2 } else g

/-- `generate` (lines 87-126); the answer is the place of the new state. -/
noncomputable def generate (p : Par) (best : Option (List ℝ × ℝ)) (ms : List Move) (g : Gen) : Option (Gen × List Move) :=
  loop p ms 0 (adopt best { g with iter := g.iter + 1 })

end Glompo.AnnealGen
