import Mathlib.Analysis.SpecialFunctions.Trigonometric.Basic
import Mathlib.Analysis.SpecialFunctions.Pow.Real
import Mathlib.Analysis.SpecialFunctions.Sqrt

/-!
# Benchmark functions

Models the classes of `glompo/benchmark_fncs.py` over the reals: the function, the minimum it announces and its bounds. Simplifications throughout:
exact real arithmetic, vectors of the right length, no `delay`, and random draws are arguments.
-/

namespace Glompo.Bench

open Finset Real

/-- `BaseTestCase` (benchmark_fncs.py:35-90). -/
structure TestCase (d : ℕ) where
  f : (Fin d → ℝ) → ℝ
  minX : Fin d → ℝ
  minFx : ℝ
  lo : Fin d → ℝ
  hi : Fin d → ℝ

variable {d : ℕ}

/-- A test case with the same bounds in all dimensions: `[(a, b)] * self.dims` (benchmark_fncs.py:146-148 and alike). -/
def box (f : (Fin d → ℝ) → ℝ) (minX : Fin d → ℝ) (minFx a b : ℝ) : TestCase d := ⟨f, minX, minFx, fun _ => a, fun _ => b⟩

/-- `Ackley` (benchmark_fncs.py:93-148). -/
noncomputable def ackley (d : ℕ) (a b c : ℝ) : TestCase d :=
  box (fun x => -a * exp (-b * √(1 / d * ∑ i, x i ^ 2)) + -exp (1 / d * ∑ i, cos (c * x i)) + (a + exp 1)) (fun _ => 0) 0 (-32.768) 32.768

/-- `Alpine01` (benchmark_fncs.py:151-187). -/
noncomputable def alpine01 (d : ℕ) : TestCase d := box (fun x => ∑ i, |sin (x i) * x i + 0.1 * x i|) (fun _ => 0) 0 (-10) 10

/-- `Alpine02` (benchmark_fncs.py:190-223). -/
noncomputable def alpine02 (d : ℕ) : TestCase d := box (fun x => -∏ i, sin (x i) * √(x i)) (fun _ => 7.917) (-2.808 ^ d) 0 10

/-- `Deceptive._g` (benchmark_fncs.py:265-280), one component. -/
noncomputable def deceptiveG (a x : ℝ) : ℝ :=
  if 0 ≤ x ∧ x ≤ 0.8 * a then 0.8 - x / a
  else if 0.8 * a < x ∧ x ≤ a then 5 * x / a - 4
  else if a < x ∧ x ≤ (1 + 4 * a) / 5 then 5 * (x - a) / (a - 1) + 1
  else if (1 + 4 * a) / 5 < x ∧ x ≤ 1 then (x - 1) / (1 - a) + 0.8
  else 0

/-- `+ 1` and the like if `shift_positive` (benchmark_fncs.py:260-263). -/
noncomputable def shifted (shift : Bool) (c v : ℝ) : ℝ := if shift then v + c else v

/-- `Deceptive` (benchmark_fncs.py:226-292); `a`: the random place of the minimum. -/
noncomputable def deceptive (d : ℕ) (b : ℝ) (shift : Bool) (a : Fin d → ℝ) : TestCase d :=
  box (fun x => shifted shift 1 (-(1 / d * ∑ i, deceptiveG (a i) (x i)) ^ b)) a (if shift then 0 else -1) 0 1

/-- `Easom` (benchmark_fncs.py:295-341). -/
noncomputable def easom (shift : Bool) : TestCase 2 :=
  box (fun x => shifted shift 1 (-cos (x 0) * cos (x 1) * exp (-(x 0 - π) ^ 2 - (x 1 - π) ^ 2))) (fun _ => π) (if shift then 0 else -1) (-100) 100

/-- `Griewank` (benchmark_fncs.py:344-380). -/
noncomputable def griewank (d : ℕ) : TestCase d :=
  box (fun x => 1 + 1 / 4000 * ∑ i, x i ^ 2 - ∏ i, cos (x i / √((i : ℕ) + 1))) (fun _ => 0) 0 (-600) 600

/-- `a`, `b` and `c` of `Langermann.__call__` (benchmark_fncs.py:412-414). -/
noncomputable def langermannRows : List (ℝ × ℝ × ℝ) := [(3, 5, 1), (5, 2, 2), (2, 1, 5), (1, 4, 2), (7, 9, 3)]

/-- `Langermann` (benchmark_fncs.py:383-438). -/
noncomputable def langermann (shift : Bool) : TestCase 2 where
  f x := shifted shift 5.2 (-(langermannRows.map fun r =>
    r.2.2 * cos (π * ((x 0 - r.1) ^ 2 + (x 1 - r.2.1) ^ 2)) / exp (((x 0 - r.1) ^ 2 + (x 1 - r.2.1) ^ 2) / π)).sum)
  minX := ![2.00299219, 1.006096]
  minFx := if shift then 0.0378741 else -5.1621259
  lo _ := 0
  hi _ := 10

/-- The prediction of `ExpLeastSquaresCost` at `u` (benchmark_fncs.py:505, 517). -/
noncomputable def expSum (p : Fin d → ℝ) (u : ℝ) : ℝ := ∑ i, exp (-p i * u)

/-- `ExpLeastSquaresCost` (benchmark_fncs.py:441-534) with `sigma_fixed` 0: `u` are the training points, `p` the true parameters, `noise x` the
random factor of the evaluation. -/
noncomputable def expLeastSquares (n : ℕ) (u : Fin n → ℝ) (p : Fin d → ℝ) (noise : (Fin d → ℝ) → ℝ) (a b : ℝ) : TestCase d :=
  box (fun x => ∑ k, ((expSum x (u k) - expSum p (u k)) * (1 + noise x)) ^ 2) p 0 a b

/-- `Levy._w` (benchmark_fncs.py:716-718). -/
noncomputable def levyW (x : ℝ) : ℝ := 1 + (x - 1) / 4

/-- `Levy` (benchmark_fncs.py:683-730); an empty vector raises an exception. -/
noncomputable def levy (n : ℕ) : TestCase (n + 1) :=
  box (fun x => sin (π * levyW (x 0)) ^ 2 + ∑ i, (levyW (x i) - 1) ^ 2 * (1 + 10 * sin (π * levyW (x i) + 1) ^ 2) +
    (levyW (x (Fin.last n)) - 1) ^ 2 * (1 + sin (2 * π * levyW (x (Fin.last n))) ^ 2)) (fun _ => 1) 0 (-10) 10

/-- `Michalewicz` (benchmark_fncs.py:733-796) for a whole number `m`. Simplification: 0 for the minimum if the dimension is none of 2, 5, 10
(`inf` with a warning). -/
noncomputable def michalewicz (d m : ℕ) : TestCase d :=
  box (fun x => -∑ i, sin (x i) * sin (((i : ℕ) + 1) * x i ^ 2 / π) ^ (2 * m)) (fun _ => 0)
    (if d = 2 then -1.8013 else if d = 5 then -4.687658 else if d = 10 then -9.66015 else 0) 0 π

/-- `Qing` (benchmark_fncs.py:799-835). -/
noncomputable def qing (d : ℕ) : TestCase d :=
  box (fun x => ∑ i, (x i ^ 2 - ((i : ℕ) + 1)) ^ 2) (fun i => √((i : ℕ) + 1)) 0 (-500) 500

/-- One summand of `Rana.__call__` (benchmark_fncs.py:861-869). -/
noncomputable def ranaTerm (x0 x : ℝ) : ℝ :=
  x * sin √|x0 - x + 1| * cos √|x0 + x + 1| + (x0 + 1) * sin √|x0 + x + 1| * cos √|x0 - x + 1|

/-- `Rana.__call__` (benchmark_fncs.py:857-869); an empty vector raises an exception. -/
noncomputable def ranaF (n : ℕ) (x : Fin (n + 1) → ℝ) : ℝ := ∑ i, ranaTerm (x 0) (x i)

/-- `Rana` (benchmark_fncs.py:838-881). -/
noncomputable def rana (n : ℕ) : TestCase (n + 1) :=
  box (ranaF n) (fun _ => -500) (ranaF n fun _ => -500) (-500.000001) 500.000001

/-- `Rastrigin` (benchmark_fncs.py:884-918). -/
noncomputable def rastrigin (d : ℕ) : TestCase d :=
  box (fun x => 10 * d + ∑ i, (x i ^ 2 - 10 * cos (2 * π * x i))) (fun _ => 0) 0 (-5.12) 5.12

/-- `Rosenbrock` (benchmark_fncs.py:921-953). -/
noncomputable def rosenbrock (d : ℕ) : TestCase d :=
  box (fun x => ∑ i : Fin (d - 1), (100 * (x ⟨i + 1, by omega⟩ - x ⟨i, by omega⟩ ^ 2) ^ 2 + (1 - x ⟨i, by omega⟩) ^ 2)) (fun _ => 1) 0 (-2.048) 2.048

/-- `Schwefel` (benchmark_fncs.py:956-1000). -/
noncomputable def schwefel (d : ℕ) (shift : Bool) : TestCase d :=
  box (fun x => shifted shift (418.9830 * d) (∑ i, -x i * sin √|x i|)) (fun _ => 420.9687) (if shift then 0.0001 * d else -418.9829 * d) (-500) 500

/-- The rows of `Shekel.a` for `m` = 5, 7, 10 with the entries of `Shekel.c` (benchmark_fncs.py:1035-1056). -/
noncomputable def shekelRows (m : ℕ) : List ((Fin 4 → ℝ) × ℝ) :=
  if m = 5 then
    [(![4, 4, 4, 4], 0.1), (![1, 1, 1, 1], 0.2), (![8, 8, 8, 8], 0.2), (![6, 6, 6, 6], 0.4), (![3, 7, 3, 7], 0.6)]
  else
    [(![4, 4, 4, 4], 0.1), (![1, 1, 1, 1], 0.2), (![8, 8, 8, 8], 0.2), (![6, 6, 6, 6], 0.4), (![3, 7, 3, 7], 0.4),
      (![2, 9, 2, 9], 0.6), (![5, 5, 3, 3], 0.3)] ++
    if m = 10 then [(![8, 1, 8, 1], 0.7), (![6, 2, 6, 2], 0.5), (![7, 3.6, 7, 3.6], 0.5)] else []

/-- `Shekel` (benchmark_fncs.py:1003-1085) for 1 to 4 dimensions. -/
noncomputable def shekel (d : ℕ) (hd : d ≤ 4) (m : ℕ) (shift : Bool) : TestCase d :=
  box (fun x => shifted shift 12 (-((shekelRows m).map fun r => (r.2 + ∑ i : Fin d, (x i - r.1 (Fin.castLE hd i)) ^ 2)⁻¹).sum)) (fun _ => 4) (-10.6)
    (-32.768) 32.768

/-- `np.sum(j * np.cos((j + 1) * x + j))` over `j` from 1 to 5 (benchmark_fncs.py:1122-1125). -/
noncomputable def shubertCos (x : ℝ) : ℝ := ∑ j ∈ Icc (1 : ℕ) 5, (j : ℝ) * cos ((j + 1) * x + j)

/-- `np.sum(j * np.sin((j + 1) * x + j))` (benchmark_fncs.py:1135-1138). -/
noncomputable def shubertSin (x : ℝ) : ℝ := ∑ j ∈ Icc (1 : ℕ) 5, (j : ℝ) * sin ((j + 1) * x + j)

/-- `Shubert.__call__` (benchmark_fncs.py:1115-1155). -/
noncomputable def shubertF (style : ℕ) (shift : Bool) (x : Fin d → ℝ) : ℝ :=
  if style = 1 then shifted shift 186.731 (∏ i, shubertCos (x i))
  else if style = 3 then shifted shift 24.062499 (∑ i, shubertSin (x i))
  else shifted shift 29.016015 (∑ i, shubertCos (x i))

/-- `Shubert.min_fx` in up to two dimensions (benchmark_fncs.py:1162-1175). The place of the minimum is not given. -/
noncomputable def shubertMin (style : ℕ) (shift : Bool) : ℝ :=
  if shift then 0 else if style = 1 then -186.7309 else if style = 3 then -24.062499 else -29.016015

/-- `Stochastic` (benchmark_fncs.py:1182-1218); `e x` are the draws of the evaluation. -/
noncomputable def stochastic (d : ℕ) (e : (Fin d → ℝ) → Fin d → ℝ) : TestCase d :=
  box (fun x => ∑ i, e x i * |x i - 1 / ((i : ℕ) + 1)|) (fun i => 1 / ((i : ℕ) + 1)) 0 (-5) 5

/-- `StyblinskiTang` (benchmark_fncs.py:1221-1254). -/
noncomputable def styblinskiTang (d : ℕ) : TestCase d :=
  box (fun x => 0.5 * ∑ i, (x i ^ 4 - 16 * x i ^ 2 + 5 * x i)) (fun _ => -2.903534018185960) (-39.16616570377142 * d) (-500) 500

/-- `Trigonometric` (benchmark_fncs.py:1257-1293). -/
noncomputable def trigonometric (d : ℕ) : TestCase d :=
  box (fun x => 1 + ∑ i, (8 * sin (7 * (x i - 0.9) ^ 2) ^ 2 + 6 * sin (14 * (x i - 0.9) ^ 2) ^ 2 + (x i - 0.9) ^ 2)) (fun _ => 0.9) 1 (-500) 500

/-- `Vincent` (benchmark_fncs.py:1296-1330). -/
noncomputable def vincent (d : ℕ) : TestCase d := box (fun x => -∑ i, sin (10 * log (x i))) (fun _ => 7.70628098) (-d) 0.25 10

/-- `ZeroSum` (benchmark_fncs.py:1333-1376). -/
noncomputable def zeroSum (d : ℕ) : TestCase d :=
  box (fun x => if ∑ i, x i = 0 then 0 else √(|∑ i, x i| * 10000) + 1) (fun _ => 7.70628098) (-d) (-10) 10

/-! ## Lennard-Jones -/

/-- `dists_sq` of a pair of atoms (benchmark_fncs.py:657-658). Setting it to infinity if it is 0 (line 659) makes all inverse powers 0, which is
the convention of Lean for inverses of 0. -/
noncomputable def distSq {n d : ℕ} (x : Fin n → Fin d → ℝ) (i j : Fin n) : ℝ := ∑ k, (x i k - x j k) ^ 2

/-- `LennardJones.__call__` (benchmark_fncs.py:606-614). -/
noncomputable def lennardJones {n d : ℕ} (eps sig : ℝ) (x : Fin n → Fin d → ℝ) : ℝ :=
  (∑ i, ∑ j ∈ univ.filter (i < ·), ((sig ^ 2 / distSq x i j) ^ 6 - (sig ^ 2 / distSq x i j) ^ 3)) * (4 * eps)

/-- A row of `energy_grads` (benchmark_fncs.py:630-634). -/
noncomputable def ljGrad {n d : ℕ} (eps sig : ℝ) (x : Fin n → Fin d → ℝ) (i j : Fin n) (k : Fin d) : ℝ :=
  -24 * eps * (2 * sig ^ 11 * ((distSq x i j)⁻¹) ^ 7 - sig ^ 5 * ((distSq x i j)⁻¹) ^ 4) * (x i k - x j k)

/-- `LennardJones.jacobian` (benchmark_fncs.py:616-639), for atom `a` and coordinate `k`. -/
noncomputable def ljJacobian {n d : ℕ} (eps sig : ℝ) (x : Fin n → Fin d → ℝ) (a : Fin n) (k : Fin d) : ℝ :=
  ∑ i, ∑ j ∈ univ.filter (i < ·), ((if i = a then ljGrad eps sig x i j k else 0) + (if j = a then -ljGrad eps sig x i j k else 0))

/-- Whether `LennardJones.min_fx` is a number (benchmark_fncs.py:668-676): `_dims` is the number of all coordinates. -/
def ljMinKnown (n d : ℕ) : Bool := n * d = 3

end Glompo.Bench
