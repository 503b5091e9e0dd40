import Verif.Model.AnnealGen

/-! # C98: the annealing generator -/

namespace Glompo.Props.AnnealGen

open Glompo.AnnealGen

/-- The generators a user can have: made with a first `reset` ending in `m`, then any number of calls of `generate`. -/
inductive Reached (p : Par) (m : Move) : Gen → Prop where
  | start (junk : List ℝ) : Reached p m (start p m junk)
  | next {g g' : Gen} (best : Option (List ℝ × ℝ)) (ms rest : List Move) :
      Reached p m g → generate p best ms g = some (g', rest) → Reached p m g'

/-- The parameters SciPy allows. -/
structure Proper (p : Par) : Prop where
  qv : 1 < p.qv
  initial : 0 < p.initial
  ratio : 0 < p.ratio ∧ p.ratio ≤ 1

theorem power_lt {p : Par} (hp : Proper p) {a b : ℤ} (ha : 0 ≤ a) (h : a < b) : p.power a < p.power b := by
  unfold Par.power
  have h1 : (0 : ℝ) ≤ a := by exact_mod_cast ha
  have h2 : (a : ℝ) < b := by exact_mod_cast h
  have hq : 0 < p.qv - 1 := by linarith [hp.qv]
  have : Real.log ((a : ℝ) + 2) < Real.log (b + 2) := Real.log_lt_log (by linarith) (by linarith)
  have := Real.exp_lt_exp.mpr (mul_lt_mul_of_pos_left this hq)
  linarith

theorem power_pos {p : Par} (hp : Proper p) {a : ℤ} (ha : 0 ≤ a) : 0 < p.power a := by
  unfold Par.power
  have h1 : (0 : ℝ) ≤ a := by exact_mod_cast ha
  have hq : 0 < p.qv - 1 := by linarith [hp.qv]
  have : 0 < Real.log ((a : ℝ) + 2) := Real.log_pos (by linarith)
  have := Real.one_lt_exp_iff.mpr (mul_pos hq this)
  linarith

theorem temperature_zero {p : Par} (hp : Proper p) : p.temperature 0 = p.initial := by
  unfold Par.temperature
  have := power_pos hp (le_refl 0)
  field_simp

/-- **C98.** The temperature of the `k`-th generation falls strictly, from the initial one. -/
theorem C98_cooling {p : Par} (hp : Proper p) : p.temperature 0 = p.initial ∧
    ∀ a b : ℤ, 0 ≤ a → a < b → p.temperature b < p.temperature a := by
  refine ⟨temperature_zero hp, fun a b ha h => ?_⟩
  unfold Par.temperature
  have h0 := power_pos hp (le_refl 0)
  exact div_lt_div_of_pos_left (mul_pos hp.initial h0) (power_pos hp ha) (power_lt hp ha h)

theorem restart_le {p : Par} (hp : Proper p) : p.restart ≤ p.initial := by
  unfold Par.restart
  nlinarith [hp.initial, hp.ratio.2]

/-- Whatever the changes keep holds at the end of the loop. -/
theorem both_ind {p : Par} {P : Gen → Prop}
    (hset : ∀ g, P g → ¬ p.temperature g.iter < p.restart → ∀ n, P (anneal n { g with temp := p.temperature g.iter }))
    (hcold : ∀ g, P g → ∀ m n, P (anneal n (resetTemperature p m { g with temp := p.temperature g.iter })))
    (hreset : ∀ g, P g → ∀ m, P (resetTemperature p m g)) :
    ∀ (k : ℕ) (ms : List Move), ms.length ≤ k → ∀ (reps : ℕ) (g g' : Gen) (rest : List Move), P g →
      (loop p ms reps g = some (g', rest) ∨ loop.after p g ms reps = some (g', rest)) →
      ∃ g1, P g1 ∧ ¬ allClose g1.place g1.last ∧ g' = { g1 with last := g1.place } := by
  intro k
  induction k with
  | zero =>
    intro ms hm reps g g' rest hg h
    have : ms = [] := List.length_eq_zero_iff.mp (Nat.le_zero.mp hm)
    subst this
    have hno : ∀ reps g, loop p [] reps g = none := by
      intro reps g
      unfold loop
      simp
    rcases h with h | h
    · rw [hno] at h
      cases h
    · unfold loop.after at h
      split at h
      · split at h
        · simp at h
        · rw [hno] at h
          cases h
      · rename_i hc
        simp only [Option.some.injEq, Prod.mk.injEq] at h
        exact ⟨g, hg, hc, h.1.symm⟩
  | succ k ih =>
    have hloop : ∀ (ms : List Move), ms.length ≤ k + 1 → ∀ (reps : ℕ) (g g' : Gen) (rest : List Move), P g →
        loop p ms reps g = some (g', rest) →
        ∃ g1, P g1 ∧ ¬ allClose g1.place g1.last ∧ g' = { g1 with last := g1.place } := by
      intro ms hm reps g g' rest hg h
      unfold loop at h
      simp only at h
      split at h
      · cases ms with
        | nil => simp at h
        | cons m t =>
          cases t with
          | nil => simp at h
          | cons n t =>
            simp only at h
            exact ih t (by simp at hm; omega) _ _ _ _ (hcold g hg m n) (.inr h)
      · rename_i hc
        cases ms with
        | nil => simp at h
        | cons n t =>
          simp only at h
          exact ih t (by simp at hm; omega) _ _ _ _ (hset g hg hc n) (.inr h)
    intro ms hm reps g g' rest hg h
    rcases h with h | h
    · exact hloop ms hm reps g g' rest hg h
    · unfold loop.after at h
      split at h
      · split at h
        · cases ms with
          | nil => simp at h
          | cons m t =>
            simp only at h
            exact hloop t (by simp at hm; omega) _ _ _ _ (hreset g hg m) h
        · exact hloop ms hm _ _ _ _ hg h
      · rename_i hc
        simp only [Option.some.injEq, Prod.mk.injEq] at h
        exact ⟨g, hg, hc, h.1.symm⟩

theorem loop_ind {p : Par} {P : Gen → Prop}
    (hset : ∀ g, P g → ¬ p.temperature g.iter < p.restart → ∀ n, P (anneal n { g with temp := p.temperature g.iter }))
    (hcold : ∀ g, P g → ∀ m n, P (anneal n (resetTemperature p m { g with temp := p.temperature g.iter })))
    (hreset : ∀ g, P g → ∀ m, P (resetTemperature p m g)) (k : ℕ) (ms : List Move) (hk : ms.length ≤ k) (reps : ℕ)
    (g g' : Gen) (rest : List Move) (hg : P g) (h : loop p ms reps g = some (g', rest)) :
    ∃ g1, P g1 ∧ ¬ allClose g1.place g1.last ∧ g' = { g1 with last := g1.place } :=
  both_ind hset hcold hreset k ms hk reps g g' rest hg (.inl h)

theorem adopt_kept (b : Option (List ℝ × ℝ)) (g : Gen) : (adopt b g).iter = g.iter ∧ (adopt b g).runs = g.runs ∧
    (adopt b g).last = g.last ∧ (adopt b g).nfev = g.nfev ∧ (adopt b g).counted = g.counted := by
  unfold adopt
  cases b with
  | none => simp
  | some b => simp only; split <;> simp

/-- Every annealing is at the temperature of its generation, and what is counted is what the annealings evaluated. -/
structure Fine (p : Par) (m : Move) (g : Gen) : Prop where
  it : -1 ≤ g.iter
  runs : ∀ r ∈ g.runs, 0 ≤ r.1 ∧ r.2.1 = p.temperature r.1 ∧ p.restart ≤ r.2.1
  counted : g.counted = (g.runs.map (·.2.2.1)).sum
  more : m.evals + g.counted ≤ g.nfev

theorem reached_fine {p : Par} (hp : Proper p) {m : Move} {g : Gen} (h : Reached p m g) : Fine p m g := by
  induction h with
  | start junk => exact ⟨le_refl _, by simp [start], by simp [start], by simp [start]⟩
  | @next g g' best ms rest _ hg ih =>
    unfold generate at hg
    have hP : Fine p m (adopt best { g with iter := g.iter + 1 }) ∧ 0 ≤ (adopt best { g with iter := g.iter + 1 }).iter := by
      obtain ⟨a1, a2, a3, a4, a5⟩ := adopt_kept best { g with iter := g.iter + 1 }
      have := ih.it
      have h0 : (0 : ℤ) ≤ g.iter + 1 := by omega
      exact ⟨⟨by rw [a1]; show -1 ≤ g.iter + 1; omega, by rw [a2]; exact ih.runs, by rw [a2, a5]; exact ih.counted,
        by rw [a4, a5]; exact ih.more⟩, by rw [a1]; exact h0⟩
    obtain ⟨g1, ⟨hf, h0⟩, -, rfl⟩ := loop_ind (P := fun g => Fine p m g ∧ 0 ≤ g.iter)
      (fun g hg ht n => ⟨⟨hg.1.it, fun r hr => by
          rcases List.mem_cons.mp hr with rfl | hr
          · exact ⟨hg.2, rfl, not_lt.mp ht⟩
          · exact hg.1.runs r hr, by
            show g.counted + n.evals = _
            rw [hg.1.counted]; simp [anneal, add_comm], by
            have := hg.1.more
            show m.evals + (g.counted + n.evals) ≤ g.nfev + n.evals
            omega⟩, hg.2⟩)
      (fun g hg a n => ⟨⟨by simp [anneal, resetTemperature], fun r hr => by
          rcases List.mem_cons.mp hr with rfl | hr
          · exact ⟨le_refl _, (temperature_zero hp).symm, restart_le hp⟩
          · exact hg.1.runs r hr, by
            show g.counted + n.evals = _
            rw [hg.1.counted]; simp [anneal, resetTemperature, add_comm], by
            have := hg.1.more
            show m.evals + (g.counted + n.evals) ≤ g.nfev + a.evals + n.evals
            omega⟩, le_refl _⟩)
      (fun g hg a => ⟨⟨by simp [resetTemperature], hg.1.runs, hg.1.counted, by
            have := hg.1.more
            show m.evals + g.counted ≤ g.nfev + a.evals
            omega⟩, le_refl _⟩)
      ms.length ms (le_refl _) _ _ _ _ hP hg
    exact ⟨hf.it, hf.runs, hf.counted, hf.more⟩

/-- **C98.** In every history every annealing is made at the temperature of its generation, which lies between the restart
temperature and the initial one. -/
theorem C98_temperature {p : Par} (hp : Proper p) {m : Move} {g : Gen} (h : Reached p m g) :
    ∀ r ∈ g.runs, r.2.1 = p.temperature r.1 ∧ p.restart ≤ r.2.1 ∧ r.2.1 ≤ p.initial := by
  intro r hr
  obtain ⟨h0, h1, h2⟩ := (reached_fine hp h).runs r hr
  refine ⟨h1, h2, ?_⟩
  rw [h1, ← temperature_zero hp]
  rcases eq_or_lt_of_le h0 with h | h
  · rw [← h]
  · exact ((C98_cooling hp).2 0 r.1 (le_refl _) h).le

/-- **C98, partial.** The evaluations of all annealings are added to the manager's count, no other ones. Missing: those of the
resets, see below. -/
theorem C98_counted_partial {p : Par} (hp : Proper p) {m : Move} {g : Gen} (h : Reached p m g) :
    g.counted = (g.runs.map (·.2.2.1)).sum := (reached_fine hp h).counted

/-- **C98, refuted.** There are always evaluations which the manager does not count: at least those of the first reset. -/
theorem C98_all_counted_refuted {p : Par} (hp : Proper p) {m : Move} (hm : 0 < m.evals) {g : Gen} (h : Reached p m g) :
    g.counted < g.nfev := by
  have := (reached_fine hp h).more
  omega

/-- **C98.** The point returned is where the generator now is, and not close to the one returned before. -/
theorem C98_new_place (p : Par) (best : Option (List ℝ × ℝ)) (ms rest : List Move) (g g' : Gen)
    (h : generate p best ms g = some (g', rest)) : ¬ allClose g'.place g.last ∧ g'.last = g'.place := by
  unfold generate at h
  obtain ⟨g1, h1, h2, rfl⟩ := loop_ind (P := fun x => x.last = g.last) (fun g hg _ n => hg) (fun g hg m n => hg)
    (fun g hg m => hg) ms.length ms (le_refl _) _ _ _ _ (by rw [(adopt_kept _ _).2.2.1]) h
  exact ⟨by rw [← h1]; exact h2, rfl⟩

theorem no_cold {p : Par} {k : ℤ} (h : ¬ p.temperature k < p.restart) (ms : List Move) (reps : ℕ) (g : Gen) (hk : g.iter = k) :
    loop p ms reps g = match ms with
      | n :: t => loop.after p (anneal n { g with temp := p.temperature k }) t (reps + 1)
      | [] => none := by
  unfold loop
  simp only [hk]
  rw [if_neg h]
  cases ms <;> rfl

open Classical in
/-- **C98.** Unless it is so cold that the generator starts anew, the first annealing of a call starts from the best point of
the optimizers if that is better than where the generator is, else from where the generator is. -/
theorem C98_takes_over (p : Par) (best : Option (List ℝ × ℝ)) (ms rest : List Move) (g g' : Gen)
    (h : generate p best ms g = some (g', rest)) :
    ∃ new it T n x, g'.runs = new ++ (it, T, n, x) :: g.runs ∧
      if p.temperature (g.iter + 1) < p.restart then it = 0 ∧ T = p.initial ∧ ms.head?.map (·.place) = some x
      else it = g.iter + 1 ∧ T = p.temperature it ∧
        x = (best.elim g.place fun b => if b.2 < g.energy then b.1 else g.place) := by
  unfold generate at h
  obtain ⟨a1, a2, a3, a4, a5⟩ := adopt_kept best { g with iter := g.iter + 1 }
  have hpl : (adopt best { g with iter := g.iter + 1 }).place =
      best.elim g.place fun b => if b.2 < g.energy then b.1 else g.place := by
    unfold adopt
    cases best with
    | none => rfl
    | some b => simp only [Option.elim_some]; split <;> rfl
  have grow : ∀ (r : ℤ × ℝ × ℕ × List ℝ) (g1 : Gen) (t : List Move), g1.runs = r :: g.runs →
      loop.after p g1 t 1 = some (g', rest) → ∃ new, g'.runs = new ++ r :: g.runs := by
    intro r g1 t h1 h2
    obtain ⟨g2, ⟨new, h3⟩, -, rfl⟩ := both_ind (P := fun x => ∃ new, x.runs = new ++ r :: g.runs)
      (fun x hx _ n => by
        obtain ⟨new, hx⟩ := hx
        exact ⟨_ :: new, by simp only [anneal, hx]; rfl⟩)
      (fun x hx m n => by
        obtain ⟨new, hx⟩ := hx
        exact ⟨_ :: new, by simp only [anneal, resetTemperature, hx]; rfl⟩)
      (fun x hx m => hx) t.length t (le_refl _) 1 g1 g' rest ⟨[], h1⟩ (.inr h2)
    exact ⟨new, h3⟩
  unfold loop at h
  simp only [a1] at h
  split at h
  · rename_i hc
    cases ms with
    | nil => simp at h
    | cons m t =>
      cases t with
      | nil => simp at h
      | cons n t =>
        simp only at h
        obtain ⟨new, hn⟩ := grow (0, p.initial, n.evals, m.place) _ t (by simp [anneal, resetTemperature, a2]) h
        refine ⟨new, _, _, _, _, hn, ?_⟩
        rw [if_pos hc]
        exact ⟨rfl, rfl, rfl⟩
  · rename_i hc
    cases ms with
    | nil => simp at h
    | cons n t =>
      simp only at h
      obtain ⟨new, hn⟩ := grow (g.iter + 1, p.temperature (g.iter + 1), n.evals, _) _ t (by simp only [anneal, a2]; rfl) h
      refine ⟨new, _, _, _, _, hn, ?_⟩
      rw [if_neg hc]
      exact ⟨rfl, rfl, hpl⟩

/-- **C98, refuted.** If the bounds are so narrow that any two points within them are close, every call of `generate` but the
first goes on for ever, whatever the annealing does. -/
theorem C98_endless_refuted (p : Par) (inside : List ℝ → Prop) (hc : ∀ x y, inside x → inside y → allClose x y)
    (best : Option (List ℝ × ℝ)) (g : Gen) (hg : inside g.last) (ms : List Move) (hm : ∀ m ∈ ms, inside m.place) :
    generate p best ms g = none := by
  have key : ∀ (k : ℕ) (ms : List Move), ms.length ≤ k → (∀ m ∈ ms, inside m.place) → ∀ (reps : ℕ) (g : Gen),
      inside g.last → loop p ms reps g = none := by
    intro k
    induction k with
    | zero =>
      intro ms hms _ reps g _
      have : ms = [] := List.length_eq_zero_iff.mp (Nat.le_zero.mp hms)
      subst this
      unfold loop
      simp
    | succ k ih =>
      have haft : ∀ (ms : List Move), ms.length ≤ k → (∀ m ∈ ms, inside m.place) → ∀ (reps : ℕ) (g : Gen),
          inside g.last → inside g.place → loop.after p g ms reps = none := by
        intro ms hk hms reps g hl hpl
        unfold loop.after
        rw [if_pos (hc _ _ hpl hl)]
        split
        · cases ms with
          | nil => rfl
          | cons m t => exact ih t (by simp at hk; omega) (fun x hx => hms x (by simp [hx])) _ _ hl
        · exact ih ms hk hms _ _ hl
      intro ms hk hms reps g hl
      unfold loop
      simp only
      split
      · cases ms with
        | nil => rfl
        | cons m t =>
          cases t with
          | nil => rfl
          | cons n t =>
            exact haft t (by simp at hk; omega) (fun x hx => hms x (by simp [hx])) _ _ hl (hms n (by simp))
      · cases ms with
        | nil => rfl
        | cons n t => exact haft t (by simp at hk; omega) (fun x hx => hms x (by simp [hx])) _ _ hl (hms n (by simp))
  unfold generate
  refine key _ ms (le_refl _) hm _ _ ?_
  rw [(adopt_kept _ _).2.2.1]
  exact hg

/-- Bounds like that: 1000 to 1000.001. -/
example : ∀ x y : List ℝ, (∀ a ∈ x, 1000 ≤ a ∧ a ≤ 1000.001) → (∀ a ∈ y, 1000 ≤ a ∧ a ≤ 1000.001) → allClose x y := by
  intro x y hx hy q hq
  obtain ⟨h1, h2⟩ := List.of_mem_zip hq
  have a := hx _ h1
  have b := hy _ h2
  unfold close
  rw [abs_of_pos (a := q.2) (by linarith), abs_le]
  constructor <;> norm_num at a b ⊢ <;> linarith [a.1, a.2, b.1, b.2]

/-- The default parameters. -/
noncomputable def usual : Par := ⟨2.62, 5230, 2 / 10 ^ 5⟩

theorem usual_proper : Proper usual := ⟨by norm_num [usual], by norm_num [usual], by norm_num [usual]⟩

/-- One generation from the start: the chain moves from 0 to 3 with ten evaluations. -/
theorem one_step : generate usual none [⟨[3], 1, 10⟩] (start usual ⟨[0], 2, 1⟩ [0]) =
    some (⟨0, usual.temperature 0, [3], 1, [3], 11, 10, [(0, usual.temperature 0, 10, [0])]⟩, []) := by
  have hn : ¬ usual.temperature 0 < usual.restart := by
    rw [temperature_zero usual_proper]
    exact not_lt.mpr (restart_le usual_proper)
  unfold generate
  rw [no_cold hn _ _ _ (by simp [adopt, start])]
  simp only [adopt, start]
  unfold loop.after
  have : ¬ allClose (anneal ⟨[3], 1, 10⟩ (⟨0, usual.temperature 0, [0], 2, [0], 1, 0, []⟩ : Gen)).place [0] := by
    intro h
    have := h (3, 0) (by simp [anneal])
    unfold close at this
    norm_num at this
  rw [if_neg]
  · simp [anneal]
  · exact this

example : Reached usual ⟨[0], 2, 1⟩ ⟨0, usual.temperature 0, [3], 1, [3], 11, 10, [(0, usual.temperature 0, 10, [0])]⟩ :=
  .next none _ [] (.start [0]) one_step

end Glompo.Props.AnnealGen
