import Verif.Model.ParamsWrap
import Verif.Props.Manager
import Verif.Props.Setup

/-!
# C103: the ParAMS optimizer minimizes what it is given

`GlompoParamsWrapper(selector, **kwargs)` and its method `minimize(function, x0, bounds, workers)`.
-/

namespace Glompo.Props

open Glompo Glompo.Manager Glompo.Spec Glompo.Spec.Setup Glompo.Props.Runs Glompo.ParamsWrap

/-! ### Helpers -/

theorem no_resumed_steps {cfg : Cfg} {A : Lab → Prop} {s t : State} (h : Steps cfg A s t)
    (hs : ∀ c n, Ev.resumed c n ∉ s.ev) : ∀ c n, Ev.resumed c n ∉ t.ev := by
  induction h with
  | refl => exact hs
  | tail _ st _ ih =>
    intro c n hm
    have hm' := hm
    cases st with
    | plain _ x hx =>
      simp only [List.mem_append, List.mem_singleton] at hm
      rcases hm with hm | rfl
      · exact ih c n hm
      · cases hx
    | _ =>
      simp only [List.mem_append, List.mem_singleton] at hm
      first
        | exact ih c n hm'
        | (rcases hm with hm | hm
           · exact ih c n hm
           · cases hm)

theorem fresh_lossless (cfg : Cfg) (fuel : Nat) (e : Env) : Lossless (happened cfg (init cfg) fuel e) :=
  lossless_of_fresh (no_resumed_steps (startManager_spec fuel (Startable.fresh cfg).spec.1 e).1 (by simp [init]))

theorem minimize_runs {k : Kwargs} {w : Wrapper} {c : Call} {fuel : Nat} {e : Env}
    (h : (Init.setup (setupArgs k w c) w.mgr).2 = none) :
    minimize k w c fuel e =
      launch k { mgr := (Init.setup (setupArgs k w c) w.mgr).1, jobs := some (jobsOf w c), run := w.run } fuel e := by
  unfold minimize
  simp only []
  generalize Init.setup (setupArgs k w c) w.mgr = r at h
  obtain ⟨m, o⟩ := r
  cases h
  rfl

theorem launch_ended {k : Kwargs} {w : Wrapper} {fuel : Nat} {e : Env} (hr : w.run = none) :
    (launch k w fuel e).2 = (ended (cfgOf k w.mgr) (init (cfgOf k w.mgr)) fuel e).map fun r =>
      if r = .escaped then .error .keyboardInterrupt else report (closed r (moment (cfgOf k w.mgr) (init (cfgOf k w.mgr)) fuel e)) := by
  unfold launch ended moment
  simp only [hr, Option.getD_none]
  generalize startManager _ _ _ _ = r
  obtain ⟨o, s, e1⟩ := r
  rcases o with _ | o
  · rfl
  · cases o <;> rfl

theorem launch_mgr {k : Kwargs} {w : Wrapper} {fuel : Nat} {e : Env} : (launch k w fuel e).1.mgr = w.mgr := by
  unfold launch
  simp only []
  split <;> rfl

/-! ### The first call -/

/-- The manager which a first call of `minimize` runs. -/
def firstMgr (k : Kwargs) (jobs : Option Init.Jobs) (c : Call) : Init.Mgr :=
  (Init.setup (setupArgs k (new jobs) c) default).1

/-- The settings of this manager. -/
def firstCfg (k : Kwargs) (jobs : Option Init.Jobs) (c : Call) : Cfg := cfgOf k (firstMgr k jobs c)

/-- The evaluations accepted by this manager. -/
def firstEvals (k : Kwargs) (jobs : Option Init.Jobs) (c : Call) (fuel : Nat) (e : Env) : List IterRes :=
  acceptedOf (happened (firstCfg k jobs c) (init (firstCfg k jobs c)) fuel e)

/-- How this manager's run ended. -/
def firstEnd (k : Kwargs) (jobs : Option Init.Jobs) (c : Call) (fuel : Nat) (e : Env) : Option Reason :=
  ended (firstCfg k jobs c) (init (firstCfg k jobs c)) fuel e

theorem first_runs (k : Kwargs) (jobs : Option Init.Jobs) (c : Call) (fuel : Nat) (e : Env)
    (ha : Acceptable (setupArgs k (new jobs) c)) (hi : k.args.initialCheckpoint = none) :
    minimize k (new jobs) c fuel e = launch k ⟨firstMgr k jobs c, some (jobsOf (new jobs) c), none⟩ fuel e := by
  have hj : (setupArgs k (new jobs) c).maxJobs.truthy = true ∨ (setupArgs k (new jobs) c).maxJobs = .none := by
    rcases ha.jobs with h | ⟨n, hn, h⟩
    · exact .inr h
    · left; rw [h]; simp [Init.Jobs.truthy]; omega
  have h0 : (Init.setup (setupArgs k (new jobs) c) (new jobs).mgr).2 = none := by
    have := (C32_validation_partial (setupArgs k (new jobs) c) default rfl hj).2.2 ha
    show (Init.setup (setupArgs k (new jobs) c) default).2 = none
    rw [this]
    show (if _ then k.args.initialCheckpoint else none) = none
    rw [hi]
    split <;> rfl
  exact minimize_runs h0

/-- **C103.** The manager run by the first call of `minimize` hunts, forces optimizers to stop, uses processes, takes checkpoints and writes
trajectories as the wrapper's constructor was told. -/
theorem C103_settings (k : Kwargs) (jobs : Option Init.Jobs) (c : Call) (ha : Acceptable (setupArgs k (new jobs) c)) :
    ((firstCfg k jobs c).hunting = true ↔ k.args.hunter = .instance_) ∧ ((firstCfg k jobs c).forced = true ↔ 0 < k.args.forceAfter) ∧
    ((firstCfg k jobs c).procs = false ↔ k.args.backend = "threads") ∧
    ((firstCfg k jobs c).checkpointing = true ↔ k.args.checkpointControl = true ∧ k.args.dill = true) ∧
    ((firstCfg k jobs c).traj = true ↔ 2 ≤ k.args.summaryFiles) ∧ (firstCfg k jobs c).maxJobs = (firstMgr k jobs c).maxJobs := by
  have conf := (C32_configuration (setupArgs k (new jobs) c) default rfl ha).1
  refine ⟨?_, conf.forced, conf.threads, conf.checkpointing, conf.trajectories, rfl⟩
  show decide ((firstMgr k jobs c).hunter = .given) = true ↔ _
  rw [firstMgr, conf.hunter]
  show decide ((if k.args.hunter = .instance_ then _ else _) = _) = true ↔ _
  split
  · rename_i h; simp [h]
  · rename_i h; simp [h]

/-- **C103, partial.** The first call of `minimize` of a new wrapper, with acceptable arguments (`Acceptable`, C32; `workers`
counts as `max_jobs` if this was not given to the constructor), runs a manager whose task is the function given, within the
bounds given, with as many jobs as the constructor was told or else `workers`. `minimize` does not return before the run has
ended. When it has ended regularly: if some accepted evaluation has a value below infinity, `minimize` answers point and value
of the earliest best one, and success. Otherwise it raises `TypeError`. Missing: later calls, and runs cut short by an
exception; see below. -/
theorem C103_first_call_partial (k : Kwargs) (jobs : Option Init.Jobs) (c : Call) (fuel : Nat) (e : Env)
    (ha : Acceptable (setupArgs k (new jobs) c)) (hi : k.args.initialCheckpoint = none) :
    (minimize k (new jobs) c fuel e).1.mgr = firstMgr k jobs c ∧
    (firstMgr k jobs c).task.map (·.name) = some c.function.name ∧ (firstMgr k jobs c).bounds = some c.bounds ∧
    (jobs = none → c.workers ≠ 0 → (firstMgr k jobs c).maxJobs = c.workers) ∧
    (∀ n, jobs = some (.int n) → n ≠ 0 → (firstMgr k jobs c).maxJobs = n) ∧
    (firstEnd k jobs c fuel e = none ↔ (minimize k (new jobs) c fuel e).2 = none) ∧
    (firstEnd k jobs c fuel e = some .regular → (∀ r ∈ firstEvals k jobs c fuel e, r.x ≠ []) →
      ((∃ r ∈ firstEvals k jobs c fuel e, PyF.lt r.fx .pinf = true) →
        ∃ n r, EarliestMin (fun _ => True) (firstEvals k jobs c fuel e) n ∧ (firstEvals k jobs c fuel e)[n]? = some r ∧
          (minimize k (new jobs) c fuel e).2 = some (.ok ⟨some r.x, some r.fx, true⟩)) ∧
      ((∀ r ∈ firstEvals k jobs c fuel e, PyF.lt r.fx .pinf = false) →
        (minimize k (new jobs) c fuel e).2 = some (.error .typeError))) := by
  have conf := (C32_configuration (setupArgs k (new jobs) c) default rfl ha).1
  have hl := launch_ended (k := k) (w := ⟨firstMgr k jobs c, some (jobsOf (new jobs) c), none⟩) (fuel := fuel) (e := e) rfl
  rw [first_runs k jobs c fuel e ha hi]
  refine ⟨launch_mgr, by rw [firstMgr, conf.task]; rfl, conf.bounds, fun h h' => ?_, fun n h h' => ?_, ?_, fun h hx => ?_⟩
  · exact conf.jobsGiven c.workers (by subst h; rfl) h'
  · exact conf.jobsGiven n (by subst h; rfl) h'
  · rw [hl]; simp [firstEnd, firstCfg]
  · have hs := Startable.fresh (firstCfg k jobs c)
    have c22 := C22_result_is_best hs (fuel := fuel) (e := e) (fresh_lossless _ fuel e)
    have conv : (moment (firstCfg k jobs c) (init (firstCfg k jobs c)) fuel e).converged = true := by
      have sp := (startManager_spec fuel hs.spec.1 e).2.1
      rw [show (startManager _ fuel _ e).1 = _ from h] at sp
      exact sp.2.2
    have h' : ended (cfgOf k (firstMgr k jobs c)) (init (cfgOf k (firstMgr k jobs c))) fuel e = some .regular := h
    simp only [h', Option.map_some, reduceCtorEq, if_false] at hl
    change _ = some (report (closed .regular (moment (firstCfg k jobs c) (init (firstCfg k jobs c)) fuel e))) at hl
    have up := c22.1 (c22.2.2.1 h)
    change (firstEvals k jobs c fuel e = [] ∧ _) ∨ _ at up
    rw [hl]
    simp only [report, closed, conv, if_true, tidy]
    rcases up with ⟨h1, h2⟩ | ⟨x, fx, i, t, h1, h2, _, hb⟩
    · simp [h1, h2, len?]
    · change IsBest x fx i (firstEvals k jobs c fuel e) at hb
      simp only [h1, h2]
      rcases hb with ⟨hn, rfl, rfl, _⟩ | ⟨n, r, he, hr, rfl, rfl, _⟩
      · refine ⟨fun ⟨r, hr, hlt⟩ => ?_, fun _ => rfl⟩
        rw [hn r hr trivial] at hlt; cases hlt
      · have hne : r.x ≠ [] := hx r (List.mem_of_getElem? hr)
        refine ⟨fun _ => ⟨n, r, he, hr, ?_⟩, fun hall => ?_⟩
        · cases hrx : r.x with
          | nil => exact absurd hrx hne
          | cons a b => simp [len?]
        · obtain ⟨r', h1', _, h2', _⟩ := he
          rw [hr] at h1'
          cases h1'
          rw [hall r (List.mem_of_getElem? hr)] at h2'
          cases h2'

/-- A wrapper's keywords: thread backend, no hunter, no checkpoints. -/
def wrapKwargs : Kwargs :=
  ⟨{ task := ⟨"", false, false⟩, selector := true, bounds := [], maxJobs := .none, checker := .instance_, generator := .other false,
     hunter := .other false, forceAfter := 0, summaryFiles := 0, checkpointControl := false, checkpointAtInit := false
     backend := "threads", endTimeout := none, cpus := 8, dill := true, initialCheckpoint := none }, cfg1⟩

/-- `minimize(f, x0, [(0, 1)], workers=2)`. -/
def callF : Call := ⟨⟨"f", true, true⟩, [(.fin 0, .fin 1)], 2⟩

/-- `minimize(g, x0, [(5, 9)], workers=7)`. -/
def callG : Call := ⟨⟨"g", true, true⟩, [(.fin 5, .fin 9)], 7⟩

/-- Two optimizers are started; two evaluations arrive; convergence. -/
def twoEvals : Env := [b false, u, u, sel 1, u, u, u, sel 1, u, u, u, u, sg none, sg none, ch [r 1 5, r 2 3], nothing, files,
  b false, u, u, b false, u, u, b false, u, u, u, b true, u, u, u, u, u, u, u, u]

/-- The same without evaluations. -/
def noEvals : Env := [b false, u, u, sel 1, u, u, u, sel 1, u, u, u, u, sg none, sg none, nothing, files,
  b false, u, u, b false, u, u, b false, u, u, u, b true, u, u, u, u, u, u, u, u]

/-- What `minimize` returned. -/
def minimum? : Option (Except Err Min) → Option Min
  | some (.ok m) => some m
  | _ => none

/-- What `minimize` raised. -/
def failure? : Option (Except Err Min) → Option Err
  | some (.error e) => some e
  | _ => none

theorem acceptableF : Acceptable (setupArgs wrapKwargs (new none) callF) where
  task := rfl
  selector := rfl
  bounds := fun b hb => by
    simp only [setupArgs, callF, List.mem_singleton] at hb
    exact ⟨0, 1, hb, by decide +kernel⟩
  jobs := .inr ⟨2, by decide, rfl⟩
  checker := .inl rfl
  generator := .inr rfl
  hunter := .inr rfl

example : firstEnd wrapKwargs none callF 20 twoEvals = some .regular ∧
    (firstEvals wrapKwargs none callF 20 twoEvals).map (·.fx) = [.fin 5, .fin 3] ∧
    (∀ r ∈ firstEvals wrapKwargs none callF 20 twoEvals, r.x ≠ []) ∧
    (firstMgr wrapKwargs none callF).maxJobs = 2 ∧
    minimum? (minimize wrapKwargs (new none) callF 20 twoEvals).2 = some ⟨some [3], some (.fin 3), true⟩ := by
  decide +kernel

/-- **C103, refuted (nothing evaluated).** The convergence condition holds before any optimizer has been started, or before the
first evaluation arrives: instead of reporting that there was no success, `minimize` raises `TypeError` (`len(None)`). -/
theorem C103_nothing_evaluated_refuted :
    failure? (minimize wrapKwargs (new none) callF 20 [b true]).2 = some .typeError ∧
    failure? (minimize wrapKwargs (new none) callF 20 noEvals).2 = some .typeError ∧
    firstEnd wrapKwargs none callF 20 noEvals = some .regular := by
  decide +kernel

/-! ### Later calls -/

/-- **C103, partial (later calls).** What a wrapper minimizes never changes after its first accepted call: whatever functions, bounds
and numbers of workers the later calls bring, the manager keeps task, bounds and number of jobs. -/
theorem C103_later_calls_partial (k : Kwargs) (w : Wrapper) (h : w.mgr.isInitialised = true)
    (cs : List (Call × Nat × Env)) : (calls k w cs).mgr = w.mgr := by
  have one : ∀ (w : Wrapper) (c : Call) (fuel : Nat) (e : Env), w.mgr.isInitialised = true →
      (minimize k w c fuel e).1.mgr = w.mgr := by
    intro w c fuel e hw
    have hs : Init.setup (setupArgs k w c) w.mgr = (w.mgr, none) := by simp [Init.setup, hw]
    rw [minimize_runs (by rw [hs]), launch_mgr, hs]
  induction cs generalizing w with
  | nil => rfl
  | cons p t ih =>
    obtain ⟨c, fuel, e⟩ := p
    have := one w c fuel e h
    rw [calls, ih _ (by rw [this]; exact h), this]

/-- **C103, refuted.** A second call, with whatever function, bounds and workers, answers the result of the first again if the
convergence condition still holds, as that of a limit on evaluations or time does. -/
theorem C103_second_call_refuted (k : Kwargs) (jobs : Option Init.Jobs) (c c' : Call) (fuel fuel' : Nat) (e e' : Env)
    (ha : Acceptable (setupArgs k (new jobs) c)) (hi : k.args.initialCheckpoint = none)
    (hr : firstEnd k jobs c fuel e = some .regular) :
    (minimize k (minimize k (new jobs) c fuel e).1 c' fuel' (b true :: e')).2 = (minimize k (new jobs) c fuel e).2 := by
  have ini : (firstMgr k jobs c).isInitialised = true := by
    have := (C32_configuration (setupArgs k (new jobs) c) default rfl ha).2
    simp only [firstMgr, Init.Mgr.isInitialised, this]; rfl
  have conv : (moment (firstCfg k jobs c) (init (firstCfg k jobs c)) fuel e).converged = true := by
    have sp := (startManager_spec fuel (Startable.fresh (firstCfg k jobs c)).spec.1 e).2.1
    rw [show (startManager _ fuel _ e).1 = _ from hr] at sp
    exact sp.2.2
  rw [first_runs k jobs c fuel e ha hi]
  have h1 : launch k ⟨firstMgr k jobs c, some (jobsOf (new jobs) c), none⟩ fuel e =
      (⟨firstMgr k jobs c, some (jobsOf (new jobs) c), some (closed .regular (moment (firstCfg k jobs c) (Manager.init (firstCfg k jobs c)) fuel e))⟩,
        some (report (closed .regular (moment (firstCfg k jobs c) (Manager.init (firstCfg k jobs c)) fuel e)))) := by
    have hr' : (startManager (cfgOf k (firstMgr k jobs c)) fuel (Manager.init (cfgOf k (firstMgr k jobs c))) e).1 = some .regular := hr
    unfold launch moment firstCfg
    simp only [Option.getD_none]
    generalize startManager _ _ _ _ = q at hr'
    obtain ⟨o, s, e1⟩ := q
    cases hr'
    rfl
  rw [h1]
  generalize moment (firstCfg k jobs c) (Manager.init (firstCfg k jobs c)) fuel e = s at conv ⊢
  have hs : Init.setup (setupArgs k ⟨firstMgr k jobs c, some (jobsOf (new jobs) c), some (closed .regular s)⟩ c') (firstMgr k jobs c) =
      (firstMgr k jobs c, none) := by simp [Init.setup, ini]
  rw [minimize_runs (by rw [hs])]
  simp only [hs]
  have hq : ∀ st : State, askBool st (b true :: e') = (.ok true, st, e') := fun _ => rfl
  simp [launch, startManager, hq, report, closed, conv]

example : Acceptable (setupArgs wrapKwargs (new none) callF) ∧ wrapKwargs.args.initialCheckpoint = none ∧
    firstEnd wrapKwargs none callF 20 twoEvals = some .regular := ⟨acceptableF, rfl, by decide +kernel⟩

/-- **C103, refuted (another function).** `g` is to be minimized within `(5, 9)`; the answer is the minimum of `f` within `(0, 1)`,
reported as a success. -/
theorem C103_other_function_refuted :
    minimum? (minimize wrapKwargs (minimize wrapKwargs (new none) callF 20 twoEvals).1 callG 20 [b true]).2 =
      some ⟨some [3], some (.fin 3), true⟩ ∧
    ((minimize wrapKwargs (minimize wrapKwargs (new none) callF 20 twoEvals).1 callG 20 [b true]).1.mgr.task.map (·.name),
     (minimize wrapKwargs (minimize wrapKwargs (new none) callF 20 twoEvals).1 callG 20 [b true]).1.mgr.bounds) =
      (some "f", some [(.fin 0, .fin 1)]) := by
  decide +kernel

/-- **C103, refuted (workers).** A first call with unacceptable bounds fails. The second call, with proper arguments and 7
workers, uses the 2 workers of the call which failed. -/
theorem C103_workers_refuted :
    failure? (minimize wrapKwargs (new none) { callF with bounds := [(.fin 1, .fin 0)] } 20 []).2 = some .valueError ∧
    (minimize wrapKwargs (minimize wrapKwargs (new none) { callF with bounds := [(.fin 1, .fin 0)] } 20 []).1 callG 20 []).1.mgr.maxJobs
      = 2 := by
  decide +kernel

end Glompo.Props
