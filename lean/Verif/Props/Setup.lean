import Verif.Spec.Setup
import Verif.Props.Helpers
import Mathlib.Tactic.Linarith

/-!
# C32: `setup` and `load_checkpoint` act once; `setup` validates its input
-/

namespace Glompo.Props

open Glompo Glompo.Init Glompo.Spec.Setup

/-- **C32 (once only).** On an initialised manager neither `setup` nor `load_checkpoint` changes anything or raises, whatever they are
given. -/
theorem C32_once_only (m : Mgr) (h : m.isInitialised = true) :
    (∀ a, setup a m = (m, none)) ∧ (∀ c a, load c a m = (m, none)) := by
  constructor
  · intro a; simp [setup, h]
  · intro c a; simp [load, h]

example : Mgr.isInitialised { (default : Mgr) with isRestart := some false } = true := rfl

/-- Plug-ins in arguments. -/
theorem goodPlug_iff (p : Plug) : GoodPlug p ↔ p ≠ .other true := by
  cases p with
  | instance_ => simp [GoodPlug]
  | other b => cases b <;> simp [GoodPlug]

/-- What `setup` makes of acceptable arguments, apart from the initial checkpoint. -/
def configured (a : Args) (m : Mgr) : Mgr :=
  let proc := decide (a.backend ≠ "threads")
  { isRestart := some false
    task := some a.task, selector := true, bounds := some a.bounds
    maxJobs := match a.maxJobs with
      | .int n => if n ≠ 0 then n else a.cpus - 1
      | _ => a.cpus - 1
    checker := if a.checker = .instance_ then .given else .default
    generator := if a.generator = .instance_ then .given else .default
    hunter := if a.hunter = .instance_ then .given else .nothing
    allowForced := decide (0 < a.forceAfter), tooLong := a.forceAfter
    checkpointing := a.checkpointControl && a.dill
    fileLog := decide (2 < a.summaryFiles), trajectories := decide (1 < a.summaryFiles)
    procBackend := proc, daemonic := decide (a.backend ≠ "processes_forced")
    endTimeout := match a.endTimeout with
      | some t => if t ≠ 0 then some t else if proc then some 10 else none
      | none => if proc then some 10 else none
    checkpoints := m.checkpoints, starts := m.starts, ends := m.ends, tUsed := m.tUsed, slots := m.slots, packs := m.packs }

/-- What only a run or a checkpoint changes. -/
def rest (m : Mgr) := (m.isRestart, m.checkpoints, m.starts, m.ends, m.tUsed, m.slots, m.packs)

theorem tail_steps (a : Args) (m : Mgr) :
    (setBehaviour a |>.andThen (setBackend a) |>.andThen (setTimeout a) |>.andThen markNew) m =
      ({ m with
         isRestart := some false
         allowForced := decide (0 < a.forceAfter), tooLong := a.forceAfter
         checkpointing := a.checkpointControl && a.dill
         fileLog := decide (2 < a.summaryFiles), trajectories := decide (1 < a.summaryFiles)
         procBackend := decide (a.backend ≠ "threads"), daemonic := decide (a.backend ≠ "processes_forced")
         endTimeout := match a.endTimeout with
          | some t => if t ≠ 0 then some t else if decide (a.backend ≠ "threads") then some 10 else none
          | none => if decide (a.backend ≠ "threads") then some 10 else none }, none) := by
  by_cases hp : a.backend = "processes" <;> by_cases ht : a.backend = "threads" <;>
      by_cases hf : a.backend = "processes_forced" <;>
      cases hto : a.endTimeout with
      | none => simp_all [Step.andThen, setBehaviour, setBackend, setTimeout, markNew]
      | some t => by_cases h0 : t = 0 <;> simp_all [Step.andThen, setBehaviour, setBackend, setTimeout, markNew]

theorem andThen_assoc (s t u : Step) : (s.andThen t).andThen u = s.andThen (t.andThen u) := by
  funext m
  unfold Step.andThen
  rcases s m with ⟨m', e⟩
  cases e <;> rfl

/-- Number of jobs accepted. -/
def JobsPass (j : Jobs) : Prop := j.truthy = false ∨ ∃ n : Int, 0 < n ∧ j = .int n

theorem setJobs_pass {a : Args} {m : Mgr} (h : JobsPass a.maxJobs) :
    setJobs a m = ({ m with maxJobs := match a.maxJobs with
        | .int n => if n ≠ 0 then n else a.cpus - 1
        | _ => a.cpus - 1 }, none) := by
  unfold setJobs
  rcases h with h | ⟨n, hn, h⟩
  · rw [h]
    cases hj : a.maxJobs with
    | int n =>
      rw [hj] at h
      have : n = 0 := by simpa [Jobs.truthy] using h
      simp [this]
    | none => rfl
    | float f => rfl
    | other b => rfl
  · have : n ≠ 0 := by omega
    simp [h, Jobs.truthy, this, hn]

theorem setJobs_fail {a : Args} {m : Mgr} (h : ¬ JobsPass a.maxJobs) :
    ∃ e, setJobs a m = (m, some e) ∧ (e = .typeError ∨ e = .valueError) := by
  unfold setJobs
  have ht : a.maxJobs.truthy = true := by
    cases hb : a.maxJobs.truthy with
    | true => rfl
    | false => exact absurd (.inl hb) h
  rw [if_pos ht]
  cases hj : a.maxJobs with
  | int n =>
    have hn : ¬ 0 < n := fun hn => h (.inr ⟨n, hn, hj⟩)
    exact ⟨_, by simp [hn], .inr rfl⟩
  | none => exact ⟨_, rfl, .inl rfl⟩
  | float f => exact ⟨_, rfl, .inl rfl⟩
  | other b => exact ⟨_, rfl, .inl rfl⟩

/-- What is let through. -/
structure Passes (a : Args) : Prop where
  task : a.task.callable = true
  selector : a.selector = true
  bounds : GoodBounds a.bounds
  jobs : JobsPass a.maxJobs
  checker : GoodPlug a.checker
  generator : GoodPlug a.generator
  hunter : GoodPlug a.hunter

theorem setup_pass {a : Args} {m : Mgr} (hm : m.isInitialised = false) (h : Passes a) :
    setup a m = initialCheckpoint a (configured a m) := by
  have hb := (C46_bounds_valid a.bounds true).1 h.bounds
  have hc := (goodPlug_iff _).1 h.checker
  have hg := (goodPlug_iff _).1 h.generator
  have hh := (goodPlug_iff _).1 h.hunter
  unfold setup
  rw [hm]
  have e1 : ∀ m, setTask a m = ({ m with task := some a.task }, none) := fun m => by simp [setTask, h.task]
  have e2 : ∀ m, setSelector a m = ({ m with selector := true }, none) := fun m => by simp [setSelector, h.selector]
  have e3 : ∀ m, setBounds a m = ({ m with bounds := some a.bounds }, none) := fun m => by simp [setBounds, hb]
  have e5 : ∀ m, setChecker a m = ({ m with checker := if a.checker = .instance_ then .given else .default }, none) := fun m => by
    unfold setChecker
    cases hx : a.checker with
    | instance_ => simp
    | other b => cases b with
      | true => exact absurd hx hc
      | false => simp
  have e6 : ∀ m, setGenerator a m = ({ m with generator := if a.generator = .instance_ then .given else .default }, none) :=
    fun m => by
    unfold setGenerator
    cases hx : a.generator with
    | instance_ => simp
    | other b => cases b with
      | true => exact absurd hx hg
      | false => simp
  have e7 : ∀ m, setHunter a m = ({ m with hunter := if a.hunter = .instance_ then .given else .nothing }, none) := fun m => by
    unfold setHunter
    cases hx : a.hunter with
    | instance_ => simp
    | other b => cases b with
      | true => exact absurd hx hh
      | false => simp
  have et := tail_steps a
  have : (setTask a |>.andThen (setSelector a) |>.andThen (setBounds a) |>.andThen (setJobs a) |>.andThen (setChecker a)
      |>.andThen (setGenerator a) |>.andThen (setHunter a) |>.andThen (setBehaviour a) |>.andThen (setBackend a)
      |>.andThen (setTimeout a) |>.andThen markNew |>.andThen (initialCheckpoint a)) =
    ((setTask a).andThen ((setSelector a).andThen ((setBounds a).andThen ((setJobs a).andThen ((setChecker a).andThen
      ((setGenerator a).andThen ((setHunter a).andThen
      ((setBehaviour a |>.andThen (setBackend a) |>.andThen (setTimeout a) |>.andThen markNew).andThen
        (initialCheckpoint a))))))))) := by simp only [andThen_assoc]
  rw [this]
  generalize (setBehaviour a |>.andThen (setBackend a) |>.andThen (setTimeout a) |>.andThen markNew) = s at et
  simp only [Bool.false_eq_true, if_false, Step.andThen, e1, e2, e3, setJobs_pass h.jobs, e5, e6, e7, configured, et]

/-- Steps which raise leave `isRestart` alone. -/
theorem setup_fail {a : Args} {m : Mgr} (hm : m.isInitialised = false) (h : ¬ Passes a) :
    rest (setup a m).1 = rest m ∧ ((setup a m).2 = some .typeError ∨ (setup a m).2 = some .valueError) := by
  unfold setup
  rw [hm]
  simp only [Bool.false_eq_true, if_false, Step.andThen]
  by_cases h1 : a.task.callable = true
  swap
  · simp only [setTask, h1]; exact ⟨rfl, .inl rfl⟩
  by_cases h2 : a.selector = true
  swap
  · simp only [setTask, setSelector, h1, h2]; exact ⟨rfl, .inl rfl⟩
  by_cases h3 : GoodBounds a.bounds
  swap
  · have hb := (C46_bounds_valid a.bounds true).2 h3
    simp only [setTask, setSelector, setBounds, h1, h2, hb, if_true]; exact ⟨rfl, by simp⟩
  have hb := (C46_bounds_valid a.bounds true).1 h3
  simp only [setTask, setSelector, setBounds, h1, h2, hb, if_true]
  by_cases h4 : JobsPass a.maxJobs
  swap
  · obtain ⟨e, he, hee⟩ := setJobs_fail (m := { m with task := some a.task, selector := true, bounds := some a.bounds }) h4
    rw [he]
    exact ⟨rfl, by rcases hee with rfl | rfl <;> simp⟩
  rw [setJobs_pass h4]
  dsimp only
  by_cases h5 : GoodPlug a.checker
  swap
  · have : a.checker = .other true := by
      by_contra hc; exact h5 ((goodPlug_iff _).2 hc)
    simp only [setChecker, this]; exact ⟨rfl, by simp⟩
  by_cases h6 : GoodPlug a.generator
  swap
  · have : a.generator = .other true := by
      by_contra hc; exact h6 ((goodPlug_iff _).2 hc)
    rcases h5 with h5 | h5 <;> simp only [setChecker, setGenerator, h5, this] <;> exact ⟨rfl, by simp⟩
  by_cases h7 : GoodPlug a.hunter
  swap
  · have : a.hunter = .other true := by
      by_contra hc; exact h7 ((goodPlug_iff _).2 hc)
    rcases h5 with h5 | h5 <;> rcases h6 with h6 | h6 <;> simp only [setChecker, setGenerator, setHunter, h5, h6, this] <;>
      exact ⟨rfl, by simp⟩
  exact absurd ⟨h1, h2, h3, h4, h5, h6, h7⟩ h

theorem configured_isInitialised (a : Args) (m : Mgr) : (configured a m).isInitialised = true := rfl

theorem setup_fail_uninit {a : Args} {m : Mgr} (hm : m.isInitialised = false) (h : ¬ Passes a) :
    (setup a m).1.isInitialised = false := by
  have := congrArg Prod.fst (setup_fail hm h).1
  simp only [rest] at this
  rw [Mgr.isInitialised, this]; exact hm

theorem initialCheckpoint_isInitialised (a : Args) (m : Mgr) : (initialCheckpoint a m).1.isInitialised = m.isInitialised := by
  unfold initialCheckpoint; split <;> rfl

theorem passes_iff {a : Args} (hj : a.maxJobs.truthy = true ∨ a.maxJobs = .none) : Passes a ↔ Acceptable a := by
  have : JobsPass a.maxJobs ↔ GoodJobs a.maxJobs := by
    unfold JobsPass GoodJobs
    constructor
    · rintro (h | h)
      · rcases hj with hj | hj
        · rw [h] at hj; exact absurd hj (by decide)
        · exact .inl hj
      · exact .inr h
    · rintro (h | h)
      · left; rw [h]; rfl
      · exact .inr h
  exact ⟨fun h => ⟨h.1, h.2, h.3, this.1 h.4, h.5, h.6, h.7⟩, fun h => ⟨h.1, h.2, h.3, this.2 h.4, h.5, h.6, h.7⟩⟩

/-- **C32 (validation).** For every combination of arguments, on a manager which is not initialised: `setup` makes it initialised
exactly if the arguments are acceptable; otherwise it raises `TypeError` or `ValueError` and the manager stays uninitialised. What is
missing is `C32_zero_jobs_refuted`: a `max_jobs` which is falsy but not `None` is excluded by the hypothesis. -/
theorem C32_validation_partial (a : Args) (m : Mgr) (hm : m.isInitialised = false)
    (hj : a.maxJobs.truthy = true ∨ a.maxJobs = .none) :
    ((setup a m).1.isInitialised = true ↔ Acceptable a) ∧
    (¬ Acceptable a → (setup a m).2 = some .typeError ∨ (setup a m).2 = some .valueError) ∧
    (Acceptable a → (setup a m).2 = if a.checkpointControl && a.dill && a.checkpointAtInit then a.initialCheckpoint else none) := by
  rw [← passes_iff hj]
  refine ⟨⟨fun h => ?_, fun h => ?_⟩, fun h => (setup_fail hm h).2, fun h => ?_⟩
  · by_contra hp
    rw [setup_fail_uninit hm hp] at h
    exact absurd h (by decide)
  · rw [setup_pass hm h, initialCheckpoint_isInitialised, configured_isInitialised]
  · rw [setup_pass hm h]
    have : (configured a m).checkpointing = (a.checkpointControl && a.dill) := rfl
    unfold initialCheckpoint
    rw [this]
    split <;> rfl

/-- Arguments for the examples. -/
def sampleArgs : Args where
  task := ⟨"f", true, true⟩
  selector := true
  bounds := [(.fin 0, .fin 1), (.fin (-1), .fin 1)]
  maxJobs := .int 4
  checker := .other false
  generator := .instance_
  hunter := .other false
  forceAfter := 5
  summaryFiles := 3
  checkpointControl := true
  checkpointAtInit := true
  backend := "threads"
  endTimeout := none
  cpus := 8
  dill := true
  initialCheckpoint := none

theorem sampleArgs_acceptable : Acceptable sampleArgs where
  task := rfl
  selector := rfl
  bounds := by
    intro b hb
    simp only [sampleArgs, List.mem_cons, List.not_mem_nil, or_false] at hb
    rcases hb with rfl | rfl
    · exact ⟨0, 1, rfl, by norm_num⟩
    · exact ⟨-1, 1, rfl, by norm_num⟩
  jobs := .inr ⟨4, by decide, rfl⟩
  checker := .inr rfl
  generator := .inl rfl
  hunter := .inr rfl

example : (setup sampleArgs default).1.isInitialised = true ∧ (setup sampleArgs default).2 = none := by
  have h := C32_validation_partial sampleArgs default rfl (.inl rfl)
  exact ⟨h.1.2 sampleArgs_acceptable, by rw [h.2.2 sampleArgs_acceptable]; rfl⟩
example : ¬ Acceptable { sampleArgs with maxJobs := .int (-2) } := fun h => by
  rcases h.jobs with h | ⟨n, hn, h⟩
  · exact absurd h (by simp)
  · simp only [Jobs.int.injEq] at h; omega

/-- **C32 (kinds of exceptions).** The exception of a refused `setup` tells the first fault: `ValueError` for bounds or a number of jobs out of
range, `TypeError` for anything of the wrong type. -/
theorem C32_kinds (a : Args) (m : Mgr) (e : Err) (hm : m.isInitialised = false) (hj : a.maxJobs.truthy = true ∨ a.maxJobs = .none)
    (h : FirstFault a e) : (setup a m).2 = some e := by
  unfold setup
  rw [hm]
  simp only [Bool.false_eq_true, if_false, Step.andThen]
  cases h with
  | task h1 => simp only [setTask, h1]; rfl
  | selector h1 h2 => simp only [setTask, setSelector, h1, h2]; rfl
  | bounds h1 h2 h3 =>
    have hb := (C46_bounds_valid a.bounds true).2 h3
    simp only [setTask, setSelector, setBounds, h1, h2, hb, if_true]
  | jobsRange n h1 h2 h3 h4 h5 =>
    have hb := (C46_bounds_valid a.bounds true).1 h3
    have h0 : n ≠ 0 := by omega
    have h6 : ¬ 0 < n := by omega
    simp [setTask, setSelector, setBounds, h1, h2, hb, setJobs, h4, Jobs.truthy, h0, h6]
  | jobsType h1 h2 h3 h4 h5 =>
    have hb := (C46_bounds_valid a.bounds true).1 h3
    have ht := hj.resolve_right h4
    simp only [setTask, setSelector, setBounds, h1, h2, hb, if_true, setJobs, ht]
  | plug h1 h2 h3 h4 h5 =>
    have hb := (C46_bounds_valid a.bounds true).1 h3
    have hp : JobsPass a.maxJobs := by
      rcases h4 with h | h
      · exact .inl (by rw [h]; rfl)
      · exact .inr h
    simp only [setTask, setSelector, setBounds, h1, h2, hb, if_true]
    rw [setJobs_pass hp]
    dsimp only
    by_cases h5' : GoodPlug a.checker
    swap
    · have : a.checker = .other true := by
        by_contra hc; exact h5' ((goodPlug_iff _).2 hc)
      simp only [setChecker, this]
    by_cases h6 : GoodPlug a.generator
    swap
    · have : a.generator = .other true := by
        by_contra hc; exact h6 ((goodPlug_iff _).2 hc)
      rcases h5' with h5' | h5' <;> simp only [setChecker, setGenerator, h5', this]
    have : a.hunter = .other true := by
      by_contra hc; exact h5 ⟨h5', h6, (goodPlug_iff _).2 hc⟩
    rcases h5' with h5' | h5' <;> rcases h6 with h6 | h6 <;> simp only [setChecker, setGenerator, setHunter, h5', h6, this]

/-- Every refusal has a first fault, so the above covers all of them. -/
theorem C32_kinds_all (a : Args) (h : ¬ Acceptable a) (hj : a.maxJobs.truthy = true ∨ a.maxJobs = .none) : ∃ e, FirstFault a e := by
  by_cases h1 : a.task.callable = true
  swap
  · exact ⟨_, .task (by simpa using h1)⟩
  by_cases h2 : a.selector = true
  swap
  · exact ⟨_, .selector h1 (by simpa using h2)⟩
  by_cases h3 : GoodBounds a.bounds
  swap
  · exact ⟨_, .bounds h1 h2 h3⟩
  by_cases h4 : GoodJobs a.maxJobs
  · exact ⟨_, .plug h1 h2 h3 h4 fun hp => h ⟨h1, h2, h3, h4, hp.1, hp.2.1, hp.2.2⟩⟩
  by_cases h5 : ∃ n, a.maxJobs = .int n
  · obtain ⟨n, hn⟩ := h5
    have h0 : n ≠ 0 := by
      rcases hj with hj | hj
      · rw [hn] at hj; simpa [Jobs.truthy] using hj
      · rw [hn] at hj; cases hj
    have : ¬ 0 < n := fun hp => h4 (.inr ⟨n, hp, hn⟩)
    exact ⟨_, .jobsRange n h1 h2 h3 hn (by omega)⟩
  · exact ⟨_, .jobsType h1 h2 h3 (fun hn => h4 (.inl hn)) fun n hn => h5 ⟨n, hn⟩⟩

example : (setup { sampleArgs with maxJobs := .int (-2) } default).2 = some .valueError ∧
    (setup { sampleArgs with hunter := .other true } default).2 = some .typeError :=
  ⟨C32_kinds _ _ _ rfl (.inl rfl) (.jobsRange (-2) rfl rfl sampleArgs_acceptable.bounds rfl (by decide)),
   C32_kinds _ _ _ rfl (.inl rfl) (.plug rfl rfl sampleArgs_acceptable.bounds sampleArgs_acceptable.jobs fun h => by
    rcases h.2.2 with h | h <;> cases h)⟩

/-- **C32 (configuration).** An accepted `setup` configures the manager as documented: task, bounds, jobs, plug-ins or their
defaults, forced terminations, checkpointing, logging, backend, timeout. -/
theorem C32_configuration (a : Args) (m : Mgr) (hm : m.isInitialised = false) (h : Acceptable a) :
    Configured a (setup a m).1 ∧ (setup a m).1.isRestart = some false := by
  have hj : a.maxJobs.truthy = true ∨ a.maxJobs = .none := by
    rcases h.jobs with h | ⟨n, hn, h⟩
    · exact .inr h
    · left; rw [h]; simp [Jobs.truthy]; omega
  rw [setup_pass hm ((passes_iff hj).2 h)]
  have key : Configured a (configured a m) ∧ (configured a m).isRestart = some false := by
    refine ⟨?_, rfl⟩
    constructor <;> intros <;> simp_all [configured] <;> omega
  have cong : ∀ m' : Mgr, Configured a m' → Configured a { m' with checkpoints := m'.checkpoints + 1 } :=
    fun m' h => ⟨h.1, h.2, h.3, h.4, h.5, h.6, h.7, h.8, h.9, h.10, h.11, h.12, h.13, h.14, h.15, h.16⟩
  unfold initialCheckpoint
  split
  · exact ⟨cong _ key.1, key.2⟩
  · exact key

example : (setup sampleArgs default).1.maxJobs = 4 ∧ (setup sampleArgs default).1.endTimeout = none ∧
    (setup sampleArgs default).1.fileLog = true :=
  let c := (C32_configuration sampleArgs default rfl sampleArgs_acceptable).1
  ⟨c.jobsGiven 4 rfl (by decide), c.timeoutAbsent rfl, c.fileLog.2 (by decide)⟩

/-- **C32 (no trace).** A refused `setup` leaves nothing behind: a later accepted one gives exactly the manager it would have given
without it. -/
theorem C32_no_trace (a b : Args) (m : Mgr) (hm : m.isInitialised = false) (ha : ¬ Acceptable a)
    (hj : a.maxJobs.truthy = true ∨ a.maxJobs = .none) (hb : Acceptable b) :
    setup b (setup a m).1 = setup b m := by
  have hj' : b.maxJobs.truthy = true ∨ b.maxJobs = .none := by
    rcases hb.jobs with h | ⟨n, hn, h⟩
    · exact .inr h
    · left; rw [h]; simp [Jobs.truthy]; omega
  have hp : ¬ Passes a := fun h => ha ((passes_iff hj).1 h)
  have hm' := setup_fail_uninit hm hp
  have hpb := (passes_iff hj').2 hb
  rw [setup_pass hm' hpb, setup_pass hm hpb]
  have hr := (setup_fail hm hp).1
  simp only [rest, Prod.mk.injEq] at hr
  obtain ⟨-, h1, h2, h3, h4, h5, h6⟩ := hr
  unfold configured
  rw [h1, h2, h3, h4, h5, h6]

example : setup sampleArgs (setup { sampleArgs with hunter := .other true } default).1 = setup sampleArgs default :=
  C32_no_trace _ _ _ rfl (fun h => by rcases h.hunter with h | h <;> exact absurd h (by simp)) (.inl rfl) sampleArgs_acceptable

/-- **C32 (refuted part).** `max_jobs=0` is not a positive integer, but it is accepted and replaced by the default. -/
theorem C32_zero_jobs_refuted : ∃ (a : Args) (m : Mgr), m.isInitialised = false ∧ ¬ GoodJobs a.maxJobs ∧
    (setup a m).1.isInitialised = true ∧ (setup a m).2 = none ∧ (setup a m).1.maxJobs = 7 := by
  refine ⟨{ sampleArgs with maxJobs := .int 0 }, default, rfl, ?_, ?_⟩
  · rintro (h | ⟨n, hn, h⟩)
    · exact absurd h (by simp)
    · simp only [Jobs.int.injEq] at h; omega
  · have hs := sampleArgs_acceptable
    rw [setup_pass (a := { sampleArgs with maxJobs := .int 0 }) rfl ⟨hs.1, hs.2, hs.3, .inl rfl, hs.5, hs.6, hs.7⟩]
    exact ⟨rfl, rfl, rfl⟩

/-- **C32 (jobs).** After an accepted `setup` the manager may run at least one job, provided the machine has two processors or
`max_jobs` is given. -/
theorem C32_some_job (a : Args) (m : Mgr) (hm : m.isInitialised = false) (h : Acceptable a)
    (hc : a.maxJobs ≠ .none ∨ 2 ≤ a.cpus) : 1 ≤ (setup a m).1.maxJobs := by
  have hcfg := (C32_configuration a m hm h).1
  rcases h.jobs with hj | ⟨n, hn, hj⟩
  · rcases hc with hc | hc
    · exact absurd hj hc
    · rw [hcfg.jobsAbsent hj]; omega
  · rw [hcfg.jobsGiven n hj (by omega)]; omega

example : 1 ≤ (setup sampleArgs default).1.maxJobs := C32_some_job _ _ rfl sampleArgs_acceptable (.inr (by decide))

/-- **C32 (refuted part).** On a machine with one processor the default for `max_jobs` is 0. -/
theorem C32_single_processor_refuted : ∃ (a : Args) (m : Mgr), m.isInitialised = false ∧ Acceptable a ∧
    (setup a m).2 = none ∧ (setup a m).1.maxJobs = 0 := by
  have hs := sampleArgs_acceptable
  have h : Acceptable { sampleArgs with maxJobs := .none, cpus := 1 } := ⟨hs.1, hs.2, hs.3, .inl rfl, hs.5, hs.6, hs.7⟩
  refine ⟨_, default, rfl, h, ?_, (C32_configuration _ _ rfl h).1.jobsAbsent rfl⟩
  rw [(C32_validation_partial _ _ rfl (.inr rfl)).2.2 h]; rfl

end Glompo.Props
