import Verif.Props.Manager

/-! # C37 in the runs of the manager: how the optimizers are treated in a checkpoint -/

namespace Glompo.Props

open Glompo.Spec Glompo.Manager Glompo.Props.Runs

variable {cfg : Cfg} {s : State}

/-- **C37 (checkpoints of runs).** Whatever the manager observes: when a checkpoint is written, every optimizer running was asked to pause and
then told exactly one of two things, to save or to go on. It was told to save if and only if the checkpoint lists its restart
file, and restart files are listed of all optimizers running but those killed or ended during the hand-shake, or which announced
their end in the results. Nobody is told either before all have been asked and the replies are in. -/
theorem C37_run_checkpoint (hs : Startable cfg s) (fuel : Nat) (e : Env) (k : Saved) (hk : k ∈ (moment cfg s fuel e).saved) :
    HandShake k.ev k.files :=
  ((startManager_spec fuel hs.spec.1 e).1.disk hs.spec.2 k hk).2

/-- **C37 (signals reach processes).** The manager asks only running optimizers to pause, lets only running optimizers go on, and tells an
optimizer to save only if it was running when it last looked. -/
theorem C37_run_signals (hs : Startable cfg s) (fuel : Nat) (e : Env) (pre post : List Ev) (x : Ev)
    (h : happened cfg s fuel e = pre ++ x :: post) (i : Nat) :
    (x = .pauseReq i → Running pre i) ∧ (x = .pass i → Running pre i) ∧ (x = .resume i → Running pre i) ∧
    (x = .save i → SeenRunning pre i) := by
  have := moment_good hs fuel e pre x post h
  refine ⟨?_, ?_, ?_, ?_⟩ <;> rintro rfl <;> exact this

/-- **C37 (none left waiting).** When a checkpoint is over and the manager goes on, whether it was written or given up, every optimizer still running
was told to go on after the checkpoint began; if the run has converged it was told to stop as well. -/
theorem C37_run_woken (hs : Startable cfg s) (fuel : Nat) (e : Env) (pre post : List Ev)
    (h : happened cfg s fuel e = pre ++ .ckptEnd :: post) (i : Nat) (hr : Running pre i) :
    Ev.resume i ∈ sinceCkpt pre ∧ (lastCheck pre = some true → Ev.stop i ∈ sinceCkpt pre) :=
  moment_good hs fuel e pre _ post h i hr

/-- Two optimizers; in the hand-shake of the first checkpoint optimizer 2 ends by itself, then pauses. -/
def parting : Env := start2 ++ [ch [r 1 5, r 2 3], u, u, b false, nothing, files, b true,
  u, u, u, u, b false, u, sg (some .paused), u, sg (some (.done "x")), b false, u, sg (some .paused), b true, b true, u, u, u,
  b true, b true, b true, b true, u, u]

/-- What happens then: only optimizer 1 is saved, both go on. -/
example : sinceCkpt (happened cfg2 (init cfg2) 20 parting) = [.pauseReq 1, .pauseReq 2, .said 2 "x", .finished 2, .save 1, .pass 2,
      .resume 1, .resume 2, .ckptEnd] ∧ (moment cfg2 (init cfg2) 20 parting).saved.map (·.files) = [[1]] ∧
    (happened cfg2 (init cfg2) 20 parting).getLast? = some .ckptEnd ∧ Startable cfg2 (init cfg2) := by
  refine ⟨by decide +kernel, by decide +kernel, by decide +kernel, .fresh cfg2⟩

end Glompo.Props
