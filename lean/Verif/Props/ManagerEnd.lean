import Verif.Lemmas.ManagerEnd2
import Verif.Props.Plot
import Verif.Props.Hunters
import Verif.Props.ManagerFile
import Verif.Props.ManagerCkpt

/-!
# The log tells how every optimizer ended (C119)

Checked: whatever the log says about the end of an optimizer is true (`TrueEnding`, `Spec/Ends`), and when a run is over by itself an end
is recorded for every optimizer started. Neither holds without reservation: see `C119_resumed_refuted` and `C119_killed_refuted`.
-/

namespace Glompo.Props

open Glompo Glompo.Manager Glompo.Spec Glompo.Props.Runs

variable {cfg : Cfg} {s : State}

theorem md_of_ok {l : Logger} {i : Nat} {key v : String} (h : l.getMetadata i key = .ok v) : ∃ m, md l i = some m ∧ dictGet m key = some v := by
  simp only [Logger.getMetadata] at h
  split at h
  · cases h
  · rename_i st hst
    split at h
    · cases h
    · rename_i v' hv
      cases h
      exact ⟨st.metadata, by simp [md, hst], hv⟩

/-- **C119 (true).** At any moment of any run, also one continued from a checkpoint: the end recorded in the log for an optimizer is what happened
to it, in this run or in those before the checkpoints it was continued from; or the run itself crashed, or was interrupted by the user, and
the log says so. -/
theorem C119_reason (hs : Startable cfg s) (fuel : Nat) (e : Env) (i : Nat) (v : String)
    (h : (moment cfg s fuel e).log.getMetadata i "end_cond" = .ok v) :
    TrueEnding (happened cfg s fuel e) i v ∨
    (v = "GloMPO Crash" ∧ (ended cfg s fuel e = none ∨ ∃ x, ended cfg s fuel e = some (.crash x))) ∨
    (v = "User Interrupt" ∧ (ended cfg s fuel e = none ∨ ended cfg s fuel e = some .userInterrupt)) := by
  have f := fair_start cfg fuel s e (b := False) (fun h => h.elim) (kept_startable hs) allEnds_false
  obtain ⟨m, hm, hv⟩ := md_of_ok h
  exact f.why i v (metaWrites_mem ((f.faith i m hm).2 v hv))

/-- **C119 (regular).** When a run is over by itself the log accounts for the optimizers truly, without exception. -/
theorem C119_regular (hs : Startable cfg s) (fuel : Nat) (e : Env) (i : Nat) (v : String) (hr : ended cfg s fuel e = some .regular)
    (h : (moment cfg s fuel e).log.getMetadata i "end_cond" = .ok v) : TrueEnding (happened cfg s fuel e) i v := by
  rcases C119_reason hs fuel e i v h with h | ⟨-, h⟩ | ⟨-, h⟩
  · exact h
  · rw [hr] at h; simp at h
  · rw [hr] at h; simp at h

/-- **C119 (checkpoints).** The log kept in a checkpoint tells nothing untrue either; in particular it never says that the run crashed. -/
theorem C119_saved (hs : Startable cfg s) (fuel : Nat) (e : Env) (k : Saved) (hk : k ∈ (moment cfg s fuel e).saved) (i : Nat) (v : String)
    (h : k.log.getMetadata i "end_cond" = .ok v) : TrueEnding k.ev i v := by
  obtain ⟨h1, -, h3⟩ := (fair_start cfg fuel s e (b := False) (fun h => h.elim) (kept_startable hs) allEnds_false).saved k hk
  obtain ⟨m, hm, hv⟩ := md_of_ok h
  exact h1 i v (metaWrites_mem ((h3 i m hm).2 v hv))

/-- **C119 (complete), partial.** When the run of a manager set up afresh, which keeps trajectories, is over by itself, an end is recorded in the
log for every optimizer started, if no component raised a `ValueError`. Missing: runs continued from a checkpoint, for which it is false
(`C119_resumed_refuted`), and `ValueError`s while an optimizer is shut down on request of a STOP file, which are swallowed (manager.py:1572). -/
theorem C119_complete_partial (fuel : Nat) (e : Env) (ht : cfg.traj = true) (hc : ∀ o ∈ e, o.ans ≠ .raise .valueError)
    (hr : ended cfg (init cfg) fuel e = some .regular) (i : Nat) (hi : i ∈ launchedOf (happened cfg (init cfg) fuel e)) :
    ∃ v, (moment cfg (init cfg) fuel e).log.getMetadata i "end_cond" = .ok v := by
  have f := fair_start cfg fuel (init cfg) e (b := True) (fun _ => hc) (kept_init cfg) (allEnds_init cfg)
  have inv := moment_inv (Startable.fresh cfg) fuel e
  obtain ⟨v, hv⟩ := f.all trivial hr i hi
  have hv : v ∈ metaWrites (moment cfg (init cfg) fuel e).ops i "end_cond" := hv
  rw [inv.log, fresh_first, ht, C60_metadata true _ i "end_cond" inv.wf (.inl rfl) (metaWrites_added hv)]
  cases hg : (metaWrites (moment cfg (init cfg) fuel e).ops i "end_cond").getLast? with
  | none => rw [List.getLast?_eq_none_iff] at hg; rw [hg] at hv; cases hv
  | some w => exact ⟨w, rfl⟩

/-- **C119 (plot).** The symbol at the end of a curve is true: a cross only for an optimizer shut down or terminated by force, a square only
for one whose process ended with an error, a star only for one which ended by itself. (Provided that no optimizer itself talks of "GloMPO Termination", "Error termination"
or a "Traceback" when it reports its end.) -/
theorem C119_marker (ev : List Ev) (i : Nat) (v : String) (h : TrueEnding ev i v)
    (hm : ∀ msg : String, Ev.said i msg ∈ ev → Plot.within "GloMPO Termination".toList msg.toList = false ∧
      Plot.within "Error termination".toList msg.toList = false ∧ Plot.within "Traceback".toList msg.toList = false) :
    (Plot.marker v.toList = .killed → (∃ hunter, Ev.killed i hunter ∈ ev) ∨ Ev.forced i ∈ ev) ∧
    (Plot.marker v.toList = .crashed → Ev.exited i false ∈ ev) ∧
    (Plot.marker v.toList = .converged → Ev.exited i true ∈ ev ∨ ∃ msg, Ev.said i msg ∈ ev) := by
  cases h with
  | killed hunter reason h =>
    have hk : Plot.marker (("GloMPO Termination\nHunter: " ++ hunterName hunter ++ "\nReason: \n" ++ reason).toList) = .killed := by
      have : Plot.within "GloMPO Termination".toList
          (("GloMPO Termination\nHunter: " ++ hunterName hunter ++ "\nReason: \n" ++ reason).toList) = true := by
        rw [String.toList_append, String.toList_append, String.toList_append]
        exact PlotL.within_append_left _ _ _ (PlotL.within_append_left _ _ _ (PlotL.within_append_left _ _ _ (by decide +kernel)))
      unfold Plot.marker
      rw [if_pos this]
    rw [hk]
    exact ⟨fun _ => .inl ⟨hunter, h⟩, by simp, by simp⟩
  | said msg h =>
    obtain ⟨h1, h2, h3⟩ := hm v h
    have : Plot.marker v.toList = .converged ∨ Plot.marker v.toList = .blank := by
      unfold Plot.marker
      rw [h1, h2, h3]
      generalize (Plot.within "Optimizer convergence".toList v.toList || Plot.within "Normal termination".toList v.toList) = c
      cases c
      · exact .inr rfl
      · exact .inl rfl
    refine ⟨fun hk => ?_, fun hk => ?_, fun _ => .inr ⟨v, h⟩⟩ <;> rw [hk] at this <;> simp at this
  | silent h =>
    have : Plot.marker "Normal termination (Reason unknown)".toList = .converged := by decide +kernel
    rw [this]; exact ⟨by simp, by simp, fun _ => .inl h⟩
  | failed h =>
    have : Plot.marker "Error termination".toList = .crashed := by decide +kernel
    rw [this]; exact ⟨by simp, fun _ => h, by simp⟩
  | forced h =>
    have : Plot.marker "Forced GloMPO Termination".toList = .killed := by decide +kernel
    rw [this]; exact ⟨fun _ => h.2.symm, by simp, by simp⟩
  | over h =>
    have : Plot.marker "GloMPO Convergence".toList = .blank := by decide +kernel
    rw [this]; exact ⟨by simp, by simp, by simp⟩

/-! ### Examples and counterexamples -/

/-- Two optimizers with hunts; trajectories are kept. -/
def cfgT : Cfg := { cfg2 with traj := true }

/-- Text recorded about the end of an optimizer. -/
def endOf (s : State) (i : Nat) : Option String := (s.log.getMetadata i "end_cond").toOption

/-- In a run in which optimizer 1 is shut down by a hunt all hypotheses are met, and both ends are recorded. -/
example : ended cfgT (init cfgT) 20 demo = some .regular ∧ launchedOf (happened cfgT (init cfgT) 20 demo) = [1, 2] ∧
    (∀ o ∈ demo, o.ans ≠ .raise .valueError) ∧ Startable cfgT (init cfgT) ∧
    endOf (moment cfgT (init cfgT) 20 demo) 1 = some "GloMPO Termination\nHunter: 2\nReason: \nhunt" ∧
    endOf (moment cfgT (init cfgT) 20 demo) 2 = some "GloMPO Convergence" := by
  refine ⟨by decide +kernel, by decide +kernel, by decide +kernel, .fresh _, by decide +kernel, by decide +kernel⟩

/-- Optimizer 1 is shut down by a hunt; while a checkpoint is taken it reports that it has ended. -/
def killedEnds : Env := start2 ++ [ch [r 1 5, r 2 3], u, u, b true, u, nothing, files, b true,
  u, u, u, u, b false, u, sg (some (.done "Optimizer convergence {}"))]

/-- **C119, refuted: a termination is forgotten.** An optimizer which was shut down by a hunt and says that it has ended while a checkpoint is taken
is recorded as having converged, and so drawn: the signal is read without asking whether the optimizer is buried already (manager.py:1833-1836,
unlike 1363). (CMA-ES reports `Optimizer convergence {}` when told to stop.) -/
theorem C119_killed_refuted : ∃ (cfg : Cfg) (e : Env) (v : String), Ev.killed 1 (some 2) ∈ happened cfg (init cfg) 20 e ∧
    endOf (moment cfg (init cfg) 20 e) 1 = some v ∧ Plot.marker v.toList = .converged :=
  ⟨cfgT, killedEnds, "Optimizer convergence {}", by decide +kernel, by decide +kernel, by decide +kernel⟩

/-- The manager loaded from the checkpoint taken in the run `parting`, while optimizer 2 ended. -/
def reborn : State := match (moment cfgT (init cfgT) 20 parting).saved with
  | k :: _ => resumeState cfgT k [(1, 1)] (moment cfgT (init cfgT) 20 parting).saved
  | [] => init cfgT

/-- It goes on and converges. -/
def goOn : Env := [b false, u, u, u, no, u, sg none, nothing, files, b false, u, u, b false, u, u, b true, u, u, u, u, u]

theorem saved_reborn (l : List Saved) (hf : l.map (·.files) = [[1]]) (hw : l.map (·.slotsOf) = [[(1, 1), (2, 1)]]) :
    ∃ k, l = [k] ∧ k.files = [1] ∧ k.slotsOf = [(1, 1), (2, 1)] := by
  match l with
  | [] => simp at hf
  | [k] => exact ⟨k, rfl, by simpa using hf, by simpa using hw⟩
  | _ :: _ :: _ => simp at hf

theorem reborn_startable : Startable cfgT reborn := by
  obtain ⟨k, hk, hf, hw⟩ := saved_reborn (moment cfgT (init cfgT) 20 parting).saved (by decide +kernel) (by decide +kernel)
  have hr : reborn = resumeState cfgT k [(1, 1)] [k] := by unfold reborn; rw [hk]
  unfold moment at hk
  rw [hr]
  refine .loaded cfgT cfgT (init cfgT) _ 20 parting k [(1, true)] (.fresh _) ?_ (by rw [hf]; exact List.Perm.refl _) ?_
  · rw [hk]; exact List.mem_singleton.mpr rfl
  · rw [hk]
    have h1 : Init.demand k.slotsOf [(1, true)] = .ok [(1, 1)] := by rw [hw]; rfl
    unfold loadCheckpoint
    rw [h1]
    rfl

/-- **C119, refuted: the end of an optimizer is never recorded.** The log kept in a checkpoint is that of the moment before the optimizers are asked to
pause, the rest of the manager is from later (manager.py:1130-1142). An optimizer which ends in between is buried but its end is not recorded: the
resumed run is over by itself, and the log does not tell how the optimizer ended. -/
theorem C119_resumed_refuted : ∃ (cfg : Cfg) (s : State) (e : Env), Startable cfg s ∧ cfg.traj = true ∧ (∀ o ∈ e, o.ans ≠ .raise .valueError) ∧
    ended cfg s 20 e = some .regular ∧ 2 ∈ launchedOf (happened cfg s 20 e) ∧ Ev.finished 2 ∈ happened cfg s 20 e ∧ endOf (moment cfg s 20 e) 2 = none :=
  ⟨cfgT, reborn, goOn, reborn_startable, rfl, by decide +kernel, by decide +kernel, by decide +kernel, by decide +kernel, by decide +kernel⟩

end Glompo.Props
