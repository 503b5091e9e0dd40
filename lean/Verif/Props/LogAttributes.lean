import Verif.Model.LogAttributes
import Verif.Props.Summary
import Verif.Props.ManagerFile

/-! # C125: the attributes of the log file -/

namespace Glompo.Props

open Glompo.Spec Glompo.Manager Glompo.Props.Runs Glompo.Summary Glompo.LogAttributes Glompo.FileLogger

namespace LogAttributes

theorem get_put_ne {fits : String → AVal → Bool} {a : Attrs} {p : String × AVal} {k : String} (h : p.1 ≠ k) :
    dictGet (put fits a p) k = dictGet a k := by
  unfold put
  split
  · exact dictGet_set_ne _ _ (Ne.symm h)
  · rfl

theorem get_fold_ne {fits : String → AVal → Bool} {k : String} (l : Attrs) : ∀ {a : Attrs}, k ∉ l.map (·.1) →
    dictGet (l.foldl (put fits) a) k = dictGet a k := by
  induction l with
  | nil => intro a _; rfl
  | cons p t ih =>
    intro a h
    simp only [List.map_cons, List.mem_cons, not_or] at h
    rw [List.foldl_cons, ih h.2, get_put_ne (Ne.symm h.1)]

theorem get_fold {fits : String → AVal → Bool} {k : String} {v : AVal} (l : Attrs) : ∀ {a : Attrs}, (l.map (·.1)).Nodup → (k, v) ∈ l →
    dictGet (l.foldl (put fits) a) k = if fits k v then some v else dictGet a k := by
  induction l with
  | nil => intro a _ h; cases h
  | cons p t ih =>
    intro a hn h
    simp only [List.map_cons, List.nodup_cons] at hn
    rw [List.foldl_cons]
    rcases List.mem_cons.mp h with rfl | h
    · rw [get_fold_ne t hn.1]
      unfold put
      split <;> simp
    · rw [ih hn.2 h, get_put_ne]
      rintro rfl
      exact hn.1 (List.mem_map_of_mem (f := (·.1)) h)

theorem flush1_counts (s : FileLogger) (o : Nat) : (s.flush1 o).1.oCounter = s.oCounter ∧ (s.flush1 o).1.groups = s.groups := by
  unfold flush1
  repeat' split
  all_goals exact ⟨rfl, rfl⟩

theorem flushList_counts (os : List Nat) : ∀ s : FileLogger, (s.flushList os).1.oCounter = s.oCounter ∧
    (s.flushList os).1.groups = s.groups := by
  induction os with
  | nil => intro s; exact ⟨rfl, rfl⟩
  | cons o os ih =>
    intro s
    have h := flush1_counts s o
    simp only [flushList]
    split
    · rename_i s' hs; rw [hs] at h; exact ⟨(ih s').1.trans h.1, (ih s').2.trans h.2⟩
    · rename_i s' e hs; rw [hs] at h; exact h

theorem flush_counts (s : FileLogger) (i : Option Nat) : (s.flush i).1.oCounter = s.oCounter ∧ (s.flush i).1.groups = s.groups := by
  match i with
  | none => exact flushList_counts _ s
  | some 0 => exact flushList_counts _ s
  | some (n + 1) => exact flushList_counts _ s

theorem clear1_counts (s : FileLogger) (o : Nat) : (s.clear1 o).1.oCounter = s.oCounter ∧ (s.clear1 o).1.groups = s.groups := by
  have h := flush1_counts s o
  unfold clear1
  simp only
  by_cases hc : (dictGet s.chunk o).isSome
  · simp only [hc, if_true]
    match hf : s.flush1 o with
    | (s', none) =>
      rw [hf] at h
      simp only
      split <;> exact h
    | (s', some e) => rw [hf] at h; exact h
  · simp only [hc]
    simp only [Bool.false_eq_true, if_false]
    split <;> exact ⟨rfl, rfl⟩

theorem clearList_counts (os : List Nat) : ∀ s : FileLogger, (s.clearList os).1.oCounter = s.oCounter ∧
    (s.clearList os).1.groups = s.groups := by
  induction os with
  | nil => intro s; exact ⟨rfl, rfl⟩
  | cons o os ih =>
    intro s
    have h := clear1_counts s o
    simp only [clearList]
    split
    · rename_i s' hs; rw [hs] at h; exact ⟨(ih s').1.trans h.1, (ih s').2.trans h.2⟩
    · rename_i s' e hs; rw [hs] at h; exact h

/-- The log counts the groups it has made. -/
theorem step_counts (s : FileLogger) (op : FOp) (h : s.oCounter = s.groups.length) : (s.step op).1.oCounter = (s.step op).1.groups.length := by
  cases op with
  | add i t =>
    simp only [step, addOptimizer]
    split
    · exact h
    · simp [h]
  | addHist i hs =>
    simp only [step, addIterHistory]
    repeat' split
    all_goals exact h
  | put r n =>
    simp only [step, FileLogger.putIteration]
    repeat' split
    all_goals first
      | exact h
      | (rw [(flush_counts _ _).1, (flush_counts _ _).2]; exact h)
  | flush i => simp only [step]; rw [(flush_counts _ _).1, (flush_counts _ _).2]; exact h
  | clear i =>
    have : ∀ os, (s.clearList os).1.oCounter = (s.clearList os).1.groups.length := fun os => by
      rw [(clearList_counts os s).1, (clearList_counts os s).2]; exact h
    match i with
    | none => exact this _
    | some 0 => exact this _
    | some (n + 1) => exact this _
  | read i k =>
    have hf := flush_counts s (some i)
    simp only [step, FileLogger.getHistory]
    split
    · exact h
    · split
      · match he : s.flush (some i) with
        | (s', some e) => rw [he] at hf; simp only; rw [hf.1, hf.2]; exact h
        | (s', none) =>
          rw [he] at hf
          simp only
          repeat' split
          all_goals (rw [hf.1, hf.2]; exact h)
      · exact h

theorem run_counts (traj : Bool) (ops : List FOp) : ((FileLogger.init traj).run ops).oCounter = ((FileLogger.init traj).run ops).groups.length := by
  have : ∀ (ops : List FOp) (s : FileLogger), s.oCounter = s.groups.length → (s.run ops).oCounter = (s.run ops).groups.length := by
    intro ops
    induction ops with
    | nil => intro s h; exact h
    | cons o t ih => intro s h; exact ih _ (step_counts s o h)
  exact this ops _ rfl

/-- If the end of a run returns. -/
theorem endRun_ok {fits : String → AVal → Bool} {now : Rat} {plot : Option Err} {old f : File} {m : Facts} {c : Counters} {r : Solution}
    {reason : List Char} {caught : Option (List Char)} {h h' : H5} {res : Solution × List Char}
    (hr : endRun fits now plot old m c r reason caught h = (f, h', .ok res)) :
    (saveSummary old (stamp now m) c r reason caught) = (f, none) ∧
    plot = none ∧ res = (r, reason) ∧ h'.closed = true ∧
    (h.log.flush none).2 = none ∧ (h.log.flush none).1.close = (h'.log, none) ∧
    h'.attrs = (closeEntries (h.log.flush none).1).foldl (put fits)
      ((runEntries (stamp now m) c (reasonText reason caught)).foldl (put fits) h.attrs) := by
  unfold endRun at hr
  simp only at hr
  split at hr
  · simp at hr
  · rename_i f' hs
    split at hr
    · simp at hr
    · split at hr
      · simp at hr
      · rename_i l1 h1
        split at hr
        · simp at hr
        · rename_i l2 h2
          simp only [Prod.mk.injEq, Except.ok.injEq] at hr
          obtain ⟨rfl, rfl, rfl⟩ := hr
          rw [hs, h1]
          exact ⟨rfl, rfl, rfl, rfl, rfl, h2, rfl⟩

end LogAttributes

open LogAttributes

section
variable {fits : String → AVal → Bool} {now : Rat} {plot : Option Err} {old f : File} {m : Facts} {c : Counters} {r : Solution}
  {reason : List Char} {caught : Option (List Char)} {h h' : H5} {res : Solution × List Char}

/-- **C125, what is written.** If a session with a log file returns a result, the log was closed, and each attribute which HDF5 can store
has the value of the session's end: the counters of the manager, the reason, and the counters and records of the log, whatever was
there before. An attribute which it cannot store keeps the value of an earlier session, if any. All others are as before. -/
theorem C125_attributes (hr : endRun fits now plot old m c r reason caught h = (f, h', .ok res)) :
    h'.closed = true ∧
    (∀ k v, (k, v) ∈ [("n_evals", AVal.num c.evals), ("n_hunts", .num c.hunts), ("n_opts_started", .num c.started),
        ("n_opts_killed", .num c.killed), ("n_opts_conv", .num c.converged),
        ("exit_reason", .text (match caught with | none => reason | some e => "Process Crash: ".toList ++ e)),
        ("task", .text m.task.typeName), ("working_dir", .text m.cwd), ("username", .text m.user), ("hostname", .text m.host),
        ("glompo_version", .text m.version), ("bounds", .bounds m.bounds), ("total_time", .text (m.duration ((m.clock.starts.zip m.clock.ends).map fun p => p.2 - p.1).sum)),
        ("f_counter", .num h.log.base.len), ("opts_started", .num h.log.oCounter), ("best_iter", .best h.log.base.best),
        ("best_iters", .bests h.log.base.bestIters), ("max_eval", .float h.log.base.maxEval)] →
      dictGet h'.attrs k = if fits k v then some v else dictGet h.attrs k) ∧
    dictGet h'.attrs "checksum" = dictGet h.attrs "checksum" := by
  obtain ⟨-, -, -, h1, -, -, h2⟩ := endRun_ok hr
  have hb := flush_base h.log none
  have hc := (flush_counts h.log none).1
  have hn1 : ((closeEntries (h.log.flush none).1).map (·.1)).Nodup := by simp [closeEntries]
  have hn2 : ((runEntries (stamp now m) c (reasonText reason caught)).map
    (·.1)).Nodup := by simp [runEntries]
  have hm : ∀ k, k ∈ (runEntries (stamp now m) c (reasonText reason caught)).map
      (·.1) → k ∉ (closeEntries (h.log.flush none).1).map (·.1) := by simp [runEntries, closeEntries]
  have hm' : ∀ k, k ∈ (closeEntries (h.log.flush none).1).map (·.1) → k ∉ (runEntries (stamp now m) c (reasonText reason caught)).map (·.1) :=
    fun k hk hk' => hm k hk' hk
  refine ⟨h1, fun k v hk => ?_, ?_⟩
  · rw [h2]
    have hk' : (k, v) ∈ runEntries (stamp now m) c (reasonText reason caught) ∨
        (k, v) ∈ closeEntries (h.log.flush none).1 := by
      have hre : reasonText reason caught = (match caught with | none => reason | some e => "Process Crash: ".toList ++ e) := by
        cases caught <;> rfl
      rw [← hre] at hk
      generalize reasonText reason caught = t at hk
      clear hre hr h2 hn2 hm hm' hn1
      rw [← List.mem_append]
      simp only [closeEntries, hb, hc, runEntries, stamp, List.cons_append, List.nil_append]
      simp only [Logger.len] at hk
      generalize hw : (k, v) = w at hk ⊢
      clear hw
      simp only [List.mem_cons, List.not_mem_nil, or_false] at hk ⊢
      rcases hk with h | h | h | h | h | h | h | h | h | h | h | h | h | h | h | h | h | h <;> simp only [h, true_or, or_true]
    rcases hk' with hk' | hk'
    · rw [get_fold_ne _ (hm _ (List.mem_map_of_mem (f := (·.1)) hk')), get_fold _ hn2 hk']
    · rw [get_fold _ hn1 hk', get_fold_ne _ (hm' _ (List.mem_map_of_mem (f := (·.1)) hk'))]
  · rw [h2, get_fold_ne _ (by simp [closeEntries]), get_fold_ne _ (by simp [runEntries])]

/-- **C125, agreement with the summary.** If a session returns, its log file can store the counters, and its summary can be loaded, the
counters of evaluations, hunts and optimizers are the same in both. -/
theorem C125_summary (hr : endRun fits now plot old m c r reason caught h = (f, h', .ok res)) (hf : ∀ k n, fits k (.num n) = true)
    {doc : Node} (hd : f = some (some doc)) {v : Val} (hv : load doc = some v) :
    ∀ k ks, (k, ks) ∈ [("n_evals", [key "Counters", key "Function Evaluations"]), ("n_hunts", [key "Counters", key "Hunts Started"]),
        ("n_opts_started", [key "Counters", key "Optimizers", key "Started"]),
        ("n_opts_killed", [key "Counters", key "Optimizers", key "Killed"]),
        ("n_opts_conv", [key "Counters", key "Optimizers", key "Converged"])] →
      ∃ n : Nat, dictGet h'.attrs k = some (.num n) ∧ v.at ks = some (.scal (.int n)) := by
  have hs := (endRun_ok hr).1
  subst hd
  obtain ⟨time, bounds, rfl⟩ : ∃ time bounds, doc = represent (dataDict (stamp now m)
      c r (reasonText reason caught) time bounds) := by
    unfold saveSummary at hs
    split at hs
    · cases hs
    · split at hs
      · cases hs
      · cases hs; exact ⟨_, _, rfl⟩
  have hc : Clean (dataDict (stamp now m) c r (reasonText reason caught) time
      bounds) := fun p hp hf => by
    rw [load_foreign hf hp] at hv; cases hv
  obtain ⟨w, h1, h2⟩ := load_represent _ hc
  rw [hv] at h1
  cases h1
  have key1 : ∀ ks (n : Nat), (counterEntry c).at ks = some (nat n) → v.at (key "Counters" :: ks) = some (.scal (.int n)) := by
    intro ks n hk
    obtain ⟨w, hw, hs⟩ := same_at (key "Counters" :: ks) h2 (p := nat n) hk
    rw [hw, same_scal hs]
  have ha := (C125_attributes hr).2.1
  intro k ks hk
  simp only [List.mem_cons, List.not_mem_nil, or_false, Prod.mk.injEq] at hk
  rcases hk with ⟨rfl, rfl⟩ | ⟨rfl, rfl⟩ | ⟨rfl, rfl⟩ | ⟨rfl, rfl⟩ | ⟨rfl, rfl⟩
  · exact ⟨c.evals, by rw [ha _ (.num c.evals) (by simp), if_pos (hf _ _)], key1 _ _ rfl⟩
  · exact ⟨c.hunts, by rw [ha _ (.num c.hunts) (by simp), if_pos (hf _ _)], key1 _ _ rfl⟩
  · exact ⟨c.started, by rw [ha _ (.num c.started) (by simp), if_pos (hf _ _)], key1 _ _ rfl⟩
  · exact ⟨c.killed, by rw [ha _ (.num c.killed) (by simp), if_pos (hf _ _)], key1 _ _ rfl⟩
  · exact ⟨c.converged, by rw [ha _ (.num c.converged) (by simp), if_pos (hf _ _)], key1 _ _ rfl⟩

end

theorem LogAttributes.endRun_returns {fits : String → AVal → Bool} {now : Rat} {old : File} {m : Facts} {c : Counters} {r : Solution}
    {reason : List Char} {caught : Option (List Char)} {h : H5} (hb : WrittenAlike m.bounds) (h1 : (h.log.flush none).2 = none)
    (h2 : ((h.log.flush none).1.close).2 = none) :
    ∃ f h', endRun fits now none old m c r reason caught h = (f, h', .ok (r, reason)) ∧ h'.log = ((h.log.flush none).1.close).1 := by
  have hs := C109_returns 1 now old m c r reason caught hb
  have hf : (saveSummary old (stamp now m) c r reason caught).2 = none := by
    have := hs.1
    simp only [Summary.finish, Nat.one_ne_zero, if_false] at this
    cases he : saveSummary old (stamp now m) c r reason caught with
    | mk f e =>
      cases e with
      | none => rfl
      | some e =>
        simp only [stamp] at he
        rw [he] at this
        simp at this
  unfold endRun
  match he : saveSummary old (stamp now m) c r reason caught with
  | (f, some e) => rw [he] at hf; cases hf
  | (f, none) =>
    match hl : h.log.flush none with
    | (l1, some e) => rw [hl] at h1; cases h1
    | (l1, none) =>
      rw [hl] at h2
      match hc : l1.close with
      | (l2, some e) => rw [hc] at h2; cases h2
      | (l2, none) =>
        simp only [hc]
        exact ⟨_, _, rfl, rfl⟩

/-- **C125 (partial), what is found in a log file.** A manager set up afresh runs with a log file, `fops` being its calls of the log as in
`C117_log_file_partial`, and ends with the log in the state it has then, with bounds which are written alike if equal, a plot which
succeeds and a file which can store every attribute, whatever attributes it had. Then the session returns its result, the file is closed, and

* `n_evals` and `f_counter` both are the number of evaluations accepted;
* `n_hunts`, `n_opts_killed` and `n_opts_conv` are the numbers of hunts begun and of optimizers killed and ended;
* `best_iter` is the best of the evaluations accepted;
* `opts_started` is the number of groups in the file;
* each optimizer of which an evaluation was accepted has a table with exactly these, and no other has one.

Missing: bounds, plots and attributes for which this fails, and resumed runs, see the refutations. -/
theorem C125_run_partial (cfg : Cfg) (fuel : Nat) (e : Env) (hl : ∀ i, ¬ LateEval i (happened cfg (init cfg) fuel e))
    (h0 : Ev.received (.fin 0) ∉ happened cfg (init cfg) fuel e) (fops : List FOp)
    (hf : toOps fops = (moment cfg (init cfg) fuel e).ops.filter OnTables)
    (fits : String → AVal → Bool) (hfit : ∀ k v, fits k v = true) (now : Rat) (old : File) (m : Facts) (hb : WrittenAlike m.bounds)
    (r : Solution) (reason : List Char) (caught : Option (List Char)) (attrs : Attrs) (closed : Bool) :
    ∃ f h', endRun fits now none old m (countersOf (moment cfg (init cfg) fuel e)) r reason caught
        ⟨attrs, (FileLogger.init cfg.traj).run fops, closed⟩ = (f, h', .ok (r, reason)) ∧ h'.closed = true ∧
      dictGet h'.attrs "n_evals" = some (.num (acceptedOf (happened cfg (init cfg) fuel e)).length) ∧
      dictGet h'.attrs "f_counter" = some (.num (acceptedOf (happened cfg (init cfg) fuel e)).length) ∧
      dictGet h'.attrs "n_hunts" = some (.num (huntsOf (happened cfg (init cfg) fuel e)).length) ∧
      dictGet h'.attrs "n_opts_killed" = some (.num (killedOf (happened cfg (init cfg) fuel e)).length) ∧
      dictGet h'.attrs "n_opts_conv" = some (.num (finishedOf (happened cfg (init cfg) fuel e)).length) ∧
      (∃ b, dictGet h'.attrs "best_iter" = some (.best b) ∧ IsBest b.x b.fx b.optId (acceptedOf (happened cfg (init cfg) fuel e))) ∧
      dictGet h'.attrs "opts_started" = some (.num h'.log.groups.length) ∧
      ∀ i, (∀ r, ((acceptedOf (happened cfg (init cfg) fuel e)).filter fun r => r.optId == i).head? = some r →
          ∃ t, dictGet h'.log.tables i = some t ∧ t.rows = rowsOf (acceptedOf (happened cfg (init cfg) fuel e)) i) ∧
        ((¬ ∃ r ∈ acceptedOf (happened cfg (init cfg) fuel e), r.optId = i) → dictGet h'.log.tables i = none) := by
  obtain ⟨-, a1, a2, -, a3, -⟩ := C117_log_file_partial cfg fuel e hl h0 fops hf
  have hf' : toOps (fops ++ [.flush none]) = (moment cfg (init cfg) fuel e).ops.filter OnTables := by
    rw [← hf]; simp [toOps, List.filterMap_append]
  obtain ⟨-, -, -, -, b1, b2⟩ := C117_log_file_partial cfg fuel e hl h0 (fops ++ [.flush none]) hf'
  have hrun : (FileLogger.init cfg.traj).run (fops ++ [.flush none]) = (((FileLogger.init cfg.traj).run fops).flush none).1 := by
    simp [FileLogger.run, List.foldl_append, step]
  rw [hrun] at b1 b2
  obtain ⟨f, h', he, hlog⟩ := endRun_returns (fits := fits) (now := now) (old := old) (m := m)
    (c := countersOf (moment cfg (init cfg) fuel e)) (r := r) (reason := reason) (caught := caught)
    (h := ⟨attrs, (FileLogger.init cfg.traj).run fops, closed⟩) hb a3 b1
  obtain ⟨c1, c2, -⟩ := C125_attributes he
  obtain ⟨d1, d2, d3, d4⟩ := C109_counters (Startable.fresh cfg) fuel e
  refine ⟨f, h', he, c1, ?_, ?_, ?_, ?_, ?_, ⟨_, by rw [c2 _ (.best ((FileLogger.init cfg.traj).run fops).base.best) (by simp),
    if_pos (hfit _ _)], a2⟩, ?_, fun i => ⟨fun r hr => ?_, fun hi => ?_⟩⟩
  · rw [c2 _ (.num (countersOf (moment cfg (init cfg) fuel e)).evals) (by simp), if_pos (hfit _ _), d1]
  · rw [c2 _ (.num ((FileLogger.init cfg.traj).run fops).base.len) (by simp), if_pos (hfit _ _), a1]
  · rw [c2 _ (.num (countersOf (moment cfg (init cfg) fuel e)).hunts) (by simp), if_pos (hfit _ _), d2]
  · rw [c2 _ (.num (countersOf (moment cfg (init cfg) fuel e)).killed) (by simp), if_pos (hfit _ _), d3]
  · rw [c2 _ (.num (countersOf (moment cfg (init cfg) fuel e)).converged) (by simp), if_pos (hfit _ _), d4]
  · rw [c2 _ (.num ((FileLogger.init cfg.traj).run fops).oCounter) (by simp), if_pos (hfit _ _), run_counts, hlog]
    simp only [close]
    rw [(flush_counts _ _).2, (flush_counts _ _).2]
  · obtain ⟨names, -, ht⟩ := (b2 i).1 r hr
    rw [hlog]
    exact ⟨_, ht, rfl⟩
  · rw [hlog]
    exact (b2 i).2 hi

/-- A run of two optimizers of which one ends, four evaluations in all. -/
example : (∀ i, ¬ LateEval i (happened cfg2 (init cfg2) 20 oneEnds)) ∧ Ev.received (.fin 0) ∉ happened cfg2 (init cfg2) 20 oneEnds ∧
    toOps (withFile 60000000 (moment cfg2 (init cfg2) 20 oneEnds).ops) = (moment cfg2 (init cfg2) 20 oneEnds).ops.filter OnTables ∧
    WrittenAlike sampleFacts.bounds ∧ (acceptedOf (happened cfg2 (init cfg2) 20 oneEnds)).length = 4 :=
  ⟨not_late_of (by decide +kernel), by decide +kernel, toOps_withFile _ _, by unfold WrittenAlike; decide +kernel, by decide +kernel⟩

/-- What the end of this run leaves in a file: the reason is too long to be stored, so that the one of an earlier session stays. -/
example :
    let p := endRun (fun k _ => k != "exit_reason") 200 none none sampleFacts (countersOf (moment cfg2 (init cfg2) 20 oneEnds))
      ⟨none, none, none⟩ "A long reason".toList none
      ⟨[("exit_reason", .text "Before".toList)], (FileLogger.init false).run (withFile 60000000 (moment cfg2 (init cfg2) 20 oneEnds).ops), false⟩
    p.2.1.closed = true ∧ dictGet p.2.1.attrs "n_evals" = some (.num 4) ∧ dictGet p.2.1.attrs "f_counter" = some (.num 4) ∧
    dictGet p.2.1.attrs "opts_started" = some (.num 2) ∧ dictGet p.2.1.attrs "exit_reason" = some (.text "Before".toList) ∧
    p.2.1.log.tables.map (fun t => (t.1, t.2.rows.map (·.callId))) = [(1, [1]), (2, [2, 3, 4])] := by decide +kernel

/-- A session whose summary can be loaded. -/
example : ∃ f h' doc v, endRun (fun _ _ => true) 200 none none sampleFacts ⟨7, 0, 1, 0, 1⟩ ⟨none, none, none⟩ "done".toList none
    ⟨[], FileLogger.init false, false⟩ = (f, h', .ok (⟨none, none, none⟩, "done".toList)) ∧ f = some (some doc) ∧ load doc = some v :=
  ⟨_, _, _, _, rfl, rfl, rfl⟩

/-- **C125, refuted (lost).** If saving the summary or drawing the plot raises, nothing is written into the log file and it is not closed:
evaluations which are not in its tables yet stay out of them. The summary raises if two bounds are equal but written differently. -/
theorem C125_lost_refuted (fits : String → AVal → Bool) (now : Rat) (plot : Option Err) (old : File) (m : Facts) (c : Counters)
    (r : Solution) (reason : List Char) (caught : Option (List Char)) (h : H5) :
    (∀ e, plot = some e → ∃ f e', endRun fits now plot old m c r reason caught h = (f, h, .error e')) ∧
    endRun fits now plot old { sampleFacts with bounds := [⟨⟨0, true⟩, ⟨1, true⟩⟩, ⟨⟨0, false⟩, ⟨1, false⟩⟩] } c r reason caught h =
      (some none, h, .error .keyError) := by
  constructor
  · rintro e rfl
    unfold endRun
    match saveSummary old (stamp now m) c r reason caught with
    | (f, some e') => exact ⟨f, e', rfl⟩
    | (f, none) => exact ⟨f, e, rfl⟩
  · rfl

/-- Such a log: one evaluation was accepted, which is in the memory of the log only. -/
example : ((FileLogger.init false).run [.add 1 "A", .addHist 1 [], .put ⟨1, [], .fin 1, []⟩ 40]).base.len = 1 ∧
    (((FileLogger.init false).run [.add 1 "A", .addHist 1 [], .put ⟨1, [], .fin 1, []⟩ 40]).tables.map fun t => t.2.rows) = [[]] := by
  decide +kernel

/-- **C125, refuted (resumed runs).** There is a manager, loaded from a checkpoint of an earlier run, which counts one evaluation more than
its log does: whatever file is connected with a log which counts as much, `n_evals` and `f_counter` differ in it when the session has ended. -/
theorem C125_resumed_refuted :
    ∃ s, Startable cfgSave s ∧ ∀ fits now plot old m r reason caught h f h' res, (∀ k v, fits k v = true) → h.log.base.len = s.log.len →
      endRun fits now plot old m (countersOf s) r reason caught h = (f, h', .ok res) →
      dictGet h'.attrs "n_evals" = some (.num 2) ∧ dictGet h'.attrs "f_counter" = some (.num 1) := by
  have h1 : (countersOf loaded).evals = 2 := by decide +kernel
  have h2 : loaded.log.len = 1 := by decide +kernel
  refine ⟨loaded, startable_loaded, fun fits now plot old m r reason caught h f h' res hf hl he => ?_⟩
  have ha := (C125_attributes he).2.1
  constructor
  · rw [ha _ (.num (countersOf loaded).evals) (by simp), if_pos (hf _ _), h1]
  · rw [ha _ (.num h.log.base.len) (by simp), if_pos (hf _ _), hl, h2]

end Glompo.Props
