import Verif.Props.ManagerHeads
import Verif.Props.FileLogger
import Verif.Props.ParamsWrap

/-!
# C117: the log file of a run

The running manager of `Model/Manager` keeps its log in memory. Here the same calls, with any flushes and reads in between, go to a
log with a file (`Model/FileLogger`).
-/

namespace Glompo.FileLogger

open Glompo.Spec
open Glompo.Logger (Op)

/-! ### No operation of a well formed history raises an exception -/

theorem clear1_noErr {hs : Nat → Option (List String)} {added rel : Nat → Prop} {rows : Nat → List Row}
    {s : FileLogger} (h : AllOk hs added rel rows s) (o : Nat) (ho : o ≠ 0) : (s.clear1 o).2 = none := by
  have last : ∀ q : FileLogger, (if (dictGet q.base.storage o).isSome = true then
      (({ q with base := (q.base.clearCache (some o)).1 } : FileLogger), (q.base.clearCache (some o)).2) else (q, none)).2 = none := by
    intro q
    split
    · rename_i hq
      obtain ⟨m, rfl⟩ := Nat.exists_eq_succ_of_ne_zero ho
      simp only [Logger.clearCache]
      split
      · rfl
      · simp only [Logger.delKeys, hq, if_true]
    · rfl
  simp only [clear1]
  cases hc : dictGet s.chunk o with
  | none =>
    simp only [Option.isSome_none, Bool.false_eq_true, if_false]
    exact last s
  | some c =>
    simp only [Option.isSome_some, if_true]
    obtain ⟨b1, b2⟩ := (flush1_ok h o).2.2.2.2.2.2.1 (by rw [hc]; rfl)
    generalize s.flush1 o = r at b1
    obtain ⟨s', e⟩ := r
    simp only at b1
    subst b1
    exact last _

theorem clearList_noErr {hs : Nat → Option (List String)} {added rel : Nat → Prop} {rows : Nat → List Row}
    (os : List Nat) : ∀ {s : FileLogger}, AllOk hs added rel rows s → (∀ o ∈ os, rel o ∧ o ≠ 0) → (s.clearList os).2 = none := by
  induction os with
  | nil => intro s _ _; rfl
  | cons o os ih =>
    intro s h ho
    have h1 := clear1_noErr h o (ho o (by simp)).2
    have h2 := (clear1_ok h o (ho o (by simp)).1).1
    simp only [clearList]
    generalize s.clear1 o = r at h1 h2
    obtain ⟨s', e⟩ := r
    simp only at h1 h2
    subst h1
    exact ih h2 fun o' ho' => ho o' (by simp [ho'])

theorem step_noErr {traj : Bool} {l : List FOp} {op : FOp} {s : FileLogger} (ih : FInv traj l s)
    (h : FWellFormed (l ++ [op])) (hf : ∀ i, op = .flush i → i = none) : (s.step op).2 = none := by
  cases op with
  | flush i =>
    rw [hf i rfl]
    exact (close_ok ih.all).1
  | read i k => rfl
  | add i t =>
    have hl := h.lastOp (o := .add i t) rfl
    simp only [OpOk] at hl
    have hg : i ∉ s.groups := fun hh => hl.2 ((ih.groups i).mp hh)
    simp only [step, addOptimizer, hg, if_false]
  | addHist i hs =>
    have hl := h.lastOp (o := .addHist i hs) rfl
    simp only [OpOk] at hl
    have hrel := (h.2 l _ [] rfl).2 i hs rfl
    obtain ⟨bops, h1, h2, h3, h4, h5, h6⟩ := ih.base
    have hok := ih.all i
    rw [headersOf_none.mpr hl.2] at hok
    have hnc : ¬ Cleared bops i := fun hc => hrel (h6 i hc)
    obtain ⟨st, g1, -⟩ := (Logger.histInv_run traj bops i h1 (Or.inr hnc)).fresh
      (by rw [h4]; exact hl.1) (by rw [h5]; exact hl.2)
    rw [← h2] at g1
    have herr : (s.base.addIterHistory i []).2 = none := by simp [Logger.addIterHistory, g1]
    have hcond : i ∈ s.groups ∧ s.hasIterHistory i = false :=
      ⟨(ih.groups i).mpr hl.1, by simp [hasIterHistory, hok.1]⟩
    simp only [step, addIterHistory, herr, hcond, and_self, if_true]
  | put r n =>
    have hl := h.lastOp (o := .put r) rfl
    simp only [OpOk] at hl
    have hrel := (h.2 l _ [] rfl).1 r n rfl
    have hok := ih.all r.optId
    obtain ⟨hs, hhs⟩ : ∃ hs, headersOf l r.optId = some hs := by
      cases hq : headersOf l r.optId with
      | none => exact absurd hl.2 (headersOf_none.mp hq)
      | some hs => exact ⟨hs, rfl⟩
    rw [hhs] at hok
    obtain ⟨t, t1, t2, t3⟩ := hok
    obtain ⟨c, t3, -⟩ := t3.elim id (fun q => absurd q.1 hrel)
    have hfl : ∀ q : FileLogger, q.tables = s.tables → dictGet q.chunk r.optId ≠ none →
        (if q.est * q.pending > 100000000 then q.flush (some r.optId) else (q, none)).2 = none := by
      intro q q1 q2
      split
      · have one : ∀ o, dictGet q.chunk o ≠ none → dictGet q.tables o = some t → (q.flushList [o]).2 = none := by
          intro o h1 h2
          simp only [flushList, flush1]
          cases hq : dictGet q.chunk o with
          | none => exact absurd hq h1
          | some c' =>
            simp only [h2]
            by_cases hlen : c'.length > 0 <;> simp [hlen]
        have h0 : r.optId ≠ 0 := by
          obtain ⟨t', ht'⟩ := mem_added.mp hl.1
          obtain ⟨p1, p2, e2⟩ := List.append_of_mem ht'
          have := h.init.1 p1 _ p2 e2
          exact this.1
        obtain ⟨m, hm⟩ := Nat.exists_eq_succ_of_ne_zero h0
        have := one r.optId q2 (by rw [q1]; exact t1)
        rw [hm] at this ⊢
        exact this
      · rfl
    have gen : ∀ est row, (if est * ({ s with base := (s.base.putIteration r).1, chunk := dictSet s.chunk r.optId (c ++ [row]), est := est } :
        FileLogger).pending > 100000000 then ({ s with base := (s.base.putIteration r).1, chunk := dictSet s.chunk r.optId (c ++ [row]), est := est } :
        FileLogger).flush (some r.optId) else ({ s with base := (s.base.putIteration r).1, chunk := dictSet s.chunk r.optId (c ++ [row]), est := est },
        none)).2 = none := fun est row =>
      hfl { s with base := (s.base.putIteration r).1, chunk := dictSet s.chunk r.optId (c ++ [row]), est := est } rfl
        (by rw [dictGet_set_self]; simp)
    simp only [step, putIteration]
    by_cases hest : s.est = 0
    · simp only [hest, if_true, t3]
      exact gen _ _
    · simp only [hest, if_false, t3]
      exact gen _ _
  | clear i =>
    have e1 : evals (toOps (l ++ [FOp.clear i])) = evals (toOps l) := by simp [toOps, evals]
    have e2 : added (toOps (l ++ [FOp.clear i])) = added (toOps l) := by simp [toOps, added]
    have eh : headersOf (l ++ [FOp.clear i]) = headersOf l := by
      funext j; rw [headersOf_append]; simp [headersOf]
    have hall : AllOk (headersOf (l ++ [FOp.clear i])) (fun j => j ∈ added (toOps (l ++ [FOp.clear i])))
        (Released (l ++ [FOp.clear i])) (rowsOf (evals (toOps (l ++ [FOp.clear i])))) s := by
      rw [e1, eh, e2]; intro j; exact (ih.all j).mono id (fun hi => hi.mono _)
    match i, hall with
    | none, hall =>
      refine clearList_noErr _ hall fun o ho => ?_
      rw [List.mem_range'_1] at ho
      exact ⟨Or.inl (by simp), by omega⟩
    | some 0, hall =>
      refine clearList_noErr _ hall fun o ho => ?_
      rw [List.mem_range'_1] at ho
      exact ⟨Or.inr (Or.inl (by simp)), by omega⟩
    | some (n + 1), hall =>
      refine clearList_noErr _ hall fun o ho => ?_
      simp at ho; subst ho
      exact ⟨Or.inr (Or.inr (by simp)), by omega⟩

end Glompo.FileLogger

namespace Glompo.Props

open Glompo Glompo.Manager Glompo.Spec Glompo.Props.Runs
open Glompo.Logger (Op)
open Glompo.FileLogger (FOp)

/-- The operations on the log which have to do with iteration histories: not metadata, not messages. -/
def OnTables : Op → Bool
  | .putMeta _ _ _ => false
  | .putMsg _ _ => false
  | _ => true

theorem onTables_ops (l : List Op) : added (l.filter OnTables) = added l ∧ opened (l.filter OnTables) = opened l ∧
    evals (l.filter OnTables) = evals l := by
  induction l with
  | nil => exact ⟨rfl, rfl, rfl⟩
  | cons op t ih =>
    obtain ⟨h1, h2, h3⟩ := ih
    simp only [added, opened, evals] at h1 h2 h3 ⊢
    cases op <;> simp [List.filter_cons, OnTables, h1, h2, h3]

theorem onTables_split {l : List Op} {pre : List Op} {op : Op} {post : List Op} (h : l.filter OnTables = pre ++ op :: post) :
    ∃ a b, l = a ++ op :: b ∧ a.filter OnTables = pre := by
  obtain ⟨l1, l2, rfl, h1, h2⟩ := List.filter_eq_append_iff.mp h
  obtain ⟨m1, m2, rfl, h3, h4, h5⟩ := List.filter_eq_cons_iff.mp h2
  refine ⟨l1 ++ m1, m2, by simp, ?_⟩
  rw [List.filter_append, h1, List.filter_eq_nil_iff.mpr h3, List.append_nil]

theorem onTables_wf {l : List Op} (h : WellFormed l) : WellFormed (l.filter OnTables) := by
  intro pre op post e
  obtain ⟨a, b, hab, rfl⟩ := onTables_split e
  have := h a op b hab
  cases op <;> simp only [OpOk, (onTables_ops a).1, (onTables_ops a).2.1] at this ⊢ <;> exact this

theorem mem_toOps_clear {l : List FOp} {i : Option Nat} : FOp.clear i ∈ l → Op.clear i ∈ toOps l := by
  intro h
  simp only [toOps, List.mem_filterMap]
  exact ⟨_, h, rfl⟩

/-- The calls of a run, with the file, are as the file backed log wants them. -/
theorem fWellFormed_run {cfg : Cfg} {s : State} (inv : Inv cfg s) (hl : ∀ i, ¬ LateEval i s.ev) (h0 : Ev.received (.fin 0) ∉ s.ev)
    {fops : List FOp} (hf : toOps fops = s.ops.filter OnTables) : FWellFormed fops := by
  have key : ∀ pre op post o i, fops = pre ++ op :: post → toOps [op] = [o] → Concerns o i → ¬ Released pre i := by
    intro pre op post o i e eo hc hr
    have e' : s.ops.filter OnTables = toOps pre ++ o :: toOps post := by
      rw [← hf, e, show pre ++ op :: post = pre ++ ([op] ++ post) from by simp, toOps_append, toOps_append, eo]; simp
    obtain ⟨a, b, hab, ha⟩ := onTables_split e'
    have mem : ∀ j, FOp.clear j ∈ pre → Op.clear j ∈ a := by
      intro j hj
      have := mem_toOps_clear hj
      rw [← ha] at this
      exact (List.mem_filter.mp this).1
    have mem' : ∀ j, Op.clear j ∈ a → Op.clear j ∈ s.ops := fun j hj => by rw [hab]; exact List.mem_append_left _ hj
    rcases hr with hr | hr | hr
    · obtain ⟨j, hj, -⟩ := inv.rel _ (mem' _ (mem _ hr))
      cases hj
    · obtain ⟨j, hj, hj'⟩ := inv.rel _ (mem' _ (mem _ hr))
      cases hj
      exact h0 hj'
    · exact hl i (inv.late a o b hab i hc (mem _ hr))
  refine ⟨by rw [hf]; exact onTables_wf inv.wf, fun pre op post e => ⟨fun r n ho => ?_, fun i hs ho => ?_⟩⟩
  · subst ho; exact key pre _ post _ _ e rfl (.inl ⟨r, rfl, rfl⟩)
  · subst ho; exact key pre _ post _ _ e rfl (.inr ⟨hs, rfl⟩)

theorem fresh_first (cfg : Cfg) (fuel : Nat) (e : Env) : (moment cfg (init cfg) fuel e).first = cfg := by
  have hno : ∀ c n, Ev.resumed c n ∉ happened cfg (init cfg) fuel e :=
    no_resumed_steps (startManager_spec fuel (Startable.fresh cfg).spec.1 e).1 (by simp [init])
  have h := (moment_inv (Startable.fresh cfg) fuel e).set
  have h' := settings_append (pre := []) (c₀ := (moment cfg (init cfg) fuel e).first) (happened cfg (init cfg) fuel e) hno
  rw [List.nil_append] at h'
  have h : settings (moment cfg (init cfg) fuel e).first (happened cfg (init cfg) fuel e) = cfg := h
  rw [h] at h'
  exact h'.symm

/-- **C117.** A manager set up afresh which logs to a file: `fops` are its calls of the log, with records of any sizes and any
flushes and reads in between. If no optimizer sends evaluations after its last message (no optimizer has the id 0), then at any
moment of the run

* no call of the log has raised an exception;
* the log counts the evaluations accepted, and its best record is the best of them;
* it has iteration histories exactly of the optimizers of which evaluations were accepted;
* closing it raises nothing and leaves in the file, for each of these, a table with columns for the headings given for its first
  evaluation (none if this had no extra results), and in it exactly its accepted evaluations, in order and numbered through,
  whether its memory had been released or not; and no table for any other.

Missing: that the manager does the same as with the log in memory, which is false, see `C117_hunts_refuted`. -/
theorem C117_log_file_partial (cfg : Cfg) (fuel : Nat) (e : Env) (hl : ∀ i, ¬ LateEval i (happened cfg (init cfg) fuel e))
    (h0 : Ev.received (.fin 0) ∉ happened cfg (init cfg) fuel e) (fops : List FOp)
    (hf : toOps fops = (moment cfg (init cfg) fuel e).ops.filter OnTables) :
    (∀ pre op post, fops = pre ++ op :: post → (∀ i, op ≠ .flush (some i)) →
      (((FileLogger.init cfg.traj).run pre).step op).2 = none) ∧
    ((FileLogger.init cfg.traj).run fops).base.len = (acceptedOf (happened cfg (init cfg) fuel e)).length ∧
    IsBest ((FileLogger.init cfg.traj).run fops).base.best.x ((FileLogger.init cfg.traj).run fops).base.best.fx
      ((FileLogger.init cfg.traj).run fops).base.best.optId (acceptedOf (happened cfg (init cfg) fuel e)) ∧
    (∀ i, ((FileLogger.init cfg.traj).run fops).hasIterHistory i = true ↔
      ∃ r ∈ acceptedOf (happened cfg (init cfg) fuel e), r.optId = i) ∧
    ((FileLogger.init cfg.traj).run fops).close.2 = none ∧
    ∀ i, (∀ r, ((acceptedOf (happened cfg (init cfg) fuel e)).filter fun r => r.optId == i).head? = some r →
        ∃ names, ((r.extras = [] → names = []) ∧ (r.extras ≠ [] → Ev.named i names ∈ happened cfg (init cfg) fuel e)) ∧
          dictGet ((FileLogger.init cfg.traj).run fops).close.1.tables i =
            some { extraHeaders := names, rows := rowsOf (acceptedOf (happened cfg (init cfg) fuel e)) i }) ∧
      ((¬ ∃ r ∈ acceptedOf (happened cfg (init cfg) fuel e), r.optId = i) →
        dictGet ((FileLogger.init cfg.traj).run fops).close.1.tables i = none) := by
  have inv := moment_inv (Startable.fresh cfg) fuel e
  have hlog : loggedOf (moment cfg (init cfg) fuel e).ev = acceptedOf (happened cfg (init cfg) fuel e) :=
    logged_of_lossless _ (fresh_lossless cfg fuel e)
  have hwf : FWellFormed fops := fWellFormed_run inv hl h0 hf
  have hev : evals (toOps fops) = acceptedOf (happened cfg (init cfg) fuel e) := by
    rw [hf, (onTables_ops _).2.2, inv.evs, hlog]
  have hop : ∀ i, i ∈ opened (toOps fops) ↔ ∃ r ∈ acceptedOf (happened cfg (init cfg) fuel e), r.optId = i := by
    intro i
    constructor
    · intro hi
      rw [hf, (onTables_ops _).2.1] at hi
      rw [← hlog]
      exact inv.opened i hi
    · rintro ⟨r, hr, rfl⟩
      rw [← hev] at hr
      simp only [evals, List.mem_filterMap] at hr
      obtain ⟨op, h1, h2⟩ := hr
      cases op <;> simp at h2
      subst h2
      obtain ⟨p, q, hpq⟩ := List.append_of_mem h1
      have := (hwf.1 p _ q hpq).2
      rw [hpq, opened_append]
      exact List.mem_append_left _ this
  have fi := FileLogger.finv_run cfg.traj fops hwf
  have hhas : ∀ i, FileLogger.headersOf fops i = none ↔ ¬ ∃ r ∈ acceptedOf (happened cfg (init cfg) fuel e), r.optId = i := by
    intro i
    rw [FileLogger.headersOf_none, hop]
  obtain ⟨c1, c2, c3⟩ := FileLogger.close_ok fi.all
  rw [hev] at c2 c3
  refine ⟨fun pre op post hp hno => ?_, ?_, ?_, fun i => ?_, c1, fun i => ⟨fun r hi => ?_, fun hi => ?_⟩⟩
  · have hw : FWellFormed (pre ++ [op]) := by
      have : ∀ post, FWellFormed ((pre ++ [op]) ++ post) → FWellFormed (pre ++ [op]) := by
        intro post
        induction post using Glompo.snoc_induction with
        | h0 => simp
        | hs l a ih =>
          intro h
          rw [← List.append_assoc] at h
          exact ih h.init
      exact this post (by rw [hp] at hwf; simpa using hwf)
    refine FileLogger.step_noErr (FileLogger.finv_run cfg.traj pre hw.init) hw ?_
    rintro (_ | i) rfl
    · rfl
    · exact absurd rfl (hno i)
  · obtain ⟨bops, b1, b2, b3, -⟩ := fi.base
    have := (Logger.bestInv_run cfg.traj bops b1).count
    rw [b2, Logger.len, this, b3, hev]
  · obtain ⟨bops, b1, b2, b3, -⟩ := fi.base
    rw [b2, ← hev, ← b3]
    rcases Logger.best_run cfg.traj b1 with ⟨h1, h2⟩ | ⟨k, r, t, h1, h2, h3, h4⟩
    · left; rw [h2]; exact ⟨h1, rfl, rfl, rfl⟩
    · right; rw [h4]; exact ⟨k, r, h1, h2, rfl, rfl, rfl⟩
  · have ha := fi.all i
    cases hh : FileLogger.headersOf fops i with
    | none =>
      rw [hh] at ha
      have := (hhas i).mp hh
      simp [FileLogger.hasIterHistory, ha.1, this]
    | some hd =>
      rw [hh] at ha
      obtain ⟨t, t1, -⟩ := ha
      have : ∃ r ∈ acceptedOf (happened cfg (init cfg) fuel e), r.optId = i := by
        by_contra hc
        rw [(hhas i).mpr hc] at hh
        cases hh
      simp [FileLogger.hasIterHistory, t1, this]
  · have hri : r.optId = i := by simpa using (List.mem_filter.mp (List.mem_of_mem_head? hi)).2
    cases hh : FileLogger.headersOf fops i with
    | none => exact absurd ⟨r, (List.mem_filter.mp (List.mem_of_mem_head? hi)).1, hri⟩ ((hhas i).mp hh)
    | some hd =>
      have hm : Op.addHist i hd ∈ (moment cfg (init cfg) fuel e).ops := by
        have h1 : FOp.addHist i hd ∈ fops := by
          obtain ⟨op, o1, o2⟩ := List.exists_of_findSome?_eq_some hh
          cases op <;> simp at o2
          obtain ⟨rfl, rfl⟩ := o2
          exact o1
        have h2 : Op.addHist i hd ∈ toOps fops := Spec.mem_toOps_addHist.mpr h1
        rw [hf] at h2
        exact (List.mem_filter.mp h2).1
      obtain ⟨pre, post, e1⟩ := List.append_of_mem hm
      obtain ⟨r', post', rfl, e2, e3⟩ := inv.heads pre i hd post e1
      have h3 := Logger.first_eval inv.wf e1 e2
      rw [inv.evs, hlog] at h3
      have h4 : some r' = some r := by rw [← h3, ← hi]; rfl
      cases h4
      exact ⟨hd, ⟨e3.1, fun h => by have := e3.2 h; rw [hri] at this; exact this⟩, c2 i hd hh⟩
  · exact (c3 i ((hhas i).mpr hi)).1

/-- The calls of a log with a file which do what `ops` do, with records of size `n`. -/
def withFile (n : Nat) (ops : List Op) : List FOp :=
  ops.filterMap fun op => match op with
    | .add i t => some (.add i t)
    | .addHist i hs => some (.addHist i hs)
    | .put r => some (.put r n)
    | .clear i => some (.clear i)
    | _ => none

theorem toOps_withFile (n : Nat) (ops : List Op) : toOps (withFile n ops) = ops.filter OnTables := by
  induction ops with
  | nil => rfl
  | cons op t ih =>
    simp only [toOps, withFile] at ih ⊢
    cases op <;> simp [List.filter_cons, OnTables, ih]

/-- Optimizer 1 has sent an evaluation and its last message; its storage is released, and optimizer 2 goes on. -/
def oneEnds : Env := start2 ++ [ch [r 1 5, r 2 3, .fin 1, r 2 2, r 2 1], u, u, b false, u, u]

/-- Decidable form of the hypothesis on late evaluations, for the example. -/
def lateB : List Ev → Bool
  | [] => false
  | .received (.fin i) :: t => (t.any fun x => match x with | .received (.res r) => decide (r.optId = i) | _ => false) || lateB t
  | _ :: t => lateB t

theorem not_late_of : ∀ {ev : List Ev}, lateB ev = false → ∀ i, ¬ LateEval i ev := by
  intro ev
  induction ev with
  | nil => rintro - i ⟨a, b, r, h, -⟩; simp at h
  | cons x t ih =>
    intro h i ⟨a, b, r, hab, hr, hi⟩
    cases a with
    | nil =>
      simp only [List.nil_append, List.cons.injEq] at hab
      obtain ⟨rfl, rfl⟩ := hab
      simp only [lateB, Bool.or_eq_false_iff] at h
      have := List.any_eq_false.mp h.1 _ hr
      simp [hi] at this
    | cons y a =>
      simp only [List.cons_append, List.cons.injEq] at hab
      obtain ⟨rfl, rfl⟩ := hab
      refine ih ?_ i ⟨a, b, r, rfl, hr, hi⟩
      unfold lateB at h
      split at h
      · rename_i hh; cases hh
      · rename_i hh; cases hh; exact (Bool.or_eq_false_iff.mp h).2
      · rename_i hh; cases hh; exact h

/-- Optimizer 1 is released in the course, and the file is complete at the end. -/
example : (∀ i, ¬ LateEval i (happened cfg2 (init cfg2) 20 oneEnds)) ∧ Ev.received (.fin 0) ∉ happened cfg2 (init cfg2) 20 oneEnds ∧
    Ev.received (.fin 1) ∈ happened cfg2 (init cfg2) 20 oneEnds ∧
    toOps (withFile 60000000 (moment cfg2 (init cfg2) 20 oneEnds).ops) = (moment cfg2 (init cfg2) 20 oneEnds).ops.filter OnTables ∧
    (((FileLogger.init false).run (withFile 60000000 (moment cfg2 (init cfg2) 20 oneEnds).ops)).close.1.tables.map fun p =>
      (p.1, p.2.rows.map (·.callId))) = [(1, [1]), (2, [2, 3, 4])] :=
  ⟨not_late_of (by decide +kernel), by decide +kernel, by decide +kernel, toOps_withFile _ _, by decide +kernel⟩

/-- **C117 (refuted part).** The manager does not do the same as with the log in memory: when the second hunt of this run begins,
optimizer 1, whose storage was released, is among the optimizers of the manager and has not been recorded as ended. With the log in
memory it has no history any more and is passed over (manager.py:1536-1538). With the log file it has one, so that the hunting
conditions are asked about it; but every attempt to read this history raises `KeyError`, which ends the optimization. -/
theorem C117_hunts_refuted :
    (happened cfg2 (init cfg2) 20 oneEnds).getLast? = some (.hunt 2) ∧
    1 ∈ (moment cfg2 (init cfg2) 20 oneEnds).packs.map (·.1) ∧ 1 ∉ (moment cfg2 (init cfg2) 20 oneEnds).graveyard ∧
    (moment cfg2 (init cfg2) 20 oneEnds).log.hasIterHistory 1 = false ∧
    ∀ n, n = 1 ∨ n = 60000000 →
      ((FileLogger.init false).run (withFile n (moment cfg2 (init cfg2) 20 oneEnds).ops)).hasIterHistory 1 = true ∧
      ∀ k ∈ ["fx", "x", "call_id"],
        (((FileLogger.init false).run (withFile n (moment cfg2 (init cfg2) 20 oneEnds).ops)).getHistory 1 k).2.toOption = none := by
  refine ⟨by decide +kernel, by decide +kernel, by decide +kernel, by decide +kernel, ?_⟩
  rintro n (rfl | rfl) <;> exact ⟨by decide +kernel, by decide +kernel⟩

end Glompo.Props
