import Verif.Spec.Rollback
import Verif.Lemmas.FileLogger
import Mathlib.Data.List.Induction
import Mathlib.Data.List.TakeWhile

/-!
# C39 (log rollback) and C71 (a log over several sessions)
-/

namespace Glompo.Props

open Glompo Glompo.Spec Glompo.Rollback Glompo.Spec.Rollback Glompo.FileLogger
open Glompo.Logger (Op)

theorem rowsOf_append (a b : List IterRes) (i : Nat) : ∃ t, rowsOf (a ++ b) i = rowsOf a i ++ t ∧ ∀ r ∈ t, a.length < r.callId := by
  refine ⟨((b.zipIdx (1 + a.length)).filter fun p => p.1.optId == i).map fun p =>
    { callId := p.2, x := p.1.x, fx := p.1.fx, extras := p.1.extras }, ?_, ?_⟩
  · simp only [rowsOf, List.zipIdx_append, List.filter_append, List.map_append]
  · intro r hr
    obtain ⟨p, hp, rfl⟩ := List.mem_map.1 hr
    have := (List.mem_filter.1 hp).1
    have := List.le_snd_of_mem_zipIdx this
    simp only
    omega

theorem rowsOf_le (a : List IterRes) (i : Nat) : ∀ r ∈ rowsOf a i, r.callId ≤ a.length := by
  intro r hr
  obtain ⟨p, hp, rfl⟩ := List.mem_map.1 hr
  have := (List.mem_filter.1 hp).1
  have := List.snd_lt_of_mem_zipIdx this
  simp only
  omega

theorem searchRight_append (l t : List Nat) (n : Nat) (hl : ∀ c ∈ l, c ≤ n) (ht : ∀ c ∈ t, n < c) :
    searchRight (l ++ t) n = l.length := by
  unfold searchRight
  rw [List.takeWhile_append_of_pos (by intro c hc; simpa using hl c hc)]
  cases t with
  | nil => simp
  | cons a t =>
    have := ht a (.head _)
    rw [List.takeWhile_cons_of_neg (by simp; omega)]
    simp

theorem cut_rowsOf (a b : List IterRes) (i : Nat) (hs : List String) :
    cut a.length ⟨hs, rowsOf (a ++ b) i⟩ = ⟨hs, rowsOf a i⟩ := by
  obtain ⟨t, ht, hlt⟩ := rowsOf_append a b i
  simp only [cut, ht, List.map_append]
  rw [searchRight_append]
  · simp
  · intro c hc
    obtain ⟨r, hr, rfl⟩ := List.mem_map.1 hc
    exact rowsOf_le a i r hr
  · intro c hc
    obtain ⟨r, hr, rfl⟩ := List.mem_map.1 hc
    exact hlt r hr

theorem dictGet_filter_map {V W : Type} (d : List (Nat × V)) (P : Nat → Bool) (g : V → W) (i : Nat) :
    dictGet ((d.filter fun p => P p.1).map fun p => (p.1, g p.2)) i = if P i then (dictGet d i).map g else none := by
  induction d with
  | nil => simp [dictGet]
  | cons p t ih =>
    rw [List.filter_cons]
    by_cases hp : P p.1 = true
    · rw [if_pos hp, List.map_cons]
      simp only [dictGet]
      by_cases hi : p.1 = i
      · subst hi; simp [hp]
      · simp only [hi, if_false]; exact ih
    · rw [if_neg hp, ih]
      simp only [dictGet]
      by_cases hi : p.1 = i
      · subst hi; simp [hp]
      · simp [hi]

/-- Closed file of a session, in terms of the history. -/
theorem closed_tables {traj : Bool} {ops : List FOp} {s : FileLogger} (h : FInv traj ops s) (i : Nat) :
    dictGet s.close.1.tables i = (headersOf ops i).map (fun hs => ⟨hs, rowsOf (evals (toOps ops)) i⟩) ∧
    (i ∈ s.close.1.groups ↔ i ∈ added (toOps ops)) := by
  obtain ⟨-, h2, h3⟩ := close_ok h.all
  constructor
  · cases hh : headersOf ops i with
    | none => rw [(h3 i hh).1]; rfl
    | some hs => rw [h2 i hs hh]; rfl
  · have := (flush_ok h.all none).2.2.1
    rw [show s.close = s.flush none from rfl, this]
    exact h.groups i

theorem finv_count {traj : Bool} {ops : List FOp} {s : FileLogger} (h : FInv traj ops s) :
    s.base.fCounter = (evals (toOps ops)).length := by
  obtain ⟨bops, h1, h2, h3, -⟩ := h.base
  have := (Logger.bestInv_run traj bops h1).count
  rw [h2, this, h3]

theorem numbered_mem {pre post : List FOp} (h : Numbered (pre ++ post)) (i : Nat) (hi : i ∈ added (toOps (pre ++ post))) :
    i ≤ (added (toOps pre)).length ↔ i ∈ added (toOps pre) := by
  unfold Numbered at h
  rw [toOps_append, added_append] at h hi
  rw [List.length_append, ← List.range'_append_1] at h
  obtain ⟨h1, h2⟩ := List.append_inj h (by simp)
  rw [h1] at hi ⊢
  rw [List.length_range']
  rw [h2] at hi
  rcases List.mem_append.1 hi with hi | hi
  · exact ⟨fun _ => hi, fun _ => by rw [List.mem_range'_1] at hi; omega⟩
  · constructor
    · intro hle
      rw [List.mem_range'_1] at hi
      omega
    · intro hle
      rw [List.mem_range'_1] at hle
      omega

/-- An opened history belongs to a registered optimizer. -/
theorem opened_added {ops : List FOp} (h : FWellFormed ops) {i : Nat} (hi : i ∈ opened (toOps ops)) : i ∈ added (toOps ops) := by
  obtain ⟨hs, hm⟩ := mem_opened.mp hi
  obtain ⟨pre, post, e⟩ := List.append_of_mem hm
  have := h.1 pre _ post e
  simp only [OpOk] at this
  rw [e, added_append]; exact List.mem_append_left _ this.1

/-- What the rollback leaves. -/
theorem rollback_spec {traj : Bool} {pre post : List FOp} {s : FileLogger} (hinv : FInv traj (pre ++ post) s) (sum : String)
    (hwf : FWellFormed (pre ++ post)) (hnum : Numbered (pre ++ post))
    (hn : evals (toOps post) ≠ [] ∨ added (toOps post) = []) :
    ∃ f, rollback sum (evals (toOps pre)).length (added (toOps pre)).length (closedFile sum s) = (f, none) ∧
      (∀ i, i ∈ f.groups ↔ i ∈ added (toOps pre)) ∧
      (∀ i, dictGet f.tables i = if i ∈ added (toOps pre) then
        (headersOf (pre ++ post) i).map (fun hs => ⟨hs, rowsOf (evals (toOps pre)) i⟩) else none) := by
  have hc := closed_tables hinv
  have hev : evals (toOps (pre ++ post)) = evals (toOps pre) ++ evals (toOps post) := by rw [toOps_append, evals_append]
  have had : added (toOps (pre ++ post)) = added (toOps pre) ++ added (toOps post) := by rw [toOps_append, added_append]
  have hnone : ∀ i, i ∉ added (toOps (pre ++ post)) → headersOf (pre ++ post) i = none := fun i hi =>
    headersOf_none.2 fun ho => hi (opened_added hwf ho)
  unfold rollback
  simp only [closedFile, ne_eq, not_true_eq_false, if_false, finv_count hinv]
  by_cases he : evals (toOps post) = []
  · have ha : added (toOps post) = [] := hn.resolve_left (fun h => h he)
    rw [he, List.append_nil] at hev
    rw [ha, List.append_nil] at had
    rw [if_neg (by rw [hev]; omega)]
    refine ⟨_, rfl, fun i => ?_, fun i => ?_⟩
    · rw [← had]; exact (hc i).2
    · show dictGet s.close.1.tables i = _
      rw [(hc i).1, hev]
      by_cases hi : i ∈ added (toOps pre)
      · rw [if_pos hi]
      · rw [if_neg hi, hnone i (by rw [had]; exact hi)]; rfl
  · have hlen : 0 < (evals (toOps post)).length := List.length_pos_iff.2 he
    rw [if_pos (by rw [hev, List.length_append]; omega)]
    refine ⟨_, rfl, fun i => ?_, fun i => ?_⟩
    · simp only [List.mem_filter, decide_eq_true_eq, (hc i).2]
      constructor
      · rintro ⟨h1, h2⟩
        exact (numbered_mem hnum i h1).1 h2
      · intro h1
        have h2 : i ∈ added (toOps (pre ++ post)) := by rw [had]; exact List.mem_append_left _ h1
        exact ⟨h2, (numbered_mem hnum i h2).2 h1⟩
    · simp only
      rw [dictGet_filter_map s.close.1.tables (fun i => decide (i ≤ (added (toOps pre)).length))
        (cut (evals (toOps pre)).length) i, (hc i).1, hev]
      by_cases hi : i ∈ added (toOps pre)
      · have h2 : i ∈ added (toOps (pre ++ post)) := by rw [had]; exact List.mem_append_left _ hi
        rw [if_pos hi, if_pos (by simpa using (numbered_mem hnum i h2).2 hi), Option.map_map]
        congr 1
        funext hs
        exact cut_rowsOf _ _ _ _
      · rw [if_neg hi]
        by_cases h2 : i ∈ added (toOps (pre ++ post))
        · rw [if_neg (by simpa using fun h => hi ((numbered_mem hnum i h2).1 h))]
        · rw [hnone i h2]; simp

/-! ### C39 -/

/-- **C39.** A log that got the calls `pre`, then (after the checkpoint) any calls `post`, and was closed: resuming from the checkpoint
leaves the groups of exactly the optimizers registered before the checkpoint and, for every optimizer, exactly its evaluations before
the checkpoint, in order and with their numbers. Missing: see the refuted parts. -/
theorem C39_rollback_partial (traj : Bool) (pre post : List FOp) (sum : String) (hwf : FWellFormed (pre ++ post))
    (hnum : Numbered (pre ++ post)) (hn : evals (toOps post) ≠ [] ∨ added (toOps post) = []) :
    ∃ f, rollback sum (evals (toOps pre)).length (added (toOps pre)).length
        (closedFile sum ((init traj).run (pre ++ post))) = (f, none) ∧
      (∀ i, i ∈ f.groups ↔ i ∈ added (toOps pre)) ∧
      (∀ i, f.rowsFor i = rowsOf (evals (toOps pre)) i) ∧
      (∀ i, (dictGet f.tables i).isSome → i ∈ added (toOps pre)) := by
  obtain ⟨f, h1, h2, h3⟩ := rollback_spec (finv_run traj _ hwf) sum hwf hnum hn
  refine ⟨f, h1, h2, fun i => ?_, fun i hi => ?_⟩
  · unfold LogFile.rowsFor
    rw [h3]
    by_cases hi : i ∈ added (toOps pre)
    · rw [if_pos hi]
      cases hh : headersOf (pre ++ post) i with
      | some hs => rfl
      | none =>
        have : headersOf pre i = none := by
          rw [headersOf_append] at hh
          cases hp : headersOf pre i with
          | none => rfl
          | some x => rw [hp] at hh; simp at hh
        symm
        have hpre : FWellFormed pre := ⟨fun a o b e => hwf.1 a o (b ++ toOps post) (by rw [toOps_append, e]; simp),
          fun a o b e => hwf.2 a o (b ++ post) (by rw [e]; simp)⟩
        have := (finv_run traj pre hpre).all i
        rw [‹headersOf pre i = none›] at this
        exact this.2.1
    · rw [if_neg hi]
      have hpre : FWellFormed pre := ⟨fun a o b e => hwf.1 a o (b ++ toOps post) (by rw [toOps_append, e]; simp),
        fun a o b e => hwf.2 a o (b ++ post) (by rw [e]; simp)⟩
      have := (finv_run traj pre hpre).all i
      rw [headersOf_none.2 fun ho => hi (opened_added hpre ho)] at this
      exact this.2.1.symm
  · rw [h3] at hi
    by_contra hn
    rw [if_neg hn] at hi
    cases hi

/-- An evaluation. -/
def ev (i : Nat) (v : Rat) : FOp := .put ⟨i, [v], .fin v, []⟩ 8

/-- Before the checkpoint: two optimizers, three evaluations. -/
def samplePre : List FOp := [.add 1 "A", .addHist 1 [], ev 1 5, .add 2 "B", ev 1 4, .addHist 2 [], ev 2 7, .flush none]

/-- After it: a third optimizer and three more evaluations. -/
def samplePost : List FOp := [ev 2 6, .add 3 "C", .addHist 3 [], ev 3 1, .clear (some 2), ev 1 2]

example : FWellFormed (samplePre ++ samplePost) ∧ Numbered (samplePre ++ samplePost) ∧ evals (toOps samplePost) ≠ [] :=
  ⟨fwellFormed_of_fwfB (by decide +kernel), by decide +kernel, by decide +kernel⟩

/-- **C39 (other log).** A log file with another checksum is refused with a `KeyError` and left as it is. -/
theorem C39_other_log (sum : String) (n o : Nat) (f : LogFile) (h : f.checksum ≠ sum) :
    rollback sum n o f = (f, some .keyError) := by
  simp [rollback, h]

example : (closedFile "a" (init false)).checksum ≠ "b" := by decide

/-- **C39 (refuted part).** Each session writes a new checksum into the file. Once a resumed session has opened the log file, an earlier
checkpoint is refused whatever happened: it can be resumed from only once. -/
theorem C39_second_resume_refuted (old new : String) (n o : Nat) (s : FileLogger) (h : new ≠ old) :
    (rollback old n o (closedFile new s)).2 = some .keyError := by
  simp [rollback, closedFile, h]

/-- **C39 (refuted part).** If the process is lost in the first session, its checkpoints cannot be resumed from with a log file: `f_counter`
is written only by `close`, the attribute is missing and an `AttributeError` raised, whatever the history. -/
theorem C39_lost_process_refuted (sum : String) (n o : Nat) (s : FileLogger) :
    rollback sum n o (lostFile sum none s) = (lostFile sum none s, some .other) := by
  simp [rollback, lostFile]

/-- **C39 (refuted part).** If the process is lost in a later session, `f_counter` in the file is that of the session before: evaluations
after the checkpoint stay in the file. Here: first session closed after one evaluation; the second wrote four; the checkpoint was
taken at two. -/
theorem C39_lost_later_refuted : ∃ (s : FileLogger), s = (init false).run
      [.add 1 "A", .addHist 1 [], ev 1 5, ev 1 4, .flush none, ev 1 3, ev 1 2, .flush none] ∧
    (rollback "c" 2 1 (lostFile "c" (some 1) s)).2 = none ∧
    ((rollback "c" 2 1 (lostFile "c" (some 1) s)).1.rowsFor 1).map (·.callId) = [1, 2, 3, 4] :=
  ⟨_, rfl, by decide +kernel, by decide +kernel⟩

/-- **C39 (refuted part).** An optimizer registered after the checkpoint and without an evaluation before the session ended keeps its group;
registering the optimizer of the same number in the resumed session then fails. -/
theorem C39_stale_group_refuted : ∃ (pre post : List FOp) (f : LogFile), FWellFormed (pre ++ post) ∧ Numbered (pre ++ post) ∧
    rollback "c" 1 1 (closedFile "c" ((init false).run (pre ++ post))) = (f, none) ∧ 2 ∈ f.groups ∧
    ((reopen ((init false).run pre) f).addOptimizer 2 "B").2 ≠ none :=
  ⟨[.add 1 "A", .addHist 1 [], ev 1 5, .flush none], [.add 2 "B"], _, fwellFormed_of_fwfB (by decide +kernel), by decide +kernel,
    rfl, by decide +kernel, by decide +kernel⟩

/-! ### C71 -/

theorem wf_prefix {pre post : List FOp} (hwf : FWellFormed (pre ++ post)) : FWellFormed pre :=
  ⟨fun a o b e => hwf.1 a o (b ++ toOps post) (by rw [toOps_append, e]; simp),
    fun a o b e => hwf.2 a o (b ++ post) (by rw [e]; simp)⟩

/-- After a flush every buffer is empty. -/
theorem flushed_chunk {traj : Bool} {ops : List FOp} {s : FileLogger} (h : FInv traj ops s) (i : Nat) :
    dictGet (s.flush none).1.chunk i = none ∨ dictGet (s.flush none).1.chunk i = some [] := by
  have hall : ∀ o ∈ s.chunk.map (·.1), (dictGet s.chunk o).isSome := by
    intro o ho; rwa [dictGet_isSome_iff]
  obtain ⟨b1, b2, b3, b4, b5, b6, b7⟩ := flushList_ok (s.chunk.map (·.1)) h.all
  obtain ⟨c1, c2⟩ := b6 hall
  by_cases hi : i ∈ s.chunk.map (·.1)
  · exact Or.inr (c2 i hi)
  · left
    show dictGet (s.flushList (s.chunk.map (·.1))).1.chunk i = none
    rw [dictGet_eq_none_iff, b5]; exact hi

theorem life_inv {traj : Bool} {ops : List FOp} {s : FileLogger} (h : Life traj ops s) :
    FInv traj ops s ∧ FWellFormed ops ∧
    (∀ ops', ops = ops' ++ [.flush none] → ∀ i, dictGet s.chunk i = none ∨ dictGet s.chunk i = some []) := by
  induction h with
  | start =>
    refine ⟨finv_init traj, ⟨fun _ _ _ e => ?_, fun _ _ _ e => ?_⟩, fun ops' e => ?_⟩ <;> simp [toOps] at e
  | op o hl hwf ih =>
    refine ⟨finv_step ih.1 hwf, hwf, fun ops' e i => ?_⟩
    obtain ⟨rfl, h2⟩ := List.append_inj' e rfl
    simp only [List.cons.injEq, and_true] at h2
    subst h2
    exact flushed_chunk ih.1 i
  | @resume ops s post sum f hl hr hrb ih =>
    obtain ⟨hinv, hwf, hch⟩ := ih
    refine ⟨?_, hwf, hch⟩
    have hops : toOps (ops ++ [.flush none]) = toOps ops := by simp [toOps]
    obtain ⟨f', h1, h2, h3⟩ := rollback_spec (finv_from hinv post hr.wf) sum hr.wf hr.numbered hr.noted
    rw [hops, hrb] at h1
    simp only [Prod.mk.injEq, and_true] at h1
    subst h1
    refine ⟨hinv.base, h2, fun i => ?_⟩
    have hold := hinv.all i
    show FileOk _ _ _ _ (dictGet f.tables i) (dictGet s.chunk i)
    cases hh : headersOf (ops ++ [.flush none]) i with
    | none =>
      rw [hh] at hold
      refine ⟨?_, hold.2⟩
      rw [h3]
      by_cases hi : i ∈ added (toOps (ops ++ [.flush none]))
      · rw [if_pos hi]
        have : i ∉ opened (toOps post) := fun ho => headersOf_none.1 hh (hr.opened i hi ho)
        rw [headersOf_append, hh, headersOf_none.2 this]; rfl
      · rw [if_neg hi]
    | some hs =>
      rw [hh] at hold
      obtain ⟨t, t1, t2, t3⟩ := hold
      have hi : i ∈ added (toOps (ops ++ [.flush none])) := by
        apply opened_added hwf
        by_contra hn
        rw [headersOf_none.2 hn] at hh; cases hh
      refine ⟨⟨hs, rowsOf (evals (toOps (ops ++ [.flush none]))) i⟩, ?_, rfl, ?_⟩
      · rw [h3, if_pos hi, headersOf_append, hh]; rfl
      · rcases hch ops rfl i with hc | hc
        · right
          rcases t3 with ⟨c, hc', -⟩ | ⟨hrel, -, -⟩
          · rw [hc] at hc'; cases hc'
          · exact ⟨hrel, hc, rfl⟩
        · exact .inl ⟨[], hc, by simp⟩

/-- **C71 (seamless log).** However often an optimization is interrupted and resumed from a checkpoint: closing the log at any moment gives a
file with exactly the optimizers and the evaluations of the operations which were not undone, numbered consecutively from 1 without a
gap or a repetition, as if there had been one session. What is excluded (`Resumable`): the cases of C39, and evaluations that arrive
while the checkpoint is taken (`C71_checkpoint_in_flight_refuted`). -/
theorem C71_seamless_partial (traj : Bool) (ops : List FOp) (s : FileLogger) (sum : String) (h : Life traj ops s) :
    s.close.2 = none ∧
    (∀ i, i ∈ (closedFile sum s).groups ↔ i ∈ added (toOps ops)) ∧
    (∀ i, (closedFile sum s).rowsFor i = rowsOf (evals (toOps ops)) i) ∧
    (closedFile sum s).fCounter = some (evals (toOps ops)).length := by
  obtain ⟨hinv, hwf, -⟩ := life_inv h
  obtain ⟨h1, h2, h3⟩ := close_ok hinv.all
  have hc := closed_tables hinv
  refine ⟨h1, fun i => (hc i).2, fun i => ?_, by simp only [closedFile, finv_count hinv]⟩
  unfold LogFile.rowsFor
  simp only [closedFile]
  cases hh : headersOf ops i with
  | none =>
    rw [(h3 i hh).1]
    exact (h3 i hh).2.symm
  | some hs => rw [h2 i hs hh]

/-- Lives exist: the sample session up to the checkpoint, six more calls, and a resumption. -/
example : ∃ f, rollback "c" 3 2 (closedFile "c" (((init false).run samplePre).run samplePost)) = (f, none) ∧
    Life false samplePre (reopen ((init false).run samplePre) f) := by
  have hrun : ∀ ops, FWellFormed ops → Life false ops ((init false).run ops) := by
    intro ops
    induction ops using List.reverseRecOn with
    | nil => exact fun _ => .start
    | append_singleton l o ih =>
      intro h
      rw [run_snoc]
      exact .op o (ih h.init) h
  refine ⟨_, rfl, ?_⟩
  exact Life.resume (ops := [.add 1 "A", .addHist 1 [], ev 1 5, .add 2 "B", ev 1 4, .addHist 2 [], ev 2 7]) samplePost "c"
    (hrun _ (fwellFormed_of_fwfB (by decide +kernel)))
    ⟨fwellFormed_of_fwfB (by decide +kernel), by decide +kernel, .inl (by decide +kernel), by decide +kernel⟩ rfl

/-- **C71 (refuted part).** `checkpoint` saves the log before it takes the optimizers' last results and the manager after: evaluations that
arrive in between are counted by the manager and are in the file, but not in the saved log. Resuming keeps them in the file (they are
at most the manager's count) while the logger goes on counting from before them: the next evaluation repeats a number. -/
theorem C71_checkpoint_in_flight_refuted : ∃ (before inFlight : List FOp) (f : LogFile),
    FWellFormed (before ++ inFlight ++ [ev 1 1]) ∧ Numbered (before ++ inFlight ++ [ev 1 1]) ∧
    rollback "c" (evals (toOps (before ++ inFlight))).length 1
      (closedFile "c" ((init false).run (before ++ inFlight ++ [ev 1 1]))) = (f, none) ∧
    ((closedFile "d" (((reopen ((init false).run before) f).step (ev 1 9)).1)).rowsFor 1).map (·.callId) = [1, 2, 2] :=
  ⟨[.add 1 "A", .addHist 1 [], ev 1 5, .flush none], [ev 1 4], _, fwellFormed_of_fwfB (by decide +kernel), by decide +kernel, rfl,
    by decide +kernel⟩

/-- **C04 (number of evaluations).** Without resumptions, the number of evaluations which a file log reports for an optimizer that has not been
released is that of the evaluations logged for it, 0 for unknown ones: as in memory (`C02_history_exact`). -/
theorem C04_length (traj : Bool) (ops : List FOp) (hwf : FWellFormed ops) (i : Nat) (hr : ¬ Released ops i) :
    lenOf ((init traj).run ops) i = (evalsOf (evals (toOps ops)) i).length := by
  have inv := finv_run traj ops hwf
  generalize (init traj).run ops = s at inv
  obtain ⟨bops, h1, h2, h3, h4, h5, h6⟩ := inv.base
  have hh := Logger.histInv_run traj bops i h1 (Or.inr fun hc => hr (h6 i hc))
  rw [← h2] at hh
  have hfile := inv.all i
  cases ho : headersOf ops i with
  | none =>
    rw [ho] at hfile
    have hev : evalsOf (evals (toOps ops)) i = [] := (rowsOf_nil_iff _ _).mp hfile.2.1
    simp [lenOf, hfile.1, hev]
  | some hd =>
    rw [ho] at hfile
    obtain ⟨t, t1, -⟩ := hfile
    have hop : i ∈ opened (toOps ops) := by
      by_cases hq : i ∈ opened (toOps ops)
      · exact hq
      · rw [headersOf_none.mpr hq] at ho; cases ho
    have had : i ∈ added (toOps ops) := by
      obtain ⟨hs', hm⟩ := mem_opened.mp hop
      obtain ⟨pre, post, e⟩ := List.append_of_mem hm
      have := hwf.1 pre _ post e
      simp only [OpOk] at this
      rw [e, added_append]; exact List.mem_append_left _ this.1
    obtain ⟨st, g1, rest, g2⟩ := hh.filled (by rw [h4]; exact had) (by rw [h5]; exact hop)
    rw [h3] at g2
    simp [lenOf, t1, g1, g2, dictGet]

example : lenOf ((init false).run [.add 1 "A", .addHist 1 [], ev 1 5, .flush none, ev 1 4]) 1 = 2 ∧
    lenOf ((init false).run [.add 1 "A", .addHist 1 [], ev 1 5, .flush none, ev 1 4]) 7 = 0 ∧
    FWellFormed [.add 1 "A", .addHist 1 [], ev 1 5, .flush none, ev 1 4] :=
  ⟨by decide +kernel, by decide +kernel, fwellFormed_of_fwfB (by decide)⟩

/-- **C71 (refuted part).** An optimizer registered before the checkpoint with its first evaluation after it: after the resumption its
emptied table is found and no columns in memory are made. The number of evaluations the log reports for it (what hunters see) is that
of the rows on disk: 0 after two evaluations. Without the interruption it is 2. -/
theorem C71_length_refuted : ∃ (pre post : List FOp) (f : LogFile) (s : FileLogger), FWellFormed (pre ++ post) ∧ Numbered (pre ++ post) ∧
    rollback "c" (evals (toOps pre)).length (added (toOps pre)).length (closedFile "c" ((init false).run (pre ++ post))) = (f, none) ∧
    s = (record (record (reopen ((init false).run pre) f) ⟨2, [3], .fin 3, []⟩ 8).1 ⟨2, [4], .fin 4, []⟩ 8).1 ∧
    lenOf s 2 = 0 ∧
    lenOf (record (record ((init false).run pre) ⟨2, [3], .fin 3, []⟩ 8).1 ⟨2, [4], .fin 4, []⟩ 8).1 2 = 2 ∧
    ((closedFile "d" s).rowsFor 2).length = 2 :=
  ⟨[.add 1 "A", .addHist 1 [], ev 1 5, .add 2 "B", .flush none], [.addHist 2 [], ev 2 1], _, _,
    fwellFormed_of_fwfB (by decide +kernel), by decide +kernel, rfl, rfl, by decide +kernel, by decide +kernel, by decide +kernel⟩

end Glompo.Props
