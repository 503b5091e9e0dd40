import Verif.Lemmas.ManagerFeed
import Verif.Props.Manager

/-! # C96: evaluations on their way to the manager -/

namespace Glompo.Props

open Glompo.Spec Glompo.Manager Glompo.Props.Runs

/-- The evaluations among messages. -/
def evaluations (l : List Msg) : List IterRes := l.filterMap fun m => match m with | .res r => some r | .fin _ => none

/-- Optimizer 1 is started, the selector answers `False`; optimizer 1 has evaluated eleven points and ended when the manager
looks for the first time. The last point is the best. -/
def eleven : Env := [b false, u, u, sel 1, u, u, u, no, u, sg (some (.done "x"))] ++
  (List.range 10).map (fun k => ch [r 1 (20 - k)]) ++ [files, b false, d 1, b false, u, u, b false, u, u]

/-- The chunks put on the queue: eleven evaluations. -/
def elevenPut : List (List Msg) := (List.range 10).map (fun k => [r 1 (20 - k)]) ++ [[r 1 3]]

theorem queue_others {q : List (List Msg)} {e : Env} {puts left : List (List Msg)} (h : QueueShows q e puts left) :
    ∀ l : Env, (l.all fun o => match o.ans with | .chunk _ => false | _ => true) = true → QueueShows q (l ++ e) puts left
  | [], _ => h
  | o :: t, hl => by
    simp only [List.all_cons, Bool.and_eq_true] at hl
    refine .other o (fun c hc => ?_) (queue_others h t hl.2)
    rw [hc] at hl
    simp at hl

theorem queue_gets {q : List (List Msg)} {e : Env} {puts left : List (List Msg)} (h : QueueShows q e puts left) :
    ∀ l : List (List Msg), QueueShows (l ++ q) (l.map ch ++ e) puts left
  | [] => h
  | c :: t => .get [] c (queue_gets h t)

theorem queue_puts {q : List (List Msg)} {e : Env} {left : List (List Msg)} : ∀ l : List (List Msg),
    QueueShows (q ++ l) e [] left → QueueShows q e l left
  | [], h => by simpa using h
  | c :: t, h => .put c (queue_puts t (by simpa using h))

theorem eleven_queue : QueueShows [] eleven elevenPut [[r 1 3]] := by
  refine queue_puts _ ?_
  have h : eleven = [b false, u, u, sel 1, u, u, u, no, u, sg (some (.done "x"))] ++
      (((List.range 10).map fun k : Nat => [r 1 (20 - k)]).map ch ++ ([files, b false, d 1, b false, u, u, b false, u, u] ++ [])) := by
    simp [eleven]
    rfl
  rw [h]
  show QueueShows (((List.range 10).map fun k : Nat => [r 1 (20 - k)]) ++ [[r 1 3]]) _ _ _
  refine queue_others (queue_gets (queue_others (.done _) _ ?_) _) _ ?_ <;> decide +kernel

/-- **C96, refuted.** The only optimizer evaluates eleven points and ends. The run ends regularly because nothing is left to
be done, with the convergence criterion never met; the last evaluation, the best one, is still in the queue and lost. -/
theorem C96_no_evaluation_left_refuted :
    QueueShows [] eleven elevenPut [[r 1 3]] ∧ (startManager cfg2 20 (init cfg2) eleven).2.2 = [] ∧
    ended cfg2 (init cfg2) 20 eleven = some .regular ∧ finishedOf (happened cfg2 (init cfg2) 20 eleven) = [1] ∧
    killedOf (happened cfg2 (init cfg2) 20 eleven) = [] ∧ Ev.checked true ∉ happened cfg2 (init cfg2) 20 eleven ∧
    (moment cfg2 (init cfg2) 20 eleven).result.fx = some (.fin 11) :=
  ⟨eleven_queue, by decide +kernel, by decide +kernel, by decide +kernel, by decide +kernel, by decide +kernel, by decide +kernel⟩

theorem queue_all {q : List (List Msg)} {e : Env} {puts left : List (List Msg)} (h : QueueShows q e puts left) :
    (q ++ puts).flatten = handed e ++ left.flatten := by
  induction h with
  | done q => simp [handed]
  | put c _ ih => simpa using ih
  | get d c _ ih => simpa [handed] using ih
  | empty d _ ih => simpa [handed] using ih
  | other o ho _ ih =>
    rw [ih]
    congr 1
    unfold handed
    rw [List.filterMap_cons]
    cases ha : o.ans with
    | chunk c => exact absurd ha (ho c)
    | _ => rfl

/-- One step of `dueAux`. -/
def dueStep (p : List Nat × List IterRes) (x : Ev) : List Nat × List IterRes := match x with
  | .killed i _ => (p.1 ++ [i], p.2)
  | .received (.res r) => if r.optId ∈ p.1 then p else (p.1, p.2 ++ [r])
  | _ => p

theorem dueAux_eq (ev : List Ev) : dueAux ev = ev.foldl dueStep ([], []) := rfl

/-- The evaluations due: nobody shut down. -/
theorem due_of_none (ev : List Ev) (h : killedOf ev = []) : dueOf ev = evaluations (receivedOf ev) := by
  have key : ∀ (l : List Ev) (p : List Nat × List IterRes), p.1 = [] → killedOf l = [] →
      (l.foldl dueStep p).2 = p.2 ++ evaluations (receivedOf l) := by
    intro l
    induction l with
    | nil => intro p _ _; simp [evaluations, receivedOf]
    | cons x t ih =>
      intro p hp hk
      rw [List.foldl_cons]
      cases x with
      | killed i w => simp [killedOf] at hk
      | received m =>
        have hk : killedOf t = [] := by simpa [killedOf] using hk
        cases m with
        | res r =>
          simp only [dueStep, hp, List.not_mem_nil, if_false]
          rw [ih _ rfl hk]
          simp [evaluations, receivedOf]
        | fin i =>
          simp only [dueStep]
          rw [ih p hp hk]
          simp [evaluations, receivedOf]
      | _ =>
        have hk : killedOf t = [] := by simpa [killedOf] using hk
        simp only [dueStep]
        rw [ih p hp hk]
        simp [evaluations, receivedOf]
  exact (key ev ([], []) rfl h).trans (List.nil_append _)

theorem steps_ev {cfg : Cfg} {A : Lab → Prop} {s t : State} (h : Steps cfg A s t) : ∃ l, t.ev = s.ev ++ l := by
  induction h with
  | refl => exact ⟨[], by simp⟩
  | @tail t u _ _ st _ ih =>
    obtain ⟨l, hl⟩ := ih
    have one : ∃ l', u.ev = t.ev ++ l' := by
      cases st <;> first | exact ⟨[], (List.append_nil _).symm⟩ | exact ⟨[_], rfl⟩
    obtain ⟨l', h'⟩ := one
    exact ⟨l ++ l', by rw [h', hl, List.append_assoc]⟩

variable {cfg : Cfg} {s : State} (hs : Startable cfg s) (fuel : Nat) (e : Env)

include hs in
/-- **C96, partial.** What is put on the results queue is processed by the manager in the order in which it was put, nothing
twice, and nothing is left out but the end: what is still in the queue, and, if the run was cut short or is going on,
possibly the rest of the chunk in hand. Missing: that at the end of a run in which all optimizers ended the queue is empty. -/
theorem C96_in_order_partial {q puts left : List (List Msg)} (hq : QueueShows q e puts left)
    (hall : (startManager cfg fuel s e).2.2 = []) :
    ∃ new rest, receivedOf (happened cfg s fuel e) = receivedOf s.ev ++ new ∧
      (q ++ puts).flatten = new ++ rest ++ left.flatten ∧ (ended cfg s fuel e = some .regular → rest = []) := by
  obtain ⟨u, rest, h1, h2, h3⟩ := feeds_startManager cfg fuel s e
  rw [hall, List.append_nil] at h1
  subst h1
  obtain ⟨l, hl⟩ := steps_ev (startManager_spec fuel hs.spec.1 e).1
  have hn : receivedOf s.ev ++ receivedOf l = receivedOf (startManager cfg fuel s e).2.1.ev := by
    rw [hl]; simp [receivedOf]
  generalize receivedOf l = new at hn
  refine ⟨new, rest, hn.symm, ?_, fun h => h3 (.inl h)⟩
  rw [queue_all hq]
  congr 1
  have : receivedOf s.ev ++ (new ++ rest) = receivedOf s.ev ++ handed e := by
    rw [← List.append_assoc, hn]; exact h2
  exact (List.append_cancel_left this).symm

include hs in
/-- **C96, partial.** If nobody was ever shut down, the evaluations accepted in a run which ended regularly are exactly the
evaluations put on the queue, in their order, but those left in it. Missing: that none are left. -/
theorem C96_accepted_partial {q puts left : List (List Msg)} (hq : QueueShows q e puts left)
    (hall : (startManager cfg fuel s e).2.2 = []) (hreg : ended cfg s fuel e = some .regular)
    (hk : killedOf (happened cfg s fuel e) = []) :
    acceptedOf (happened cfg s fuel e) ++ evaluations left.flatten =
      evaluations (receivedOf s.ev) ++ evaluations (q ++ puts).flatten := by
  obtain ⟨new, rest, h1, h2, h3⟩ := C96_in_order_partial hs fuel e hq hall
  obtain ⟨-, -, -, c4, -, c6, -⟩ := C23_evaluation_count hs fuel e
  rw [c4 (c6 hreg), due_of_none _ hk, h1, h2, h3 hreg]
  simp [evaluations]

/-- The run above, and one in which the optimizer makes ten evaluations. -/
example : QueueShows [] eleven elevenPut [[r 1 3]] ∧ (acceptedOf (happened cfg2 (init cfg2) 20 eleven)).length = 10 :=
  ⟨eleven_queue, by decide +kernel⟩

end Glompo.Props
